import Verif.Spec.Conforming

/-!
Independent description of sides of a mesh on which a constant flux does not act: a side that another cell covers in the opposite
orientation, or a flat side whose normal is orthogonal to the flux.
-/

namespace JaxFem.Patch

/-- The directed side is traversed as often in one direction as in the other (plane meshes). -/
def EdgeMatched (conn : List (List Nat)) (f : List Nat) : Prop :=
  ∀ a b, f = [a, b] → (conn.flatMap polyEdges).countP (fun e => decide (e = (a, b)))
    = (conn.flatMap polyEdges).countP fun e => decide (e = (b, a))

/-- The face occurs as often as the same face seen from the other side. -/
def FaceMatched (faces : List Nat → List (List Nat)) (conn : List (List Nat)) (f : List Nat) : Prop :=
  (conn.flatMap faces).countP (fun g => decide (g ~r f)) = (conn.flatMap faces).countP fun g => decide (g ~r f.reverse)

/-- The first-order elements of `FirstOrder` with the meaning of a matched side, which has `k` corners. -/
inductive WithSides {nq : Nat} : {nn dim : Nat} → RefElement ℝ nq nn dim → Nat → (List (List Nat) → List Nat → Prop) → Prop
  | tri3 (p : Fin nq → Fin 2 → ℝ) (w : Fin nq → ℝ) : WithSides (tabulate tri3N tri3G p w) 2 EdgeMatched
  | quad4 (p : Fin nq → Fin 2 → ℝ) (w : Fin nq → ℝ) (h : ∑ q, w q = 1) (h0 : ∑ q, w q * p q 0 = 1 / 2)
      (h1 : ∑ q, w q * p q 1 = 1 / 2) : WithSides (tabulate quad4N quad4G p w) 2 EdgeMatched
  | tet4 (p : Fin nq → Fin 3 → ℝ) (w : Fin nq → ℝ) : WithSides (tabulate tet4N tet4G p w) 3 (FaceMatched tetFaces)
  | hex8 (p : Fin nq → Fin 3 → ℝ) (w : Fin nq → ℝ)
      (h : ∀ i j k : Fin 3, ∑ q, w q * (p q 0 ^ (i : Nat) * p q 1 ^ (j : Nat) * p q 2 ^ (k : Nat))
        = 1 / (((i : Nat) + 1) * ((j : Nat) + 1) * ((k : Nat) + 1))) :
      WithSides (tabulate hex8N hex8G p w) 4 (FaceMatched hexFaces)

/-- The side with corners `f` lies in a plane (a line) along which the vector `s` points. -/
def Tangent {dim : Nat} (points : List (Fin dim → ℝ)) (s : Fin dim → ℝ) (f : List Nat) : Prop :=
  ∃ ν : Fin dim → ℝ, ν ≠ 0 ∧ ∑ j, s j * ν j = 0 ∧ ∃ d, ∀ n ∈ f, ∑ j, ν j * (points.getD n 0) j = d

/-- No side at node `n` lets the constant flux `s` through: `s` is zero, or each side with corner `n` is matched or tangent. -/
def NoFlux {dim : Nat} (k : Nat) (matched : List (List Nat) → List Nat → Prop) (conn : List (List Nat))
    (points : List (Fin dim → ℝ)) (s : Fin dim → ℝ) (n : Nat) : Prop :=
  s = 0 ∨ ∀ f : List Nat, f.length = k → n ∈ f → matched conn f ∨ Tangent points s f

end JaxFem.Patch
