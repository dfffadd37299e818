import Verif.Spec.Elastic

/-!
Independent notions for phase-field fracture: the split of a strain into a tensile and a compressive part, the energies.
-/

namespace JaxFem

variable {IV : Type} {nq nfq nn vec dim n : Nat}

/-- `A` and `B` are the tensile and the compressive part of (the symmetric part of) `x`: a sum of a positive and a
negative semidefinite matrix that are orthogonal to each other. No eigenvectors are mentioned. -/
structure TensileSplit (x A B : Fin n → Fin n → ℝ) : Prop where
  sum : ∀ i j, A i j + B i j = (x i j + x j i) / 2
  pos : ∀ v : Fin n → ℝ, 0 ≤ ∑ i, ∑ j, v i * A i j * v j
  neg : ∀ v : Fin n → ℝ, ∑ i, ∑ j, v i * B i j * v j ≤ 0
  orth : contract A B = 0

/-- Sum of the squares of the entries. -/
def normSq (A : Fin vec → Fin dim → ℝ) : ℝ := contract A A

/-- Trace. -/
def tr (x : Fin n → Fin n → ℝ) : ℝ := ∑ i, x i i

/-- Integral over the mesh of a density that depends on internal variables, values and gradients. -/
noncomputable def Problem1.integral (P : Problem1 IV nq nfq nn vec dim)
    (e : IV → (Fin vec → ℝ) → (Fin vec → Fin dim → ℝ) → ℝ) (u : Nat → Fin vec → ℝ) : ℝ :=
  (P.cells.map fun cell => cellIntegral P.el P.points cell.nodes fun q =>
    e (cell.iv q) (interp (P.el.shapeVals q) (restrict nn u cell.nodes)) (P.gradient u cell.nodes q)).sum

/-- Energy density of a phase field `d` under the driving force `H`: crack surface energy and degraded elastic energy. -/
noncomputable def crackDensity (Gc l : ℝ) (H : ℝ) (d : Fin 1 → ℝ) (g : Fin 1 → Fin dim → ℝ) : ℝ :=
  Gc / 2 * (d 0 ^ 2 / l + l * normSq g) + (1 - d 0) ^ 2 * H

/-- Sum of the squares of the entries of an array. -/
def arrSq (a : List (List ℝ)) : ℝ := (a.flatten.map fun x => x ^ 2).sum

/-- Sum of the squares of the differences of the entries of two arrays. -/
def diffSq (a b : List (List ℝ)) : ℝ := ((a.zip b).map fun r => ((r.1.zip r.2).map fun x => (x.1 - x.2) ^ 2).sum).sum

/-- The array `a` differs from `b` by at most `tol` times its own norm. -/
def Settled (tol : ℝ) (a b : List (List ℝ)) : Prop := Real.sqrt (diffSq a b) ≤ tol * Real.sqrt (arrSq a)

/-- Strain at quadrature point `q` of a cell. -/
noncomputable def strainAt (el : RefElement ℝ nq nn dim) (points : List (Fin dim → ℝ)) (u : Nat → Fin dim → ℝ)
    (cell : List Nat) (q : Fin nq) : Fin dim → Fin dim → ℝ :=
  symPart (physGrad (coords nn points cell) (Matrix.of (el.shapeGradsRef q)) (restrict nn u cell))

end JaxFem
