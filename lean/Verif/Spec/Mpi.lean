import Verif.Model.Mpi
import Verif.Spec.Parallel
import Mathlib.Logic.Relation

/-!
# Specification: distributed meshes, the discrete nonlinear Poisson problem and its Newton iteration
-/

namespace JaxFem
namespace Mpi

open Parallel (triArea signedArea2 NearSide)

/-- `tri` lists the vertices of `tri'` starting with another one, in the same direction. -/
def SameOriented (tri tri' : Fin 3 → Nat) : Prop := ∃ k : Fin 3, ∀ a, tri a = tri' (a + k)

/-- What a correct distribution of the mesh with `N` vertices provides. `num` is the global numbering, `glob p v` the serial vertex behind
the point `v` of a rank. An offset is the global number for owned vertices and `-(number + 1)` for ghosts. Every triangle is on exactly
one rank, its vertices listed in the same direction; every vertex is owned by one rank, which holds it. -/
structure IsPartition (coords : Nat → Fin 2 → ℝ) (N : Nat) (cells : List (Fin 3 → Nat)) (num : Nat → Nat)
    (glob : Part → Nat → Nat) (parts : List Part) : Prop where
  cells_lt : ∀ c ∈ cells, ∀ a, c a < N
  positive : ∀ c ∈ cells, 0 < signedArea2 fun a => coords (c a)
  num_lt : ∀ v < N, num v < N
  num_inj : ∀ v < N, ∀ w < N, num v = num w → v = w
  rows : ∀ p ∈ parts, p.rend ≤ N
  verts : ∀ p ∈ parts, ∀ v, p.vStart ≤ v → v < p.vEnd → glob p v < N ∧ p.coord v = coords (glob p v) ∧
    p.off v = if p.rstart ≤ num (glob p v) ∧ num (glob p v) < p.rend then (num (glob p v) : Int) else -((num (glob p v) : Int) + 1)
  inj : ∀ p ∈ parts, ∀ v, p.vStart ≤ v → v < p.vEnd → ∀ w, p.vStart ≤ w → w < p.vEnd → glob p v = glob p w → v = w
  triangles : ∀ p ∈ parts, ∀ cell ∈ p.cells, cell.length = 3 ∧ ∀ v ∈ cell, p.vStart ≤ v ∧ v < p.vEnd
  cover : ∃ M : List (Fin 3 → Nat), M.Perm cells ∧ List.Forall₂ SameOriented
    (parts.flatMap fun p => p.cells.map fun cell a => glob p (cell.getD a.val 0)) M
  owner : ∀ v < N, ∃ p ∈ parts, p.rstart ≤ num v ∧ num v < p.rend ∧ ∃ l, p.vStart ≤ l ∧ l < p.vEnd ∧ glob p l = v
  disjoint : parts.Pairwise fun p q => p.rend ≤ q.rstart ∨ q.rend ≤ p.rstart

/-- Value of the piecewise linear function with the vertex values `u` at the centroid. -/
noncomputable def atCentroid (u : Nat → ℝ) (c : Fin 3 → Nat) : ℝ := (∑ a, u (c a)) / 3

/-- Its gradient in the triangle `c` with the shape function gradients `g`. -/
noncomputable def gradIn (g : Fin 3 → Fin 2 → ℝ) (u : Nat → ℝ) (c : Fin 3 → Nat) (d : Fin 2) : ℝ := ∑ a, u (c a) * g a d

/-- The residual of `∫ ∇u·∇φ + u³ φ - f φ` for the hat function `φ` of the vertex `v`, one point quadrature. -/
noncomputable def serialResidual (coords : Nat → Fin 2 → ℝ) (cells : List (Fin 3 → Nat))
    (g : (Fin 3 → Nat) → Fin 3 → Fin 2 → ℝ) (f : ℝ → ℝ → ℝ) (u : Nat → ℝ) (v : Nat) : ℝ :=
  (cells.map fun c => ∑ a, if c a = v then triArea (fun a => coords (c a)) *
    (∑ d, gradIn (g c) u c d * g c a d +
      (atCentroid u c ^ 3 - f (atCentroid (fun w => coords w 0) c) (atCentroid (fun w => coords w 1) c)) * (1 / 3)) else 0).sum

/-- Its derivative with respect to the value at the vertex `w`: `∫ ∇φ_w·∇φ_v + 3 u² φ_w φ_v`. -/
noncomputable def serialTangent (coords : Nat → Fin 2 → ℝ) (cells : List (Fin 3 → Nat))
    (g : (Fin 3 → Nat) → Fin 3 → Fin 2 → ℝ) (u : Nat → ℝ) (v w : Nat) : ℝ :=
  (cells.map fun c => ∑ a, ∑ b, if c a = v ∧ c b = w then triArea (fun a => coords (c a)) *
    (∑ d, g c b d * g c a d + 3 * atCentroid u c ^ 2 * (1 / 3) * (1 / 3)) else 0).sum

/-- The vertex is at a side of the unit square for the main program. -/
def AtSide (coords : Nat → Fin 2 → ℝ) (v : Nat) : Prop := NearSide (1 / 10 ^ 9 : ℝ) (coords v)

/-- No vertex is a Dirichlet node of a rank's problem without being at a side for the main program. -/
def TolerancesAgree (coords : Nat → Fin 2 → ℝ) (N : Nat) : Prop :=
  ∀ v < N, ∀ d, isclose (1 / 10 ^ 9) (coords v d) 0 ∨ isclose (1 / 10 ^ 9) (coords v d) 1 → AtSide coords v

/-- A Newton iteration for the serial problem with `u = 0` at the sides, in terms of vertex values. -/
structure IsNewton (coords : Nat → Fin 2 → ℝ) (N : Nat) (cells : List (Fin 3 → Nat))
    (g : (Fin 3 → Nat) → Fin 3 → Fin 2 → ℝ) (f : ℝ → ℝ → ℝ) (u : Nat → Nat → ℝ) (K : Nat) : Prop where
  start : ∀ v < N, u 0 v = 0
  sides : ∀ k ≤ K, ∀ v < N, AtSide coords v → u k v = 0
  step : ∀ k < K, ∀ v < N, ¬AtSide coords v →
    ∑ w ∈ Finset.range N, serialTangent coords cells g (u k) v w * (u (k + 1) w - u k w) = -serialResidual coords cells g f (u k) v

open Classical in
/-- Euclidean norm of the residual at the vertices not at the sides. -/
noncomputable def residualNorm (coords : Nat → Fin 2 → ℝ) (N : Nat) (cells : List (Fin 3 → Nat))
    (g : (Fin 3 → Nat) → Fin 3 → Fin 2 → ℝ) (f : ℝ → ℝ → ℝ) (u : Nat → ℝ) : ℝ :=
  Real.sqrt (∑ v ∈ Finset.range N, if AtSide coords v then 0 else serialResidual coords cells g f u v ^ 2)

/-- The vertices are linked by a triangle. -/
def Linked (cells : List (Fin 3 → Nat)) (v w : Nat) : Prop := ∃ c ∈ cells, (∃ a, c a = v) ∧ ∃ b, c b = w

/-- Every vertex is connected with a side by triangles. -/
def ReachesSide (coords : Nat → Fin 2 → ℝ) (N : Nat) (cells : List (Fin 3 → Nat)) : Prop :=
  ∀ v < N, ∃ w, w < N ∧ AtSide coords w ∧ Relation.ReflTransGen (Linked cells) v w

end Mpi
end JaxFem
