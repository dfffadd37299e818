import Mathlib.Analysis.Calculus.ContDiff.Basic
import Mathlib.Analysis.Calculus.IteratedDeriv.Defs
import Verif.Thm.C73_WellPosed

/-!
Poisson problems on the rectangle mesh and the grid functions of their nodal values
(docs/source/guide/Quickstart.md, docs/source/learn/poisson/example.ipynb,
tests/benchmarks/linear_poisson).
-/

namespace JaxFem

variable {IV : Type} {nq nfq : Nat}

/-- The class `Poisson` of the example: `get_tensor_map` returns the identity, `get_mass_map` returns
`-f(x)`; no surface maps. -/
structure IsPoisson (P : Problem1 IV nq nfq 4 1 2) (f : (Fin 2 → ℝ) → ℝ) : Prop where
  tensor : P.tensorMap = fun _ G => G
  mass : P.massMap = some fun _ _ x _ => -f x
  surfaces : P.surfaces = []

/-- A quadrature rule on the unit square with points in the square and nonnegative weights that
integrates `1`, `x`, `y`, `x²` and `y²` exactly (the Gauss rule of degree two does). -/
structure SquareRule (p : Fin nq → Fin 2 → ℝ) (w : Fin nq → ℝ) : Prop where
  weight : ∀ q, 0 ≤ w q
  inside : ∀ q k, 0 ≤ p q k ∧ p q k ≤ 1
  one : ∑ q, w q = 1
  lin : ∀ k, ∑ q, w q * p q k = 1 / 2
  sq : ∀ k, ∑ q, w q * p q k ^ 2 = 1 / 3

/-- Second difference of a grid function in direction `(a, b)` at `(i, j)`. -/
def secondDiff (U : ℤ → ℤ → ℝ) (a b i j : ℤ) : ℝ := U (i + a) (j + b) + U (i - a) (j - b) - 2 * U i j

/-- The nodal values of a field on the rectangle mesh as a grid function: node `(i, j)` of
`rectangle_mesh` has the number `i (Ny + 1) + j`. -/
def gridOf (Ny : Nat) (v : Nat → Fin 1 → ℝ) : ℤ → ℤ → ℝ := fun i j => v (i.toNat * (Ny + 1) + j.toNat) 0

/-- Second derivative of `u` at `x` in direction `d`. -/
noncomputable def dirSecond (u : (Fin 2 → ℝ) → ℝ) (x d : Fin 2 → ℝ) : ℝ :=
  iteratedDeriv 2 (fun t : ℝ => u (x + t • d)) 0

/-- The Laplace operator. -/
noncomputable def laplacian (u : (Fin 2 → ℝ) → ℝ) (x : Fin 2 → ℝ) : ℝ :=
  dirSecond u x ![1, 0] + dirSecond u x ![0, 1]

/-- The closed rectangle. -/
def closedRect (Lx Ly : ℝ) (x : Fin 2 → ℝ) : Prop := (0 ≤ x 0 ∧ x 0 ≤ Lx) ∧ 0 ≤ x 1 ∧ x 1 ≤ Ly

end JaxFem
