import Mathlib.Data.Real.Basic
import Mathlib.Data.Fin.VecNotation
import Mathlib.Analysis.SpecialFunctions.Trigonometric.Basic
import Mathlib.Analysis.Calculus.Deriv.Basic

/-!
# C120: what the finite-difference check of the differentiable mesh needs
-/

namespace JaxFem.MeshCheck

/-- A point near the edge `y = 0` away from its end points. -/
def InsideEdge (p : Fin 2 → ℝ) : Prop := |p 1| ≤ 1 / 1000 ∧ 1 / 10000 < p 0 ∧ p 0 < 9999 / 10000

/-- Squared distance from `(0.35, 0)`. -/
noncomputable def distSq (p : Fin 2 → ℝ) : ℝ := (p 0 - 7 / 20) ^ 2 + p 1 ^ 2

/-- Node `n` is the first of the points inside the edge that are nearest to `(0.35, 0)`. -/
def IsNearest (points : List (Fin 2 → ℝ)) (n : Nat) : Prop :=
  ∃ p, points[n]? = some p ∧ InsideEdge p ∧ (∀ q ∈ points, InsideEdge q → distSq p ≤ distSq q) ∧
    ∀ m < n, ∀ q, points[m]? = some q → InsideEdge q → distSq p < distSq q

/-- The same points except for the ordinate of one node, which is replaced by `y`. -/
def Moved {N : Nat} (x x' : Fin N → Fin 2 → ℝ) (node : Nat) (y : ℝ) : Prop :=
  ∀ n, x' n 0 = x n 0 ∧ (n.1 ≠ node → x' n 1 = x n 1) ∧ (n.1 = node → x' n 1 = y)

/-- The intended solution `sin(π x) (1 + y)` (`example.py:64-65`). -/
noncomputable def exactSol (p : Fin 2 → ℝ) : ℝ := Real.sin (Real.pi * p 0) * (1 + p 1)

/-- Partial derivative. -/
noncomputable def pderiv (F : (Fin 2 → ℝ) → ℝ) (j : Fin 2) (p : Fin 2 → ℝ) : ℝ := deriv (fun s => F (Function.update p j s)) (p j)

/-- Within the tolerances of the left or right edge. -/
def OnSide (p : Fin 2 → ℝ) : Prop := |p 0| ≤ 1 / 100000 ∨ |p 0 - 1| ≤ 2 / 100000

/-- Within the tolerance of the top edge. -/
def OnTop (p : Fin 2 → ℝ) : Prop := |p 1 - 1| ≤ 2 / 100000

end JaxFem.MeshCheck
