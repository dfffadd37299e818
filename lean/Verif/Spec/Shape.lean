import Mathlib.Analysis.SpecialFunctions.Trigonometric.Basic
import Mathlib.Analysis.SpecialFunctions.Exp
import Mathlib.Data.Fin.VecNotation

/-!
Independent notions for patterns of square holes.
-/

namespace JaxFem.Shape

/-- Distance to the centre `c` in the sum norm of the frame turned by the angle `β`. -/
noncomputable def turnedNorm (β : ℝ) (c x : Fin 2 → ℝ) : ℝ :=
  |Real.cos β * (x 0 - c 0) + Real.sin β * (x 1 - c 1)| + |Real.cos β * (x 1 - c 1) - Real.sin β * (x 0 - c 0)|

/-- The open square with half diagonal `a` around `c`, turned by `β`: its corners are `c ± a (cos β, sin β)` and
`c ± a (-sin β, cos β)`. -/
def SquareHole (β a : ℝ) (c : Fin 2 → ℝ) : Set (Fin 2 → ℝ) := {x | turnedNorm β c x < a}

/-- The smoothed indicator function of the outside of a square hole. -/
noncomputable def smoothHole (β a : ℝ) (c x : Fin 2 → ℝ) : ℝ := 1 / (1 + Real.exp (-(200 * (turnedNorm β c x - a))))

/-- The half-open square cell `(i, j)` of size `L`. -/
def InCell (L : ℝ) (i j : Nat) (x : Fin 2 → ℝ) : Prop :=
  (i * L ≤ x 0 ∧ x 0 < (i + 1) * L) ∧ j * L ≤ x 1 ∧ x 1 < (j + 1) * L

/-- Middle of the cell `(i, j)`. -/
noncomputable def midCell (L : ℝ) (i j : Nat) : Fin 2 → ℝ := ![(i + 1 / 2) * L, (j + 1 / 2) * L]

/-- The point lies on one of the two diagonals of the turned square, but not in its centre: there the density has a kink as
a function of the angle. -/
def OnDiagonal (β : ℝ) (c x : Fin 2 → ℝ) : Prop :=
  x ≠ c ∧ (Real.cos β * (x 0 - c 0) + Real.sin β * (x 1 - c 1) = 0 ∨
    Real.cos β * (x 1 - c 1) - Real.sin β * (x 0 - c 0) = 0)

end JaxFem.Shape
