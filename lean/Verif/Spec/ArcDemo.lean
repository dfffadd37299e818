import Mathlib.Data.Real.Basic

/-!
# Curve, circle and tangent

The equilibrium curve of the demonstration is the parabola `l = x - x²`; an arc-length step looks for a point of it on a circle.
-/

namespace JaxFem.ArcDemo

/-- Load factor of the curve. -/
def curve (x : ℝ) : ℝ := x - x ^ 2

/-- Points at distance `r` from `c`. -/
def OnCircle (c : ℝ × ℝ) (r : ℝ) (p : ℝ × ℝ) : Prop := (p.1 - c.1) ^ 2 + (p.2 - c.2) ^ 2 = r ^ 2

/-- Points of the tangent of the curve at `x`. -/
def OnTangent (x : ℝ) (p : ℝ × ℝ) : Prop := p.2 = curve x + (1 - 2 * x) * (p.1 - x)

/-- The higher one of the points where the tangent at `x` meets the circle. -/
def HigherMeeting (c : ℝ × ℝ) (r x : ℝ) (p : ℝ × ℝ) : Prop :=
  OnTangent x p ∧ OnCircle c r p ∧ ∀ p', OnTangent x p' → OnCircle c r p' → p'.2 ≤ p.2

/-- The curve meets the circle at `t`, up and to the right of the centre, before the limit point of the curve; the centre may lie off the
curve, but not higher above it than the meeting point lies above the centre. -/
structure Target (c : ℝ × ℝ) (r t : ℝ) : Prop where
  right : c.1 < t
  limit : t < 1 / 2
  meets : OnCircle c r (t, curve t)
  above : c.2 ≤ curve t
  near : c.2 - curve c.1 ≤ curve t - c.2

/-- Mirror image in the axis of the parabola. -/
def mirror (p : ℝ × ℝ) : ℝ × ℝ := (1 - p.1, p.2)

end JaxFem.ArcDemo
