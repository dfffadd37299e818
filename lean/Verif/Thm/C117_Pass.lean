import Verif.Model.ArcDemo
import Verif.Spec.ArcDemo
import Mathlib.Tactic.Linarith
import Mathlib.Tactic.FieldSimp
import Mathlib.Tactic.Ring
import Mathlib.Tactic.Positivity

/-!
# C117: one pass of the arc-length demonstration
-/

namespace JaxFem.ArcDemo

/-! ### Helper lemmas -/

/-- Roots of `a1 y² + a2 y + a3`. -/
theorem root_iff (a1 a2 a3 y : ℝ) (h1 : 0 < a1) :
    a1 * y ^ 2 + a2 * y + a3 = 0 ↔ (2 * a1 * y + a2) ^ 2 = a2 ^ 2 - 4 * a1 * a3 := by
  constructor
  · intro h; nlinarith
  · intro h
    have : 4 * a1 * (a1 * y ^ 2 + a2 * y + a3) = 0 := by nlinarith
    rcases mul_eq_zero.1 this with h' | h'
    · linarith
    · exact h'

/-- The larger root of the code. -/
theorem max_root (a1 a2 a3 : ℝ) (h1 : 0 < a1) (hd : 0 ≤ a2 ^ 2 - 4 * a1 * a3) :
    let y := max ((-a2 + Real.sqrt (a2 ^ 2 - 4 * a1 * a3)) / (2 * a1)) ((-a2 - Real.sqrt (a2 ^ 2 - 4 * a1 * a3)) / (2 * a1))
    a1 * y ^ 2 + a2 * y + a3 = 0 ∧ ∀ y', a1 * y' ^ 2 + a2 * y' + a3 = 0 → y' ≤ y := by
  intro y
  set w := Real.sqrt (a2 ^ 2 - 4 * a1 * a3) with hw
  have hw0 : 0 ≤ w := Real.sqrt_nonneg _
  have hw2 : w ^ 2 = a2 ^ 2 - 4 * a1 * a3 := Real.sq_sqrt hd
  have hy : y = (-a2 + w) / (2 * a1) := max_eq_left (by
    apply div_le_div_of_nonneg_right _ (by linarith)
    linarith)
  have hy' : 2 * a1 * y + a2 = w := by
    rw [hy]; field_simp; ring
  refine ⟨(root_iff _ _ _ _ h1).2 (by rw [hy', hw2]), fun y' h => ?_⟩
  have h' := (root_iff _ _ _ _ h1).1 h
  rw [← hw2] at h'
  have h2 : 2 * a1 * y' + a2 ≤ w := abs_le_of_sq_le_sq' (by rw [h']) hw0 |>.2
  have : 2 * a1 * y' ≤ 2 * a1 * y := by linarith
  exact le_of_mul_le_mul_left this (by linarith)

/-- The quadratic of the code in geometric terms: with load increment `d` the new point lies on the tangent, and the quadratic is
its distance equation. -/
theorem quadratic_eq (c0 c1 r x l d : ℝ) (hx : slope x ≠ 0) :
    let uBar := -(internalForce x + l * (-1)) / slope x
    let uT := -(-1) / slope x
    (uT ^ 2 + (-1) ^ 2) * d ^ 2 + (2 * (x - c0 + uBar) * uT + 2 * (l - c1) * (-1) ^ 2) * d
      + ((x - c0 + uBar) ^ 2 + (l - c1) ^ 2 * (-1) ^ 2 - r ^ 2)
      = (x + (uBar + d * uT) - c0) ^ 2 + (l + d - c1) ^ 2 - r ^ 2 := by
  intro uBar uT
  ring

theorem on_tangent (x l d : ℝ) (hx : slope x ≠ 0) :
    OnTangent x (x + (-(internalForce x + l * (-1)) / slope x + d * (-(-1) / slope x)), l + d) := by
  show l + d = curve x + (1 - 2 * x) * (x + (-(internalForce x + l * (-1)) / slope x + d * (-(-1) / slope x)) - x)
  have h : (1 - 2 * x) = slope x := rfl
  rw [h]
  have : slope x * (x + (-(internalForce x + l * (-1)) / slope x + d * (-(-1) / slope x)) - x) = -(internalForce x + l * (-1)) + d := by
    field_simp; ring
  rw [this]
  unfold curve internalForce
  ring

/-- A point of the tangent is given by its load factor. -/
theorem tangent_unique (x l : ℝ) (hx : slope x ≠ 0) (p : ℝ × ℝ) (hp : OnTangent x p) :
    p = (x + (-(internalForce x + l * (-1)) / slope x + (p.2 - l) * (-(-1) / slope x)), l + (p.2 - l)) := by
  have h := on_tangent x l (p.2 - l) hx
  have h1 : p.2 = curve x + slope x * (p.1 - x) := hp
  have h2 : l + (p.2 - l) = curve x + slope x * ((x + (-(internalForce x + l * (-1)) / slope x + (p.2 - l) * (-(-1) / slope x))) - x) := h
  rw [add_sub_cancel, h1] at h2
  rw [add_sub_cancel]
  refine Prod.ext ?_ rfl
  have h3 := mul_left_cancel₀ hx (add_left_cancel h2)
  rw [← h1] at h3
  linarith

/-- **C117 (a pass).** A pass replaces the point by the higher one of the two points where the tangent of the curve at the current
unknown meets the circle about the start of the step, and gives NaN exactly if the tangent is horizontal or misses the circle. The
current load factor does not matter. -/
theorem C117_pass (c : ℝ × ℝ) (r x l : ℝ) :
    (∀ p, correct c.1 c.2 (-1) r x l = some p ↔ x ≠ 1 / 2 ∧ HigherMeeting c r x p)
    ∧ (correct c.1 c.2 (-1) r x l = none ↔ x = 1 / 2 ∨ ∀ p, OnTangent x p → ¬OnCircle c r p) := by
  have hs : slope x = 0 ↔ x = 1 / 2 := by
    unfold slope
    constructor <;> intro h <;> linarith
  set uBar := -(internalForce x + l * (-1)) / slope x with hB
  set uT := -(-1) / slope x with hT
  set a1 := uT ^ 2 + (-1) ^ 2 with h1
  set a2 := 2 * (x - c.1 + uBar) * uT + 2 * (l - c.2) * (-1) ^ 2 with h2
  set a3 := (x - c.1 + uBar) ^ 2 + (l - c.2) ^ 2 * (-1) ^ 2 - r ^ 2 with h3
  set d := max ((-a2 + Real.sqrt (a2 ^ 2 - 4 * a1 * a3)) / (2 * a1)) ((-a2 - Real.sqrt (a2 ^ 2 - 4 * a1 * a3)) / (2 * a1)) with hd
  have hdef : correct c.1 c.2 (-1) r x l = if slope x = 0 then none else if a2 ^ 2 - 4 * a1 * a3 < 0 then none
      else some (x + (uBar + d * uT), l + d) := rfl
  have ha1 : 0 < a1 := by rw [h1]; positivity
  by_cases h0 : slope x = 0
  · rw [hdef, if_pos h0]
    exact ⟨fun p => ⟨fun h => by simp at h, fun h => absurd (hs.1 h0) h.1⟩, ⟨fun _ => .inl (hs.1 h0), fun _ => rfl⟩⟩
  have hx : x ≠ 1 / 2 := fun h => h0 (hs.2 h)
  -- points of the tangent on the circle are roots
  have hroot : ∀ p, OnTangent x p → (OnCircle c r p ↔ a1 * (p.2 - l) ^ 2 + a2 * (p.2 - l) + a3 = 0) := by
    intro p hp
    have e := quadratic_eq c.1 c.2 r x l (p.2 - l) h0
    have e' := tangent_unique x l h0 p hp
    rw [show a1 * (p.2 - l) ^ 2 + a2 * (p.2 - l) + a3 = _ from e, sub_eq_zero]
    have e1 : p.1 = x + (uBar + (p.2 - l) * uT) := congrArg Prod.fst e'
    rw [← e1, add_sub_cancel]
    rfl
  by_cases hn : a2 ^ 2 - 4 * a1 * a3 < 0
  · rw [hdef, if_neg h0, if_pos hn]
    have hno : ∀ p, OnTangent x p → ¬OnCircle c r p := by
      intro p hp hc
      have := (root_iff _ _ _ _ ha1).1 ((hroot p hp).1 hc)
      have h' := sq_nonneg (2 * a1 * (p.2 - l) + a2)
      linarith
    exact ⟨fun p => ⟨fun h => by simp at h, fun h => absurd h.2.2.1 (hno p h.2.1)⟩, ⟨fun _ => .inr hno, fun _ => rfl⟩⟩
  · rw [hdef, if_neg h0, if_neg hn]
    have hm := max_root a1 a2 a3 ha1 (not_lt.1 hn)
    have ht := on_tangent x l d h0
    have hc : OnCircle c r (x + (uBar + d * uT), l + d) := (hroot _ ht).2 (by
      rw [show (x + (uBar + d * uT), l + d).2 - l = d from add_sub_cancel_left _ _]
      exact hm.1)
    have hh : HigherMeeting c r x (x + (uBar + d * uT), l + d) := by
      refine ⟨ht, hc, fun p' hp' hc' => ?_⟩
      have := hm.2 _ ((hroot p' hp').1 hc')
      show p'.2 ≤ l + d
      linarith
    refine ⟨fun p => ⟨fun h => ?_, fun h => ?_⟩, ⟨fun h => by simp at h, fun h => ?_⟩⟩
    · rw [← Option.some.inj h]
      exact ⟨hx, hh⟩
    · have e1 : p.2 = l + d := le_antisymm (hh.2.2 p h.2.1 h.2.2.1) (h.2.2.2 _ ht hc)
      have e2 := tangent_unique x l h0 p h.2.1
      rw [e1, add_sub_cancel_left] at e2
      rw [e2]
    · rcases h with h | h
      · exact absurd h hx
      · exact absurd hc (h _ ht)

/-- **C117 (residual after a pass).** The new point lies above the curve by the square of the change of the unknown. -/
theorem C117_residual (c : ℝ × ℝ) (r x l : ℝ) (p : ℝ × ℝ) (h : correct c.1 c.2 (-1) r x l = some p) :
    p.2 - curve p.1 = (p.1 - x) ^ 2 ∧ OnCircle c r p := by
  have := (((C117_pass c r x l).1 p).1 h).2
  refine ⟨?_, this.2.1⟩
  rw [show p.2 = _ from this.1]
  unfold curve
  ring

end JaxFem.ArcDemo
