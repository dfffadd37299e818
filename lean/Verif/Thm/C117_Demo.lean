import Verif.Thm.C117_Converge

/-!
# C117: the run of the demonstration, and what happens behind the limit point
-/

namespace JaxFem.ArcDemo

/-- **C117 (existence).** From a point on the curve, or a little above it, a circle that does not reach the limit point meets the
curve. -/
theorem C117_target (c : ℝ × ℝ) (r : ℝ) (h0 : 0 ≤ c.1) (hr : 0 < r) (hl : c.1 + r < 1 / 2) (ha : 0 ≤ c.2 - curve c.1)
    (hs : 4 * (c.2 - curve c.1) ≤ r * (1 - 2 * c.1 - r / 2)) : ∃ t, Target c r t ∧ c.1 + r / 2 ≤ t ∧ t ≤ c.1 + r := by
  have hcont : ContinuousOn (fun u : ℝ => (u - c.1) ^ 2 + (curve u - c.2) ^ 2) (Set.Icc (c.1 + r / 2) (c.1 + r)) := by
    apply Continuous.continuousOn
    unfold curve
    fun_prop
  have hd : curve (c.1 + r / 2) - curve c.1 = r / 2 * (1 - 2 * c.1 - r / 2) := by unfold curve; ring
  have h1 : c.2 - curve c.1 ≤ curve (c.1 + r / 2) - c.2 := by linarith
  have h2 : curve (c.1 + r / 2) - c.2 ≤ r / 2 := by
    have : r / 2 * (1 - 2 * c.1 - r / 2) ≤ r / 2 := by nlinarith
    linarith
  have hlow : (c.1 + r / 2 - c.1) ^ 2 + (curve (c.1 + r / 2) - c.2) ^ 2 ≤ r ^ 2 := by nlinarith
  have hhigh : r ^ 2 ≤ (c.1 + r - c.1) ^ 2 + (curve (c.1 + r) - c.2) ^ 2 := by
    rw [add_sub_cancel_left]
    linarith [sq_nonneg (curve (c.1 + r) - c.2)]
  obtain ⟨t, ht, hm⟩ := intermediate_value_Icc (by linarith) hcont ⟨hlow, hhigh⟩
  have hmono : curve (c.1 + r / 2) ≤ curve t := curve_mono ht.1 (by linarith [ht.2])
  exact ⟨t, ⟨by linarith [ht.1], by linarith [ht.2], hm, by linarith, by linarith⟩, ht.1, ht.2⟩

/-- **C117 (the demonstration).** The program ends and plots the origin and two more points of the ascending branch: each lies exactly
on the circle about the one before, further to the right, and above the curve by less than `3·10⁻¹¹`. -/
theorem C117_demo (fuel : Nat) (hf : 205 ≤ fuel) : ∃ p q : ℝ × ℝ, demo fuel = some [some (0, 0), some p, some q]
    ∧ OnCircle (0, 0) 0.2 p ∧ OnCircle p 0.2 q ∧ 0 < p.1 ∧ p.1 < q.1 ∧ q.1 < 1 / 2
    ∧ 0 ≤ p.2 - curve p.1 ∧ p.2 - curve p.1 ≤ 3 / 10 ^ 12 ∧ 0 ≤ q.2 - curve q.1 ∧ q.2 - curve q.1 ≤ 3 / 10 ^ 11 := by
  obtain ⟨t, ht, t1, t2⟩ := C117_target (0, 0) 0.2 le_rfl (by norm_num) (by norm_num) (by norm_num [curve]) (by norm_num [curve])
  norm_num at t1 t2
  obtain ⟨p, ep, pc, p0, pt, pa, pb, pd⟩ := C117_converges ht 200 fuel (by norm_num; linarith) (by omega)
  have p0' : 0 < p.1 := p0
  have hp : p.2 - curve p.1 ≤ 3 / 10 ^ 12 := by
    have h1 : (0.36 : ℝ) ≤ (1 - 2 * t) ^ 2 := by nlinarith
    have h2 : 0.36 * (p.2 - curve p.1) ≤ (1 - 2 * t) ^ 2 * (p.2 - curve p.1) := mul_le_mul_of_nonneg_right h1 pa
    norm_num at h2 pb ⊢
    linarith
  obtain ⟨s, hs, s1, s2⟩ := C117_target p 0.2 p0'.le (by norm_num) (by norm_num; linarith) pa (by
    have : (0.1 : ℝ) ≤ 0.2 * (1 - 2 * p.1 - 0.2 / 2) := by norm_num; linarith
    refine le_trans ?_ this
    norm_num at hp ⊢
    linarith)
  norm_num at s1 s2
  obtain ⟨q, eq, qc, q0, qt, qa, qb, qd⟩ := C117_converges hs 200 fuel (by norm_num; linarith) (by omega)
  refine ⟨p, q, ?_, pc, qc, p0', q0, by linarith, pa, hp, qa, ?_⟩
  · rw [demo, trace, ep]
    simp only
    rw [trace, eq]
    rfl
  · have h0 : (0.2 : ℝ) ≤ 1 - 2 * s := by norm_num; linarith
    have h1 : (0.04 : ℝ) ≤ (1 - 2 * s) ^ 2 := by nlinarith
    have h2 : 0.04 * (q.2 - curve q.1) ≤ (1 - 2 * s) ^ 2 * (q.2 - curve q.1) := mul_le_mul_of_nonneg_right h1 qa
    norm_num at h2 qb ⊢
    linarith

/-! ### Mirror image -/

theorem curve_mirror (x : ℝ) : curve (1 - x) = curve x := by unfold curve; ring

theorem circle_mirror (c : ℝ × ℝ) (r : ℝ) (p : ℝ × ℝ) : OnCircle (mirror c) r (mirror p) ↔ OnCircle c r p := by
  unfold OnCircle mirror
  simp only
  rw [show (1 - p.1 - (1 - c.1)) ^ 2 = (p.1 - c.1) ^ 2 by ring]

theorem tangent_mirror (x : ℝ) (p : ℝ × ℝ) : OnTangent (1 - x) (mirror p) ↔ OnTangent x p := by
  unfold OnTangent mirror
  simp only
  rw [curve_mirror, show (1 - 2 * (1 - x)) * (1 - p.1 - (1 - x)) = (1 - 2 * x) * (p.1 - x) by ring]

theorem mirror_mirror (p : ℝ × ℝ) : mirror (mirror p) = p := by
  unfold mirror
  simp

theorem meeting_mirror (c : ℝ × ℝ) (r x : ℝ) (p : ℝ × ℝ) : HigherMeeting (mirror c) r (1 - x) (mirror p) ↔ HigherMeeting c r x p := by
  unfold HigherMeeting
  rw [tangent_mirror, circle_mirror]
  refine and_congr_right fun _ => and_congr_right fun _ => ⟨fun h p' h1 h2 => ?_, fun h p' h1 h2 => ?_⟩
  · exact h (mirror p') ((tangent_mirror x p').2 h1) ((circle_mirror c r p').2 h2)
  · rw [← mirror_mirror p'] at h1 h2
    exact h (mirror p') ((tangent_mirror x _).1 h1) ((circle_mirror c r _).1 h2)

theorem correct_mirror (c : ℝ × ℝ) (r x l : ℝ) :
    correct (mirror c).1 (mirror c).2 (-1) r (1 - x) l = (correct c.1 c.2 (-1) r x l).map mirror := by
  have hx : 1 - x ≠ 1 / 2 ↔ x ≠ 1 / 2 := by
    constructor <;> intro h e <;> exact h (by linarith)
  cases e : correct c.1 c.2 (-1) r x l with
  | some p =>
    have := ((C117_pass c r x l).1 p).1 e
    exact ((C117_pass (mirror c) r (1 - x) l).1 (mirror p)).2 ⟨hx.2 this.1, (meeting_mirror c r x p).2 this.2⟩
  | none =>
    cases e' : correct (mirror c).1 (mirror c).2 (-1) r (1 - x) l with
    | none => rfl
    | some p =>
      have h := ((C117_pass (mirror c) r (1 - x) l).1 p).1 e'
      rw [← mirror_mirror p] at h
      have := ((C117_pass c r x l).1 (mirror p)).2 ⟨hx.1 h.1, (meeting_mirror c r x _).1 h.2⟩
      rw [e] at this
      simp at this

theorem loop_mirror (c : ℝ × ℝ) (r : ℝ) (fuel : Nat) : ∀ (res : Option ℝ) (step : Nat) (p : Point),
    loop (mirror c).1 (mirror c).2 (-1) r fuel res step (p.map mirror)
      = (loop c.1 c.2 (-1) r fuel res step p).map (Option.map mirror) := by
  induction fuel with
  | zero => intro res step p; rfl
  | succ fuel ih =>
    intro res step p
    rw [loop.eq_def, loop.eq_def c.1]
    dsimp only
    by_cases hg : goesOn res step
    · rw [if_pos hg, if_pos hg]
      cases p with
      | none => exact ih none (step + 1) none
      | some p =>
        have e : internalForce (1 - p.1) = internalForce p.1 := by unfold internalForce; ring
        show loop _ _ _ _ _ (some |internalForce (1 - p.1) + p.2 * (-1)|) _ (correct _ _ _ _ (1 - p.1) p.2) = _
        rw [e, correct_mirror, ih]
    · rw [if_neg hg, if_neg hg]
      rfl

/-- **C117 (mirror image).** From the mirror image of a point the solver returns the mirror image of the result. -/
theorem C117_mirror (r : ℝ) (fuel : Nat) (c : Point) :
    arcLengthSolver (-1) r fuel (c.map mirror) = (arcLengthSolver (-1) r fuel c).map (Option.map mirror) := by
  cases c with
  | none => rfl
  | some c => exact loop_mirror c r fuel (some 1) 0 (some c)

/-- **C117 (behind the limit point).** On the descending branch the choice of the larger load factor turns the method round: the first
pass goes up and to the left, and where the circle does not reach the limit point the step ends further left and higher, on the
way back. On the ascending branch it goes up and to the right. -/
theorem C117_back (x r : ℝ) (hr : 0 < r) :
    (∀ p, correct x (curve x) (-1) r x (curve x) = some p → curve x < p.2 ∧ 0 < (p.1 - x) * (1 / 2 - x))
    ∧ (x ≠ 1 / 2 → ∃ p, correct x (curve x) (-1) r x (curve x) = some p)
    ∧ (x ≤ 1 → 1 / 2 < x - r → ∀ fuel : Nat, 505 ≤ fuel → ∃ p,
      arcLengthSolver (-1) r fuel (some (x, curve x)) = some (some p) ∧ p.1 < x ∧ 1 / 2 < p.1 ∧ curve x < curve p.1) := by
  have hex : x ≠ 1 / 2 → ∃ p, correct x (curve x) (-1) r x (curve x) = some p := by
    intro hx
    cases e : correct x (curve x) (-1) r x (curve x) with
    | some p => exact ⟨p, rfl⟩
    | none =>
      exfalso
      rcases (C117_pass (x, curve x) r x (curve x)).2.1 e with h | h
      · exact hx h
      · have hs : 0 < 1 + (1 - 2 * x) ^ 2 := by positivity
        refine h (x + r / Real.sqrt (1 + (1 - 2 * x) ^ 2), curve x + (1 - 2 * x) * (r / Real.sqrt (1 + (1 - 2 * x) ^ 2))) ?_ ?_
        · unfold OnTangent
          simp
        · unfold OnCircle
          simp only [add_sub_cancel_left]
          rw [mul_pow, div_pow, Real.sq_sqrt hs.le]
          field_simp
  refine ⟨fun p h => ?_, hex, fun h1 h2 fuel hf => ?_⟩
  · have hp := ((C117_pass (x, curve x) r x (curve x)).1 p).1 h
    obtain ⟨hx, ht, hc, hm⟩ := hp
    have ht' : p.2 = curve x + (1 - 2 * x) * (p.1 - x) := ht
    have hc' : (p.1 - x) ^ 2 + (p.2 - curve x) ^ 2 = r ^ 2 := hc
    -- the other meeting point
    have ho := hm (2 * x - p.1, 2 * curve x - p.2) (by unfold OnTangent; simp only; linarith) (by
      unfold OnCircle; simp only; linarith)
    simp only at ho
    have hs : 1 - 2 * x ≠ 0 := fun e => hx (by linarith)
    have hne : p.2 ≠ curve x := by
      intro e
      have h0 : (1 - 2 * x) * (p.1 - x) = 0 := by linarith
      rcases mul_eq_zero.1 h0 with h3 | h3
      · exact hs h3
      · rw [h3, e] at hc'
        nlinarith
    have hlt : curve x < p.2 := lt_of_le_of_ne (by linarith) (Ne.symm hne)
    exact ⟨hlt, by linarith⟩
  · set y := 1 - x with hy
    have hy0 : 0 ≤ y := by linarith
    obtain ⟨t, ht, t1, t2⟩ := C117_target (y, curve y) r hy0 hr (by simp only; linarith) (by simp) (by
      simp only [sub_self, mul_zero]
      apply mul_nonneg hr.le
      linarith)
    simp only at t1 t2
    obtain ⟨p, ep, pc, p0, pt, pa, pb, pd⟩ := C117_converges ht 500 fuel (by
      simp only
      norm_num
      linarith) (by omega)
    refine ⟨mirror p, ?_, ?_, ?_, ?_⟩
    · have := C117_mirror r fuel (some (y, curve y))
      rw [ep] at this
      rw [show (some (x, curve x) : Point) = Option.map mirror (some (y, curve y)) by
        simp [mirror, hy, curve_mirror]]
      exact this
    · simp only [mirror]
      have : y < p.1 := p0
      linarith
    · simp only [mirror]
      linarith [ht.limit]
    · simp only [mirror]
      rw [curve_mirror, ← curve_mirror x, ← hy]
      have h3 : y < p.1 := p0
      have h4 := ht.limit
      unfold curve
      nlinarith

/-! ### Cases -/

/-- The tangent at the origin and the circle through `(3, 3)`. -/
example (l : ℝ) : correct 0 0 (-1) (Real.sqrt 18) 0 l = some (3, 3) := by
  refine ((C117_pass (0, 0) (Real.sqrt 18) 0 l).1 (3, 3)).2 ⟨by norm_num, by norm_num [OnTangent, curve], ?_, ?_⟩
  · show (3 - 0 : ℝ) ^ 2 + (3 - 0) ^ 2 = Real.sqrt 18 ^ 2
    rw [Real.sq_sqrt (by norm_num)]
    norm_num
  · rintro ⟨u, v⟩ h1 h2
    have h1' : v = u := by
      have : v = curve 0 + (1 - 2 * 0) * (u - 0) := h1
      rw [this]; norm_num [curve]
    have h2' : (u - 0) ^ 2 + (v - 0) ^ 2 = Real.sqrt 18 ^ 2 := h2
    rw [Real.sq_sqrt (by norm_num), h1'] at h2'
    show v ≤ 3
    nlinarith

/-- A tangent that misses the circle, and the limit point. -/
example (l : ℝ) : correct 0 0 (-1) (1 / 100) (1 / 4) l = none ∧ correct 0 0 (-1) (1 / 100) (1 / 2) l = none := by
  refine ⟨(C117_pass (0, 0) _ _ l).2.2 (.inr ?_), (C117_pass (0, 0) _ _ l).2.2 (.inl rfl)⟩
  rintro ⟨u, v⟩ h1 h2
  have h1' : v = curve (1 / 4) + (1 - 2 * (1 / 4)) * (u - 1 / 4) := h1
  have h2' : (u - 0) ^ 2 + (v - 0) ^ 2 = (1 / 100) ^ 2 := h2
  norm_num [curve] at h1'
  rw [h1'] at h2'
  nlinarith [sq_nonneg (u + 1 / 40)]

/-- A step that starts on the descending branch. -/
example : ∃ p, arcLengthSolver (-1) 0.2 505 (some (0.9, curve 0.9)) = some (some p) ∧ p.1 < 0.9 ∧ 1 / 2 < p.1 ∧ curve 0.9 < curve p.1 :=
  (C117_back 0.9 0.2 (by norm_num)).2.2 (by norm_num) (by norm_num) 505 le_rfl

end JaxFem.ArcDemo
