import Verif.Thm.C117_Pass
import Mathlib.Topology.Order.IntermediateValue
import Mathlib.Tactic.IntervalCases
import Mathlib.Tactic.NormNum

/-!
# C117: the arc-length demonstration converges
-/

namespace JaxFem.ArcDemo

/-! ### Helper lemmas -/

theorem curve_mono {a b : ℝ} (h : a ≤ b) (hb : b ≤ 1 / 2) : curve a ≤ curve b := by
  unfold curve
  nlinarith

/-- The new point is as high as the target. -/
theorem new_high {c : ℝ × ℝ} {r t : ℝ} (h : Target c r t) (x : ℝ) (p : ℝ × ℝ) (hx : c.1 ≤ x) (hxp : x ≤ p.1) (hle : p.1 ≤ t)
    (hpcur : p.2 = curve p.1 + (p.1 - x) ^ 2) (hpc : (p.1 - c.1) ^ 2 + (p.2 - c.2) ^ 2 = r ^ 2) : curve t ≤ p.2 := by
  have hlim := h.limit
  have hm : (t - c.1) ^ 2 + (curve t - c.2) ^ 2 = r ^ 2 := h.meets
  have hab := h.above
  have hri := h.right
  have hne := h.near
  have hcp : curve c.1 ≤ curve p.1 := curve_mono (hx.trans hxp) (by linarith)
  have hsq : (curve t - c.2) ^ 2 ≤ (p.2 - c.2) ^ 2 := by
    have : (p.1 - c.1) ^ 2 ≤ (t - c.1) ^ 2 := by nlinarith
    linarith
  by_contra hlt
  have hlt := not_le.1 hlt
  have hneg : p.2 - c.2 ≤ -(curve t - c.2) := by
    by_contra h1
    have h1 := not_le.1 h1
    have : (p.2 - c.2) ^ 2 < (curve t - c.2) ^ 2 := sq_lt_sq' h1 (by linarith)
    linarith
  have h3 : curve p.1 ≤ curve c.1 := by linarith only [hneg, hpcur, hne, sq_nonneg (p.1 - x)]
  have h4 : p.1 = c.1 := by
    have : (p.1 - c.1) * (1 - p.1 - c.1) ≤ 0 := by
      have e : curve p.1 - curve c.1 = (p.1 - c.1) * (1 - p.1 - c.1) := by unfold curve; ring
      linarith
    by_contra hne3
    have h5 : 0 < p.1 - c.1 := lt_of_le_of_ne (by linarith) (fun e => hne3 (by linarith))
    nlinarith
  have h5 : (p.2 - c.2) ^ 2 = r ^ 2 := by rw [h4] at hpc; linarith
  have h6 : (p.2 - c.2) ^ 2 = (curve t - c.2) ^ 2 := by
    have : p.2 - c.2 = -(curve t - c.2) := by
      have h7 : curve c.1 ≤ p.2 := by rw [hpcur]; nlinarith [sq_nonneg (p.1 - x)]
      linarith
    rw [this]; ring
  have h7 : 0 < (t - c.1) ^ 2 := by
    have : 0 < t - c.1 := by linarith
    positivity
  linarith

/-- A pass from between the centre and the target. -/
theorem pass_target {c : ℝ × ℝ} {r t : ℝ} (h : Target c r t) (x l : ℝ) (hx : c.1 ≤ x) (hxt : x ≤ t) :
    ∃ p, correct c.1 c.2 (-1) r x l = some p ∧ x ≤ p.1 ∧ p.1 ≤ t ∧ (1 - 2 * t) * (t - p.1) ≤ (p.1 - x) ^ 2 := by
  have hlim := h.limit
  have hs : 0 < 1 - 2 * x := by linarith
  have hm : (t - c.1) ^ 2 + (curve t - c.2) ^ 2 = r ^ 2 := h.meets
  set L : ℝ → ℝ := fun u => curve x + (1 - 2 * x) * (u - x) with hL
  have hLc : ∀ u, L u = curve u + (u - x) ^ 2 := by
    intro u; simp only [hL]; unfold curve; ring
  have hLmono : ∀ u v, u < v → L u < L v := by
    intro u v huv
    have : (1 - 2 * x) * (u - x) < (1 - 2 * x) * (v - x) := mul_lt_mul_of_pos_left (by linarith) hs
    simp only [hL]; linarith
  have hLt : curve t ≤ L t := by rw [hLc]; nlinarith [sq_nonneg (t - x)]
  have hab := h.above
  have hri := h.right
  have hne := h.near
  have hcx : curve c.1 ≤ curve x := curve_mono hx (by linarith)
  have hxct : curve x ≤ curve t := curve_mono hxt hlim.le
  -- a meeting point exists
  have hcont : ContinuousOn (fun u : ℝ => (u - c.1) ^ 2 + (L u - c.2) ^ 2) (Set.Icc x t) := by
    apply Continuous.continuousOn
    simp only [hL]
    fun_prop
  have hlow : (x - c.1) ^ 2 + (L x - c.2) ^ 2 ≤ r ^ 2 := by
    have e : L x = curve x := by rw [hLc]; ring
    rw [e, ← hm]
    have h1 : (x - c.1) ^ 2 ≤ (t - c.1) ^ 2 := by nlinarith
    have h2 : (curve x - c.2) ^ 2 ≤ (curve t - c.2) ^ 2 := by
      apply sq_le_sq' <;> linarith
    linarith
  have hhigh : r ^ 2 ≤ (t - c.1) ^ 2 + (L t - c.2) ^ 2 := by
    rw [← hm]
    have : (curve t - c.2) ^ 2 ≤ (L t - c.2) ^ 2 := by
      apply sq_le_sq' <;> linarith
    linarith
  obtain ⟨u0, hu0, hr0⟩ := intermediate_value_Icc hxt hcont ⟨hlow, hhigh⟩
  have hp0 : OnTangent x (u0, L u0) := rfl
  have hc0 : OnCircle c r (u0, L u0) := hr0
  have hne2 : x ≠ 1 / 2 := by
    intro e; rw [e] at hs; norm_num at hs
  obtain ⟨hpass, hnan⟩ := C117_pass c r x l
  cases hcor : correct c.1 c.2 (-1) r x l with
  | none =>
    rcases hnan.1 hcor with h1 | h1
    · exact absurd h1 hne2
    · exact absurd hc0 (h1 _ hp0)
  | some p =>
    have hp := ((hpass p).1 hcor).2
    have hpt : p.2 = L p.1 := hp.1
    have hpc : (p.1 - c.1) ^ 2 + (p.2 - c.2) ^ 2 = r ^ 2 := hp.2.1
    have h0 : L u0 ≤ L p.1 := by rw [← hpt]; exact hp.2.2 _ hp0 hc0
    have hge : u0 ≤ p.1 := by
      by_contra hlt
      exact absurd (hLmono _ _ (not_le.1 hlt)) (not_lt.2 h0)
    have hle : p.1 ≤ t := by
      by_contra hlt
      have hlt := not_le.1 hlt
      have h1 := hLmono _ _ hlt
      have h2 : (t - c.1) ^ 2 < (p.1 - c.1) ^ 2 := by nlinarith
      have h3 : (L t - c.2) ^ 2 ≤ (p.2 - c.2) ^ 2 := by
        rw [hpt]; apply sq_le_sq' <;> linarith
      linarith
    have hxp : x ≤ p.1 := hu0.1.trans hge
    refine ⟨p, rfl, hxp, hle, ?_⟩
    have hpcur : p.2 = curve p.1 + (p.1 - x) ^ 2 := by rw [hpt, hLc]
    have hup := new_high h x p hx hxp hle hpcur hpc
    have e : curve t - curve p.1 = (1 - t - p.1) * (t - p.1) := by unfold curve; ring
    have : (1 - 2 * t) * (t - p.1) ≤ (1 - t - p.1) * (t - p.1) := by
      apply mul_le_mul_of_nonneg_right <;> linarith
    linarith

variable {c : ℝ × ℝ} {r t b : ℝ}

/-- What the solver is shown to return. -/
def Good (c : ℝ × ℝ) (r t b : ℝ) (p : ℝ × ℝ) : Prop :=
  OnCircle c r p ∧ b ≤ p.1 ∧ p.1 ≤ t ∧ 0 ≤ p.2 - curve p.1 ∧ (1 - 2 * t) ^ 2 * (p.2 - curve p.1) ≤ tol ^ 2
    ∧ (1 - 2 * t) * (t - p.1) ≤ p.2 - curve p.1

/-- State at a test after at least two passes: current point, unknown and residual one pass earlier. -/
structure Inv (c : ℝ × ℝ) (r t b ρ x : ℝ) (p : ℝ × ℝ) : Prop where
  circle : OnCircle c r p
  start : c.1 ≤ b
  left : b ≤ x
  grows : x ≤ p.1
  right : p.1 ≤ t
  res : p.2 - curve p.1 = (p.1 - x) ^ 2
  far : (1 - 2 * t) * (t - x) ≤ ρ
  far' : (1 - 2 * t) * (t - p.1) ≤ (p.1 - x) ^ 2

theorem inv_next (h : Target c r t) {ρ x : ℝ} {p : ℝ × ℝ} (hi : Inv c r t b ρ x p) :
    ∃ p', correct c.1 c.2 (-1) r p.1 p.2 = some p' ∧ |internalForce p.1 + p.2 * (-1)| = (p.1 - x) ^ 2
      ∧ Inv c r t b ((p.1 - x) ^ 2) p.1 p' := by
  obtain ⟨p', e, h1, h2, h3⟩ := pass_target h p.1 p.2 (hi.start.trans (hi.left.trans hi.grows)) hi.right
  have hr := C117_residual c r p.1 p.2 p' e
  refine ⟨p', e, ?_, hr.2, hi.start, hi.left.trans hi.grows, h1, h2, hr.1, hi.far', h3⟩
  have : internalForce p.1 + p.2 * (-1) = -(p.1 - x) ^ 2 := by
    rw [← hi.res]; unfold internalForce curve; ring
  rw [this, abs_neg, abs_of_nonneg (sq_nonneg _)]

theorem inv_good (h : Target c r t) {ρ x : ℝ} {p : ℝ × ℝ} (hi : Inv c r t b ρ x p) (hρ : ρ ≤ tol) : Good c r t b p := by
  have hl := h.limit
  refine ⟨hi.circle, hi.left.trans hi.grows, hi.right, by rw [hi.res]; positivity, ?_, by rw [hi.res]; exact hi.far'⟩
  rw [hi.res, ← mul_pow]
  have h1 : 0 ≤ (1 - 2 * t) * (p.1 - x) := mul_nonneg (by linarith) (by linarith [hi.grows])
  have h2 : (1 - 2 * t) * (p.1 - x) ≤ tol := by
    refine le_trans ?_ (hi.far.trans hρ)
    apply mul_le_mul_of_nonneg_left _ (by linarith)
    linarith [hi.right]
  exact pow_le_pow_left₀ h1 h2 2

theorem small_step {δ : ℝ} (h0 : 0 ≤ δ) (h : δ ≤ 1 / 1000) : δ ^ 2 ≤ tol := by
  have : δ ^ 2 ≤ (1 / 1000) ^ 2 := pow_le_pow_left₀ h0 h 2
  refine this.trans ?_
  unfold tol; norm_num

theorem loop_stop (fuel : Nat) (ρ : ℝ) (step : Nat) (p : Point) (hs : 2 ≤ step) (hρ : ρ ≤ tol) (c0 c1 q r : ℝ) :
    loop c0 c1 q r (fuel + 1) (some ρ) step p = some p := by
  rw [loop.eq_def]
  dsimp only
  rw [if_neg]
  rintro (⟨r', e, h⟩ | h)
  · rw [Option.some.inj e] at hρ
    linarith
  · omega

theorem loop_go (fuel : Nat) (res : Option ℝ) (step : Nat) (p : ℝ × ℝ) (h : goesOn res step) (c0 c1 q r : ℝ) :
    loop c0 c1 q r (fuel + 1) res step (some p)
      = loop c0 c1 q r fuel (some |internalForce p.1 + p.2 * q|) (step + 1) (correct c0 c1 q r p.1 p.2) := by
  rw [loop.eq_def]
  dsimp only
  rw [if_pos h]

theorem loop_good (h : Target c r t) (n : Nat) : ∀ (extra : Nat) (ρ x : ℝ) (p : ℝ × ℝ) (step : Nat), 2 ≤ step → Inv c r t b ρ x p →
    t - p.1 ≤ n * (1 / 1000) → ∃ p', loop c.1 c.2 (-1) r (n + 3 + extra) (some ρ) step (some p) = some (some p') ∧ Good c r t b p' := by
  induction n with
  | zero =>
    intro extra ρ x p step hs hi hn
    rw [show 0 + 3 + extra = extra + 1 + 1 + 1 by omega]
    by_cases hρ : ρ ≤ tol
    · exact ⟨p, loop_stop _ ρ step _ hs hρ _ _ _ _, inv_good h hi hρ⟩
    obtain ⟨p1, e1, a1, i1⟩ := inv_next h hi
    rw [loop_go _ _ _ _ (.inl ⟨ρ, rfl, not_le.1 hρ⟩), e1, a1]
    by_cases hρ1 : (p.1 - x) ^ 2 ≤ tol
    · exact ⟨p1, loop_stop _ _ _ _ (by omega) hρ1 _ _ _ _, inv_good h i1 hρ1⟩
    obtain ⟨p2, e2, a2, i2⟩ := inv_next h i1
    rw [loop_go _ _ _ _ (.inl ⟨_, rfl, not_le.1 hρ1⟩), e2, a2]
    have hsm : (p1.1 - p.1) ^ 2 ≤ tol := small_step (by linarith [i1.grows]) (by
      have := i1.right
      norm_num at hn
      linarith)
    exact ⟨p2, loop_stop _ _ _ _ (by omega) hsm _ _ _ _, inv_good h i2 hsm⟩
  | succ n ih =>
    intro extra ρ x p step hs hi hn
    by_cases hρ : ρ ≤ tol
    · rw [show n + 1 + 3 + extra = (n + 3 + extra) + 1 by omega]
      exact ⟨p, loop_stop _ ρ step _ hs hρ _ _ _ _, inv_good h hi hρ⟩
    obtain ⟨p1, e1, a1, i1⟩ := inv_next h hi
    by_cases hd : p1.1 - p.1 ≤ 1 / 1000
    · rw [show n + 1 + 3 + extra = (n + 1 + extra) + 1 + 1 + 1 by omega, loop_go _ _ _ _ (.inl ⟨ρ, rfl, not_le.1 hρ⟩), e1, a1]
      by_cases hρ1 : (p.1 - x) ^ 2 ≤ tol
      · exact ⟨p1, loop_stop _ _ _ _ (by omega) hρ1 _ _ _ _, inv_good h i1 hρ1⟩
      obtain ⟨p2, e2, a2, i2⟩ := inv_next h i1
      rw [loop_go _ _ _ _ (.inl ⟨_, rfl, not_le.1 hρ1⟩), e2, a2]
      have hsm : (p1.1 - p.1) ^ 2 ≤ tol := small_step (by linarith [i1.grows]) hd
      exact ⟨p2, loop_stop _ _ _ _ (by omega) hsm _ _ _ _, inv_good h i2 hsm⟩
    · rw [show n + 1 + 3 + extra = (n + 3 + extra) + 1 by omega, loop_go _ _ _ _ (.inl ⟨ρ, rfl, not_le.1 hρ⟩), e1, a1]
      refine ih extra _ _ p1 (step + 1) (by omega) i1 ?_
      push_cast at hn
      linarith [not_le.1 hd]

/-- **C117 (convergence).** Where the curve meets the circle before the limit point, the solver returns after finitely many passes; the
point lies on the circle, above the curve by at most `(10⁻⁶ / (1 - 2t))²`, and left of the meeting point by at most that over
`1 - 2t`. -/
theorem C117_converges (h : Target c r t) (n fuel : Nat) (hn : t - c.1 ≤ n / 1000) (hf : n + 5 ≤ fuel) :
    ∃ p, arcLengthSolver (-1) r fuel (some c) = some (some p) ∧ OnCircle c r p ∧ c.1 < p.1 ∧ p.1 ≤ t ∧ 0 ≤ p.2 - curve p.1
      ∧ (1 - 2 * t) ^ 2 * (p.2 - curve p.1) ≤ 1 / 10 ^ 12 ∧ (1 - 2 * t) * (t - p.1) ≤ p.2 - curve p.1 := by
  obtain ⟨extra, rfl⟩ : ∃ extra, fuel = n + 3 + extra + 1 + 1 := ⟨fuel - (n + 5), by omega⟩
  obtain ⟨u0, l0⟩ := c
  obtain ⟨p1, e1, b1, b2, b3⟩ := pass_target h u0 l0 le_rfl h.right.le
  have hr1 := C117_residual (u0, l0) r u0 l0 p1 e1
  have hl := h.limit
  have hri : u0 < t := h.right
  have hp1 : u0 < p1.1 := by
    refine lt_of_le_of_ne b1 fun e => ?_
    rw [← e] at b3
    have : 0 < (1 - 2 * t) * (t - u0) := mul_pos (by linarith) (by linarith)
    nlinarith
  obtain ⟨p2, e2, c1, c2, c3⟩ := pass_target h p1.1 p1.2 b1 b2
  have hr2 := C117_residual (u0, l0) r p1.1 p1.2 p2 e2
  have a2 : |internalForce p1.1 + p1.2 * (-1)| = (p1.1 - u0) ^ 2 := by
    have : internalForce p1.1 + p1.2 * (-1) = -(p1.1 - u0) ^ 2 := by
      rw [← hr1.1]; unfold internalForce curve; ring
    rw [this, abs_neg, abs_of_nonneg (sq_nonneg _)]
  have i2 : Inv (u0, l0) r t p1.1 ((p1.1 - u0) ^ 2) p1.1 p2 := ⟨hr2.2, b1, le_rfl, c1, c2, hr2.1, b3, c3⟩
  have hn' : t - p2.1 ≤ n * (1 / 1000) := by
    have h1 := i2.grows
    have h2 : (u0, l0).1 = u0 := rfl
    rw [h2] at hn
    linarith
  obtain ⟨p, hp, hg⟩ := loop_good h n extra _ _ p2 2 le_rfl i2 hn'
  refine ⟨p, ?_, hg.1, ?_, hg.2.2.1, hg.2.2.2.1, ?_, hg.2.2.2.2.2⟩
  · rw [arcLengthSolver, loop_go _ _ _ _ (.inr (by omega)), e1, loop_go _ _ _ _ (.inr (by omega)), e2, a2]
    exact hp
  · exact hp1.trans_le hg.2.1
  · refine hg.2.2.2.2.1.trans ?_
    unfold tol; norm_num

end JaxFem.ArcDemo
