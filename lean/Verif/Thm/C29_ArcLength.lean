import Verif.Spec.ArcLength
import Verif.Spec.Newton
import Verif.Thm.C18_Newton

/-!
# C29-C31: the arc-length corrector
-/

namespace JaxFem

/-! ### Helper lemmas -/

section
variable {N : Nat}

/-- The constraint along the line of the corrector is a quadratic in the increment of `lambda`. -/
theorem arc_quadratic (psi : ℝ) (w dU ubar ut : Fin N → ℝ) (dLam d l : ℝ) :
    OnArc psi w l (dU + (ubar + d • ut)) (dLam + d) ↔
      (∑ i, ut i ^ 2 + psi ^ 2 * ∑ i, w i ^ 2) * d ^ 2 +
      (2 * ∑ i, (dU i + ubar i) * ut i + 2 * psi ^ 2 * dLam * ∑ i, w i ^ 2) * d +
      (∑ i, (dU i + ubar i) ^ 2 + psi ^ 2 * dLam ^ 2 * ∑ i, w i ^ 2 - l ^ 2) = 0 := by
  have e : ∑ i, (dU + (ubar + d • ut)) i ^ 2 =
      ∑ i, (dU i + ubar i) ^ 2 + 2 * d * ∑ i, (dU i + ubar i) * ut i + d ^ 2 * ∑ i, ut i ^ 2 := by
    rw [Finset.mul_sum, Finset.mul_sum, ← Finset.sum_add_distrib, ← Finset.sum_add_distrib]
    refine Finset.sum_congr rfl fun i _ => ?_
    simp only [Pi.add_apply, Pi.smul_apply, smul_eq_mul]
    ring
  rw [OnArc, e]
  constructor <;> intro h <;> linear_combination h

theorem quadratic_roots {a b c : ℝ} (ha : 2 * a ≠ 0) (hd : ¬ b ^ 2 - 4 * a * c < 0) (d : ℝ) :
    a * d ^ 2 + b * d + c = 0 ↔
      d = (-b + √(b ^ 2 - 4 * a * c)) / (2 * a) ∨ d = (-b - √(b ^ 2 - 4 * a * c)) / (2 * a) := by
  have ha' : a ≠ 0 := fun h => ha (by rw [h, mul_zero])
  have hs := Real.mul_self_sqrt (not_lt.1 hd)
  have h := quadratic_eq_zero_iff (a := a) (b := b) (c := c) (s := √(b ^ 2 - 4 * a * c)) ha'
    (by rw [discrim, hs]) d
  rw [← h]
  constructor <;> intro h' <;> linear_combination h'

/-- What a successful correction does. -/
theorem arcCorrect_spec {psi deltaL : ℝ} {w prevU ubar ut : Fin N → ℝ} {prevLam : ℝ}
    {s t : ArcState N} (h : arcCorrect psi deltaL w prevU prevLam ubar ut s = .ok t) :
    ∃ d e : ℝ, t.u = s.u + (ubar + d • ut) ∧ t.lam = s.lam + d ∧ t.dirU = t.u - prevU ∧
      t.dirLam = t.lam - prevLam ∧
      (∀ x, OnArc psi w deltaL (s.u - prevU + (ubar + x • ut)) (s.lam - prevLam + x) ↔ x = d ∨ x = e) ∧
      (e ≤ d ∧
        |arcInner psi w (s.dirU, s.dirLam) (s.u + (ubar + d • ut) - prevU, s.lam + d - prevLam)| <
          1 / 10 ^ 10 ∧
        |arcInner psi w (s.dirU, s.dirLam) (s.u + (ubar + e • ut) - prevU, s.lam + e - prevLam)| <
          1 / 10 ^ 10 ∨
       ¬ (|arcInner psi w (s.dirU, s.dirLam) (s.u + (ubar + d • ut) - prevU, s.lam + d - prevLam)| <
          1 / 10 ^ 10 ∧
        |arcInner psi w (s.dirU, s.dirLam) (s.u + (ubar + e • ut) - prevU, s.lam + e - prevLam)| <
          1 / 10 ^ 10) ∧
       arcInner psi w (s.dirU, s.dirLam) (s.u + (ubar + e • ut) - prevU, s.lam + e - prevLam) ≤
       arcInner psi w (s.dirU, s.dirLam) (s.u + (ubar + d • ut) - prevU, s.lam + d - prevLam)) := by
  unfold arcCorrect at h
  extract_lets dU dLam a1 a2 a3 delta1 delta2 dot dot1 dot2 delta lam u at h
  split at h
  · cases h
  rename_i hc
  rw [not_or] at hc
  have ht := (Except.ok.inj h).symm
  have hroots : ∀ x, OnArc psi w deltaL (s.u - prevU + (ubar + x • ut)) (s.lam - prevLam + x) ↔
      x = delta1 ∨ x = delta2 := by
    intro x
    rw [arc_quadratic]
    exact quadratic_roots hc.2 hc.1 x
  have hdot : ∀ x, dot s.dirU s.dirLam (s.u + (ubar + x • ut) - prevU) (s.lam + x - prevLam) =
      arcInner psi w (s.dirU, s.dirLam) (s.u + (ubar + x • ut) - prevU, s.lam + x - prevLam) :=
    fun x => rfl
  have hd1 : dot1 = arcInner psi w (s.dirU, s.dirLam)
    (s.u + (ubar + delta1 • ut) - prevU, s.lam + delta1 - prevLam) := rfl
  have hd2 : dot2 = arcInner psi w (s.dirU, s.dirLam)
    (s.u + (ubar + delta2 • ut) - prevU, s.lam + delta2 - prevLam) := rfl
  have hu : t.u = s.u + (ubar + delta • ut) := by rw [ht]
  have hl : t.lam = s.lam + delta := by rw [ht]
  have h3 : t.dirU = t.u - prevU := by rw [ht]
  have h4 : t.dirLam = t.lam - prevLam := by rw [ht]
  by_cases g : |dot1| < 1 / 10 ^ 10 ∧ |dot2| < 1 / 10 ^ 10
  · have hdel : delta = max delta1 delta2 := if_pos g
    rcases le_total delta1 delta2 with hle | hle
    · rw [max_eq_right hle] at hdel
      refine ⟨delta2, delta1, hdel ▸ hu, hdel ▸ hl, h3, h4, fun x => (hroots x).trans or_comm, ?_⟩
      exact Or.inl ⟨hle, hd2 ▸ g.2, hd1 ▸ g.1⟩
    · rw [max_eq_left hle] at hdel
      refine ⟨delta1, delta2, hdel ▸ hu, hdel ▸ hl, h3, h4, hroots, ?_⟩
      exact Or.inl ⟨hle, hd1 ▸ g.1, hd2 ▸ g.2⟩
  · by_cases g' : dot1 > dot2
    · have hdel : delta = delta1 := by
        show (if _ then _ else _) = _
        rw [if_neg g, if_pos g']
      refine ⟨delta1, delta2, hdel ▸ hu, hdel ▸ hl, h3, h4, hroots, Or.inr ⟨?_, ?_⟩⟩
      · rw [← hd1, ← hd2]; exact g
      · rw [← hd1, ← hd2]; exact g'.le
    · have hdel : delta = delta2 := by
        show (if _ then _ else _) = _
        rw [if_neg g, if_neg g']
      refine ⟨delta2, delta1, hdel ▸ hu, hdel ▸ hl, h3, h4, fun x => (hroots x).trans or_comm,
        Or.inr ⟨?_, ?_⟩⟩
      · rw [← hd1, ← hd2]; exact fun hc => g ⟨hc.2, hc.1⟩
      · rw [← hd1, ← hd2]; exact not_lt.1 g'

/-- The loop is a number of iterations. -/
theorem arcLoop_iters (iter : ArcState N → Except Err (ArcState N × ℝ)) (tol : ℝ) (s0 : ArcState N) :
    ∀ (fuel n : Nat) (s : ArcState N) (r : ℝ), ArcIters iter s0 n s → ∀ t,
      arcLoop iter tol fuel s r = some (.ok t) →
      ∃ m, n ≤ m ∧ ArcIters iter s0 m t ∧ (tol < r → n < m) := by
  intro fuel
  induction fuel with
  | zero => intro n s r _ t h; cases h
  | succ fuel ih =>
    intro n s r hs t h
    rw [arcLoop] at h
    split at h
    · rename_i hr
      rcases hi : iter s with e | ⟨s', r'⟩
      · rw [hi] at h; cases h
      rw [hi] at h
      obtain ⟨m, h1, h2, -⟩ := ih (n + 1) s' r' (.succ n s s' r' hs hi) t h
      exact ⟨m, by omega, h2, fun _ => by omega⟩
    · rename_i hr
      have := Except.ok.inj (Option.some.inj h)
      subst this
      exact ⟨n, le_rfl, hs, fun hc => absurd hc hr⟩

theorem map_ok {α β : Type*} {x : Except Err α} {f : α → β} {b : β} (h : x.map f = .ok b) :
    ∃ a, x = .ok a ∧ f a = b := by
  cases x with
  | error e => cases h
  | ok a => exact ⟨a, rfl, Except.ok.inj h⟩

end

/-! ### Property theorems -/

section
variable {N : Nat} (fes : List FE) (bcs : List (List (BCEntry ℝ)))
  (res : (Fin N → ℝ) → Fin N → ℝ) (tan : (Fin N → ℝ) → Matrix (Fin N) (Fin N) ℝ)
  (spsolve : Matrix (Fin N) (Fin N) ℝ → (Fin N → ℝ) → Fin N → ℝ) (norm : (Fin N → ℝ) → ℝ)

/-- **C29 (displacement control).** After any positive number of corrector iterations, whatever the
linear solver returned, the increment from the last continuation point has arc length `Delta_l`, and
the recorded direction is that increment. -/
theorem C29_constraint_disp (psi deltaL : ℝ) (s0 t : ArcState N) (n : Nat)
    (h : ArcIters (arcDispIter fes bcs res tan spsolve norm psi deltaL s0.u s0.lam) s0 (n + 1) t) :
    OnArc psi (assignBcV fes bcs 0) deltaL (t.u - s0.u) (t.lam - s0.lam) ∧
      t.dirU = t.u - s0.u ∧ t.dirLam = t.lam - s0.lam := by
  cases h with
  | succ _ s _ r _ hi =>
    obtain ⟨t', h1, h2⟩ := map_ok hi
    obtain ⟨rfl, -⟩ := Prod.mk.inj h2
    obtain ⟨d, e, hu, hl, h3, h4, h5, -⟩ := arcCorrect_spec h1
    refine ⟨?_, h3, h4⟩
    have := (h5 d).2 (Or.inl rfl)
    rw [hu, hl, add_sub_right_comm, add_sub_right_comm]
    exact this

/-- **C29 (force control).** -/
theorem C29_constraint_force (qAux : Fin N → ℝ) (psi deltaL : ℝ) (s0 t : ArcState N) (n : Nat)
    (h : ArcIters (arcForceIter fes bcs res tan spsolve norm qAux psi deltaL s0.u s0.lam) s0 (n + 1)
      t) :
    OnArc psi (assignZerosBcV fes bcs qAux) deltaL (t.u - s0.u) (t.lam - s0.lam) ∧
      t.dirU = t.u - s0.u ∧ t.dirLam = t.lam - s0.lam := by
  cases h with
  | succ _ s _ r _ hi =>
    obtain ⟨t', h1, h2⟩ := map_ok hi
    obtain ⟨rfl, -⟩ := Prod.mk.inj h2
    obtain ⟨d, e, hu, hl, h3, h4, h5, -⟩ := arcCorrect_spec h1
    refine ⟨?_, h3, h4⟩
    have := (h5 d).2 (Or.inl rfl)
    rw [hu, hl, add_sub_right_comm, add_sub_right_comm]
    exact this

/-- **C29 (corrector).** Hence, whenever the corrector functions return, the new continuation point is
at arc length `Delta_l` from the old one. -/
theorem C29_corrector (qAux : Fin N → ℝ) (psi deltaL : ℝ) (fuel : Nat) (s0 t : ArcState N) :
    (arcDispSolve fes bcs res tan spsolve norm psi deltaL fuel s0 = some (.ok t) →
      OnArc psi (assignBcV fes bcs 0) deltaL (t.u - s0.u) (t.lam - s0.lam)) ∧
    (arcForceSolve fes bcs res tan spsolve norm qAux psi deltaL fuel s0 = some (.ok t) →
      OnArc psi (assignZerosBcV fes bcs qAux) deltaL (t.u - s0.u) (t.lam - s0.lam)) := by
  have h1 : (1 : ℝ) / 10 ^ 6 < 1 := by norm_num
  constructor
  · intro h
    obtain ⟨m, -, h2, h3⟩ := arcLoop_iters _ _ s0 fuel 0 s0 1 .zero t h
    obtain ⟨k, rfl⟩ : ∃ k, m = k + 1 := ⟨m - 1, by have := h3 h1; omega⟩
    exact (C29_constraint_disp fes bcs res tan spsolve norm psi deltaL s0 t k h2).1
  · intro h
    obtain ⟨m, -, h2, h3⟩ := arcLoop_iters _ _ s0 fuel 0 s0 1 .zero t h
    obtain ⟨k, rfl⟩ : ∃ k, m = k + 1 := ⟨m - 1, by have := h3 h1; omega⟩
    exact (C29_constraint_force fes bcs res tan spsolve norm qAux psi deltaL s0 t k h2).1

/-- **C29 (failure).** A correction fails only with an assertion error, and only when no point of the
corrector line has arc length `Delta_l` or the line is degenerate (`delta_u_t = 0` and
`psi * w = 0`). -/
theorem C29_failure (psi deltaL : ℝ) (w prevU ubar ut : Fin N → ℝ) (prevLam : ℝ) (s : ArcState N)
    (e : Err) (h : arcCorrect psi deltaL w prevU prevLam ubar ut s = .error e) :
    e = .assertion ∧
      ((∀ x, ¬ OnArc psi w deltaL (s.u - prevU + (ubar + x • ut)) (s.lam - prevLam + x)) ∨
        ut = 0 ∧ (psi = 0 ∨ w = 0)) := by
  unfold arcCorrect at h
  extract_lets dU dLam a1 a2 a3 delta1 delta2 dot dot1 dot2 delta lam u at h
  split at h
  · rename_i hc
    cases h
    refine ⟨rfl, ?_⟩
    rcases hc with hc | hc
    · left
      intro x hx
      rw [arc_quadratic] at hx
      have h2 : a1 * x ^ 2 + a2 * x + a3 = 0 := hx
      have h3 : (2 * a1 * x + a2) ^ 2 = a2 ^ 2 - 4 * a1 * a3 := by linear_combination 4 * a1 * h2
      exact absurd (h3 ▸ sq_nonneg (2 * a1 * x + a2)) (not_le.2 hc)
    · right
      have e1 : 0 ≤ ∑ i, ut i ^ 2 := Finset.sum_nonneg fun i _ => sq_nonneg _
      have e2 : 0 ≤ ∑ i, w i ^ 2 := Finset.sum_nonneg fun i _ => sq_nonneg _
      have e3 : 0 ≤ psi ^ 2 * ∑ i, w i ^ 2 := mul_nonneg (sq_nonneg _) e2
      have h1 : ∑ i, ut i ^ 2 + psi ^ 2 * ∑ i, w i ^ 2 = 0 := by
        have : 2 * (∑ i, ut i ^ 2 + psi ^ 2 * ∑ i, w i ^ 2) = 0 := hc
        linarith
      have z : ∀ v : Fin N → ℝ, ∑ i, v i ^ 2 = 0 → v = 0 := by
        intro v hv
        rw [Finset.sum_eq_zero_iff_of_nonneg fun i _ => sq_nonneg _] at hv
        funext i
        exact pow_eq_zero_iff (two_ne_zero) |>.1 (hv i (Finset.mem_univ i))
      refine ⟨z _ (by linarith), ?_⟩
      rcases mul_eq_zero.1 (show psi ^ 2 * ∑ i, w i ^ 2 = 0 by linarith) with h | h
      · exact Or.inl (pow_eq_zero_iff (two_ne_zero) |>.1 h)
      · exact Or.inr (z _ h)
  · cases h

/-- **C31.** Among all points of the corrector line at arc length `Delta_l`, the chosen one has the
largest inner product with the previous direction; only if the inner products of all of them are
negligible (below `1e-10`) it is the one with the largest `lambda`. Both controls. -/
theorem C31_root_selection (qAux : Fin N → ℝ) (psi deltaL : ℝ) (prevU : Fin N → ℝ) (prevLam : ℝ)
    (s t : ArcState N) (r : ℝ) (w : Fin N → ℝ)
    (h : arcDispIter fes bcs res tan spsolve norm psi deltaL prevU prevLam s = .ok (t, r) ∧
        w = assignBcV fes bcs 0 ∨
      arcForceIter fes bcs res tan spsolve norm qAux psi deltaL prevU prevLam s = .ok (t, r) ∧
        w = assignZerosBcV fes bcs qAux) :
    ∃ (ubar ut : Fin N → ℝ) (d : ℝ), t.u = s.u + (ubar + d • ut) ∧ t.lam = s.lam + d ∧
      (∀ x, OnArc psi w deltaL (s.u + (ubar + x • ut) - prevU) (s.lam + x - prevLam) →
        arcInner psi w (s.dirU, s.dirLam) (s.u + (ubar + x • ut) - prevU, s.lam + x - prevLam) ≤
          arcInner psi w (s.dirU, s.dirLam) (t.u - prevU, t.lam - prevLam) ∨
        s.lam + x ≤ t.lam ∧
          |arcInner psi w (s.dirU, s.dirLam) (s.u + (ubar + x • ut) - prevU, s.lam + x - prevLam)| <
            1 / 10 ^ 10 ∧
          |arcInner psi w (s.dirU, s.dirLam) (t.u - prevU, t.lam - prevLam)| < 1 / 10 ^ 10) := by
  have key : ∀ ubar ut : Fin N → ℝ, arcCorrect psi deltaL w prevU prevLam ubar ut s = .ok t →
      ∃ (ubar ut : Fin N → ℝ) (d : ℝ), t.u = s.u + (ubar + d • ut) ∧ t.lam = s.lam + d ∧
      (∀ x, OnArc psi w deltaL (s.u + (ubar + x • ut) - prevU) (s.lam + x - prevLam) →
        arcInner psi w (s.dirU, s.dirLam) (s.u + (ubar + x • ut) - prevU, s.lam + x - prevLam) ≤
          arcInner psi w (s.dirU, s.dirLam) (t.u - prevU, t.lam - prevLam) ∨
        s.lam + x ≤ t.lam ∧
          |arcInner psi w (s.dirU, s.dirLam) (s.u + (ubar + x • ut) - prevU, s.lam + x - prevLam)| <
            1 / 10 ^ 10 ∧
          |arcInner psi w (s.dirU, s.dirLam) (t.u - prevU, t.lam - prevLam)| < 1 / 10 ^ 10) := by
    intro ubar ut h1
    obtain ⟨d, e, hu, hl, -, -, h5, h6⟩ := arcCorrect_spec h1
    refine ⟨ubar, ut, d, hu, hl, fun x hx => ?_⟩
    rw [show s.u + (ubar + x • ut) - prevU = s.u - prevU + (ubar + x • ut) by abel,
      show s.lam + x - prevLam = s.lam - prevLam + x by abel] at hx
    rw [hu, hl]
    rcases (h5 x).1 hx with rfl | rfl
    · exact Or.inl le_rfl
    · rcases h6 with ⟨a, b, c⟩ | ⟨-, b⟩
      · exact Or.inr ⟨by linarith, c, b⟩
      · exact Or.inl b
  rcases h with ⟨h, rfl⟩ | ⟨h, rfl⟩
  · obtain ⟨t', h1, h2⟩ := map_ok h
    obtain ⟨rfl, -⟩ := Prod.mk.inj h2
    exact key _ _ h1
  · obtain ⟨t', h1, h2⟩ := map_ok h
    obtain ⟨rfl, -⟩ := Prod.mk.inj h2
    exact key _ _ h1

/-- **C31 (first step).** With previous direction zero (the first iteration of the first step,
`solver.py:767-768`) the chosen point has the largest `lambda` of all points of the corrector line at
arc length `Delta_l`. -/
theorem C31_first_step (psi deltaL : ℝ) (w prevU ubar ut : Fin N → ℝ) (prevLam : ℝ)
    (s t : ArcState N) (h0 : s.dirU = 0) (h0' : s.dirLam = 0)
    (h : arcCorrect psi deltaL w prevU prevLam ubar ut s = .ok t) (x : ℝ)
    (hx : OnArc psi w deltaL (s.u - prevU + (ubar + x • ut)) (s.lam - prevLam + x)) :
    s.lam + x ≤ t.lam := by
  obtain ⟨d, e, hu, hl, -, -, h5, h6⟩ := arcCorrect_spec h
  have hz : ∀ b, arcInner psi w (s.dirU, s.dirLam) b = 0 := by
    intro b
    simp [arcInner, h0, h0']
  rw [hl]
  rcases h6 with ⟨a, -⟩ | ⟨b, -⟩
  · rcases (h5 x).1 hx with rfl | rfl
    · exact le_rfl
    · linarith
  · exfalso
    apply b
    rw [hz, hz, abs_zero]
    norm_num

end

/-- **C30 (displacement control).** With exact linear solves, after any positive number of corrector
iterations every constrained degree of freedom equals `lambda` times its prescribed value. -/
theorem C30_bc_disp (fes : List FE) (bcs : List (List (BCEntry ℝ))) (h : WFBC fes bcs)
    (res : (Fin (totalDofs fes) → ℝ) → Fin (totalDofs fes) → ℝ)
    (tan : (Fin (totalDofs fes) → ℝ) → Matrix (Fin (totalDofs fes)) (Fin (totalDofs fes)) ℝ)
    (spsolve : Matrix (Fin (totalDofs fes)) (Fin (totalDofs fes)) ℝ → (Fin (totalDofs fes) → ℝ) →
      Fin (totalDofs fes) → ℝ)
    (norm : (Fin (totalDofs fes) → ℝ) → ℝ)
    (hs : ∀ u b, (elimRows fes bcs (tan u)).mulVec (spsolve (elimRows fes bcs (tan u)) b) = b)
    (psi deltaL : ℝ) (prevU : Fin (totalDofs fes) → ℝ) (prevLam : ℝ)
    (s0 t : ArcState (totalDofs fes)) (n : Nat)
    (hn : ArcIters (arcDispIter fes bcs res tan spsolve norm psi deltaL prevU prevLam) s0 (n + 1) t)
    (k : Fin (totalDofs fes)) (v : ℝ) (hk : Prescribed fes bcs k (some v)) : t.u k = t.lam * v := by
  cases hn with
  | succ _ s _ r _ hi =>
    obtain ⟨t', h1, h2⟩ := map_ok hi
    obtain ⟨rfl, -⟩ := Prod.mk.inj h2
    obtain ⟨d, e, hu, hl, -⟩ := arcCorrect_spec h1
    have e1 := congrFun (hs s.u (-applyBcV fes bcs s.lam (res s.u) s.u)) k
    have e2 := congrFun (hs s.u (assignBcV fes bcs 0)) k
    rw [(mulVec_elim fes bcs h _ _ k).2 v hk, Pi.neg_apply,
      (applyBcV_spec fes bcs h s.lam _ s.u k).2 v hk] at e1
    rw [(mulVec_elim fes bcs h _ _ k).2 v hk, (assignBcV_spec fes bcs h _ k).2 v hk] at e2
    rw [hu, hl, Pi.add_apply, Pi.add_apply, Pi.smul_apply, smul_eq_mul, e1, e2]
    ring

/-- **C30 (force control).** With exact linear solves, after any positive number of corrector
iterations every constrained degree of freedom equals its prescribed value. -/
theorem C30_bc_force (fes : List FE) (bcs : List (List (BCEntry ℝ))) (h : WFBC fes bcs)
    (res : (Fin (totalDofs fes) → ℝ) → Fin (totalDofs fes) → ℝ)
    (tan : (Fin (totalDofs fes) → ℝ) → Matrix (Fin (totalDofs fes)) (Fin (totalDofs fes)) ℝ)
    (spsolve : Matrix (Fin (totalDofs fes)) (Fin (totalDofs fes)) ℝ → (Fin (totalDofs fes) → ℝ) →
      Fin (totalDofs fes) → ℝ)
    (norm : (Fin (totalDofs fes) → ℝ) → ℝ)
    (hs : ∀ u b, (elimRows fes bcs (tan u)).mulVec (spsolve (elimRows fes bcs (tan u)) b) = b)
    (qAux : Fin (totalDofs fes) → ℝ)
    (psi deltaL : ℝ) (prevU : Fin (totalDofs fes) → ℝ) (prevLam : ℝ)
    (s0 t : ArcState (totalDofs fes)) (n : Nat)
    (hn : ArcIters (arcForceIter fes bcs res tan spsolve norm qAux psi deltaL prevU prevLam) s0
      (n + 1) t) : SatisfiesBC fes bcs t.u := by
  intro k v hk
  cases hn with
  | succ _ s _ r _ hi =>
    obtain ⟨t', h1, h2⟩ := map_ok hi
    obtain ⟨rfl, -⟩ := Prod.mk.inj h2
    obtain ⟨d, e, hu, hl, -⟩ := arcCorrect_spec h1
    have e1 := congrFun (hs s.u (-(applyBcV fes bcs 1 (res s.u) s.u +
      (1 - s.lam) • assignZerosBcV fes bcs qAux))) k
    have e2 := congrFun (hs s.u (assignZerosBcV fes bcs qAux)) k
    rw [(mulVec_elim fes bcs h _ _ k).2 v hk, Pi.neg_apply, Pi.add_apply, Pi.smul_apply,
      (applyBcV_spec fes bcs h 1 _ s.u k).2 v hk, (assignZerosBcV_spec fes bcs h _ k).2 v hk] at e1
    rw [(mulVec_elim fes bcs h _ _ k).2 v hk, (assignZerosBcV_spec fes bcs h _ k).2 v hk] at e2
    rw [hu, Pi.add_apply, Pi.add_apply, Pi.smul_apply, smul_eq_mul, e1, e2, smul_zero]
    ring

/-! ### Concrete case

One degree of freedom, `w = 2`, `psi = 0`, from rest, `delta_u_bar = 0`, `delta_u_t = 2`,
`Delta_l = 1`: the roots are `1/2` and `-1/2`, and `lambda = 1/2` is chosen. -/

example : arcCorrect (N := 1) 0 1 (fun _ => 2) 0 0 0 (fun _ => 2) ⟨0, 0, 0, 0⟩ =
    .ok ⟨fun _ => 1, 1 / 2, fun _ => 1, 1 / 2⟩ := by
  have h16 : √(16 : ℝ) = 4 := by
    rw [show (16 : ℝ) = 4 ^ 2 by norm_num]; exact Real.sqrt_sq (by norm_num)
  unfold arcCorrect
  norm_num [h16]
  funext i
  norm_num

end JaxFem
