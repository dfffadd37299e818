import Verif.Thm.C18_Newton
import Mathlib.LinearAlgebra.Matrix.NonsingularInverse

/-!
# C20 and C21: the Newton loop
-/

namespace JaxFem

universe u
variable {K : Type u} [Field K] [LinearOrder K] [IsStrictOrderedRing K]

/-! ### Helper lemmas -/

section
variable {D R : Type u} (update : D → Except Err R) (norm : R → Flt K)
  (step : R → D → Except Err D)

/-- Invariant of the loop: the state is on the path, and unless no step was taken yet the initial
norm is a nonzero finite number. -/
theorem newtonLoop_inv (tol relTol : K) (d0 : D) (r0 : R) (h0 : update d0 = .ok r0) :
    ∀ (fuel n : Nat) (d : D) (r : R), NewtonPath update step d0 n d r →
      (n = 0 ∧ r = r0 ∨ ∃ x, norm r0 = .fin x ∧ x ≠ 0) →
      ∀ out, newtonLoop update norm step tol relTol (norm r0) fuel d r n = some (.ok out) →
        NewtonPath update step d0 out.2.2 out.1 out.2.1 ∧
        (out.2.2 = 0 ∧ out.2.1 = r0 ∨ ∃ x, norm r0 = .fin x ∧ x ≠ 0) ∧
        (((norm out.2.1).div (norm r0)).gt (.fin relTol) && (norm out.2.1).gt (.fin tol)) = false := by
  intro fuel
  induction fuel with
  | zero => intro n d r _ _ out h; simp [newtonLoop] at h
  | succ fuel ih =>
    intro n d r hp hi out h
    rw [newtonLoop] at h
    split at h
    · rename_i hg
      rcases hs : step r d with e | d'
      · rw [hs] at h; cases h
      rw [hs] at h
      dsimp only at h
      rcases hu : update d' with e | r'
      · rw [hu] at h; cases h
      rw [hu] at h
      refine ih (n + 1) d' r' (.next n d d' r r' hp hs hu) (Or.inr ?_) out h
      rcases hi with ⟨-, rfl⟩ | hi
      · rw [Bool.and_eq_true] at hg
        cases hn : norm r with
        | nan => rw [hn] at hg; simp [Flt.gt] at hg
        | inf b => rw [hn] at hg; simp [Flt.gt, Flt.div] at hg
        | fin x =>
          refine ⟨x, rfl, ?_⟩
          rintro rfl
          rw [hn] at hg
          simp [Flt.gt, Flt.div] at hg
      · exact hi
    · rename_i hg
      have := Except.ok.inj (Option.some.inj h)
      subst this
      exact ⟨hp, hi, by simpa using hg⟩

/-- Following a path along which the guard holds. -/
inductive GuardedPath (tol relTol : K) (d0 : D) (r0 : R) : Nat → D → R → Prop
  | start : update d0 = .ok r0 → GuardedPath tol relTol d0 r0 0 d0 r0
  | next (n : Nat) (d d' : D) (r r' : R) : GuardedPath tol relTol d0 r0 n d r →
      ((norm r).div (norm r0)).gt (.fin relTol) = true → (norm r).gt (.fin tol) = true →
      step r d = .ok d' → update d' = .ok r' → GuardedPath tol relTol d0 r0 (n + 1) d' r'

theorem newtonLoop_guarded (tol relTol : K) (d0 : D) (r0 : R) (n : Nat) (d : D) (r : R)
    (hp : GuardedPath update norm step tol relTol d0 r0 n d r) (fuel : Nat) :
    newtonLoop update norm step tol relTol (norm r0) (fuel + n) d0 r0 0 =
      newtonLoop update norm step tol relTol (norm r0) fuel d r n := by
  induction hp generalizing fuel with
  | start => rfl
  | next n d d' r r' _ g1 g2 hs hu ih =>
    rw [show fuel + (n + 1) = (fuel + 1) + n by omega, ih, newtonLoop, g1, g2, hs]
    simp only [Bool.and_self, if_true, hu]

end

/-! ### Property theorems -/

section
variable {D R : Type u} (update : D → Except Err R) (norm : R → Flt K)
  (step : R → D → Except Err D) (finite : D → Bool) (tol relTol : K)

/-- **C20.** If the Newton solver returns, then the returned vector was reached by `n` steps from the
initial guess, the residual evaluated there has finite norm `x`, the vector is finite, and `x` is at
most `tol` or at most `relTol` times the (finite) initial norm. -/
theorem C20_converged (hnorm : ∀ r x, norm r = .fin x → 0 ≤ x) (d0 d : D) (n fuel : Nat)
    (h : newtonSolve update norm step finite tol relTol d0 fuel = some (.ok (d, n))) :
    ∃ r0 r x, update d0 = .ok r0 ∧ NewtonPath update step d0 n d r ∧ update d = .ok r ∧
      norm r = .fin x ∧ finite d = true ∧
      (x ≤ tol ∨ ∃ x0, norm r0 = .fin x0 ∧ x ≤ relTol * x0) := by
  rw [newtonSolve] at h
  rcases h0 : update d0 with e | r0
  · rw [h0] at h; cases h
  rw [h0] at h
  dsimp only at h
  rcases hl : newtonLoop update norm step tol relTol (norm r0) fuel d0 r0 0 with _ | e | ⟨d', r, n'⟩
  · rw [hl] at h; cases h
  · rw [hl] at h; cases h
  rw [hl] at h
  dsimp only at h
  by_cases hf : (norm r).isFinite = true
  swap
  · rw [if_neg hf] at h; cases h
  rw [if_pos hf] at h
  by_cases hd : finite d' = true
  swap
  · rw [if_neg hd] at h; cases h
  rw [if_pos hd] at h
  have := Except.ok.inj (Option.some.inj h)
  obtain ⟨rfl, rfl⟩ := Prod.mk.inj this
  obtain ⟨p1, p2, p3⟩ := newtonLoop_inv update norm step tol relTol d0 r0 h0 fuel 0 d0 r0
    (.start r0 h0) (Or.inl ⟨rfl, rfl⟩) _ hl
  dsimp only at p1 p2 p3
  have hu : update d' = .ok r := by
    cases p1 with
    | start _ h => exact h
    | next _ _ _ _ _ _ _ h => exact h
  cases hn : norm r with
  | nan => rw [hn] at hf; cases hf
  | inf b => rw [hn] at hf; cases hf
  | fin x =>
    refine ⟨r0, r, x, rfl, p1, hu, hn, hd, ?_⟩
    rw [hn] at p3
    rw [Bool.and_eq_false_iff] at p3
    rcases p3 with p3 | p3
    · right
      rcases p2 with ⟨-, rfl⟩ | ⟨x0, e0, hx0⟩
      · rw [hn] at p3
        refine ⟨x, hn, ?_⟩
        by_cases hx : x = 0
        · simp [hx]
        · rw [Flt.div, if_neg hx, div_self hx, Flt.gt_fin_fin, decide_eq_false_iff_not, not_lt] at p3
          have := mul_le_mul_of_nonneg_right p3 (hnorm r x hn)
          rwa [one_mul] at this
      · refine ⟨x0, e0, ?_⟩
        rw [e0, Flt.div, if_neg hx0, Flt.gt_fin_fin, decide_eq_false_iff_not, not_lt] at p3
        have hpos : 0 < x0 := lt_of_le_of_ne (hnorm r0 x0 e0) (Ne.symm hx0)
        rwa [div_le_iff₀ hpos] at p3
    · left
      rw [Flt.gt_fin_fin, decide_eq_false_iff_not, not_lt] at p3
      exact p3

/-- **C20 (NaN).** Whenever the residual norm becomes NaN, at the start or after any number of steps,
the solver stops there with an assertion error. -/
theorem C20_nan_raises (d0 d : D) (r0 r : R) (n : Nat)
    (hp : GuardedPath update norm step tol relTol d0 r0 n d r) (hr : norm r = .nan) (fuel : Nat) :
    newtonSolve update norm step finite tol relTol d0 (fuel + 1 + n) = some (.error .assertion) := by
  have h0 : update d0 = .ok r0 := by
    clear hr
    induction hp with
    | start h => exact h
    | next _ _ _ _ _ _ _ _ _ _ ih => exact ih
  rw [newtonSolve, h0]
  dsimp only
  rw [newtonLoop_guarded update norm step tol relTol d0 r0 n d r hp (fuel + 1), newtonLoop, hr]
  simp [Flt.gt, Flt.div, Flt.isFinite, hr]

/-- **C20 (infinite start).** An infinite initial residual norm is an assertion error. -/
theorem C20_inf_raises (d0 : D) (r0 : R) (h0 : update d0 = .ok r0) (b : Bool) (hr : norm r0 = .inf b)
    (fuel : Nat) :
    newtonSolve update norm step finite tol relTol d0 (fuel + 1) = some (.error .assertion) := by
  rw [newtonSolve, h0]
  dsimp only
  rw [newtonLoop, hr]
  simp [Flt.gt, Flt.div, Flt.isFinite, hr]

/-- **C20 (zero start).** A zero initial residual returns the (finite) initial guess after zero
iterations, for all tolerances. -/
theorem C20_zero_start (d0 : D) (r0 : R) (h0 : update d0 = .ok r0) (hr : norm r0 = .fin 0)
    (hf : finite d0 = true) (fuel : Nat) :
    newtonSolve update norm step finite tol relTol d0 (fuel + 1) = some (.ok (d0, 0)) := by
  rw [newtonSolve, h0]
  dsimp only
  rw [newtonLoop, hr]
  simp [Flt.gt, Flt.div, Flt.isFinite, hr, hf]

end

/-- **C21.** If the residual is affine, the row-eliminated matrix nonsingular, linear solves exact
and the tolerances nonnegative, then (with or without line search) the Newton solver returns after at
most two guard evaluations: either after zero steps with the initial guess, which was already
converged, or after exactly one step with the unique solution of the constrained problem. -/
theorem C21_linear (fes : List FE) (bcs : List (List (BCEntry K))) (h : WFBC fes bcs)
    (T : Matrix (Fin (totalDofs fes)) (Fin (totalDofs fes)) K) (f : Fin (totalDofs fes) → K)
    (hdet : (elimRows fes bcs T).det ≠ 0) (nu : (Fin (totalDofs fes) → K) → K)
    (hnu0 : ∀ r, 0 ≤ nu r) (hnu : ∀ r, nu r = 0 ↔ r = 0)
    (solve : Matrix (Fin (totalDofs fes)) (Fin (totalDofs fes)) K → (Fin (totalDofs fes) → K) →
      (Fin (totalDofs fes) → K) → Except Err (Fin (totalDofs fes) → K)) (hs : ExactSolver solve)
    (hs' : ∀ A b x0, A.det ≠ 0 → ∃ x, solve A b x0 = .ok x)
    (ls : Bool) (tol relTol : K) (htol : 0 ≤ tol) (u0 : Fin (totalDofs fes) → K)
    (fuel : Nat) :
    ∃ u n, newtonSolve (newtonUpdate fes bcs (fun u => T.mulVec u - f) (fun _ => T))
        (fun rA => .fin (nu rA.1)) (newtonStep fes bcs (fun r => .fin (nu r))
        (fun u => T.mulVec u - f) solve ls) (fun _ => true) tol relTol u0 (fuel + 2) =
        some (.ok (u, n)) ∧
      (n = 0 ∧ u = u0 ∧ (nu (applyBcV fes bcs 1 (T.mulVec u0 - f) u0) ≤ tol ∨ 1 ≤ relTol) ∨
       n = 1 ∧ SolvesBVP fes bcs (fun u => T.mulVec u - f) u ∧
        ∀ w, SolvesBVP fes bcs (fun u => T.mulVec u - f) w → w = u) := by
  -- the residual with boundary conditions is affine with matrix `elimRows T`
  have haff : ∀ u w : Fin (totalDofs fes) → K,
      applyBcV fes bcs 1 (T.mulVec (u + w) - f) (u + w) =
        applyBcV fes bcs 1 (T.mulVec u - f) u + (elimRows fes bcs T).mulVec w := by
    intro u w
    funext k
    obtain ⟨o, ho⟩ := prescribed_exists fes bcs h k k.2
    rw [Pi.add_apply]
    cases o with
    | none =>
      rw [(applyBcV_spec fes bcs h 1 _ _ k).1 ho, (applyBcV_spec fes bcs h 1 _ _ k).1 ho,
        (mulVec_elim fes bcs h T w k).1 ho, Matrix.mulVec_add, Pi.sub_apply, Pi.sub_apply,
        Pi.add_apply]
      ring
    | some v =>
      rw [(applyBcV_spec fes bcs h 1 _ _ k).2 v ho, (applyBcV_spec fes bcs h 1 _ _ k).2 v ho,
        (mulVec_elim fes bcs h T w k).2 v ho, Pi.add_apply]
      ring
  have hsol : ∀ u : Fin (totalDofs fes) → K, applyBcV fes bcs 1 (T.mulVec u - f) u = 0 ↔
      SolvesBVP fes bcs (fun u => T.mulVec u - f) u := by
    intro u
    constructor
    · intro h0
      refine ⟨fun k v hp => ?_, fun k hp => ?_⟩
      · have := congrFun h0 k
        rw [(applyBcV_spec fes bcs h 1 _ _ k).2 v hp, Pi.zero_apply, mul_one, sub_eq_zero] at this
        exact this
      · have := congrFun h0 k
        rwa [(applyBcV_spec fes bcs h 1 _ _ k).1 hp] at this
    · rintro ⟨h1, h2⟩
      funext k
      obtain ⟨o, ho⟩ := prescribed_exists fes bcs h k k.2
      cases o with
      | none => rw [(applyBcV_spec fes bcs h 1 _ _ k).1 ho]; exact h2 k ho
      | some v =>
        rw [(applyBcV_spec fes bcs h 1 _ _ k).2 v ho, h1 k v ho, mul_one, sub_self, Pi.zero_apply]
  have hinj : ∀ w : Fin (totalDofs fes) → K, (elimRows fes bcs T).mulVec w = 0 → w = 0 := by
    intro w hw
    have hu : IsUnit (elimRows fes bcs T).det := isUnit_iff_ne_zero.2 hdet
    have := congrArg ((elimRows fes bcs T)⁻¹.mulVec) hw
    rwa [Matrix.mulVec_mulVec, Matrix.nonsing_inv_mul _ hu, Matrix.one_mulVec, Matrix.mulVec_zero]
      at this
  set r0 := applyBcV fes bcs 1 (T.mulVec u0 - f) u0 with hr0
  rw [newtonSolve]
  simp only [newtonUpdate]
  rw [← hr0, newtonLoop]
  by_cases hg : ((Flt.fin (nu r0)).div (.fin (nu r0))).gt (.fin relTol) = true ∧
      (Flt.fin (nu r0)).gt (.fin tol) = true
  swap
  · rw [if_neg (by rw [Bool.and_eq_true]; exact hg)]
    refine ⟨u0, 0, by simp [Flt.isFinite], Or.inl ⟨rfl, rfl, ?_⟩⟩
    rw [not_and_or] at hg
    by_cases hz : nu r0 = 0
    · left; rw [hz]; exact htol
    rcases hg with hg | hg
    · right
      rw [Flt.div, if_neg hz, div_self hz, Flt.gt_fin_fin, decide_eq_true_eq, not_lt] at hg
      exact hg
    · left
      rw [Flt.gt_fin_fin, decide_eq_true_eq, not_lt] at hg
      exact hg
  rw [if_pos (by rw [Bool.and_eq_true]; exact hg)]
  have hpos : 0 < nu r0 := by
    have := hg.2
    rw [Flt.gt_fin_fin, decide_eq_true_eq] at this
    exact lt_of_le_of_lt htol this
  have hrne : r0 ≠ 0 := fun hc => by rw [(hnu r0).2 hc] at hpos; exact lt_irrefl _ hpos
  obtain ⟨inc, hinc⟩ := hs' (elimRows fes bcs T) (-r0) (newtonX0 fes bcs u0) hdet
  have hinc' := hs _ _ _ _ hinc
  have hstep : newtonStep fes bcs (fun r => .fin (nu r)) (fun u => T.mulVec u - f) solve ls
      (r0, elimRows fes bcs T) u0 = .ok (u0 + inc) := by
    simp only [newtonStep, hinc, bind, Except.bind, pure, Except.pure]
    cases ls with
    | false => rfl
    | true =>
      simp only [if_true, lineSearch]
      have h1 : applyBcV fes bcs 1 (T.mulVec (u0 + (1 : K) • inc) - f) (u0 + (1 : K) • inc) = 0 := by
        rw [haff, ← hr0, one_smul, hinc', add_neg_cancel]
      have h2 : applyBcV fes bcs 1 (T.mulVec (u0 + (1 / 2 : K) • inc) - f) (u0 + (1 / 2 : K) • inc)
          = (1 / 2 : K) • r0 := by
        rw [haff, ← hr0, Matrix.mulVec_smul, hinc']
        funext k
        simp only [Pi.add_apply, Pi.smul_apply, Pi.neg_apply, smul_eq_mul]
        ring
      have h3 : 0 < nu ((1 / 2 : K) • r0) := by
        refine lt_of_le_of_ne (hnu0 _) (Ne.symm fun hc => hrne ?_)
        have := (hnu _).1 hc
        rcases smul_eq_zero.1 this with h | h
        · norm_num at h
        · exact h
      have ha : lineSearchAlpha (fun alpha : K => Flt.fin (nu (applyBcV fes bcs 1
          (T.mulVec (u0 + alpha • inc) - f) (u0 + alpha • inc)))) = 1 := by
        rw [lineSearchAlpha_eq, if_pos]
        rw [h1, h2, (hnu 0).2 rfl, Flt.gt_fin_fin, decide_eq_true_eq]
        exact h3
      rw [ha, one_smul]
  have hz : applyBcV fes bcs 1 (T.mulVec (u0 + inc) - f) (u0 + inc) = 0 := by
    rw [haff, ← hr0, hinc', add_neg_cancel]
  rw [hstep]
  dsimp only
  simp only [newtonUpdate]
  rw [hz, newtonLoop, if_neg]
  · refine ⟨u0 + inc, 1, by simp [Flt.isFinite], Or.inr ⟨rfl, (hsol _).1 hz, ?_⟩⟩
    intro w hw
    have hw0 := (hsol w).2 hw
    have e : w = (u0 + inc) + (w - (u0 + inc)) := by abel
    rw [e, haff, hz, zero_add] at hw0
    exact sub_eq_zero.1 (hinj _ hw0)
  · rw [Bool.and_eq_true, not_and_or]
    right
    rw [(hnu 0).2 rfl, Flt.gt_fin_fin, decide_eq_true_eq, not_lt]
    exact htol

/-- **C21 (independence).** With `tol = 0` and `relTol < 1` the result of an affine problem does not
depend on the initial guess. -/
theorem C21_independent (fes : List FE) (bcs : List (List (BCEntry K))) (h : WFBC fes bcs)
    (T : Matrix (Fin (totalDofs fes)) (Fin (totalDofs fes)) K) (f : Fin (totalDofs fes) → K)
    (hdet : (elimRows fes bcs T).det ≠ 0) (nu : (Fin (totalDofs fes) → K) → K)
    (hnu0 : ∀ r, 0 ≤ nu r) (hnu : ∀ r, nu r = 0 ↔ r = 0)
    (solve : Matrix (Fin (totalDofs fes)) (Fin (totalDofs fes)) K → (Fin (totalDofs fes) → K) →
      (Fin (totalDofs fes) → K) → Except Err (Fin (totalDofs fes) → K)) (hs : ExactSolver solve)
    (hs' : ∀ A b x0, A.det ≠ 0 → ∃ x, solve A b x0 = .ok x)
    (ls : Bool) (relTol : K) (hrel : relTol < 1) :
    ∃ u, ∀ (u0 : Fin (totalDofs fes) → K) (fuel : Nat), ∃ n ≤ 1,
      newtonSolve (newtonUpdate fes bcs (fun u => T.mulVec u - f) (fun _ => T))
        (fun rA => .fin (nu rA.1)) (newtonStep fes bcs (fun r => .fin (nu r))
        (fun u => T.mulVec u - f) solve ls) (fun _ => true) 0 relTol u0 (fuel + 2) =
        some (.ok (u, n)) := by
  have key : ∀ (u0 : Fin (totalDofs fes) → K) (fuel : Nat), ∃ u n, n ≤ 1 ∧
      newtonSolve (newtonUpdate fes bcs (fun u => T.mulVec u - f) (fun _ => T))
        (fun rA => .fin (nu rA.1)) (newtonStep fes bcs (fun r => .fin (nu r))
        (fun u => T.mulVec u - f) solve ls) (fun _ => true) 0 relTol u0 (fuel + 2) =
        some (.ok (u, n)) ∧ (elimRows fes bcs T).mulVec u =
          - applyBcV fes bcs 1 (T.mulVec 0 - f) 0 := by
    intro u0 fuel
    obtain ⟨u, n, h1, h2⟩ := C21_linear fes bcs h T f hdet nu hnu0 hnu solve hs hs' ls 0 relTol
      le_rfl u0 fuel
    have hz : applyBcV fes bcs 1 (T.mulVec u - f) u = 0 := by
      rcases h2 with ⟨-, rfl, h2 | h2⟩ | ⟨-, ⟨h2, h3⟩, -⟩
      · exact (hnu _).1 (le_antisymm h2 (hnu0 _))
      · exact absurd hrel (not_lt.2 h2)
      · funext k
        obtain ⟨o, ho⟩ := prescribed_exists fes bcs h k k.2
        cases o with
        | none => rw [(applyBcV_spec fes bcs h 1 _ _ k).1 ho]; exact h3 k ho
        | some v =>
          rw [(applyBcV_spec fes bcs h 1 _ _ k).2 v ho, h2 k v ho, mul_one, sub_self, Pi.zero_apply]
    refine ⟨u, n, ?_, h1, ?_⟩
    · rcases h2 with ⟨h, -⟩ | ⟨h, -⟩ <;> omega
    · funext k
      have hk := congrFun hz k
      obtain ⟨o, ho⟩ := prescribed_exists fes bcs h k k.2
      rw [Pi.neg_apply]
      cases o with
      | none =>
        rw [(applyBcV_spec fes bcs h 1 _ _ k).1 ho, Pi.zero_apply, Pi.sub_apply] at hk
        rw [(mulVec_elim fes bcs h T u k).1 ho, (applyBcV_spec fes bcs h 1 _ _ k).1 ho,
          Matrix.mulVec_zero, zero_sub, Pi.neg_apply, neg_neg]
        exact sub_eq_zero.1 hk
      | some v =>
        rw [(applyBcV_spec fes bcs h 1 _ _ k).2 v ho, Pi.zero_apply] at hk
        rw [(mulVec_elim fes bcs h T u k).2 v ho, (applyBcV_spec fes bcs h 1 _ _ k).2 v ho,
          Pi.zero_apply, zero_sub, neg_neg]
        exact sub_eq_zero.1 hk
  obtain ⟨u, -, -, -, hu⟩ := key 0 0
  refine ⟨u, fun u0 fuel => ?_⟩
  obtain ⟨w, n, hn, hw, hw'⟩ := key u0 fuel
  have huw : w = u := by
    have hunit : IsUnit (elimRows fes bcs T).det := isUnit_iff_ne_zero.2 hdet
    have := congrArg ((elimRows fes bcs T)⁻¹.mulVec) (hw'.trans hu.symm)
    rwa [Matrix.mulVec_mulVec, Matrix.mulVec_mulVec, Matrix.nonsing_inv_mul _ hunit,
      Matrix.one_mulVec, Matrix.one_mulVec] at this
  exact ⟨n, hn, by rw [hw, huw]⟩

/-! ### Concrete cases for the hypotheses -/

/-- An exact linear solver. -/
noncomputable def exactSolve {N : Nat} (A : Matrix (Fin N) (Fin N) ℚ) (b _x0 : Fin N → ℚ) :
    Except Err (Fin N → ℚ) := if A.det = 0 then .error .runtime else .ok (A⁻¹.mulVec b)

example (N : Nat) : ExactSolver (exactSolve (N := N)) ∧
    ∀ A b x0, A.det ≠ 0 → ∃ x, exactSolve (N := N) A b x0 = .ok x := by
  constructor
  · intro A b x0 x hx
    rw [exactSolve] at hx
    by_cases hd : A.det = 0
    · rw [if_pos hd] at hx; cases hx
    · rw [if_neg hd] at hx
      rw [← Except.ok.inj hx, Matrix.mulVec_mulVec,
        Matrix.mul_nonsing_inv _ (isUnit_iff_ne_zero.2 hd), Matrix.one_mulVec]
  · intro A b x0 hd
    exact ⟨_, by rw [exactSolve, if_neg hd]⟩

/-- The sum of absolute values is a norm as needed by `C21_linear`. -/
example (N : Nat) (r : Fin N → ℚ) : 0 ≤ ∑ k, |r k| ∧ (∑ k, |r k| = 0 ↔ r = 0) := by
  refine ⟨Finset.sum_nonneg fun k _ => abs_nonneg _, ?_⟩
  rw [Finset.sum_eq_zero_iff_of_nonneg fun k _ => abs_nonneg _]
  simp [funext_iff]

/-- The identity stays nonsingular under row elimination (`exBcFes`, `exBcs` of C16). -/
example : (elimRows (N := 8) exBcFes exBcs (1 : Matrix (Fin 8) (Fin 8) ℤ)).det ≠ 0 := by
  have : elimRows (N := 8) exBcFes exBcs (1 : Matrix (Fin 8) (Fin 8) ℤ) = 1 := by
    ext r c
    rw [elimRows_apply]
    split <;> simp [Matrix.one_apply]
  rw [this, Matrix.det_one]
  exact one_ne_zero

/-- A run that ends after one step: `D = ℚ`, residual `d - 3`, exact step. -/
example : newtonSolve (K := ℚ) (D := ℚ) (R := ℚ) (fun d => .ok (d - 3)) (fun r => .fin |r|)
    (fun r d => .ok (d - r)) (fun _ => true) 0 (1 / 2) 5 7 = some (.ok (3, 1)) := by decide +kernel

/-- A run that meets NaN after one step. -/
example : newtonSolve (K := ℚ) (D := ℚ) (R := ℚ) (fun d => .ok d)
    (fun r => if r = 0 then .nan else .fin |r|)
    (fun _ _ => .ok 0) (fun _ => true) 0 (1 / 2) 5 7 = some (.error .assertion) := by decide +kernel

end JaxFem
