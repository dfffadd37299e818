import Verif.Thm.C46_Subsolv

/-!
# C64: what the MMA subproblem solver returns
-/

namespace JaxFem
namespace MMA

open scoped BigOperators

variable {m n : Nat}

/-- Lagrangian of the subproblem as a function of the design variables. -/
noncomputable def lagrangian (pb : SubProb m n) (lam : Fin m → ℝ) (x : Fin n → ℝ) : ℝ :=
  mmaApprox pb.low pb.upp pb.p0 pb.q0 x + ∑ i, lam i * (mmaApprox pb.low pb.upp (pb.P i) (pb.Q i) x - pb.b i)

/-- Optimality conditions of

minimise `f0(x) + a0 z + Σ (c y + d y²/2)` subject to `f_i(x) - a_i z - y_i ≤ b_i`, `alfa ≤ x ≤ beta`,
`y, z ≥ 0`,

up to `delta`, with complementary products within `delta` of `epsi`. `g j` is the derivative of the
Lagrangian with respect to `x_j`. -/
structure KKTWithin (pb : SubProb m n) (g : Fin n → ℝ) (epsi delta : ℝ) (st : SubState m n) : Prop where
  stat_x : ∀ j, |g j - st.xsi j + st.eta j| ≤ delta
  stat_y : ∀ i, |pb.c i + pb.d i * st.y i - st.mu i - st.lam i| ≤ delta
  stat_z : |pb.a0 - st.zet - ∑ i, pb.a i * st.lam i| ≤ delta
  feas : ∀ i, |mmaApprox pb.low pb.upp (pb.P i) (pb.Q i) st.x - pb.a i * st.z - st.y i + st.s i - pb.b i| ≤ delta
  comp_xsi : ∀ j, |st.xsi j * (st.x j - pb.alfa j) - epsi| ≤ delta
  comp_eta : ∀ j, |st.eta j * (pb.beta j - st.x j) - epsi| ≤ delta
  comp_mu : ∀ i, |st.mu i * st.y i - epsi| ≤ delta
  comp_zet : |st.zet * st.z - epsi| ≤ delta
  comp_s : ∀ i, |st.lam i * st.s i - epsi| ≤ delta

theorem gvec_eq (pb : SubProb m n) (x : Fin n → ℝ) (i : Fin m) :
    gvec pb x i = mmaApprox pb.low pb.upp (pb.P i) (pb.Q i) x := by
  unfold gvec mmaApprox
  rw [← Finset.sum_add_distrib]
  refine Finset.sum_congr rfl fun j _ => ?_
  ring

/-- **C64 (stopping test).** The residual of the code is at most `delta` in every entry exactly when the
optimality conditions hold up to `delta`. -/
theorem C64_residual (pb : SubProb m n) (epsi delta : ℝ) (st : SubState m n) :
    residuMax (subResidual pb epsi st) ≤ delta ↔ KKTWithin pb (dpsidx pb st) epsi delta st := by
  have hne : (subResidual pb epsi st).toList.map abs ≠ [] := by simp [SubState.toList]
  unfold residuMax
  rw [npMax_le _ hne]
  simp only [SubState.toList, List.map_append, List.mem_append, List.mem_map, List.mem_ofFn, List.map_cons,
    List.map_nil, List.mem_singleton]
  constructor
  · intro h
    constructor
    · exact fun j => h _ (by simp [subResidual])
    · exact fun j => h _ (by simp [subResidual])
    · exact h _ (by simp [subResidual])
    · intro i
      rw [← gvec_eq]
      exact h _ (by simp [subResidual])
    · exact fun j => h _ (by simp [subResidual])
    · exact fun j => h _ (by simp [subResidual])
    · exact fun j => h _ (by simp [subResidual])
    · exact h _ (by simp [subResidual])
    · exact fun j => h _ (by simp [subResidual])
  · intro h b hb
    rcases hb with (((((((hb | hb) | hb) | hb) | hb) | hb) | hb) | hb) | hb
    · obtain ⟨_, ⟨j, rfl⟩, rfl⟩ := hb; exact h.stat_x j
    · obtain ⟨_, ⟨j, rfl⟩, rfl⟩ := hb; exact h.stat_y j
    · rw [hb]; exact h.stat_z
    · obtain ⟨_, ⟨j, rfl⟩, rfl⟩ := hb
      have := h.feas j
      rw [← gvec_eq] at this
      exact this
    · obtain ⟨_, ⟨j, rfl⟩, rfl⟩ := hb; exact h.comp_xsi j
    · obtain ⟨_, ⟨j, rfl⟩, rfl⟩ := hb; exact h.comp_eta j
    · obtain ⟨_, ⟨j, rfl⟩, rfl⟩ := hb; exact h.comp_mu j
    · rw [hb]; exact h.comp_zet
    · obtain ⟨_, ⟨j, rfl⟩, rfl⟩ := hb; exact h.comp_s j

theorem hasDerivAt_approx (low upp p q x : Fin n → ℝ) (j : Fin n) (hl : low j < x j) (hu : x j < upp j) :
    HasDerivAt (fun t => mmaApprox low upp p q (Function.update x j t))
      (p j / (upp j - x j) ^ 2 - q j / (x j - low j) ^ 2) (x j) := by
  unfold mmaApprox
  have hsum : HasDerivAt (fun t => ∑ k, (p k / (upp k - Function.update x j t k) +
      q k / (Function.update x j t k - low k)))
      (∑ k, if k = j then p j / (upp j - x j) ^ 2 - q j / (x j - low j) ^ 2 else 0) (x j) := by
    apply HasDerivAt.fun_sum
    intro k _
    by_cases hk : k = j
    · subst hk
      simp only [Function.update_self, if_true]
      exact hasDerivAt_term _ _ _ _ _ hl hu
    · simp only [Function.update_of_ne hk, if_neg hk]
      exact hasDerivAt_const _ _
  rw [Finset.sum_ite_eq' Finset.univ j] at hsum
  simpa using hsum

/-- **C64 (Lagrangian).** `dpsidx` is the derivative of the Lagrangian of the subproblem. -/
theorem C64_lagrangian (pb : SubProb m n) (st : SubState m n) (j : Fin n) (hl : pb.low j < st.x j)
    (hu : st.x j < pb.upp j) :
    HasDerivAt (fun t => lagrangian pb st.lam (Function.update st.x j t)) (dpsidx pb st j) (st.x j) := by
  unfold lagrangian
  have h1 := hasDerivAt_approx pb.low pb.upp pb.p0 pb.q0 st.x j hl hu
  have h2 : HasDerivAt (fun t => ∑ i, st.lam i * (mmaApprox pb.low pb.upp (pb.P i) (pb.Q i)
      (Function.update st.x j t) - pb.b i))
      (∑ i, st.lam i * (pb.P i j / (pb.upp j - st.x j) ^ 2 - pb.Q i j / (st.x j - pb.low j) ^ 2)) (st.x j) := by
    apply HasDerivAt.fun_sum
    intro i _
    exact ((hasDerivAt_approx pb.low pb.upp (pb.P i) (pb.Q i) st.x j hl hu).sub_const _).const_mul _
  refine (h1.add h2).congr_deriv ?_
  unfold dpsidx plam qlam
  have e : ∑ i, st.lam i * (pb.P i j / (pb.upp j - st.x j) ^ 2 - pb.Q i j / (st.x j - pb.low j) ^ 2) =
      (∑ i, pb.P i j * st.lam i) / (pb.upp j - st.x j) ^ 2 - (∑ i, pb.Q i j * st.lam i) / (st.x j - pb.low j) ^ 2 := by
    rw [Finset.sum_div, Finset.sum_div, ← Finset.sum_sub_distrib]
    refine Finset.sum_congr rfl fun i _ => ?_
    ring
  rw [e]
  ring

/-- `k` passes of the inner loop. -/
inductive InnerRun (solve : LinSolve) (pb : SubProb m n) (epsi : ℝ) :
    Nat → SubState m n → ℝ → SubState m n → Prop
  | done (st : SubState m n) (rn : ℝ) : InnerRun solve pb epsi 0 st rn st
  | step {k : Nat} {st st1 st2 : SubState m n} {rn rn1 : ℝ} (hs : innerStep solve pb epsi st rn = .ok (st1, rn1))
      (hr : InnerRun solve pb epsi k st1 rn1 st2) : InnerRun solve pb epsi (k + 1) st rn st2

theorem innerLoop_run (solve : LinSolve) (pb : SubProb m n) (epsi : ℝ) (k : Nat) (st st' : SubState m n)
    (rn : ℝ) (h : innerLoop solve pb epsi k st rn (residuMax (subResidual pb epsi st)) = .ok st') :
    ∃ j ≤ k, InnerRun solve pb epsi j st rn st' ∧ (residuMax (subResidual pb epsi st') ≤ 0.9 * epsi ∨ j = k) := by
  induction k generalizing st rn with
  | zero => cases h; exact ⟨0, le_refl _, .done _ _, Or.inr rfl⟩
  | succ k ih =>
    unfold innerLoop at h
    split_ifs at h with hc
    · rcases hs : innerStep solve pb epsi st rn with e | ⟨st1, rn1⟩
      · rw [hs] at h; cases h
      · rw [hs] at h
        obtain ⟨j, hj, hrun, hor⟩ := ih st1 rn1 h
        exact ⟨j + 1, by omega, .step hs hrun, hor.imp id (by omega)⟩
    · cases h
      exact ⟨0, by omega, .done _ _, Or.inl (not_lt.1 hc)⟩

/-- **C64.** The point returned by `subsolv` satisfies the optimality conditions of the subproblem up to
`0.9e-6` with complementary products within `0.9e-6` of `1e-6`, or the last inner loop used all its 200
iterations (the code does not tell the two apart). In exact arithmetic the smallest barrier parameter is
`1e-6`. -/
theorem C64_kkt (solve : LinSolve) (pb : SubProb m n) (st : SubState m n) (h : subsolv solve pb = .ok st) :
    KKTWithin pb (dpsidx pb st) (1 / 10 ^ 6) (0.9 / 10 ^ 6) st ∨
    ∃ st0, InnerRun solve pb (1 / 10 ^ 6) 200 st0 (residuNorm (subResidual pb (1 / 10 ^ 6) st0)) st := by
  have step : ∀ (k : Nat) (epsi : ℝ) (st0 : SubState m n), 0.0000001 < epsi →
      outerLoop solve pb 0.0000001 (k + 1) epsi st0 = .ok st →
      ∃ st1, outerStep solve pb epsi st0 = .ok st1 ∧ outerLoop solve pb 0.0000001 k (0.1 * epsi) st1 = .ok st := by
    intro k epsi st0 he h
    unfold outerLoop at h
    rw [if_pos he] at h
    rcases hs : outerStep solve pb epsi st0 with e | st1
    · rw [hs] at h; cases h
    · rw [hs] at h; exact ⟨st1, rfl, h⟩
  unfold subsolv at h
  obtain ⟨s1, -, h⟩ := step _ _ _ (by norm_num) h
  obtain ⟨s2, -, h⟩ := step _ _ _ (by norm_num) h
  obtain ⟨s3, -, h⟩ := step _ _ _ (by norm_num) h
  obtain ⟨s4, -, h⟩ := step _ _ _ (by norm_num) h
  obtain ⟨s5, -, h⟩ := step _ _ _ (by norm_num) h
  obtain ⟨s6, -, h⟩ := step _ _ _ (by norm_num) h
  obtain ⟨s7, h7, h⟩ := step _ _ _ (by norm_num) h
  unfold outerLoop at h
  rw [if_neg (by norm_num)] at h
  cases h
  have e : (0.1 * (0.1 * (0.1 * (0.1 * (0.1 * (0.1 * 1))))) : ℝ) = 1 / 10 ^ 6 := by norm_num
  rw [e] at h7
  obtain ⟨j, hj, hrun, hor⟩ := innerLoop_run solve pb _ 200 _ _ _ h7
  rcases hor with hor | rfl
  · left
    rw [← C64_residual]
    exact hor.trans (by norm_num)
  · exact Or.inr ⟨_, hrun⟩

/-- **C64 (step halving).** The halving loop returns the first point `old + 2⁻ᵏ steg d` whose residual norm is not
larger than that of the old point, or the 50th trial point; the returned norm is that of the returned point. -/
theorem C64_line_search (pb : SubProb m n) (epsi : ℝ) (st d : SubState m n) (rn steg : ℝ) (hrn : 0 < rn) :
    let r := lineSearch pb epsi st d rn 50 steg st (2 * rn)
    ∃ k < 50, r.1 = st.move d (steg / 2 ^ k) ∧ r.2 = residuNorm (subResidual pb epsi r.1) ∧
      (∀ i < k, rn < residuNorm (subResidual pb epsi (st.move d (steg / 2 ^ i)))) ∧ (r.2 ≤ rn ∨ k = 49) := by
  have key : ∀ (K : Nat) (steg : ℝ) (cur : SubState m n) (res : ℝ), rn < res →
      let r := lineSearch pb epsi st d rn (K + 1) steg cur res
      ∃ k < K + 1, r.1 = st.move d (steg / 2 ^ k) ∧ r.2 = residuNorm (subResidual pb epsi r.1) ∧
        (∀ i < k, rn < residuNorm (subResidual pb epsi (st.move d (steg / 2 ^ i)))) ∧ (r.2 ≤ rn ∨ k = K) := by
    intro K
    induction K with
    | zero =>
      intro steg cur res hres
      simp only [lineSearch]
      rw [if_pos hres]
      exact ⟨0, by omega, by simp, rfl, fun i hi => absurd hi (by omega), Or.inr rfl⟩
    | succ K ih =>
      intro steg cur res hres
      rw [lineSearch, if_pos hres]
      simp only
      by_cases hc : residuNorm (subResidual pb epsi (st.move d steg)) > rn
      · obtain ⟨k, hk, h1, h2, h3, h4⟩ := ih (steg / 2) (st.move d steg) _ hc
        refine ⟨k + 1, by omega, ?_, h2, ?_, h4.imp id (by omega)⟩
        · rw [h1, div_div, pow_succ']
        · intro i hi
          cases i with
          | zero => simpa using hc
          | succ i =>
            have := h3 i (by omega)
            rwa [div_div, ← pow_succ'] at this
      · rw [lineSearch, if_neg hc]
        exact ⟨0, by omega, by simp, rfl, fun i hi => absurd hi (by omega), Or.inl (not_lt.1 hc)⟩
  exact key 49 steg st (2 * rn) (by linarith)

/-- **C64 (descent).** Over any number of inner iterations from a point with positive residual norm the residual norm
does not increase, unless in some iteration of this run the first 49 halvings of the step all increase it. -/
theorem C64_descent (solve : LinSolve) (pb : SubProb m n) (epsi : ℝ) (he : 0 < epsi) (k : Nat) (st st' : SubState m n)
    (h : innerLoop solve pb epsi k st (residuNorm (subResidual pb epsi st)) (residuMax (subResidual pb epsi st)) =
      .ok st') :
    residuNorm (subResidual pb epsi st') ≤ residuNorm (subResidual pb epsi st) ∨
    ∃ (j : Nat) (s : SubState m n) (dir : (Fin n → ℝ) × ℝ × (Fin m → ℝ)), j < k ∧
      InnerRun solve pb epsi j st (residuNorm (subResidual pb epsi st)) s ∧ mainDirs solve pb epsi s = .ok dir ∧
      ∀ i < 49, residuNorm (subResidual pb epsi s) < residuNorm (subResidual pb epsi
        (s.move (completeDirs pb epsi s dir.1 dir.2.1 dir.2.2)
          (stepLength pb s (completeDirs pb epsi s dir.1 dir.2.1 dir.2.2) / 2 ^ i))) := by
  induction k generalizing st with
  | zero => cases h; exact Or.inl le_rfl
  | succ k ih =>
    unfold innerLoop at h
    split_ifs at h with hc
    · rcases hs : innerStep solve pb epsi st (residuNorm (subResidual pb epsi st)) with e | ⟨st1, rn1⟩
      · rw [hs] at h; cases h
      · rw [hs] at h
        unfold innerStep at hs
        rcases hm : mainDirs solve pb epsi st with e | ⟨dx, dz, dlam⟩
        · rw [hm] at hs; cases hs
        rw [hm] at hs
        have hs' := Except.ok.inj hs
        have hpos : 0 < residuNorm (subResidual pb epsi st) := by
          by_contra hn
          have h0 : residuMax (subResidual pb epsi st) ≤ 0 := by
            have hz := le_antisymm (not_lt.1 hn) (Real.sqrt_nonneg _)
            have hnn : ∀ y ∈ ((subResidual pb epsi st).toList.map fun v => v * v), 0 ≤ y := by
              intro y hy
              obtain ⟨v, -, rfl⟩ := List.mem_map.1 hy
              exact mul_self_nonneg v
            rw [residuNorm, Real.sqrt_eq_zero (List.sum_nonneg hnn)] at hz
            refine (npMax_le _ (by simp [SubState.toList]) 0).2 ?_
            intro b hb
            obtain ⟨v, hv, rfl⟩ := List.mem_map.1 hb
            have := List.single_le_sum hnn (v * v) (List.mem_map.2 ⟨v, hv, rfl⟩)
            rw [hz] at this
            have hv0 : v = 0 := mul_self_eq_zero.1 (le_antisymm this (mul_self_nonneg v))
            rw [hv0, abs_zero]
          linarith [hc]
        obtain ⟨q, hq, q1, q2, q3, q4⟩ := C64_line_search pb epsi st (completeDirs pb epsi st dx dz dlam) _
          (stepLength pb st (completeDirs pb epsi st dx dz dlam)) hpos
        rw [hs'] at q1 q2 q4
        simp only at q1 q2 q4
        have h' : innerLoop solve pb epsi k st1 rn1 (residuMax (subResidual pb epsi st1)) = .ok st' := h
        rw [q2] at h' q4
        rcases q4 with q4 | rfl
        · rcases ih st1 h' with i1 | i1
          · exact Or.inl (i1.trans q4)
          · obtain ⟨j, s, dir, hj, hrun, hdir, hbad⟩ := i1
            refine Or.inr ⟨j + 1, s, dir, by omega, .step (rn1 := rn1) ?_ (q2 ▸ hrun), hdir, hbad⟩
            unfold innerStep
            rw [hm]
            exact hs
        · exact Or.inr ⟨0, st, (dx, dz, dlam), by omega, .done _ _, hm, q3⟩
    · cases h; exact Or.inl le_rfl

/-- The conditions can be met: a one-variable problem and its solution. -/
example : KKTWithin (m := 1) (n := 1) ⟨fun _ => -1, fun _ => 1, fun _ => -0.5, fun _ => 0.5, fun _ => 1, fun _ => 1,
    fun _ _ => 1, fun _ _ => 1, 1, fun _ => 0, fun _ => 2, fun _ => 2, fun _ => 0⟩ (fun _ => 0) 1 0
    ⟨fun _ => 0, fun _ => 1, 1, fun _ => 1, fun _ => 2, fun _ => 2, fun _ => 1, 1, fun _ => 1⟩ := by
  constructor <;> intros <;> norm_num [mmaApprox]

end MMA
end JaxFem
