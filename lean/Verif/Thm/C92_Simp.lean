import Verif.Thm.C92_Gradient
import Verif.Model.MMA

/-!
# C92: density-based optimisation, the structure of the notebook
-/

namespace JaxFem

open scoped BigOperators Topology

variable {nq nfq nn dim : Nat}

/-! ### Helper lemmas -/

/-- Rows of the design variables. -/
def rows {n : Nat} (rho : Fin n → ℝ) : List (List ℝ) := List.ofFn fun i => [rho i]

/-- Indices of the design cells. -/
def inds {n N : Nat} (flex : Fin n → Fin N) : List Nat := List.ofFn fun i => (flex i : Nat)

theorem thetas_flex {n N : Nat} (flex : Fin n → Fin N) (hflex : Function.Injective flex) (rho : Fin n → ℝ) (i : Fin n)
    (q : Fin nq) : TopOpt.thetas N (inds flex) (rows rho) (flex i) q = [rho i] := by
  have := (C92_set_params N (inds flex) (rows rho)
    (List.nodup_ofFn.2 (Fin.val_injective.comp hflex)) (by simp [inds, rows])
    (fun c hc => by obtain ⟨i, rfl⟩ := (List.mem_ofFn' _ _).1 hc; exact (flex i).2) q).1 i (by simp [inds])
  simpa [inds, rows] using this

theorem thetas_other {n N : Nat} (hn : 0 < n) (flex : Fin n → Fin N) (hflex : Function.Injective flex)
    (rho : Fin n → ℝ) (c : Fin N) (hc : ∀ i, flex i ≠ c) (q : Fin nq) :
    TopOpt.thetas N (inds flex) (rows rho) c q = [1] := by
  have := (C92_set_params N (inds flex) (rows rho)
    (List.nodup_ofFn.2 (Fin.val_injective.comp hflex)) (by simp [inds, rows])
    (fun c hc => by obtain ⟨i, rfl⟩ := (List.mem_ofFn' _ _).1 hc; exact (flex i).2) q).2.1 c c.2 (by
      intro hm
      obtain ⟨i, hi⟩ := (List.mem_ofFn' _ _).1 hm
      exact hc i (Fin.ext hi))
  rw [this]
  have : ((rows rho).getD 0 []).length = 1 := by
    rw [rows, List.getD_eq_getElem?_getD, List.getElem?_eq_getElem (by simpa using hn)]
    simp
  rw [this]
  rfl

/-- The modulus at a quadrature point as a function of the densities. -/
theorem young_thetas {n N : Nat} (hn : 0 < n) (flex : Fin n → Fin N) (hflex : Function.Injective flex)
    (Emax Emin : ℝ) (penal : Nat) (c : Fin N) (q : Fin nq) :
    (∃ i, flex i = c ∧ ∀ rho : Fin n → ℝ, TopOpt.young Emax Emin penal
      (TopOpt.thetas N (inds flex) (rows rho) c q) = Emin + (Emax - Emin) * rho i ^ penal) ∨
    ((∀ i, flex i ≠ c) ∧ ∀ rho : Fin n → ℝ, TopOpt.young Emax Emin penal
      (TopOpt.thetas N (inds flex) (rows rho) c q) = Emax) := by
  by_cases hc : ∃ i, flex i = c
  · obtain ⟨i, rfl⟩ := hc
    refine .inl ⟨i, rfl, fun rho => ?_⟩
    rw [thetas_flex flex hflex]
    rfl
  · have hc' : ∀ i, flex i ≠ c := fun i hi => hc ⟨i, hi⟩
    refine .inr ⟨hc', fun rho => ?_⟩
    rw [thetas_other hn flex hflex rho c hc']
    simp [TopOpt.young]

theorem young_pos {n N : Nat} (hn : 0 < n) (flex : Fin n → Fin N) (hflex : Function.Injective flex)
    (Emax Emin : ℝ) (hmin : 0 < Emin) (hmax : Emin ≤ Emax) (penal : Nat) (rho : Fin n → ℝ) (hr : ∀ i, 0 ≤ rho i)
    (c : Fin N) (q : Fin nq) : Emin ≤ TopOpt.young Emax Emin penal (TopOpt.thetas N (inds flex) (rows rho) c q) := by
  rcases young_thetas hn flex hflex Emax Emin penal c q with ⟨i, -, h⟩ | ⟨-, h⟩
  · rw [h]
    have := mul_nonneg (sub_nonneg.2 hmax) (pow_nonneg (hr i) penal)
    linarith
  · rw [h]; exact hmax

theorem young_smooth {n N : Nat} (hn : 0 < n) (flex : Fin n → Fin N) (hflex : Function.Injective flex)
    (Emax Emin : ℝ) (penal : Nat) (c : Fin N) (q : Fin nq) :
    ContDiff ℝ 1 fun rho : Fin n → ℝ => TopOpt.young Emax Emin penal
      (TopOpt.thetas N (inds flex) (rows rho) c q) := by
  rcases young_thetas hn flex hflex Emax Emin penal c q with ⟨i, -, h⟩ | ⟨-, h⟩
  · simp only [h]
    exact contDiff_const.add (contDiff_const.mul ((contDiff_apply ℝ ℝ i).pow penal))
  · simp only [h]
    exact contDiff_const

theorem young_fderiv {n N : Nat} (hn : 0 < n) (flex : Fin n → Fin N) (hflex : Function.Injective flex)
    (Emax Emin : ℝ) (penal : Nat) (c : Fin N) (q : Fin nq) (rho : Fin n → ℝ) (i : Fin n) :
    fderiv ℝ (fun rho : Fin n → ℝ => TopOpt.young Emax Emin penal
      (TopOpt.thetas N (inds flex) (rows rho) c q)) rho (Pi.single i 1)
      = if flex i = c then penal * (Emax - Emin) * rho i ^ (penal - 1) else 0 := by
  rcases young_thetas hn flex hflex Emax Emin penal c q with ⟨j, hj, h⟩ | ⟨hc, h⟩
  · simp only [h]
    have h1 : HasFDerivAt (fun rho : Fin n → ℝ => rho j) (ContinuousLinearMap.proj (R := ℝ) (φ := fun _ => ℝ) j) rho :=
      (ContinuousLinearMap.proj (R := ℝ) (φ := fun _ => ℝ) j).hasFDerivAt
    have h2 := ((h1.pow penal).const_mul (Emax - Emin)).const_add Emin
    rw [h2.fderiv]
    by_cases hij : i = j
    · subst hij
      simp [hj]
      ring
    · have : flex i ≠ c := fun hf => hij (hflex (hf.trans hj.symm))
      simp [this, Pi.single_eq_of_ne (Ne.symm hij)]
  · simp only [h]
    simp [hc i]

/-- A linear solver for regular matrices exists. -/
theorem exists_exact_solver (N : Nat) : ∃ solve : Matrix (Fin N) (Fin N) ℝ → (Fin N → ℝ) → (Fin N → ℝ) →
    Except Err (Fin N → ℝ), ExactSolver solve ∧ ∀ A b x0, A.det ≠ 0 → ∃ x, solve A b x0 = .ok x := by
  classical
  refine ⟨fun A b _ => if A.det ≠ 0 then .ok (A⁻¹.mulVec b) else .error .value, ?_, ?_⟩
  · intro A b x0 x hx
    by_cases hd : A.det ≠ 0
    · simp only [if_pos hd] at hx
      injection hx with hx
      rw [← hx, Matrix.mulVec_mulVec, Matrix.mul_nonsing_inv _ (isUnit_iff_ne_zero.2 hd), Matrix.one_mulVec]
    · simp only [if_neg hd] at hx
      cases hx
  · intro A b x0 hd
    exact ⟨_, if_pos hd⟩

section

variable (P : Problem1 (List ℝ) nq nfq nn dim dim) (h : P.WF) (hpos : P.PositiveMeasure) (hl : P.DeadLoad)
  (Emax Emin : ℝ) (penal : Nat) (hmin : 0 < Emin) (hmax : Emin ≤ Emax)
  (C : (Fin dim → Fin dim → ℝ) →ₗ[ℝ] (Fin dim → Fin dim → ℝ)) (hC : P.Scaled (TopOpt.young Emax Emin penal) C)
  (hdef : ∀ G, contract (C G) G = 0 → symPart G = 0)
  (hdet : ∀ cell ∈ P.cells, P.el.StrainDetermines (coords nn P.points cell.nodes))
  (bcs : List (List (BCEntry ℝ))) (hb : WFBC P.fes bcs) (hz : ZeroValues bcs)
  (hheld : ∀ n < P.numTotalNodes, P.Held (fun n c => FreeDof (bcs.getD 0 []) n c) n)
  {n : Nat} (hn : 0 < n) (flex : Fin n → Fin P.cells.length) (hflex : Function.Injective flex)

include h hpos hl hC hdef hdet hb hheld

theorem scaled_exists (iv : Nat → Fin nq → List ℝ)
    (he : ∀ c < P.cells.length, ∀ q, 0 < TopOpt.young Emax Emin penal (iv c q)) :
    ∃ u, SolvesBVP P.fes bcs (P.flatIv iv) u ∧ ∀ w, SolvesBVP P.fes bcs (P.flatIv iv) w → w = u := by
  obtain ⟨T', f, hT'⟩ : ∃ (T' : Matrix (Fin (totalDofs P.fes)) (Fin (totalDofs P.fes)) ℝ)
      (f : Fin (totalDofs P.fes) → ℝ), ∀ x, P.flatIv iv x = T'.mulVec x - f :=
    C74_affine (P.atIv iv) (atIv_WF P h iv) (scaled_affine P hl _ C hC iv)
  have hflat : P.flatIv iv = fun x => matCLM T' x - f := by
    funext x
    exact hT' x
  obtain ⟨solve, hs, hs'⟩ := exists_exact_solver (totalDofs P.fes)
  obtain ⟨u, h1, h2, -⟩ := C92_solver P h hpos hl _ C hC hdef hdet bcs hb hheld iv he (fun _ => T') (fun x => by
      show HasFDerivAt (P.flatIv iv) (matCLM T') x
      rw [hflat]
      exact (matCLM T').hasFDerivAt.sub_const f) (fun r => ‖r‖) (fun r => norm_nonneg r) (fun r => norm_eq_zero)
    solve hs hs' false 0 one_pos
  exact ⟨u, h1, h2⟩

include hmin hmax hz hn hflex

/-! ### Property theorems -/

/-- **C92 (densities).** With the interpolated modulus of the notebook (`Emin > 0`), for a supported structure: for all
nonnegative densities there is exactly one equilibrium and `compute_compliance` returns a number `J rho` for it; `J` is
nonnegative, does not increase with the densities, lies between the value for full material and `Emax / Emin` times it
for densities up to one, and its gradient is minus the derivative of the modulus times the energy of the cell, which
has no positive entry. -/
theorem C92_densities : ∃ J : (Fin n → ℝ) → ℝ,
    (∀ rho, (∀ i, 0 ≤ rho i) → ∃ u,
      SolvesBVP P.fes bcs (P.flatIv (TopOpt.thetas P.cells.length (inds flex) (rows rho))) u ∧
      (∀ w, SolvesBVP P.fes bcs (P.flatIv (TopOpt.thetas P.cells.length (inds flex) (rows rho))) w → w = u) ∧
      TopOpt.computeCompliance (TopOpt.setParams P (inds flex) (rows rho)) (P.solArray u) = .ok (J rho) ∧ 0 ≤ J rho ∧
      HasFDerivAt J (dotCLM fun i => -(penal * (Emax - Emin) * rho i ^ (penal - 1))
        * ∑ q, P.energyAt C (P.vecField u) (flex i) q) rho ∧
      ∀ i, -(penal * (Emax - Emin) * rho i ^ (penal - 1)) * ∑ q, P.energyAt C (P.vecField u) (flex i) q ≤ 0) ∧
    (∀ rho rho', (∀ i, 0 ≤ rho i) → (∀ i, rho i ≤ rho' i) → J rho' ≤ J rho) ∧
    (∀ rho, (∀ i, 0 ≤ rho i ∧ rho i ≤ 1) → J 1 ≤ J rho ∧ J rho ≤ Emax / Emin * J 1) := by
  classical
  set th : (Fin n → ℝ) → Nat → Fin nq → List ℝ := fun rho => TopOpt.thetas P.cells.length (inds flex) (rows rho)
    with hth
  have hex : ∀ rho, (∀ c < P.cells.length, ∀ q, 0 < TopOpt.young Emax Emin penal (th rho c q)) →
      ∃ u, SolvesBVP P.fes bcs (P.flatIv (th rho)) u ∧ ∀ w, SolvesBVP P.fes bcs (P.flatIv (th rho)) w → w = u :=
    fun rho he => scaled_exists P h hpos hl Emax Emin penal C hC hdef hdet bcs hb hheld (th rho) he
  have hE : ∀ rho, (∀ i, 0 ≤ rho i) → ∀ c < P.cells.length, ∀ q,
      Emin ≤ TopOpt.young Emax Emin penal (th rho c q) := fun rho hr c hc q =>
    young_pos hn flex hflex Emax Emin hmin hmax penal rho hr ⟨c, hc⟩ q
  have hEp : ∀ rho, (∀ i, 0 ≤ rho i) → ∀ c < P.cells.length, ∀ q,
      0 < TopOpt.young Emax Emin penal (th rho c q) := fun rho hr c hc q => hmin.trans_le (hE rho hr c hc q)
  let u : (Fin n → ℝ) → Fin (totalDofs P.fes) → ℝ := fun rho =>
    if he : ∀ c < P.cells.length, ∀ q, 0 < TopOpt.young Emax Emin penal (th rho c q) then (hex rho he).choose else 0
  have hu : ∀ rho, (∀ c < P.cells.length, ∀ q, 0 < TopOpt.young Emax Emin penal (th rho c q)) →
      SolvesBVP P.fes bcs (P.flatIv (th rho)) (u rho) ∧
      ∀ w, SolvesBVP P.fes bcs (P.flatIv (th rho)) w → w = u rho := by
    intro rho he
    have : u rho = (hex rho he).choose := dif_pos he
    rw [this]
    exact (hex rho he).choose_spec
  have hJ : ∀ rho, TopOpt.computeCompliance (P.atIv (th rho)) (P.solArray (u rho))
      = .ok (P.loadWork (P.vecField (u rho))) := fun rho => computeCompliance_eq P hl _ _
  refine ⟨fun rho => P.loadWork (P.vecField (u rho)), fun rho hr => ?_, fun rho rho' hr hle => ?_, fun rho hr => ?_⟩
  · obtain ⟨s1, s2⟩ := hu rho (hEp rho hr)
    have hen : ∀ c q, 0 ≤ P.energyAt C (P.vecField (u rho)) c q := fun c q =>
      (pointForm_psd P hpos _ C hC (c, q)).nonneg _
    refine ⟨u rho, s1, s2, hJ rho, ?_, ?_, fun i => ?_⟩
    · obtain ⟨c, hc, -, hc0, -⟩ := C92_compliance P h hpos hl _ C hC bcs hb hz (th rho)
        (fun c hc q => (hEp rho hr c hc q).le) (u rho) s1
      rwa [(compliance_value P hl _ _ _).1 hc] at hc0
    · have hev : ∀ᶠ x in 𝓝 rho, ∀ (c : Fin P.cells.length) q, 0 < TopOpt.young Emax Emin penal (th x c q) := by
        rw [Filter.eventually_all]
        intro c
        rw [Filter.eventually_all]
        intro q
        exact (young_smooth hn flex hflex Emax Emin penal c q).continuous.continuousAt.eventually
          (lt_mem_nhds (hEp rho hr c c.2 q))
      have hsens := C92_sensitivity P h hpos hl _ C hC bcs hb hz th rho
        (fun c q => fderiv ℝ (fun x => TopOpt.young Emax Emin penal (th x c q)) rho)
        (fun c q => (((young_smooth hn flex hflex Emax Emin penal c q).differentiable one_ne_zero) rho).hasFDerivAt)
        (fun c q => hEp rho hr c c.2 q) u
        (by filter_upwards [hev] with x hx; exact (hu x fun c hc q => hx ⟨c, hc⟩ q).1) _ hJ
      refine hsens.congr_fderiv ?_
      refine ContinuousLinearMap.coe_injective (LinearMap.pi_ext' fun i => LinearMap.ext_ring ?_)
      show (-∑ c : Fin P.cells.length, ∑ q, P.energyAt C (P.vecField (u rho)) c q
        • fderiv ℝ (fun x => TopOpt.young Emax Emin penal (th x c q)) rho) (Pi.single i 1) = dotProduct _ (Pi.single i 1)
      rw [dotProduct_single, mul_one]
      simp only [ContinuousLinearMap.neg_apply, ContinuousLinearMap.sum_apply, ContinuousLinearMap.smul_apply,
        smul_eq_mul, hth, young_fderiv hn flex hflex]
      rw [Finset.sum_eq_single (flex i)]
      · simp only [if_true, ← Finset.sum_mul]
        ring
      · intro c _ hc
        simp [Ne.symm hc]
      · simp
    · rw [neg_mul]
      exact neg_nonpos.2 (mul_nonneg (mul_nonneg (mul_nonneg (Nat.cast_nonneg _) (sub_nonneg.2 hmax))
        (pow_nonneg (hr i) _)) (Finset.sum_nonneg fun q _ => hen _ q))
  · have hr' : ∀ i, 0 ≤ rho' i := fun i => (hr i).trans (hle i)
    refine C92_monotone P h hpos hl _ C hC bcs hb hz (th rho) (th rho') (fun c hc q => (hEp rho hr c hc q).le) ?_
      (u rho) (u rho') (hu rho (hEp rho hr)).1 (hu rho' (hEp rho' hr')).1 _ _ (hJ rho) (hJ rho')
    intro c hc q
    rcases young_thetas (nq := nq) hn flex hflex Emax Emin penal ⟨c, hc⟩ q with ⟨i, -, hy⟩ | ⟨-, hy⟩
    · have := mul_le_mul_of_nonneg_left (pow_le_pow_left₀ (hr i) (hle i) penal) (sub_nonneg.2 hmax)
      have e1 := hy rho
      have e2 := hy rho'
      simp only [hth]
      linarith
    · exact le_of_eq ((hy rho).trans (hy rho').symm)
  · have hr0 : ∀ i, 0 ≤ rho i := fun i => (hr i).1
    have h10 : ∀ i, (0 : ℝ) ≤ (1 : Fin n → ℝ) i := fun i => zero_le_one
    refine C92_bounds P h hpos hl _ C hC bcs hb hz Emin Emax hmin (th rho) (th 1)
      (fun c hc q => ⟨hE rho hr0 c hc q, ?_⟩) (fun c hc q => ?_) (u rho) (u 1) (hu rho (hEp rho hr0)).1
      (hu 1 (hEp 1 h10)).1 _ _ (hJ rho) (hJ 1)
    · rcases young_thetas (nq := nq) hn flex hflex Emax Emin penal ⟨c, hc⟩ q with ⟨i, -, hy⟩ | ⟨-, hy⟩
      · have e1 := hy rho
        have := mul_le_mul_of_nonneg_left (pow_le_one₀ (n := penal) (hr i).1 (hr i).2) (sub_nonneg.2 hmax)
        simp only [hth]
        linarith
      · exact le_of_eq (hy rho)
    · rcases young_thetas (nq := nq) hn flex hflex Emax Emin penal ⟨c, hc⟩ q with ⟨i, -, hy⟩ | ⟨-, hy⟩
      · have e1 := hy 1
        simp only [Pi.one_apply, one_pow] at e1
        simp only [hth]
        linarith
      · exact hy 1

/-- **C92 (gradient of the objective).** The backward pass of `ad_wrapper` after `set_params`, with the cotangent of
`compute_compliance`, returns the gradient of C92_densities. -/
theorem C92_objective (rho : Fin n → ℝ) (hr : ∀ i, 0 ≤ rho i)
    (tan : (Fin n → ℝ) → (Fin (totalDofs P.fes) → ℝ) → Matrix (Fin (totalDofs P.fes)) (Fin (totalDofs P.fes)) ℝ)
    (solve : (n : Nat) → Matrix (Fin n) (Fin n) ℝ → (Fin n → ℝ) → Except Err (Fin n → ℝ))
    (hs : ExactAdjointSolver solve) (hs' : ∀ n A b, A.det ≠ 0 → ∃ x, solve n A b = .ok x)
    (u : Fin (totalDofs P.fes) → ℝ)
    (ht : HasJacobianAt (P.flatIv (TopOpt.thetas P.cells.length (inds flex) (rows rho))) (tan rho u) u)
    (hu : SolvesBVP P.fes bcs (P.flatIv (TopOpt.thetas P.cells.length (inds flex) (rows rho))) u)
    (J : (Fin (totalDofs P.fes) → ℝ) → ℝ)
    (hJ : ∀ u, TopOpt.computeCompliance (TopOpt.setParams P (inds flex) (rows rho)) (P.solArray u) = .ok (J u))
    (v : Fin (totalDofs P.fes) → ℝ) (hv : HasFDerivAt J (dotCLM v) u) :
    implicitVjp P.fes (fun _ => bcs) (fun x => P.flatIv (TopOpt.thetas P.cells.length (inds flex) (rows x))) tan none
      solve u rho v
      = .ok (dotCLM fun i => -(penal * (Emax - Emin) * rho i ^ (penal - 1))
        * ∑ q, P.energyAt C (P.vecField u) (flex i) q) := by
  rw [C92_gradient P h hpos hl _ C hC hdef hdet bcs hb hheld hz
    (fun x => TopOpt.thetas P.cells.length (inds flex) (rows x)) rho
    (fun c hc q => (young_smooth hn flex hflex Emax Emin penal ⟨c, hc⟩ q).contDiffAt)
    (fun c hc q => hmin.trans_le (young_pos hn flex hflex Emax Emin hmin hmax penal rho hr ⟨c, hc⟩ q))
    tan solve hs hs' u ht hu J hJ v hv]
  congr 1
  refine ContinuousLinearMap.coe_injective (LinearMap.pi_ext' fun i => LinearMap.ext_ring ?_)
  show (-∑ c : Fin P.cells.length, ∑ q, P.energyAt C (P.vecField u) c q
    • fderiv ℝ (fun x => TopOpt.young Emax Emin penal (TopOpt.thetas P.cells.length (inds flex) (rows x) c q)) rho)
      (Pi.single i 1) = dotProduct _ (Pi.single i 1)
  rw [dotProduct_single, mul_one]
  simp only [ContinuousLinearMap.neg_apply, ContinuousLinearMap.sum_apply, ContinuousLinearMap.smul_apply,
    smul_eq_mul, young_fderiv hn flex hflex]
  rw [Finset.sum_eq_single (flex i)]
  · simp only [if_true, ← Finset.sum_mul]
    ring
  · intro c _ hc
    simp [Ne.symm hc]
  · simp

end

/-- **C92 (volume).** The volume constraint is an affine function of the densities with the constant gradient
`1 / (n vf)`, and it is satisfied exactly when the mean density is at most the volume fraction. -/
theorem C92_volume {n : Nat} (hn : 0 < n) (vf : ℝ) (hvf : 0 < vf) (rho : Fin n → ℝ) :
    HasFDerivAt (TopOpt.volumeConstraint vf) (dotCLM fun _ : Fin n => 1 / (n * vf)) rho ∧
    (TopOpt.volumeConstraint vf rho ≤ 0 ↔ ∑ i, rho i ≤ n * vf) := by
  have hn' : (0 : ℝ) < n := Nat.cast_pos.2 hn
  constructor
  · have : (TopOpt.volumeConstraint vf : (Fin n → ℝ) → ℝ) = fun r => dotCLM (fun _ : Fin n => 1 / (n * vf)) r - 1 := by
      funext r
      show _ = dotProduct (fun _ : Fin n => 1 / ((n : ℝ) * vf)) r - 1
      rw [TopOpt.volumeConstraint, dotProduct, ← Finset.mul_sum, div_div]
      ring
    rw [this]
    exact (dotCLM (fun _ : Fin n => 1 / ((n : ℝ) * vf))).hasFDerivAt.sub_const 1
  · rw [TopOpt.volumeConstraint, sub_nonpos, div_div, div_le_one (mul_pos hn' hvf)]

/-- **C92 (filtered sensitivities).** The sensitivity filter with nonnegative weights keeps the sign. -/
theorem C92_filtered {n : Nat} (H : Fin n → Fin n → ℝ) (Hs rho dJ : Fin n → ℝ) (hH : ∀ i j, 0 ≤ H i j)
    (hHs : ∀ j, 0 < Hs j) (hr : ∀ i, 0 ≤ rho i) (hd : ∀ i, dJ i ≤ 0) (i : Fin n) :
    MMA.applySensitivityFilter H Hs rho dJ i ≤ 0 := by
  refine Finset.sum_nonpos fun j _ => mul_nonpos_of_nonneg_of_nonpos (hH i j) ?_
  refine div_nonpos_of_nonpos_of_nonneg (div_nonpos_of_nonpos_of_nonneg
    (mul_nonpos_of_nonneg_of_nonpos (hr j) (hd j)) ?_) (hHs j).le
  exact le_trans (by norm_num) (le_max_left _ _)

end JaxFem
