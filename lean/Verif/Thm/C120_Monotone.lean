import Verif.Spec.StrongMonotone
import Verif.Thm.C74_LinearSolve
import Mathlib.Analysis.Calculus.InverseFunctionTheorem.ContDiff
import Mathlib.Analysis.Calculus.LineDeriv.Basic
import Mathlib.Topology.Maps.Proper.Basic
import Mathlib.Topology.Maps.Proper.CompactlyGenerated
import Mathlib.Topology.MetricSpace.Antilipschitz

/-!
# C120: strongly monotone problems have exactly one solution and regular tangents
-/

namespace JaxFem

open scoped BigOperators Topology
open Filter

/-! ### Helper lemmas: strongly monotone maps -/

section maps

variable {N : Nat}

/-- A lower bound of the difference quotients passes to the derivative. -/
theorem deriv_lower (F : (Fin N → ℝ) → Fin N → ℝ) (A : (Fin N → ℝ) →L[ℝ] (Fin N → ℝ)) (u d : Fin N → ℝ)
    (h : HasFDerivAt F A u) (q : ℝ) (hq : ∀ t : ℝ, 0 < t → t ^ 2 * q ≤ ∑ k, (F (u + t • d) k - F u k) * (t * d k)) :
    q ≤ ∑ k, A d k * d k := by
  have h1 : HasDerivAt (fun t : ℝ => F (u + t • d)) (A d) 0 := h.hasLineDerivAt d
  have h2 := h1.tendsto_slope_zero_right
  have h3 : Tendsto (fun t : ℝ => ∑ k, (t⁻¹ • (F (u + (0 + t) • d) - F (u + (0 : ℝ) • d))) k * d k) (𝓝[>] 0)
      (𝓝 (∑ k, A d k * d k)) :=
    tendsto_finsetSum _ fun k _ => ((tendsto_pi_nhds.1 h2) k).mul_const _
  refine ge_of_tendsto h3 ?_
  filter_upwards [self_mem_nhdsWithin] with t ht
  have ht : 0 < t := ht
  have h4 := hq t ht
  rw [zero_add, zero_smul, add_zero]
  have h5 : ∑ k, (t⁻¹ • (F (u + t • d) - F u)) k * d k = (t ^ 2)⁻¹ * ∑ k, (F (u + t • d) k - F u k) * (t * d k) := by
    rw [Finset.mul_sum]
    refine Finset.sum_congr rfl fun k _ => ?_
    simp only [Pi.smul_apply, Pi.sub_apply, smul_eq_mul]
    field_simp
  rw [h5, ← div_eq_inv_mul, le_div_iff₀ (by positivity)]
  linarith

theorem sum_mul_le (a d : Fin N → ℝ) : ∑ k, a k * d k ≤ N * (‖a‖ * ‖d‖) := by
  have : ∀ k ∈ Finset.univ, a k * d k ≤ ‖a‖ * ‖d‖ := fun k _ =>
    (le_abs_self _).trans (by
      rw [abs_mul]
      exact mul_le_mul (norm_le_pi_norm a k) (norm_le_pi_norm d k) (abs_nonneg _) (norm_nonneg _))
  have h := Finset.sum_le_card_nsmul _ _ _ this
  simpa using h

/-- Strongly monotone continuously differentiable maps are onto. -/
theorem strong_surjective (F : (Fin N → ℝ) → Fin N → ℝ) (hF : ContDiff ℝ 1 F) (c : ℝ) (hc : 0 < c)
    (hm : ∀ u w, c * ‖u - w‖ ^ 2 ≤ ∑ k, (F u k - F w k) * (u k - w k)) (y : Fin N → ℝ) : ∃ u, F u = y := by
  have hlip : ∀ u w, c * ‖u - w‖ ≤ N * ‖F u - F w‖ := by
    intro u w
    by_cases h0 : u = w
    · subst h0; simp
    have hpos : 0 < ‖u - w‖ := norm_pos_iff.2 (sub_ne_zero.2 h0)
    have h1 := (hm u w).trans (sum_mul_le (F u - F w) (u - w))
    refine le_of_mul_le_mul_right ?_ hpos
    calc c * ‖u - w‖ * ‖u - w‖ = c * ‖u - w‖ ^ 2 := by ring
      _ ≤ N * (‖F u - F w‖ * ‖u - w‖) := h1
      _ = N * ‖F u - F w‖ * ‖u - w‖ := by ring
  have hanti : AntilipschitzWith (Real.toNNReal (N / c)) F := by
    refine AntilipschitzWith.of_le_mul_dist fun u w => ?_
    rw [dist_eq_norm, dist_eq_norm, Real.coe_toNNReal _ (by positivity)]
    rw [div_mul_eq_mul_div, le_div_iff₀ hc]
    linarith [hlip u w]
  have hproper : IsProperMap F := by
    rw [isProperMap_iff_tendsto_cocompact]
    refine ⟨hF.continuous, ?_⟩
    rw [← Metric.cobounded_eq_cocompact]
    exact hanti.tendsto_cobounded
  have hopen : IsOpenMap F := by
    rw [isOpenMap_iff_nhds_le]
    intro u
    have hs : HasStrictFDerivAt F (fderiv ℝ F u) u := hF.contDiffAt.hasStrictFDerivAt one_ne_zero
    have hinj : Function.Injective (fderiv ℝ F u : (Fin N → ℝ) →ₗ[ℝ] (Fin N → ℝ)) := by
      rw [← LinearMap.ker_eq_bot, LinearMap.ker_eq_bot']
      intro d hd
      have h1 := deriv_lower F (fderiv ℝ F u) u d hs.hasFDerivAt (c * ‖d‖ ^ 2) (fun t ht => by
        have := hm (u + t • d) u
        rw [add_sub_cancel_left, norm_smul, Real.norm_of_nonneg ht.le] at this
        refine (le_of_eq (by ring)).trans (this.trans (le_of_eq ?_))
        refine Finset.sum_congr rfl fun k _ => ?_
        simp)
      have hd' : fderiv ℝ F u d = 0 := hd
      rw [hd'] at h1
      simp only [Pi.zero_apply, zero_mul, Finset.sum_const_zero] at h1
      have h2 : ‖d‖ ^ 2 ≤ 0 := by
        by_contra hcon
        have := mul_pos hc (not_le.1 hcon)
        linarith
      have h3 : ‖d‖ = 0 := by
        have := sq_nonneg ‖d‖
        exact pow_eq_zero_iff (two_ne_zero) |>.1 (le_antisymm h2 this)
      exact norm_eq_zero.1 h3
    have hsurj := LinearMap.range_eq_top.2 (LinearMap.injective_iff_surjective.1 hinj)
    exact (hs.map_nhds_eq_of_surj hsurj).ge
  have hclopen : IsClopen (Set.range F) := ⟨hproper.isClosedMap.isClosed_range, hopen.isOpen_range⟩
  have := hclopen.eq_univ (Set.range_nonempty F)
  have hy : y ∈ Set.range F := by rw [this]; trivial
  exact hy

/-- A continuous function, positive away from zero and homogeneous of degree two, is bounded below by the square of the norm. -/
theorem quadratic_lower (Q : (Fin N → ℝ) → ℝ) (hQ : Continuous Q) (hh : ∀ (t : ℝ) d, Q (t • d) = t ^ 2 * Q d)
    (hpos : ∀ d, d ≠ 0 → 0 < Q d) : ∃ c, 0 < c ∧ ∀ d, c * ‖d‖ ^ 2 ≤ Q d := by
  have h00 : Q 0 = 0 := by
    have := hh 0 0
    simpa using this
  by_cases hne : (Metric.sphere (0 : Fin N → ℝ) 1).Nonempty
  · obtain ⟨e, he, hmin⟩ := (isCompact_sphere (0 : Fin N → ℝ) 1).exists_isMinOn hne hQ.continuousOn
    have he1 : ‖e‖ = 1 := by simpa using he
    refine ⟨Q e, hpos e (fun h => by rw [h, norm_zero] at he1; exact zero_ne_one he1), fun d => ?_⟩
    by_cases hd : d = 0
    · subst hd; simp [h00]
    have hn : ‖d‖ ≠ 0 := norm_ne_zero_iff.2 hd
    have h1 : Q e ≤ Q (‖d‖⁻¹ • d) := hmin (by simp [norm_smul, hn])
    rw [hh] at h1
    have h2 : 0 < ‖d‖ ^ 2 := by positivity
    calc Q e * ‖d‖ ^ 2 ≤ (‖d‖⁻¹ ^ 2 * Q d) * ‖d‖ ^ 2 := mul_le_mul_of_nonneg_right h1 h2.le
      _ = Q d := by field_simp
  · refine ⟨1, one_pos, fun d => ?_⟩
    have hd : d = 0 := by
      by_contra hcon
      have hn : ‖d‖ ≠ 0 := norm_ne_zero_iff.2 hcon
      exact hne ⟨‖d‖⁻¹ • d, by simp [norm_smul, hn]⟩
    subst hd
    simp [h00]

end maps

variable {IV : Type} {nq nfq nn vec dim : Nat}

/-! ### Helper lemmas: the energy of the gradient -/

/-- Integral of the squared gradient of a nodal field. -/
noncomputable def Problem1.gradSq (P : Problem1 IV nq nfq nn vec dim) (v : Nat → Fin vec → ℝ) : ℝ :=
  (P.cells.map fun cell => cellIntegral P.el P.points cell.nodes fun q =>
    contract (P.gradient v cell.nodes q) (P.gradient v cell.nodes q)).sum

theorem contract_self_nonneg (G : Fin vec → Fin dim → ℝ) : 0 ≤ contract G G :=
  Finset.sum_nonneg fun _ _ => Finset.sum_nonneg fun _ _ => mul_self_nonneg _

theorem contract_self_pos {G : Fin vec → Fin dim → ℝ} (h : G ≠ 0) : 0 < contract G G := by
  have : ∃ i j, G i j ≠ 0 := by
    by_contra hcon
    push Not at hcon
    exact h (funext fun i => funext fun j => hcon i j)
  obtain ⟨i, j, hij⟩ := this
  refine Finset.sum_pos' (fun i _ => Finset.sum_nonneg fun j _ => mul_self_nonneg _) ⟨i, Finset.mem_univ _, ?_⟩
  exact Finset.sum_pos' (fun j _ => mul_self_nonneg _) ⟨j, Finset.mem_univ _, mul_self_pos.2 hij⟩

theorem strictly_of_strong (P : Problem1 IV nq nfq nn vec dim) (c : ℝ) (hc : 0 < c) (h : P.StronglyMonotone c) :
    P.StrictlyMonotone := by
  intro iv G H hne
  refine lt_of_lt_of_le (mul_pos hc (contract_self_pos ?_)) (h iv G H)
  intro h0
  exact hne (funext fun i => funext fun j => sub_eq_zero.1 (congrFun (congrFun h0 i) j))

theorem gradSq_nonneg (P : Problem1 IV nq nfq nn vec dim) (hpos : P.PositiveMeasure) (v : Nat → Fin vec → ℝ) :
    0 ≤ P.gradSq v := by
  refine List.sum_nonneg fun x hx => ?_
  obtain ⟨cell, hc, rfl⟩ := List.mem_map.1 hx
  exact Finset.sum_nonneg fun q _ => mul_nonneg (contract_self_nonneg _) (hpos cell hc q).le

/-- The work of the difference is bounded below by the energy of its gradient. -/
theorem work_lower (P : Problem1 IV nq nfq nn vec dim) (hpos : P.PositiveMeasure) (c : ℝ) (hmono : P.StronglyMonotone c)
    (hmass : P.MassMonotone) (hsm : P.SurfaceMonotone) (u w : Nat → Fin vec → ℝ) :
    c * P.gradSq (fun n c => u n c - w n c) ≤ P.virtualWork u (fun n c => u n c - w n c)
      - P.virtualWork w fun n c => u n c - w n c := by
  have hS : 0 ≤ P.surfaceWork u (fun n c => u n c - w n c) - P.surfaceWork w fun n c => u n c - w n c := by
    rw [Problem1.surfaceWork, Problem1.surfaceWork, list_sum_sub]
    refine List.sum_nonneg fun x hx => ?_
    obtain ⟨s, hs, rfl⟩ := List.mem_map.1 hx
    rw [list_sum_sub]
    refine List.sum_nonneg fun x hx => ?_
    obtain ⟨f, hf, rfl⟩ := List.mem_map.1 hx
    rw [← Finset.sum_sub_distrib]
    refine Finset.sum_nonneg fun q _ => ?_
    rw [← sub_mul]
    refine (hsm s hs f hf q (interp (P.fc.shapeVals f.face q) (restrict nn u (P.conn.getD f.cell [])))
      (interp (P.fc.shapeVals f.face q) (restrict nn w (P.conn.getD f.cell [])))
      (positionIn (P.fc.shapeVals f.face q) (coords nn P.points (P.conn.getD f.cell [])))).trans_eq ?_
    congr 1
    rw [← Finset.sum_sub_distrib]
    refine Finset.sum_congr rfl fun c _ => ?_
    rw [interp_sub]
    ring
  have hM : ∀ m, P.massMap = some m → 0 ≤ P.massWork m u (fun n c => u n c - w n c)
      - P.massWork m w fun n c => u n c - w n c := by
    intro m hm
    rw [Problem1.massWork, Problem1.massWork, list_sum_sub]
    refine List.sum_nonneg fun x hx => ?_
    obtain ⟨cell, hc, rfl⟩ := List.mem_map.1 hx
    rw [cellIntegral, cellIntegral, ← Finset.sum_sub_distrib]
    refine Finset.sum_nonneg fun q _ => ?_
    rw [← sub_mul]
    refine mul_nonneg ?_ (hpos cell hc q).le
    refine (hmass m hm (cell.iv q) (interp (P.el.shapeVals q) (restrict nn u cell.nodes))
      (interp (P.el.shapeVals q) (restrict nn w cell.nodes))
      (positionIn (P.el.shapeVals q) (coords nn P.points cell.nodes))).trans_eq ?_
    rw [← Finset.sum_sub_distrib]
    refine Finset.sum_congr rfl fun c _ => ?_
    rw [interp_sub]
    ring
  have hT : c * P.gradSq (fun n c => u n c - w n c) ≤ P.tensorWork u (fun n c => u n c - w n c)
      - P.tensorWork w fun n c => u n c - w n c := by
    rw [Problem1.tensorWork, Problem1.tensorWork, list_sum_sub, Problem1.gradSq, ← List.sum_map_mul_left]
    refine List.sum_le_sum fun cell hc => ?_
    rw [cellIntegral, cellIntegral, cellIntegral, ← Finset.sum_sub_distrib, Finset.mul_sum]
    refine Finset.sum_le_sum fun q _ => ?_
    rw [← sub_mul, ← mul_assoc]
    refine mul_le_mul_of_nonneg_right ?_ (hpos cell hc q).le
    have h1 := hmono (cell.iv q) (P.gradient u cell.nodes q) (P.gradient w cell.nodes q)
    have e : ∀ i j, P.gradient (fun n c => u n c - w n c) cell.nodes q i j
        = P.gradient u cell.nodes q i j - P.gradient w cell.nodes q i j := fun i j => gradient_sub P u w cell.nodes q i j
    refine le_trans (le_of_eq ?_) (h1.trans (le_of_eq ?_))
    · simp only [contract, e]
    · simp only [contract, e, ← Finset.sum_sub_distrib]
      exact Finset.sum_congr rfl fun i _ => Finset.sum_congr rfl fun j _ => by ring
  rw [Problem1.virtualWork, Problem1.virtualWork]
  cases hm : P.massMap with
  | none => dsimp only; linarith
  | some m =>
    have := hM m hm
    dsimp only
    linarith

/-- A field without gradient energy that vanishes where values are prescribed is zero. -/
theorem gradSq_zero (P : Problem1 IV nq nfq nn vec dim) (h : P.WF) (hpos : P.PositiveMeasure) (hdet : P.el.Determines)
    (free : Nat → Fin vec → Prop) (hanch : P.Anchored free) (v : Nat → Fin vec → ℝ) (hv : ∀ n c, ¬ free n c → v n c = 0)
    (h0 : P.gradSq v ≤ 0) : ∀ n < P.numTotalNodes, ∀ c, v n c = 0 := by
  have hcell : ∀ cell ∈ P.cells, 0 ≤ cellIntegral P.el P.points cell.nodes fun q =>
      contract (P.gradient v cell.nodes q) (P.gradient v cell.nodes q) := fun cell hc =>
    Finset.sum_nonneg fun q _ => mul_nonneg (contract_self_nonneg _) (hpos cell hc q).le
  have hz := list_sum_nonneg_zero P.cells _ hcell (le_antisymm h0 (gradSq_nonneg P hpos v))
  refine field_unique P h hpos hdet free hanch v (fun _ _ => 0) ?_ hv
  intro cell hc q
  have h1 := (Finset.sum_eq_zero_iff_of_nonneg fun q _ =>
    mul_nonneg (contract_self_nonneg (P.gradient v cell.nodes q)) (hpos cell hc q).le).1 (hz cell hc) q (Finset.mem_univ q)
  have h2 : contract (P.gradient v cell.nodes q) (P.gradient v cell.nodes q) = 0 := by
    rcases mul_eq_zero.1 h1 with h | h
    · exact h
    · exact absurd h (hpos cell hc q).ne'
  have h3 : P.gradient v cell.nodes q = 0 := by
    by_contra hcon
    exact (contract_self_pos hcon).ne' h2
  have h4 : P.gradient (fun _ _ => (0 : ℝ)) cell.nodes q = 0 := by
    ext i j
    have := gradient_sub P (fun _ _ => (0 : ℝ)) (fun _ _ => (0 : ℝ)) cell.nodes q i j
    simpa using this
  rw [h3, h4]

section bvp

variable (P : Problem1 IV nq nfq nn vec dim) (h : P.WF) (bcs : List (List (BCEntry ℝ))) (hb : WFBC P.fes bcs)

include hb in
theorem vecField_vanish (x : Fin (totalDofs P.fes) → ℝ)
    (hx : ∀ (k : Fin (totalDofs P.fes)) v, Prescribed P.fes bcs k (some v) → x k = 0) (n : Nat) (c : Fin vec)
    (hf : ¬ FreeDof (bcs.getD 0 []) n c) : P.vecField x n c = 0 := by
  by_cases hlt : n * vec + c < totalDofs P.fes
  · have hn : n < P.numTotalNodes := by
      rw [totalDofs_single] at hlt
      by_contra hcon
      have := Nat.mul_le_mul_right vec (Nat.le_of_not_lt hcon)
      omega
    obtain ⟨es, hes⟩ : ∃ es, bcs[0]? = some es := by
      have := hb.len
      simp only [Problem1.fes, List.length_singleton] at this
      exact ⟨bcs[0], List.getElem?_eq_getElem (by omega)⟩
    have hes' : bcs.getD 0 [] = es := by rw [List.getD_eq_getElem?_getD, hes]; rfl
    rw [hes'] at hf
    rcases free_or_last es n c with hf' | ⟨v, hv⟩
    · exact absurd hf' hf
    · have hp : Prescribed P.fes bcs (n * vec + c) (some v) :=
        .fixed 0 n c _ es v rfl hes hn c.2 (dofNum_single P n c).symm hv
      have := hx ⟨n * vec + c, hlt⟩ v hp
      simp only [Problem1.vecField, dif_pos hlt, this]
  · simp only [Problem1.vecField, dif_neg hlt]

include h in
theorem flat_lower (hpos : P.PositiveMeasure) (c : ℝ) (hmono : P.StronglyMonotone c) (hmass : P.MassMonotone)
    (hsm : P.SurfaceMonotone) (x y : Fin (totalDofs P.fes) → ℝ) :
    c * P.gradSq (P.vecField (x - y)) ≤ ∑ k, (P.flat x k - P.flat y k) * (x k - y k) := by
  have h1 := work_lower P hpos c hmono hmass hsm (P.vecField x) (P.vecField y)
  rw [← vecField_sub, ← flat_virtualWork P h, ← flat_virtualWork P h, ← Finset.sum_sub_distrib] at h1
  refine h1.trans_eq (Finset.sum_congr rfl fun k _ => ?_)
  rw [Pi.sub_apply]
  ring

theorem gradSq_smul (t : ℝ) (x : Fin (totalDofs P.fes) → ℝ) :
    P.gradSq (P.vecField (t • x)) = t ^ 2 * P.gradSq (P.vecField x) := by
  have e : P.vecField (t • x) = fun n c => t * P.vecField x n c + P.vecField 0 n c := by
    rw [← vecField_lin, add_zero]
  have z0 : P.vecField 0 = fun _ _ => (0 : ℝ) := by
    funext n c; simp [Problem1.vecField]
  have z1 : ∀ cell q i j, P.gradient (fun _ _ => (0 : ℝ)) cell q i j = 0 := by
    intro cell q i j
    have := gradient_sub P (fun _ _ => (0 : ℝ)) (fun _ _ => (0 : ℝ)) cell q i j
    simpa using this
  rw [e, z0, Problem1.gradSq, Problem1.gradSq, ← List.sum_map_mul_left]
  congr 1
  refine List.map_congr_left fun cell _ => ?_
  rw [cellIntegral, cellIntegral, Finset.mul_sum]
  refine Finset.sum_congr rfl fun q _ => ?_
  have e2 : contract (P.gradient (fun n c => t * P.vecField x n c + 0) cell.nodes q)
      (P.gradient (fun n c => t * P.vecField x n c + 0) cell.nodes q)
      = t ^ 2 * contract (P.gradient (P.vecField x) cell.nodes q) (P.gradient (P.vecField x) cell.nodes q) := by
    rw [gradient_lin P t (P.vecField x) (fun _ _ => 0)]
    simp only [contract, z1, add_zero, Finset.mul_sum]
    exact Finset.sum_congr rfl fun i _ => Finset.sum_congr rfl fun j _ => by ring
  rw [e2]
  ring

theorem gradSq_continuous : Continuous fun x : Fin (totalDofs P.fes) → ℝ => P.gradSq (P.vecField x) := by
  simp only [Problem1.gradSq, cellIntegral, contract, gradient_eq]
  have hv : ∀ n (c : Fin vec), Continuous fun x : Fin (totalDofs P.fes) → ℝ => P.vecField x n c := by
    intro n c
    by_cases hlt : n * vec + c < totalDofs P.fes
    · simp only [Problem1.vecField, dif_pos hlt]; exact continuous_apply _
    · simp only [Problem1.vecField, dif_neg hlt]; exact continuous_const
  refine continuous_list_sum _ fun cell _ => ?_
  refine continuous_finsetSum _ fun q _ => Continuous.mul ?_ continuous_const
  refine continuous_finsetSum _ fun i _ => continuous_finsetSum _ fun j _ => Continuous.mul ?_ ?_
  · exact continuous_finsetSum _ fun a _ => (hv _ _).mul continuous_const
  · exact continuous_finsetSum _ fun a _ => (hv _ _).mul continuous_const

end bvp

/-! ### Property theorems -/

/-- **C120 (regular tangent).** The tangent of a strongly monotone problem at any state, with the rows of prescribed degrees of
freedom eliminated, is nonsingular. -/
theorem C120_regular (P : Problem1 IV nq nfq nn vec dim) (h : P.WF) (hpos : P.PositiveMeasure) (hdet : P.el.Determines)
    (c : ℝ) (hc : 0 < c) (hmono : P.StronglyMonotone c) (hmass : P.MassMonotone) (hsm : P.SurfaceMonotone)
    (bcs : List (List (BCEntry ℝ))) (hb : WFBC P.fes bcs) (hanch : P.Anchored fun n c => FreeDof (bcs.getD 0 []) n c)
    (u : Fin (totalDofs P.fes) → ℝ) (T : Matrix (Fin (totalDofs P.fes)) (Fin (totalDofs P.fes)) ℝ)
    (hT : HasJacobianAt P.flat T u) : (elimRows P.fes bcs T).det ≠ 0 := by
  intro hz
  obtain ⟨x, hx0, hx⟩ := Matrix.exists_mulVec_eq_zero_iff.2 hz
  apply hx0
  have hrow : ∀ k : Fin (totalDofs P.fes), (Prescribed P.fes bcs k none → T.mulVec x k = 0) ∧
      ∀ v, Prescribed P.fes bcs k (some v) → x k = 0 := by
    intro k
    have e := congrFun hx k
    obtain ⟨e1, e2⟩ := mulVec_elim P.fes bcs hb T x k
    exact ⟨fun hp => by rw [← e1 hp]; exact e, fun v hp => by rw [← e2 v hp]; exact e⟩
  have h1 := deriv_lower P.flat (matCLM T) u x hT (c * P.gradSq (P.vecField x)) fun t _ => by
    have := flat_lower P h hpos c hmono hmass hsm (u + t • x) u
    rw [add_sub_cancel_left, gradSq_smul] at this
    refine (le_of_eq (by ring)).trans (this.trans (le_of_eq ?_))
    refine Finset.sum_congr rfl fun k _ => ?_
    simp
  have h2 : ∑ k, matCLM T x k * x k = 0 := by
    refine Finset.sum_eq_zero fun k _ => ?_
    have e : matCLM T x k = T.mulVec x k := rfl
    rw [e]
    obtain ⟨o, ho⟩ := prescribed_exists P.fes bcs hb k k.2
    cases o with
    | none => rw [(hrow k).1 ho, zero_mul]
    | some v => rw [(hrow k).2 v ho, mul_zero]
  rw [h2] at h1
  have h3 : P.gradSq (P.vecField x) ≤ 0 := by
    by_contra hcon
    have := mul_pos hc (not_le.1 hcon)
    linarith
  have h4 := gradSq_zero P h hpos hdet _ hanch _ (vecField_vanish P bcs hb x fun k v => (hrow k).2 v) h3
  refine vecField_eq_iff P x 0 fun n hn c => ?_
  rw [h4 n hn c]
  simp [Problem1.vecField]

/-- **C120 (well-posedness).** A strongly monotone problem with continuously differentiable residual, all nodes connected with
constrained ones, has exactly one solution. -/
theorem C120_wellposed (P : Problem1 IV nq nfq nn vec dim) (h : P.WF) (hpos : P.PositiveMeasure) (hdet : P.el.Determines)
    (c : ℝ) (hc : 0 < c) (hmono : P.StronglyMonotone c) (hmass : P.MassMonotone) (hsm : P.SurfaceMonotone)
    (hC : ContDiff ℝ 1 P.flat)
    (bcs : List (List (BCEntry ℝ))) (hb : WFBC P.fes bcs) (hanch : P.Anchored fun n c => FreeDof (bcs.getD 0 []) n c) :
    ∃! u, SolvesBVP P.fes bcs P.flat u := by
  classical
  have hex : ∀ k : Fin (totalDofs P.fes), ∃ o : Option ℝ, Prescribed P.fes bcs k o := fun k =>
    prescribed_exists P.fes bcs hb k k.2
  choose o ho using hex
  have huniq : ∀ (k : Fin (totalDofs P.fes)) o', Prescribed P.fes bcs k o' → o' = o k := fun k o' h' =>
    prescribed_unique P.fes bcs hb k _ _ h' (ho k)
  set comb : (Fin (totalDofs P.fes) → ℝ) → Fin (totalDofs P.fes) → ℝ := fun u k => (o k).getD (u k) with hcomb
  set F : (Fin (totalDofs P.fes) → ℝ) → Fin (totalDofs P.fes) → ℝ := fun u k =>
    match o k with | none => P.flat (comb u) k | some v => u k - v with hF
  set mask : (Fin (totalDofs P.fes) → ℝ) → Fin (totalDofs P.fes) → ℝ := fun d k =>
    if o k = none then d k else 0 with hmask
  set Q : (Fin (totalDofs P.fes) → ℝ) → ℝ := fun d => c * P.gradSq (P.vecField (mask d))
    + ∑ k, if o k = none then 0 else d k ^ 2 with hQ
  have hmv : ∀ d, ∀ (k : Fin (totalDofs P.fes)) v, Prescribed P.fes bcs k (some v) → mask d k = 0 := by
    intro d k v hp
    have : o k ≠ none := by rw [← huniq k _ hp]; simp
    simp [hmask, this]
  have hmc : Continuous mask := by
    refine continuous_pi fun k => ?_
    by_cases hk : o k = none
    · simp only [hmask, hk, if_true]; exact continuous_apply k
    · simp only [hmask, hk, if_false]; exact continuous_const
  have hQc : Continuous Q := by
    refine Continuous.add (continuous_const.mul ((gradSq_continuous P).comp hmc)) (continuous_finsetSum _ fun k _ => ?_)
    by_cases hk : o k = none
    · simp only [hk, if_true]; exact continuous_const
    · simp only [hk, if_false]; exact (continuous_apply k).pow 2
  have hQh : ∀ (t : ℝ) d, Q (t • d) = t ^ 2 * Q d := by
    intro t d
    have e : mask (t • d) = t • mask d := by
      funext k
      by_cases hk : o k = none <;> simp [hmask, hk]
    rw [hQ]
    dsimp only
    rw [e, gradSq_smul, mul_add, Finset.mul_sum]
    congr 1
    · ring
    · refine Finset.sum_congr rfl fun k _ => ?_
      by_cases hk : o k = none
      · simp [hk]
      · simp only [hk, if_false, Pi.smul_apply, smul_eq_mul]; ring
  have hQp : ∀ d, d ≠ 0 → 0 < Q d := by
    intro d hd
    have a1 : 0 ≤ c * P.gradSq (P.vecField (mask d)) := mul_nonneg hc.le (gradSq_nonneg P hpos _)
    have a2 : ∀ k ∈ Finset.univ, (0 : ℝ) ≤ if o k = none then 0 else d k ^ 2 := fun k _ => by
      split
      · exact le_rfl
      · exact sq_nonneg _
    refine lt_of_le_of_ne (add_nonneg a1 (Finset.sum_nonneg a2)) fun h0 => hd ?_
    have a3 := Finset.sum_nonneg a2
    have a4 : ∑ k, (if o k = none then 0 else d k ^ 2) = 0 := by
      have : c * P.gradSq (P.vecField (mask d)) + ∑ k, (if o k = none then 0 else d k ^ 2) = 0 := h0.symm
      linarith
    have a5 : P.gradSq (P.vecField (mask d)) ≤ 0 := by
      have : c * P.gradSq (P.vecField (mask d)) + ∑ k, (if o k = none then 0 else d k ^ 2) = 0 := h0.symm
      by_contra hcon
      have := mul_pos hc (not_le.1 hcon)
      linarith
    have a6 := (Finset.sum_eq_zero_iff_of_nonneg a2).1 a4
    have a7 : mask d = 0 := by
      have a8 := gradSq_zero P h hpos hdet _ hanch _ (vecField_vanish P bcs hb _ (hmv d)) a5
      refine vecField_eq_iff P _ 0 fun n hn c => ?_
      rw [a8 n hn c]
      simp [Problem1.vecField]
    funext k
    by_cases hk : o k = none
    · have := congrFun a7 k
      simpa [hmask, hk] using this
    · have := a6 k (Finset.mem_univ k)
      simpa [hk] using this
  obtain ⟨c', hc', hlow⟩ := quadratic_lower Q hQc hQh hQp
  have hcombC : ContDiff ℝ 1 comb := by
    refine contDiff_pi.2 fun k => ?_
    cases hk : o k with
    | none => simp only [hcomb, hk, Option.getD_none]; exact contDiff_apply ℝ ℝ k
    | some v => simp only [hcomb, hk, Option.getD_some]; exact contDiff_const
  have hFC : ContDiff ℝ 1 F := by
    refine contDiff_pi.2 fun k => ?_
    cases hk : o k with
    | none => simp only [hF, hk]; exact contDiff_pi.1 (hC.comp hcombC) k
    | some v => simp only [hF, hk]; exact (contDiff_apply ℝ ℝ k).sub contDiff_const
  have hFm : ∀ u w, c' * ‖u - w‖ ^ 2 ≤ ∑ k, (F u k - F w k) * (u k - w k) := by
    intro u w
    refine (hlow (u - w)).trans ?_
    have e : comb u - comb w = mask (u - w) := by
      funext k
      cases hk : o k with
      | none => simp [hcomb, hmask, hk]
      | some v => simp [hcomb, hmask, hk]
    have h1 := flat_lower P h hpos c hmono hmass hsm (comb u) (comb w)
    rw [e] at h1
    have h2 : ∑ k, (F u k - F w k) * (u k - w k) = ∑ k, (P.flat (comb u) k - P.flat (comb w) k) * (comb u k - comb w k)
        + ∑ k, if o k = none then 0 else (u - w) k ^ 2 := by
      rw [← Finset.sum_add_distrib]
      refine Finset.sum_congr rfl fun k _ => ?_
      cases hk : o k with
      | none => simp [hF, hcomb, hk]
      | some v =>
        simp only [hF, hcomb, hk, Option.getD_some, sub_self, mul_zero, zero_add, reduceCtorEq, if_false, Pi.sub_apply]
        ring
    rw [h2]
    exact add_le_add_left h1 _
  have hiff : ∀ u, SolvesBVP P.fes bcs P.flat u ↔ F u = 0 := by
    intro u
    have hco : (∀ k v, o k = some v → u k = v) → comb u = u := by
      intro hs
      funext k
      cases hk : o k with
      | none => simp [hcomb, hk]
      | some v => simp [hcomb, hk, hs k v hk]
    constructor
    · rintro ⟨h1, h2⟩
      have hcu := hco fun k v hk => h1 k v (hk ▸ ho k)
      funext k
      cases hk : o k with
      | none =>
        simp only [hF, hk, hcu]
        exact h2 k (hk ▸ ho k)
      | some v =>
        simp only [hF, hk]
        rw [h1 k v (hk ▸ ho k), sub_self]
        rfl
    · intro h0
      have hs : ∀ k v, o k = some v → u k = v := by
        intro k v hk
        have := congrFun h0 k
        simp only [hF, hk] at this
        exact sub_eq_zero.1 this
      refine ⟨fun k v hp => hs k v (huniq k _ hp).symm, fun k hp => ?_⟩
      have hk : o k = none := (huniq k _ hp).symm
      have := congrFun h0 k
      simp only [hF, hk, hco hs] at this
      exact this
  obtain ⟨u, hu⟩ := strong_surjective F hFC c' hc' hFm 0
  refine ⟨u, (hiff u).2 hu, fun w hw => ?_⟩
  have hw' := (hiff w).1 hw
  have h1 := hFm w u
  rw [hw', hu] at h1
  simp only [Pi.zero_apply, sub_self, zero_mul, Finset.sum_const_zero] at h1
  have h2 : ‖w - u‖ ^ 2 ≤ 0 := by
    by_contra hcon
    have := mul_pos hc' (not_le.1 hcon)
    linarith
  have h3 : ‖w - u‖ = 0 := pow_eq_zero_iff (two_ne_zero) |>.1 (le_antisymm h2 (sq_nonneg _))
  exact sub_eq_zero.1 (norm_eq_zero.1 h3)

end JaxFem
