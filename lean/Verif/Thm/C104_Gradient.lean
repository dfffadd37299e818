import Verif.Thm.C104_Pores
import Verif.Thm.C103_Sequence
import Verif.Thm.C100_Source
import Verif.Thm.C88_Problem

/-!
# C104: the gradient of the compliance with respect to the pore angles
-/

namespace JaxFem

open scoped BigOperators Topology

/-! ### Helper lemmas: gradients of objectives at regular solutions -/

section

variable {E : Type} [NormedAddCommGroup E] [NormedSpace ℝ E] {fes : List FE}

/-- At a regular solution returned by the forward solver `jax.grad` returns the derivative of the objective along the
only branch of solutions. -/
theorem Inverse.Setup.grad_exact [CompleteSpace E] (S : Inverse.Setup E fes (totalDofs fes)) (hs : ExactAdjointSolver S.adjointSolve)
    (htot : ∀ n (A : Matrix (Fin n) (Fin n) ℝ) b, A.det ≠ 0 → ∃ x, S.adjointSolve n A b = .ok x)
    (p0 : E) (u0 : Fin (totalDofs fes) → ℝ) (h : ∀ p, WFBC fes (S.bcs p))
    (ht : HasJacobianAt (S.res p0) (S.tan p0 u0) u0)
    (hc : ContDiffAt ℝ 1 (fun up : (Fin (totalDofs fes) → ℝ) × E => constraintFn fes S.bcs S.res up.1 up.2) (u0, p0))
    (hdet : (elimRows fes (S.bcs p0) (S.tan p0 u0)).det ≠ 0) (hz : SolvesBVP fes (S.bcs p0) (S.res p0) u0)
    (fuel : Nat) (hf : S.fwdPred fuel p0 = some (.ok u0)) :
    ∃ u : E → Fin (totalDofs fes) → ℝ, u p0 = u0 ∧ DifferentiableAt ℝ u p0 ∧
      (∀ᶠ pw in 𝓝 (p0, u0), SolvesBVP fes (S.bcs pw.1) (S.res pw.1) pw.2 ↔ u pw.1 = pw.2) ∧
      (∀ᶠ p in 𝓝 p0, SolvesBVP fes (S.bcs p) (S.res p) (u p)) ∧
      ∀ f : (Fin (totalDofs fes) → ℝ) → ℝ, DifferentiableAt ℝ f u0 →
        ∃ g, S.grad fuel f p0 = some (.ok g) ∧ HasFDerivAt (fun p => f (u p)) g p0 := by
  obtain ⟨u, e3, e4, e1, e2⟩ := exists_branch _ u0 p0 hc _
    (C17_derivative fes (S.bcs p0) (h p0) 1 (S.res p0) _ _ ht) hdet
    ((constraint_zero_iff fes S.bcs S.res p0 (h p0) u0).2 hz)
  have hu : IsUnit (elimRows fes (S.bcs p0) (S.tan p0 u0)).det := isUnit_iff_ne_zero.2 hdet
  have hd := (hc.differentiableAt one_ne_zero).hasFDerivAt
  obtain ⟨hA, hB⟩ := partials_constraint fes S.bcs S.res S.tan p0 u0 (h p0) ht _ hd
  obtain ⟨X, hX, hXd⟩ := implicit_hasFDerivAt _ _ u p0 (by rw [e3]; exact hd) _ hA hu e4 e2
  refine ⟨u, e3, hX.differentiableAt, ?_, ?_, ?_⟩
  · filter_upwards [e1] with pw hpw
    rw [← constraint_zero_iff fes S.bcs S.res pw.1 (h pw.1)]
    exact hpw
  · filter_upwards [e2] with p hp
    exact (constraint_zero_iff fes S.bcs S.res p (h p) _).1 hp
  · intro f hfd
    obtain ⟨l, hl⟩ := htot _ (elimRows fes (S.bcs p0) (S.tan p0 u0)).transpose (fun k => fderiv ℝ f u0 (Pi.single k 1))
      (by rw [Matrix.det_transpose]; exact hdet)
    have hg : implicitVjp fes S.bcs S.res S.tan none S.adjointSolve u0 p0 (fun k => fderiv ℝ f u0 (Pi.single k 1))
        = .ok (-jaxVjp (fun p => constraintFn fes S.bcs S.res u0 p) p0 l) := by
      rw [implicitVjp]
      exact congrArg (fun r : Except Err (Fin (totalDofs fes) → ℝ) => r.bind fun adjoint =>
        Except.ok (-jaxVjp (fun p => constraintFn fes S.bcs S.res u0 p) p0 adjoint)) hl
    refine ⟨-jaxVjp (fun p => constraintFn fes S.bcs S.res u0 p) p0 l, ?_, ?_⟩
    · rw [Inverse.Setup.grad, hf]
      exact congrArg some hg
    · have h1 : HasFDerivAt (fun p => f (u p)) ((fderiv ℝ f u0).comp X) p0 := by
        refine HasFDerivAt.comp p0 ?_ hX
        rw [e3]
        exact hfd.hasFDerivAt
      have h2 := C38_adjoint fes S.bcs S.res S.tan S.adjointSolve hs p0 u (h p0) (by rw [e3]; exact ht)
        (by rw [e3]; exact hc.differentiableAt one_ne_zero) (by rw [e3]; exact hu) e4 e2 _ _ (by rw [e3]; exact hg)
      refine h1.congr_fderiv ?_
      rw [← h2.fderiv]
      have h3 : (fun p => dotProduct (fun k => fderiv ℝ f u0 (Pi.single k 1)) (u p)) = fun p => fderiv ℝ f u0 (u p) := by
        funext p
        conv_rhs => rw [pi_eq_sum_univ' (u p)]
        simp only [map_sum, map_smul, smul_eq_mul, dotProduct]
        exact Finset.sum_congr rfl fun k _ => mul_comm _ _
      rw [h3]
      exact (((fderiv ℝ f u0).hasFDerivAt.comp p0 hX).fderiv).symm

/-- With fixed boundary conditions the gradient is minus the adjoint displacement times the derivative of the residual with
respect to the parameters. -/
theorem Inverse.Setup.grad_formula (S : Inverse.Setup E fes (totalDofs fes)) (bcs : List (List (BCEntry ℝ)))
    (hb : ∀ p, S.bcs p = bcs) (hw : WFBC fes bcs) (hs : ExactAdjointSolver S.adjointSolve) (p0 : E)
    (u0 : Fin (totalDofs fes) → ℝ) (hr : DifferentiableAt ℝ (fun p => S.res p u0) p0) (fuel : Nat)
    (hf : S.fwdPred fuel p0 = some (.ok u0)) (f : (Fin (totalDofs fes) → ℝ) → ℝ) (g : E →L[ℝ] ℝ)
    (hg : S.grad fuel f p0 = some (.ok g)) :
    ∃ w : Fin (totalDofs fes) → ℝ, (∀ (k : Fin (totalDofs fes)) v, Prescribed fes bcs k (some v) → w k = 0) ∧
      (∀ k : Fin (totalDofs fes), Prescribed fes bcs k none →
        ∑ r, S.tan p0 u0 r k * w r = fderiv ℝ f u0 (Pi.single k 1)) ∧
      ∀ d, g d = -∑ r, w r * fderiv ℝ (fun p => S.res p u0 r) p0 d := by
  classical
  rw [Inverse.Setup.grad, hf] at hg
  have hg' : implicitVjp fes S.bcs S.res S.tan none S.adjointSolve u0 p0 (fun k => fderiv ℝ f u0 (Pi.single k 1)) = .ok g :=
    Option.some.inj hg
  rw [implicitVjp] at hg'
  rcases hl : S.adjointSolve _ (elimRows fes (S.bcs p0) (S.tan p0 u0)).transpose
    (fun k => fderiv ℝ f u0 (Pi.single k 1)) with e | l
  · rw [hl] at hg'; cases hg'
  rw [hl] at hg'
  have hgl : -jaxVjp (fun p => constraintFn fes S.bcs S.res u0 p) p0 l = g := Except.ok.inj hg'
  have hl' := hs _ _ _ _ hl
  rw [hb] at hl'
  refine ⟨fun k => if Prescribed fes bcs k none then l k else 0, ?_, ?_, ?_⟩
  · intro k v hp
    refine if_neg fun hn => ?_
    have := (C16_prescribed_unique fes bcs hw k k.2).unique hp hn
    cases this
  · intro k hk
    refine Eq.trans ?_ (congrFun hl' k)
    rw [Matrix.mulVec, dotProduct]
    refine Finset.sum_congr rfl fun r _ => ?_
    rw [Matrix.transpose_apply]
    show S.tan p0 u0 r k * (if Prescribed fes bcs r none then l r else 0) = _
    obtain ⟨o, ho⟩ := prescribed_exists fes bcs hw r r.2
    cases o with
    | none => rw [if_pos ho, (elimRows_spec fes bcs hw _ r k).1 ho]
    | some v =>
      rw [if_neg, (elimRows_spec fes bcs hw _ r k).2 v ho, if_neg, mul_zero, zero_mul]
      · rintro rfl
        have := (C16_prescribed_unique fes bcs hw r r.2).unique ho hk
        cases this
      · intro hn
        have := (C16_prescribed_unique fes bcs hw r r.2).unique ho hn
        cases this
  · intro d
    have hrow : ∀ r, HasFDerivAt (fun p => constraintFn fes S.bcs S.res u0 p r)
        (if Prescribed fes bcs r none then fderiv ℝ (fun p => S.res p u0 r) p0 else 0) p0 := by
      intro r
      obtain ⟨o, ho⟩ := prescribed_exists fes bcs hw r r.2
      cases o with
      | none =>
        rw [if_pos ho]
        have e : (fun p => constraintFn fes S.bcs S.res u0 p r) = fun p => S.res p u0 r := by
          funext p
          simp only [constraintFn]
          rw [hb]
          exact (applyBcV_spec fes bcs hw 1 _ _ r).1 ho
        rw [e]
        exact (differentiableAt_pi.1 hr r).hasFDerivAt
      | some v =>
        have e : (fun p => constraintFn fes S.bcs S.res u0 p r) = fun _ => u0 r - v * 1 := by
          funext p
          simp only [constraintFn]
          rw [hb]
          exact (applyBcV_spec fes bcs hw 1 _ _ r).2 v ho
        rw [if_neg, e]
        · exact hasFDerivAt_const _ _
        · intro hn
          have := (C16_prescribed_unique fes bcs hw r r.2).unique ho hn
          cases this
    have hall := hasFDerivAt_pi.2 hrow
    rw [← hgl]
    show -dotProduct l (fderiv ℝ (fun p => constraintFn fes S.bcs S.res u0 p) p0 d) = _
    rw [hall.fderiv, dotProduct]
    congr 1
    refine Finset.sum_congr rfl fun r _ => ?_
    rw [ContinuousLinearMap.pi_apply]
    by_cases hp : Prescribed fes bcs r none
    · simp only [if_pos hp]
    · simp only [if_neg hp, zero_apply, mul_zero, zero_mul]

end

/-! ### Helper lemmas: residuals of neo-Hookean solids -/

namespace Hyper

variable {IV : Type} {nq nfq nn n : Nat}

theorem firstPK_smooth (W : (Fin n → Fin n → ℝ) → ℝ) (G : Fin n → Fin n → ℝ)
    (h : ContDiffAt ℝ 2 W fun i j => G i j + if i = j then 1 else 0) : ContDiffAt ℝ 1 (firstPK W) G := by
  have h1 : ContDiffAt ℝ 1 (fderiv ℝ W) fun i j => G i j + if i = j then 1 else 0 := h.fderiv_right (by norm_num)
  have h2 : ContDiffAt ℝ 1 (fun G : Fin n → Fin n → ℝ => fun i j => G i j + if i = j then (1 : ℝ) else 0) G := by
    refine contDiffAt_pi.2 fun i => contDiffAt_pi.2 fun j => ContDiffAt.add ?_ contDiffAt_const
    exact (contDiff_apply_apply ℝ ℝ i j).contDiffAt
  refine contDiffAt_pi.2 fun i => contDiffAt_pi.2 fun j => ?_
  exact (ContDiffAt.comp G h1 h2).clm_apply contDiffAt_const

theorem psi_scale (d E nu : ℝ) (F : Fin n → Fin n → ℝ) :
    psi d (muOf E nu) (kappaOf E nu) F = E * psi d (muOf 1 nu) (kappaOf 1 nu) F := by
  simp only [psi, muOf, kappaOf]
  ring

theorem firstPK_scale (e : ℝ) (W : (Fin n → Fin n → ℝ) → ℝ) (G : Fin n → Fin n → ℝ) :
    firstPK (fun F => e * W F) G = e • firstPK W G := by
  funext i j
  simp only [firstPK, grad, Pi.smul_apply, smul_eq_mul]
  have : fderiv ℝ (fun F => e * W F) = fun F => e • fderiv ℝ W F := by
    funext F
    have := congrFun (fderiv_const_smul_field (𝕜 := ℝ) (f := W) e) F
    exact this
  rw [this]
  rfl

theorem deadLoads_surfaceWork (P : Problem1 IV nq nfq nn n n) (hl : P.DeadLoads) (u v : Nat → Fin n → ℝ) :
    P.surfaceWork u v = P.surfaceWork 0 v := by
  rw [Problem1.surfaceWork, Problem1.surfaceWork]
  congr 1
  refine List.map_congr_left fun s hs => ?_
  congr 1
  refine List.map_congr_left fun f _ => ?_
  refine Finset.sum_congr rfl fun q _ => ?_
  congr 1
  refine Finset.sum_congr rfl fun i _ => ?_
  rw [hl s hs (f.iv q) _ (interp (P.fc.shapeVals f.face q) (restrict nn 0 (P.conn.getD f.cell [])))]

/-- One entry of the residual with given internal variables. -/
theorem flat_atIv (P : Problem1 IV nq nfq nn n n) (h : P.WF) (hm : P.massMap = none) (hl : P.DeadLoads)
    (iv : Nat → Fin nq → IV) (u : Fin (totalDofs P.fes) → ℝ) (k : Fin (totalDofs P.fes)) :
    P.flatIv iv u k = (∑ c : Fin P.cells.length, ∑ q,
      contract (P.tensorMap (iv c q) (P.gradAt (P.vecField u) c q)) (P.gradAt (P.vecField (Pi.single k 1)) c q)
        * P.measureAt c q) + P.surfaceWork 0 (P.vecField (Pi.single k 1)) := by
  have h1 := flat_virtualWork (P.atIv iv) (atIv_WF P h iv) u (Pi.single k 1)
  have h2 : (∑ l : Fin (totalDofs P.fes), (Pi.single k 1 : Fin (totalDofs P.fes) → ℝ) l * (P.atIv iv).flat u l)
      = (P.atIv iv).flat u k := by
    rw [Finset.sum_eq_single k]
    · rw [Pi.single_eq_same, one_mul]
    · intro l _ hl
      rw [Pi.single_eq_of_ne hl, zero_mul]
    · simp
  rw [Problem1.flatIv, ← h2]
  refine h1.trans ?_
  have hm' : (P.atIv iv).massMap = none := hm
  rw [Problem1.virtualWork, atIv_tensorWork, atIv_surfaceWork, hm', deadLoads_surfaceWork P hl]
  show _ + 0 + _ = _
  rw [add_zero]
  rfl

/-- The residual of a solid with scaled energy is continuously differentiable, jointly in displacement and parameters, where
the energy is. -/
theorem res_smooth {X : Type} [NormedAddCommGroup X] [NormedSpace ℝ X] (P : Problem1 IV nq nfq nn n n) (h : P.WF)
    (hm : P.massMap = none) (hl : P.DeadLoads) (e : IV → ℝ) (W : (Fin n → Fin n → ℝ) → ℝ)
    (hW : ∀ iv G, P.tensorMap iv G = e iv • firstPK W G) (iv : X → Nat → Fin nq → IV) (u0 : Fin (totalDofs P.fes) → ℝ) (x0 : X)
    (hiv : ∀ (c : Fin P.cells.length) q, ContDiffAt ℝ 1 (fun x => e (iv x c q)) x0)
    (hF : ∀ c ∈ P.cells, ∀ q, ContDiffAt ℝ 2 W (fun i j => P.defGrad (P.vecField u0) c.nodes q i j)) :
    ContDiffAt ℝ 1 (fun up : (Fin (totalDofs P.fes) → ℝ) × X => P.flatIv (iv up.2) up.1) (u0, x0) := by
  have e1 : (fun up : (Fin (totalDofs P.fes) → ℝ) × X => P.flatIv (iv up.2) up.1)
      = fun up k => (∑ c : Fin P.cells.length, ∑ q, contract (e (iv up.2 c q) • firstPK W (gradL P P.cells[c] q up.1))
        (P.gradAt (P.vecField (Pi.single k 1)) c q) * P.measureAt c q) + P.surfaceWork 0 (P.vecField (Pi.single k 1)) := by
    funext up k
    rw [flat_atIv P h hm hl]
    simp only [hW]
    rfl
  rw [e1]
  refine contDiffAt_pi.2 fun k => ContDiffAt.add ?_ contDiffAt_const
  refine ContDiffAt.sum fun c _ => ContDiffAt.sum fun q _ => ContDiffAt.mul ?_ contDiffAt_const
  have h1 : ContDiffAt ℝ 1 (fun up : (Fin (totalDofs P.fes) → ℝ) × X => firstPK W (gradL P P.cells[c] q up.1)) (u0, x0) := by
    refine ContDiffAt.comp (g := firstPK W) (f := fun up : (Fin (totalDofs P.fes) → ℝ) × X => gradL P P.cells[c] q up.1)
      (u0, x0) (firstPK_smooth W _ ?_) (((gradL P P.cells[c] q).contDiff.contDiffAt).comp (u0, x0) contDiffAt_fst)
    have h2 := hF P.cells[c] (List.getElem_mem _) q
    have h3 : (fun i j => P.defGrad (P.vecField u0) (P.cells[c]).nodes q i j)
        = fun i j => gradL P P.cells[c] q u0 i j + if i = j then (1 : ℝ) else 0 := by
      funext i j
      rw [Problem1.defGrad, Matrix.add_apply, Matrix.one_apply, add_comm]
      rfl
    rwa [h3] at h2
  have h4 : ContDiffAt ℝ 1 (fun up : (Fin (totalDofs P.fes) → ℝ) × X => e (iv up.2 c q)) (u0, x0) :=
    ContDiffAt.comp (g := fun x => e (iv x c q)) (f := Prod.snd) (u0, x0) (hiv c q) contDiffAt_snd
  unfold contract
  refine ContDiffAt.sum fun i _ => ContDiffAt.sum fun j _ => ContDiffAt.mul ?_ contDiffAt_const
  exact h4.mul (contDiffAt_pi.1 (contDiffAt_pi.1 h1 i) j)

/-- A state whose total energy is not above that of the undeformed solid: the load has done at least the stored work. -/
theorem stored_bound (P : Problem1 IV nq nfq nn n n) (h : P.WF) (W : IV → (Fin n → Fin n → ℝ) → ℝ)
    (u : Fin (totalDofs P.fes) → ℝ)
    (hW : ∀ cell ∈ P.cells, ∀ q, 0 ≤ W (cell.iv q) fun i j => P.defGrad (P.vecField u) cell.nodes q i j)
    (h1 : ∀ cell ∈ P.cells, ∀ q, W (cell.iv q) (fun i j => (1 : Matrix (Fin n) (Fin n) ℝ) i j) = 0)
    (hm : ∀ cell ∈ P.cells, ∀ q, 0 ≤ (mapJacobian (coords nn P.points cell.nodes) (Matrix.of (P.el.shapeGradsRef q))).det
      * P.el.quadWeights q) (hle : P.potential W (P.vecField u) ≤ P.potential W (P.vecField 0)) :
    ∃ stored, P.potential W (P.vecField u) = stored + P.surfaceWork 0 (P.vecField u) ∧ 0 ≤ stored ∧
      stored ≤ -P.surfaceWork 0 (P.vecField u) := by
  have h0 : P.potential W (P.vecField 0) = 0 := by
    obtain ⟨l, hl⟩ := loads_linear P h
    rw [Problem1.potential, hl]
    have h2 : P.integral (fun iv _ G => W iv fun i j => (1 : Matrix (Fin n) (Fin n) ℝ) i j + G i j) (P.vecField 0) = 0 := by
      refine List.sum_eq_zero fun x hx => ?_
      obtain ⟨cell, hc, rfl⟩ := List.mem_map.1 hx
      refine Finset.sum_eq_zero fun q _ => ?_
      have hg : P.gradient (P.vecField 0) cell.nodes q = 0 := by
        have := map_zero (gradL P cell q)
        rw [gradL_apply] at this
        exact this
      have e2 : (fun i j => (1 : Matrix (Fin n) (Fin n) ℝ) i j + P.gradient (P.vecField 0) cell.nodes q i j)
          = fun i j => (1 : Matrix (Fin n) (Fin n) ℝ) i j := by
        funext i j
        rw [hg]
        exact add_zero _
      show W (cell.iv q) (fun i j => (1 : Matrix (Fin n) (Fin n) ℝ) i j + P.gradient (P.vecField 0) cell.nodes q i j) * _ = 0
      rw [e2, h1 cell hc q, zero_mul]
    rw [h2]
    simp
  refine ⟨P.integral (fun iv _ G => W iv fun i j => (1 : Matrix (Fin n) (Fin n) ℝ) i j + G i j) (P.vecField u), rfl, ?_, ?_⟩
  · refine List.sum_nonneg fun x hx => ?_
    obtain ⟨cell, hc, rfl⟩ := List.mem_map.1 hx
    exact Finset.sum_nonneg fun q _ => mul_nonneg (hW cell hc q) (hm cell hc q)
  · rw [h0, Problem1.potential] at hle
    linarith

end Hyper

end JaxFem
