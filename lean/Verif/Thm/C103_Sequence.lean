import Verif.Spec.CoDesign
import Verif.Thm.C38_Branch
import Verif.Thm.C20_NewtonLoop

/-!
# C103: gradients through a sequence of load steps
-/

namespace JaxFem.CoDesign

open scoped Topology

variable {E B T Θ : Type} [NormedAddCommGroup E] [NormedSpace ℝ E] [NormedAddCommGroup B] [NormedSpace ℝ B]
  [NormedAddCommGroup Θ] [NormedSpace ℝ Θ] {fes : List FE}

/-! ### Helper lemmas -/

theorem constraint_contDiff (S : Inverse.Setup E fes (totalDofs fes)) (bcs : List (List (BCEntry ℝ)))
    (hb : ∀ p, S.bcs p = bcs) (hw : WFBC fes bcs) (u : (Fin (totalDofs fes) → ℝ)) (p : E)
    (h : ContDiffAt ℝ 1 (fun up : (Fin (totalDofs fes) → ℝ) × E => S.res up.2 up.1) (u, p)) :
    ContDiffAt ℝ 1 (fun up : (Fin (totalDofs fes) → ℝ) × E => constraintFn fes S.bcs S.res up.1 up.2) (u, p) := by
  rw [contDiffAt_pi]
  intro k
  obtain ⟨o, ho⟩ := prescribed_exists fes bcs hw k k.2
  cases o with
  | none =>
    have e : (fun up : (Fin (totalDofs fes) → ℝ) × E => constraintFn fes S.bcs S.res up.1 up.2 k) = fun up => S.res up.2 up.1 k := by
      funext up
      simp only [constraintFn]
      rw [hb]
      exact (applyBcV_spec fes bcs hw 1 _ _ k).1 ho
    rw [e]
    exact contDiffAt_pi.1 h k
  | some v =>
    have e : (fun up : (Fin (totalDofs fes) → ℝ) × E => constraintFn fes S.bcs S.res up.1 up.2 k) = fun up => up.1 k - v * 1 := by
      funext up
      simp only [constraintFn]
      rw [hb]
      exact (applyBcV_spec fes bcs hw 1 _ _ k).2 v ho
    rw [e]
    fun_prop

variable (S : Inverse.Setup E fes (totalDofs fes)) (par : B → T → E) (update : (Fin (totalDofs fes) → ℝ) → B → B)
  (bcs : List (List (BCEntry ℝ))) (hb : ∀ p, S.bcs p = bcs) (hw : WFBC fes bcs)

theorem Trajectory.length {b : B} {ts : List T} {us : List (Fin (totalDofs fes) → ℝ)} (h : Trajectory S par update b ts us) :
    us.length = ts.length := by
  induction h with
  | done => rfl
  | step _ _ _ _ _ _ _ ih => simp [ih]

include hb hw in
/-- The differentiated step: the equilibrium depends differentiably on the design, and the backward pass gives the pulled
back cotangent. -/
theorem step_deriv (hs : ExactAdjointSolver S.adjointSolve) (θ0 : Θ) (t : T) (b : Θ → B) (hbd : DifferentiableAt ℝ b θ0)
    (u : Θ → (Fin (totalDofs fes) → ℝ)) (hu : ContinuousAt u θ0) (hr : RegularStep S par update (b θ0) t (u θ0))
    (hz : ∀ᶠ θ in 𝓝 θ0, SolvesBVP fes (S.bcs (par (b θ) t)) (S.res (par (b θ) t)) (u θ)) :
    DifferentiableAt ℝ u θ0 ∧ ∀ (φ : (Fin (totalDofs fes) → ℝ) →L[ℝ] ℝ) (g : E →L[ℝ] ℝ),
      implicitVjp fes S.bcs S.res S.tan none S.adjointSolve (u θ0) (par (b θ0) t) (fun k => φ (Pi.single k 1)) = .ok g →
      φ.comp (fderiv ℝ u θ0) = (g.comp (fderiv ℝ (fun b => par b t) (b θ0))).comp (fderiv ℝ b θ0) := by
  have hw' : ∀ p, WFBC fes (S.bcs p) := fun p => by rw [hb]; exact hw
  set c := fun up : (Fin (totalDofs fes) → ℝ) × E => constraintFn fes S.bcs S.res up.1 up.2 with hc
  have hcd : HasFDerivAt c (fderiv ℝ c (u θ0, par (b θ0) t)) (u θ0, par (b θ0) t) :=
    ((constraint_contDiff S bcs hb hw _ _ hr.res).differentiableAt one_ne_zero).hasFDerivAt
  set L := fderiv ℝ c (u θ0, par (b θ0) t) with hL
  obtain ⟨hA, hB⟩ := partials_constraint fes S.bcs S.res S.tan (par (b θ0) t) (u θ0) (hw' _) hr.tangent L hcd
  have hp : HasFDerivAt (fun θ => par (b θ) t) ((fderiv ℝ (fun b => par b t) (b θ0)).comp (fderiv ℝ b θ0)) θ0 :=
    HasFDerivAt.comp (g := fun b => par b t) θ0 (hr.par.differentiableAt one_ne_zero).hasFDerivAt hbd.hasFDerivAt
  set M := (fderiv ℝ (fun b => par b t) (b θ0)).comp (fderiv ℝ b θ0) with hM
  set G := fun x : (Fin (totalDofs fes) → ℝ) × Θ => c (x.1, par (b x.2) t) with hG
  have hGd : HasFDerivAt G (L.comp ((ContinuousLinearMap.fst ℝ (Fin (totalDofs fes) → ℝ) Θ).prod (M.comp (ContinuousLinearMap.snd ℝ (Fin (totalDofs fes) → ℝ) Θ))))
      (u θ0, θ0) := by
    refine HasFDerivAt.comp (g := c) (f := fun x : (Fin (totalDofs fes) → ℝ) × Θ => (x.1, par (b x.2) t)) (u θ0, θ0) hcd ?_
    exact hasFDerivAt_fst.prodMk (HasFDerivAt.comp (g := fun θ => par (b θ) t) (u θ0, θ0) hp hasFDerivAt_snd)
  obtain ⟨X, hX, hXd⟩ := implicit_hasFDerivAt G _ u θ0 hGd (elimRows fes (S.bcs (par (b θ0) t)) (S.tan (par (b θ0) t) (u θ0)))
    (fun d => by
      show L (d, M 0) = _
      rw [map_zero]
      exact hA d)
    (isUnit_iff_ne_zero.2 hr.det) hu (by
      filter_upwards [hz] with θ hθ
      exact (constraint_zero_iff fes S.bcs S.res (par (b θ) t) (hw' _) (u θ)).2 hθ)
  refine ⟨hX.differentiableAt, fun φ g hg => ?_⟩
  rw [implicitVjp] at hg
  rcases hl : S.adjointSolve _ (elimRows fes (S.bcs (par (b θ0) t)) (S.tan (par (b θ0) t) (u θ0))).transpose
    (fun k => φ (Pi.single k 1)) with e | l
  · rw [hl] at hg; cases hg
  rw [hl] at hg
  have hg' : -jaxVjp (fun p => constraintFn fes S.bcs S.res (u θ0) p) (par (b θ0) t) l = g := Except.ok.inj hg
  have hl' := hs _ _ _ _ hl
  rw [hX.fderiv]
  ext d
  have hφ : ∀ x : (Fin (totalDofs fes) → ℝ), φ x = dotProduct (fun k => φ (Pi.single k 1)) x := by
    intro x
    conv_lhs => rw [pi_eq_sum_univ' x]
    simp only [map_sum, map_smul, smul_eq_mul, dotProduct]
    exact Finset.sum_congr rfl fun k _ => mul_comm _ _
  show φ (X d) = g (M d)
  rw [← hg', hφ, ← hl']
  show _ = -dotProduct l (fderiv ℝ (fun p => constraintFn fes S.bcs S.res (u θ0) p) (par (b θ0) t) (M d))
  rw [hB, Matrix.mulVec_transpose, ← Matrix.dotProduct_mulVec]
  have := hXd d
  have h2 : (L.comp ((ContinuousLinearMap.fst ℝ (Fin (totalDofs fes) → ℝ) Θ).prod (M.comp (ContinuousLinearMap.snd ℝ (Fin (totalDofs fes) → ℝ) Θ)))) (0, d) = L (0, M d) :=
    rfl
  rw [h2] at this
  rw [eq_neg_of_add_eq_zero_left this, dotProduct_neg]
  rfl

include hb hw in
theorem sweep_deriv (hs : ExactAdjointSolver S.adjointSolve) (f : (Fin (totalDofs fes) → ℝ) → ℝ) (θ0 : Θ) (ts : List T) :
    ∀ (us : Θ → List (Fin (totalDofs fes) → ℝ)) (uPrev : Θ → (Fin (totalDofs fes) → ℝ)) (b : Θ → B), DifferentiableAt ℝ uPrev θ0 → DifferentiableAt ℝ b θ0 →
      (∀ᶠ θ in 𝓝 θ0, Trajectory S par update (b θ) ts (us θ)) →
      (∀ i, ContinuousAt (fun θ => (us θ).getD i 0) θ0) → RegularAlong S par update (b θ0) ts (us θ0) →
      DifferentiableAt ℝ f ((us θ0).getLastD (uPrev θ0)) → ∀ bars,
      sweep S par update f ts (us θ0) (uPrev θ0) (b θ0) = .ok bars →
      HasFDerivAt (fun θ => f ((us θ).getLastD (uPrev θ)))
        (bars.1.comp (fderiv ℝ uPrev θ0) + bars.2.comp (fderiv ℝ b θ0)) θ0 := by
  induction ts with
  | nil =>
    intro us uPrev b hup hbd ht hcont hreg hf bars hbars
    have hnil : ∀ᶠ θ in 𝓝 θ0, us θ = [] := by
      filter_upwards [ht] with θ hθ
      generalize us θ = l at hθ
      cases hθ
      rfl
    have h0 := hnil.self_of_nhds
    rw [h0] at hbars hf
    have hbars' : ((fderiv ℝ f (uPrev θ0), 0) : ((Fin (totalDofs fes) → ℝ) →L[ℝ] ℝ) × (B →L[ℝ] ℝ)) = bars := Except.ok.inj hbars
    subst hbars'
    have h1 : HasFDerivAt (fun θ => f (uPrev θ)) ((fderiv ℝ f (uPrev θ0)).comp (fderiv ℝ uPrev θ0)) θ0 :=
      HasFDerivAt.comp (g := f) θ0 (DifferentiableAt.hasFDerivAt hf) hup.hasFDerivAt
    have e2 : ((fderiv ℝ f (uPrev θ0), 0) : ((Fin (totalDofs fes) → ℝ) →L[ℝ] ℝ) × (B →L[ℝ] ℝ)).1.comp (fderiv ℝ uPrev θ0)
        + ((fderiv ℝ f (uPrev θ0), 0) : ((Fin (totalDofs fes) → ℝ) →L[ℝ] ℝ) × (B →L[ℝ] ℝ)).2.comp (fderiv ℝ b θ0)
        = (fderiv ℝ f (uPrev θ0)).comp (fderiv ℝ uPrev θ0) := by
      ext d
      simp
    rw [e2]
    refine h1.congr_of_eventuallyEq ?_
    filter_upwards [hnil] with θ hθ
    rw [hθ]
    rfl
  | cons t ts ih =>
    intro us uPrev b hup hbd ht hcont hreg hf bars hbars
    set u := fun θ => (us θ).getD 0 0 with hu
    set vs := fun θ => (us θ).tail with hvs
    have hcons : ∀ θ, Trajectory S par update (b θ) (t :: ts) (us θ) → us θ = u θ :: vs θ ∧
        SolvesBVP fes (S.bcs (par (b θ) t)) (S.res (par (b θ) t)) (u θ) ∧
        Trajectory S par update (update (u θ) (b θ)) ts (vs θ) := by
      intro θ h
      simp only [hu, hvs]
      generalize us θ = l at h
      cases h with
      | step _ _ _ w ws h1 h2 => exact ⟨rfl, h1, h2⟩
    obtain ⟨e0, -, -⟩ := hcons θ0 ht.self_of_nhds
    rw [e0] at hreg hbars hf
    obtain ⟨hr, hregs⟩ : RegularStep S par update (b θ0) t (u θ0) ∧
        RegularAlong S par update (update (u θ0) (b θ0)) ts (vs θ0) := by
      cases hreg with
      | step _ _ _ _ _ h1 h2 => exact ⟨h1, h2⟩
    obtain ⟨hud, hadj⟩ := step_deriv S par update bcs hb hw hs θ0 t b hbd u (hcont 0) hr (by
      filter_upwards [ht] with θ hθ using (hcons θ hθ).2.1)
    have hupd := (hr.update.differentiableAt one_ne_zero).hasFDerivAt
    set D := fderiv ℝ (fun x : (Fin (totalDofs fes) → ℝ) × B => update x.1 x.2) (u θ0, b θ0) with hD
    have hb' : HasFDerivAt (fun θ => update (u θ) (b θ)) (D.comp ((fderiv ℝ u θ0).prod (fderiv ℝ b θ0))) θ0 :=
      HasFDerivAt.comp (g := fun x : (Fin (totalDofs fes) → ℝ) × B => update x.1 x.2) (f := fun θ => (u θ, b θ)) θ0 hupd
        (hud.hasFDerivAt.prodMk hbd.hasFDerivAt)
    rw [sweep] at hbars
    rcases hsw : sweep S par update f ts (vs θ0) (u θ0) (update (u θ0) (b θ0)) with e | bs
    · rw [hsw] at hbars; cases hbars
    rw [hsw] at hbars
    have hih := ih vs u (fun θ => update (u θ) (b θ)) hud hb'.differentiableAt
      (by filter_upwards [ht] with θ hθ using (hcons θ hθ).2.2)
      (fun i => by
        have := hcont (i + 1)
        refine this.congr ?_
        filter_upwards [ht] with θ hθ
        conv_lhs => rw [(hcons θ hθ).1]
        simp)
      hregs (by rwa [List.getLastD_cons] at hf) bs hsw
    rw [hb'.fderiv] at hih
    set φ := bs.1 + bs.2.comp (D.comp (ContinuousLinearMap.inl ℝ _ _)) with hφ
    rcases hgv : implicitVjp fes S.bcs S.res S.tan none S.adjointSolve (u θ0) (par (b θ0) t)
      (fun k => φ (Pi.single k 1)) with e | g
    · have : (Except.error e : Except Err (((Fin (totalDofs fes) → ℝ) →L[ℝ] ℝ) × (B →L[ℝ] ℝ))) = .ok bars := by
        rw [← hbars]
        show _ = (implicitVjp fes S.bcs S.res S.tan none S.adjointSolve (u θ0) (par (b θ0) t)
          (fun k => φ (Pi.single k 1))).bind _
        rw [hgv]
        rfl
      cases this
    have hbars' : ((0, bs.2.comp (D.comp (ContinuousLinearMap.inr ℝ _ _)) + g.comp (fderiv ℝ (fun b => par b t) (b θ0))) :
        ((Fin (totalDofs fes) → ℝ) →L[ℝ] ℝ) × (B →L[ℝ] ℝ)) = bars := by
      apply Except.ok.inj (ε := Err)
      rw [← hbars]
      show _ = (implicitVjp fes S.bcs S.res S.tan none S.adjointSolve (u θ0) (par (b θ0) t)
          (fun k => φ (Pi.single k 1))).bind _
      rw [hgv]
      rfl
    subst hbars'
    have hkey := hadj φ g hgv
    have hlin : ((0, bs.2.comp (D.comp (ContinuousLinearMap.inr ℝ _ _)) + g.comp (fderiv ℝ (fun b => par b t) (b θ0))) :
        ((Fin (totalDofs fes) → ℝ) →L[ℝ] ℝ) × (B →L[ℝ] ℝ)).1.comp (fderiv ℝ uPrev θ0)
        + ((0, bs.2.comp (D.comp (ContinuousLinearMap.inr ℝ _ _)) + g.comp (fderiv ℝ (fun b => par b t) (b θ0))) :
        ((Fin (totalDofs fes) → ℝ) →L[ℝ] ℝ) × (B →L[ℝ] ℝ)).2.comp (fderiv ℝ b θ0)
        = bs.1.comp (fderiv ℝ u θ0) + bs.2.comp (D.comp ((fderiv ℝ u θ0).prod (fderiv ℝ b θ0))) := by
      ext d
      have h1 := congrArg (fun F : Θ →L[ℝ] ℝ => F d) hkey
      simp only [hφ, ContinuousLinearMap.comp_apply, ContinuousLinearMap.add_apply, ContinuousLinearMap.inl_apply] at h1
      have h2 : D (fderiv ℝ u θ0 d, fderiv ℝ b θ0 d) = D (fderiv ℝ u θ0 d, 0) + D (0, fderiv ℝ b θ0 d) := by
        rw [← map_add]
        simp
      simp only [ContinuousLinearMap.comp_apply, ContinuousLinearMap.add_apply, ContinuousLinearMap.inr_apply,
        ContinuousLinearMap.zero_apply, ContinuousLinearMap.prod_apply]
      rw [h2, map_add]
      linarith
    rw [hlin]
    refine hih.congr_of_eventuallyEq ?_
    filter_upwards [ht] with θ hθ
    rw [(hcons θ hθ).1, List.getLastD_cons]

theorem sweep_total (htot : ∀ n (A : Matrix (Fin n) (Fin n) ℝ) b, A.det ≠ 0 → ∃ x, S.adjointSolve n A b = .ok x)
    (f : (Fin (totalDofs fes) → ℝ) → ℝ) (b : B) (ts : List T) (us : List (Fin (totalDofs fes) → ℝ))
    (h : RegularAlong S par update b ts us) : ∀ uPrev, ∃ bars, sweep S par update f ts us uPrev b = .ok bars := by
  induction h with
  | done b => exact fun uPrev => ⟨_, rfl⟩
  | step b t ts u us hr _ ih =>
    intro uPrev
    obtain ⟨bs, hbs⟩ := ih u
    rw [sweep, hbs]
    obtain ⟨x, hx⟩ := htot _ (elimRows fes (S.bcs (par b t)) (S.tan (par b t) u)).transpose
      (fun k => (bs.1 + bs.2.comp ((fderiv ℝ (fun x : (Fin (totalDofs fes) → ℝ) × B => update x.1 x.2) (u, b)).comp
        (ContinuousLinearMap.inl ℝ _ _))) (Pi.single k 1)) (by rw [Matrix.det_transpose]; exact hr.det)
    have hg : implicitVjp fes S.bcs S.res S.tan none S.adjointSolve u (par b t) (fun k => (bs.1 + bs.2.comp
        ((fderiv ℝ (fun x : (Fin (totalDofs fes) → ℝ) × B => update x.1 x.2) (u, b)).comp
        (ContinuousLinearMap.inl ℝ _ _))) (Pi.single k 1))
        = .ok (-jaxVjp (fun p => constraintFn fes S.bcs S.res u p) (par b t) x) := by
      rw [implicitVjp]
      exact congrArg (fun r : Except Err (Fin (totalDofs fes) → ℝ) => r.bind fun adjoint =>
        Except.ok (-jaxVjp (fun p => constraintFn fes S.bcs S.res u p) (par b t) adjoint)) hx
    exact ⟨(0, bs.2.comp ((fderiv ℝ (fun x : (Fin (totalDofs fes) → ℝ) × B => update x.1 x.2) (u, b)).comp
        (ContinuousLinearMap.inr ℝ _ _)) + (-jaxVjp (fun p => constraintFn fes S.bcs S.res u p) (par b t) x).comp
        (fderiv ℝ (fun b => par b t) b)),
      congrArg (fun r : Except Err (E →L[ℝ] ℝ) => r.bind fun g => Except.ok
        ((0, bs.2.comp ((fderiv ℝ (fun x : (Fin (totalDofs fes) → ℝ) × B => update x.1 x.2) (u, b)).comp
        (ContinuousLinearMap.inr ℝ _ _)) + g.comp (fderiv ℝ (fun b => par b t) b)) :
          ((Fin (totalDofs fes) → ℝ) →L[ℝ] ℝ) × (B →L[ℝ] ℝ))) hg⟩

include hb hw in
theorem branch_exists [CompleteSpace B] (ts : List T) (b0 : B) (us0 : List (Fin (totalDofs fes) → ℝ))
    (hreg : RegularAlong S par update b0 ts us0) : Trajectory S par update b0 ts us0 →
    ∃ us : B → List (Fin (totalDofs fes) → ℝ), us b0 = us0 ∧ (∀ᶠ b in 𝓝 b0, Trajectory S par update b ts (us b)) ∧
      (∀ i, ContinuousAt (fun b => (us b).getD i 0) b0) ∧
      ∃ ε > 0, ∀ᶠ b in 𝓝 b0, ∀ ws, Trajectory S par update b ts ws →
        (∀ i, ‖ws.getD i 0 - us0.getD i 0‖ < ε) → ws = us b := by
  induction hreg with
  | done b =>
    intro _
    refine ⟨fun _ => [], rfl, Filter.Eventually.of_forall fun b => .done b, fun i => continuousAt_const, 1, one_pos,
      Filter.Eventually.of_forall fun b ws h _ => ?_⟩
    cases h
    rfl
  | step b t ts u us hr hregs ih =>
    intro htraj
    obtain ⟨hsol, htr⟩ : SolvesBVP fes (S.bcs (par b t)) (S.res (par b t)) u ∧
        Trajectory S par update (update u b) ts us := by
      cases htraj with
      | step _ _ _ _ _ h1 h2 => exact ⟨h1, h2⟩
    have hw' : ∀ p, WFBC fes (S.bcs p) := fun p => by rw [hb]; exact hw
    have hGc : ContDiffAt ℝ 1 (fun x : (Fin (totalDofs fes) → ℝ) × B => constraintFn fes S.bcs S.res x.1 (par x.2 t))
        (u, b) := by
      refine ContDiffAt.comp (g := fun up : (Fin (totalDofs fes) → ℝ) × E => constraintFn fes S.bcs S.res up.1 up.2)
        (f := fun x : (Fin (totalDofs fes) → ℝ) × B => (x.1, par x.2 t)) (u, b)
        (constraint_contDiff S bcs hb hw u (par b t) hr.res) ?_
      exact contDiffAt_fst.prodMk (ContDiffAt.comp (g := fun b => par b t) (u, b) hr.par contDiffAt_snd)
    obtain ⟨w, hw0, hwc, hw1, hw2⟩ := exists_branch _ u b hGc _
      (C17_derivative fes (S.bcs (par b t)) (hw' _) 1 (S.res (par b t)) _ _ hr.tangent) hr.det
      ((constraint_zero_iff fes S.bcs S.res (par b t) (hw' _) u).2 hsol)
    obtain ⟨vs, hv0, hv1, hv2, ε2, hε2, hv3⟩ := ih htr
    have hnext : ContinuousAt (fun b => update (w b) b) b := by
      have h1 : ContinuousAt (fun x : (Fin (totalDofs fes) → ℝ) × B => update x.1 x.2) (w b, b) := by
        rw [hw0]
        exact hr.update.continuousAt
      exact ContinuousAt.comp (f := fun b => (w b, b)) h1 (hwc.prodMk continuousAt_id)
    have hnb : update (w b) b = update u b := by rw [hw0]
    have htend : Filter.Tendsto (fun b => update (w b) b) (𝓝 b) (𝓝 (update u b)) := by
      have := hnext.tendsto
      rwa [hnb] at this
    refine ⟨fun b => w b :: vs (update (w b) b), ?_, ?_, ?_, ?_⟩
    · simp only [hw0, hv0]
    · filter_upwards [hw2, htend.eventually hv1] with b' h1 h2
      exact .step _ _ _ _ _ ((constraint_zero_iff fes S.bcs S.res (par b' t) (hw' _) _).1 h1) h2
    · intro i
      cases i with
      | zero => exact hwc
      | succ i =>
        have h1 : ContinuousAt (fun b => (vs b).getD i 0) (update (w b) b) := by
          rw [hnb]
          exact hv2 i
        exact ContinuousAt.comp (f := fun b => update (w b) b) h1 hnext
    · rw [nhds_prod_eq, Filter.eventually_prod_iff] at hw1
      obtain ⟨pa, hpa, pb, hpb, hw1⟩ := hw1
      obtain ⟨ε1, hε1, hpb⟩ := Metric.eventually_nhds_iff.1 hpb
      refine ⟨min ε1 ε2, lt_min hε1 hε2, ?_⟩
      filter_upwards [hpa, htend.eventually hv3] with b' h1 h2
      intro ws hws hclose
      cases hws with
      | step _ _ _ x xs hx hxs =>
        have hx0 : w b' = x := by
          refine (hw1 h1 (hpb ?_)).1 ((constraint_zero_iff fes S.bcs S.res (par b' t) (hw' _) _).2 hx)
          rw [dist_eq_norm]
          exact lt_of_lt_of_le (hclose 0) (min_le_left _ _)
        subst hx0
        rw [h2 xs hxs fun i => lt_of_lt_of_le (hclose (i + 1)) (min_le_right _ _)]

/-! ### Property theorems -/

/-- **C103 (load steps).** What `fwd_pred_seq` returns are approximate equilibria of the successive steps. -/
theorem C103_forward (hw' : ∀ p, WFBC fes (S.bcs p)) (hn : ∀ r, 0 ≤ S.norm r) (fuel : Nat) (ts : List T) :
    ∀ (guess : Fin (totalDofs fes) → ℝ) (b : B) (us : List (Fin (totalDofs fes) → ℝ)),
      fwdPredSeq S par update fuel ts guess b = some (.ok us) → Approximate S par update guess b ts us := by
  induction ts with
  | nil =>
    intro guess b us h
    cases h
    exact .done guess b
  | cons t ts ih =>
    intro guess b us h
    rw [fwdPredSeq] at h
    rcases hf : ({ S with guess := guess } : Inverse.Setup E fes _).fwdPred fuel (par b t) with _ | e | u
    · rw [hf] at h; cases h
    · rw [hf] at h; cases h
    rw [hf] at h
    dsimp only at h
    rcases hr : fwdPredSeq S par update fuel ts u (update u b) with _ | e | vs
    · rw [hr] at h; cases h
    · rw [hr] at h; cases h
    rw [hr] at h
    obtain rfl : u :: vs = us := Except.ok.inj (Option.some.inj h)
    rw [Inverse.Setup.fwdPred] at hf
    rcases hns : newtonSolve (newtonUpdate fes (S.bcs (par b t)) (S.res (par b t)) (S.tan (par b t)))
      (fun rA => .fin (S.norm rA.1)) (newtonStep fes (S.bcs (par b t)) (fun r => .fin (S.norm r)) (S.res (par b t))
        S.solve S.lineSearch) (fun _ => true) S.tol S.relTol guess fuel with _ | e | ⟨d, n⟩
    · rw [hns] at hf; cases hf
    · rw [hns] at hf; cases hf
    rw [hns] at hf
    obtain rfl : d = u := Except.ok.inj (Option.some.inj hf)
    obtain ⟨r0, r, x, h0, -, h1, hx, -, hc⟩ := C20_converged _ _ _ _ _ _
      (fun r x h => by cases h; exact hn _) _ _ _ _ hns
    have hdef : ∀ w rA, newtonUpdate fes (S.bcs (par b t)) (S.res (par b t)) (S.tan (par b t)) w = .ok rA →
        Defect fes (S.bcs (par b t)) (S.res (par b t)) w rA.1 := by
      intro w rA h k
      cases h
      refine ⟨fun hp => (applyBcV_spec fes _ (hw' _) 1 _ _ k).1 hp, fun v hp => ?_⟩
      have := (applyBcV_spec fes _ (hw' _) 1 (S.res (par b t) w) w k).2 v hp
      rwa [mul_one] at this
    cases hx
    refine .step guess b t ts d vs r.1 r0.1 (hdef _ _ h1) (hdef _ _ h0) ?_ (ih _ _ _ hr)
    rcases hc with hc | ⟨x0, hx0, hc⟩
    · exact .inl hc
    · cases hx0
      exact .inr hc

/-- **C103 (value).** When `J_total` returns, its value is the objective of the last of as many approximate equilibria as there are
load steps, each begun with the one before. -/
theorem C103_value (hw' : ∀ p, WFBC fes (S.bcs p)) (hn : ∀ r, 0 ≤ S.norm r) (init : Θ → B)
    (f : (Fin (totalDofs fes) → ℝ) → ℝ) (fuel : Nat) (ts : List T) (guess : Fin (totalDofs fes) → ℝ) (θ : Θ) (v : ℝ)
    (h : objective S par update init f fuel ts guess θ = some (.ok v)) :
    ∃ us, Approximate S par update guess (init θ) ts us ∧ us.length = ts.length ∧
      (ts = [] ∧ v = f guess ∨ ∃ ws u, us = ws ++ [u] ∧ v = f u) := by
  unfold objective at h
  rcases hr : fwdPredSeq S par update fuel ts guess (init θ) with _ | e | us
  · rw [hr] at h; cases h
  · rw [hr] at h; cases h
  rw [hr] at h
  have hv : f (us.getLastD guess) = v := Except.ok.inj (Option.some.inj h)
  have ha := C103_forward S par update hw' hn fuel ts guess (init θ) us hr
  have hl : us.length = ts.length := by
    clear hr hv h
    generalize init θ = b0 at ha
    induction ha with
    | done => rfl
    | step _ _ _ _ _ _ _ _ _ _ _ _ ih => simp [ih]
  refine ⟨us, ha, hl, ?_⟩
  rcases List.eq_nil_or_concat us with rfl | ⟨ws, u, rfl⟩
  · exact .inl ⟨List.length_eq_zero_iff.1 hl.symm, hv.symm⟩
  · exact .inr ⟨ws, u, by simp, by rw [← hv]; simp⟩

include hb hw in
/-- **C103 (gradient).** Through the equilibria `us0` of the design `θ0`, at which all steps are regular, there passes
exactly one family of equilibria of the neighbouring designs; `jax.grad(J_total)` returns, and what it returns is the
derivative of the objective of the last equilibrium of the family. -/
theorem C103_gradient [CompleteSpace B] (hs : ExactAdjointSolver S.adjointSolve)
    (htot : ∀ n (A : Matrix (Fin n) (Fin n) ℝ) b, A.det ≠ 0 → ∃ x, S.adjointSolve n A b = .ok x)
    (init : Θ → B) (θ0 : Θ) (hi : DifferentiableAt ℝ init θ0) (f : (Fin (totalDofs fes) → ℝ) → ℝ) (fuel : Nat) (ts : List T)
    (guess : Fin (totalDofs fes) → ℝ) (us0 : List (Fin (totalDofs fes) → ℝ))
    (hrun : fwdPredSeq S par update fuel ts guess (init θ0) = some (.ok us0))
    (htraj : Trajectory S par update (init θ0) ts us0) (hreg : RegularAlong S par update (init θ0) ts us0)
    (hf : DifferentiableAt ℝ f (us0.getLastD guess)) :
    ∃ g, grad S par update init f fuel ts guess θ0 = some (.ok g) ∧
      ∃ us : Θ → List (Fin (totalDofs fes) → ℝ), us θ0 = us0 ∧
        (∀ᶠ θ in 𝓝 θ0, Trajectory S par update (init θ) ts (us θ)) ∧
        (∃ ε > 0, ∀ᶠ θ in 𝓝 θ0, ∀ ws, Trajectory S par update (init θ) ts ws →
          (∀ i, ‖ws.getD i 0 - us0.getD i 0‖ < ε) → ws = us θ) ∧
        HasFDerivAt (fun θ => f ((us θ).getLastD guess)) g θ0 := by
  obtain ⟨bars, hbars⟩ := sweep_total S par update htot f _ _ _ hreg guess
  obtain ⟨us, h0, h1, h2, ε, hε, h3⟩ := branch_exists S par update bcs hb hw ts _ us0 hreg htraj
  have htend := hi.continuousAt.tendsto
  refine ⟨bars.2.comp (fderiv ℝ init θ0), ?_, fun θ => us (init θ), h0, htend.eventually h1,
    ⟨ε, hε, htend.eventually h3⟩, ?_⟩
  · rw [grad, hrun]
    exact congrArg (fun r : Except Err (((Fin (totalDofs fes) → ℝ) →L[ℝ] ℝ) × (B →L[ℝ] ℝ)) =>
      some (r.bind fun bars => Except.ok (bars.2.comp (fderiv ℝ init θ0)))) hbars
  · have hd := sweep_deriv S par update bcs hb hw hs f θ0 ts (fun θ => us (init θ)) (fun _ => guess) init
      (differentiableAt_const _) hi (htend.eventually h1) (fun i => ContinuousAt.comp (f := init) (h2 i) hi.continuousAt)
      (by rw [h0]; exact hreg) (by rw [h0]; exact hf) bars (by rw [h0]; exact hbars)
    have e : bars.1.comp (fderiv ℝ (fun _ : Θ => guess) θ0) + bars.2.comp (fderiv ℝ init θ0)
        = bars.2.comp (fderiv ℝ init θ0) := by
      ext d
      simp
    rwa [e] at hd

include hb hw in
/-- **C103 (any family).** The value of the reverse sweep is the derivative along every family of equilibria that is
continuous at the design, for any differentiable dependence of the initial data on the design. -/
theorem C103_family (hs : ExactAdjointSolver S.adjointSolve) (init : Θ → B) (θ0 : Θ) (hi : DifferentiableAt ℝ init θ0)
    (f : (Fin (totalDofs fes) → ℝ) → ℝ) (fuel : Nat) (ts : List T) (guess : Fin (totalDofs fes) → ℝ)
    (us : Θ → List (Fin (totalDofs fes) → ℝ)) (hcont : ∀ i, ContinuousAt (fun θ => (us θ).getD i 0) θ0)
    (hrun : fwdPredSeq S par update fuel ts guess (init θ0) = some (.ok (us θ0)))
    (htraj : ∀ᶠ θ in 𝓝 θ0, Trajectory S par update (init θ) ts (us θ))
    (hreg : RegularAlong S par update (init θ0) ts (us θ0)) (hf : DifferentiableAt ℝ f ((us θ0).getLastD guess))
    (g : Θ →L[ℝ] ℝ) (hg : grad S par update init f fuel ts guess θ0 = some (.ok g)) :
    HasFDerivAt (fun θ => f ((us θ).getLastD guess)) g θ0 := by
  rw [grad, hrun] at hg
  rcases hbars : sweep S par update f ts (us θ0) guess (init θ0) with e | bars
  · have : (some (Except.error e) : Option (Except Err (Θ →L[ℝ] ℝ))) = some (.ok g) := by
      rw [← hg]
      exact (congrArg (fun r : Except Err (((Fin (totalDofs fes) → ℝ) →L[ℝ] ℝ) × (B →L[ℝ] ℝ)) =>
        some (r.bind fun bars => Except.ok (bars.2.comp (fderiv ℝ init θ0)))) hbars).symm
    cases this
  have hg' : (some (.ok (bars.2.comp (fderiv ℝ init θ0))) : Option (Except Err (Θ →L[ℝ] ℝ))) = some (.ok g) := by
    rw [← hg]
    exact (congrArg (fun r : Except Err (((Fin (totalDofs fes) → ℝ) →L[ℝ] ℝ) × (B →L[ℝ] ℝ)) =>
      some (r.bind fun bars => Except.ok (bars.2.comp (fderiv ℝ init θ0)))) hbars).symm
  obtain rfl : bars.2.comp (fderiv ℝ init θ0) = g := Except.ok.inj (Option.some.inj hg')
  have hd := sweep_deriv S par update bcs hb hw hs f θ0 ts us (fun _ => guess) init
    (differentiableAt_const _) hi htraj hcont hreg hf bars hbars
  have e : bars.1.comp (fderiv ℝ (fun _ : Θ => guess) θ0) + bars.2.comp (fderiv ℝ init θ0)
      = bars.2.comp (fderiv ℝ init θ0) := by
    ext d
    simp
  rwa [e] at hd

/-! ### A concrete case

Two load steps with loads 1 and 2 for the equations of the example of C38: the solution for the parameter `p` is `(1, p)`,
the parameter is the product of stored datum `b` and load, and a step leaves `b + u₁²` behind.  With `b = θ` at the start
the second component of the last solution is `2 (θ + θ²)`. -/

/-- Example solver of the forward problem. -/
noncomputable def seqExSolve (A : Matrix (Fin 2) (Fin 2) ℝ) (b _ : Fin 2 → ℝ) : Except Err (Fin 2 → ℝ) := adjExSolve 2 A b

/-- Example setup. -/
noncomputable def seqEx : Inverse.Setup ℝ mpcExFes (totalDofs mpcExFes) where
  bcs := adjExBcs
  res := adjExRes
  tan := adjExTan
  norm := fun r => ‖r‖
  solve := seqExSolve
  lineSearch := false
  tol := 0
  relTol := 0
  guess := fun _ => 1
  adjointSolve := adjExSolve

/-- Example update. -/
def seqExUpdate (u : Fin (totalDofs mpcExFes) → ℝ) (b : ℝ) : ℝ := b + u (1 : Fin 2) ^ 2

theorem seqEx_solves (p : ℝ) : SolvesBVP mpcExFes (seqEx.bcs p) (seqEx.res p) (adjExSol p) :=
  (constraint_zero_iff (E := ℝ) mpcExFes adjExBcs adjExRes p (adjEx_wf p) (adjExSol p)).1 (adjEx_zero p)

theorem seqEx_unique (p : ℝ) (w : Fin (totalDofs mpcExFes) → ℝ)
    (h : SolvesBVP mpcExFes (seqEx.bcs p) (seqEx.res p) w) : w = adjExSol p := by
  have h1 : w (0 : Fin 2) = 1 := h.1 (0 : Fin 2) 1 (adjEx_fixed p)
  have h2 : w (1 : Fin 2) - p * w (0 : Fin 2) = 0 := h.2 (1 : Fin 2) (adjEx_free p)
  have h3 : w (1 : Fin 2) = p := by
    rw [h1] at h2
    exact (sub_eq_zero.1 h2).trans (mul_one p)
  have key : ∀ x : Fin 2 → ℝ, x 0 = 1 → x 1 = p → x = adjExSol p := by
    intro x h0 h1
    funext k
    match k with
    | 0 => exact h0
    | 1 => exact h1
  exact key w h1 h3

theorem seqEx_det (p : ℝ) (u : Fin 2 → ℝ) : (elimRows (N := 2) mpcExFes (adjExBcs p) (adjExTan p u)).det ≠ 0 := by
  rw [adjEx_matrix, Matrix.det_fin_two]
  simp

theorem adjExSolve_total (n : Nat) (A : Matrix (Fin n) (Fin n) ℝ) (b : Fin n → ℝ) (hd : A.det ≠ 0) :
    ∃ x, adjExSolve n A b = .ok x := by
  refine ⟨A⁻¹.mulVec b, ?_⟩
  rw [adjExSolve, if_pos (isUnit_iff_ne_zero.2 hd)]

theorem seqEx_fwd (p : ℝ) (guess : Fin (totalDofs mpcExFes) → ℝ) (fuel : Nat) :
    ({ seqEx with guess := guess } : Inverse.Setup ℝ mpcExFes _).fwdPred (fuel + 2) p = some (.ok (adjExSol p)) := by
  have hres : adjExRes p = fun u => (adjExTan p 0).mulVec u - 0 := by
    funext u i
    match i with
    | 0 => simp [adjExRes, adjExTan, dotProduct]
    | 1 => simp [adjExRes, adjExTan, dotProduct]; ring
  obtain ⟨w, n, h1, h2⟩ := C21_linear mpcExFes (adjExBcs p) (adjEx_wf p) (adjExTan p 0) 0 (seqEx_det p 0)
    (fun r => ‖r‖) (fun r => norm_nonneg r) (fun r => norm_eq_zero) seqExSolve (fun A b x0 x h => adjExSolve_exact 2 A b x h)
    (fun A b _ hd => adjExSolve_total 2 A b hd) false 0 0 le_rfl guess fuel
  have hw : w = adjExSol p := by
    refine seqEx_unique p w ?_
    have hres' : seqEx.res p = fun u => (adjExTan p 0).mulVec u - 0 := hres
    rcases h2 with ⟨-, rfl, h2 | h2⟩ | ⟨-, h2, -⟩
    · have hz := norm_le_zero_iff.1 h2
      refine (constraint_zero_iff mpcExFes adjExBcs adjExRes p (adjEx_wf p) _).1 ?_
      exact (congrArg (fun r => applyBcV mpcExFes (adjExBcs p) 1 r w) (congrFun hres w)).trans hz
    · exact absurd h2 (by norm_num)
    · rw [hres']
      exact h2
  have h3 : newtonSolve (newtonUpdate mpcExFes (adjExBcs p) (adjExRes p) (adjExTan p))
      (fun rA => .fin ‖rA.1‖) (newtonStep mpcExFes (adjExBcs p) (fun r => .fin ‖r‖) (adjExRes p) seqExSolve false)
      (fun _ => true) 0 0 guess (fuel + 2) = some (.ok (w, n)) := by
    rw [hres]
    exact h1
  rw [hw] at h3
  exact congrArg (Option.map fun r : Except Err ((Fin 2 → ℝ) × Nat) => r.map Prod.fst) h3

theorem seqEx_regular (b t : ℝ) (u : Fin (totalDofs mpcExFes) → ℝ) :
    RegularStep seqEx (fun b t : ℝ => b * t) seqExUpdate b t u where
  tangent := adjEx_jacobian (b * t) u
  det := seqEx_det (b * t) u
  res := by
    show ContDiffAt ℝ 1 (fun up : (Fin 2 → ℝ) × ℝ => adjExRes up.2 up.1) (u, b * t)
    rw [contDiffAt_pi]
    intro i
    match i with
    | 0 =>
      show ContDiffAt ℝ 1 (fun up : (Fin 2 → ℝ) × ℝ => up.1 0) (u, b * t)
      fun_prop
    | 1 =>
      show ContDiffAt ℝ 1 (fun up : (Fin 2 → ℝ) × ℝ => up.1 1 - up.2 * up.1 0) (u, b * t)
      fun_prop
  par := by fun_prop
  update := by
    show ContDiffAt ℝ 1 (fun x : (Fin 2 → ℝ) × ℝ => x.2 + x.1 1 ^ 2) (u, b)
    fun_prop

/-- The example meets the hypotheses of `C103_gradient`; the gradient is `2 (1 + 2 θ)`. -/
example (θ : ℝ) (guess : Fin (totalDofs mpcExFes) → ℝ) : ∃ g : ℝ →L[ℝ] ℝ,
    grad seqEx (fun b t : ℝ => b * t) seqExUpdate (fun θ : ℝ => θ) (fun u => u (1 : Fin 2)) 2 [1, 2] guess θ
      = some (.ok g) ∧ g 1 = 2 * (1 + 2 * θ) := by
  have hval : ∀ θ : ℝ, Trajectory seqEx (fun b t : ℝ => b * t) seqExUpdate θ [1, 2]
      [adjExSol (θ * 1), adjExSol ((θ + θ ^ 2) * 2)] := by
    intro θ
    refine .step _ _ _ _ _ (seqEx_solves _) ?_
    have e : seqExUpdate (adjExSol (θ * 1)) θ = θ + θ ^ 2 := by
      show θ + (θ * 1) ^ 2 = θ + θ ^ 2
      ring
    rw [e]
    exact .step _ _ _ _ _ (seqEx_solves _) (.done _)
  have hrun : fwdPredSeq seqEx (fun b t : ℝ => b * t) seqExUpdate 2 [1, 2] guess θ
      = some (.ok [adjExSol (θ * 1), adjExSol ((θ + θ ^ 2) * 2)]) := by
    have e : seqExUpdate (adjExSol (θ * 1)) θ = θ + θ ^ 2 := by
      show θ + (θ * 1) ^ 2 = θ + θ ^ 2
      ring
    have h2 : ∀ (guess : Fin (totalDofs mpcExFes) → ℝ) (b : ℝ),
        fwdPredSeq seqEx (fun b t : ℝ => b * t) seqExUpdate 2 [2] guess b = some (.ok [adjExSol (b * 2)]) := by
      intro guess b
      rw [fwdPredSeq, seqEx_fwd _ _ 0]
      rfl
    rw [fwdPredSeq, seqEx_fwd _ _ 0]
    dsimp only
    rw [e]
    exact congrArg (Option.map fun r : Except Err (List (Fin (totalDofs mpcExFes) → ℝ)) =>
      r.map fun us => adjExSol (θ * 1) :: us) (h2 _ _)
  have hreg : RegularAlong seqEx (fun b t : ℝ => b * t) seqExUpdate θ [1, 2]
      [adjExSol (θ * 1), adjExSol ((θ + θ ^ 2) * 2)] :=
    .step _ _ _ _ _ (seqEx_regular _ _ _) (.step _ _ _ _ _ (seqEx_regular _ _ _) (.done _))
  have hf : ∀ x : Fin (totalDofs mpcExFes) → ℝ, DifferentiableAt ℝ (fun u : Fin (totalDofs mpcExFes) → ℝ => u (1 : Fin 2)) x := by
    intro x
    show DifferentiableAt ℝ (fun u : Fin 2 → ℝ => u 1) x
    fun_prop
  obtain ⟨g, hg, -⟩ := C103_gradient seqEx (fun b t : ℝ => b * t) seqExUpdate (adjExBcs 0) (fun _ => rfl) (adjEx_wf 0)
    adjExSolve_exact adjExSolve_total (fun θ : ℝ => θ) θ differentiableAt_id
    (fun u => u (1 : Fin 2)) 2 [1, 2] guess _ hrun (hval θ) hreg (hf _)
  refine ⟨g, hg, ?_⟩
  have hd := C103_family seqEx (fun b t : ℝ => b * t) seqExUpdate (adjExBcs 0) (fun _ => rfl) (adjEx_wf 0)
    adjExSolve_exact (fun θ : ℝ => θ) θ differentiableAt_id (fun u => u (1 : Fin 2)) 2 [1, 2] guess
    (fun θ => [adjExSol (θ * 1), adjExSol ((θ + θ ^ 2) * 2)]) (by
      have hc : ∀ q : ℝ → ℝ, Continuous q → Continuous fun θ => adjExSol (q θ) := by
        intro q hq
        refine continuous_pi fun k => ?_
        match k with
        | 0 => exact continuous_const
        | 1 => exact hq
      intro i
      match i with
      | 0 => exact (hc (fun θ => θ * 1) (by fun_prop)).continuousAt
      | 1 => exact (hc (fun θ => (θ + θ ^ 2) * 2) (by fun_prop)).continuousAt
      | n + 2 => exact continuousAt_const) hrun
    (Filter.Eventually.of_forall hval) hreg (hf _) g hg
  have hd' : HasFDerivAt (fun θ : ℝ => (θ + θ ^ 2) * 2) g θ := hd
  have h2 : HasDerivAt (fun θ : ℝ => (θ + θ ^ 2) * 2) (2 * (1 + 2 * θ)) θ := by
    have := ((hasDerivAt_id θ).add (hasDerivAt_pow 2 θ)).mul_const 2
    refine this.congr_deriv ?_
    simp
    ring
  exact hd'.hasDerivAt.unique h2

end JaxFem.CoDesign
