import Verif.Spec.Sensitivity
import Verif.Thm.C38_Branch
import Verif.Thm.C20_NewtonLoop

/-!
# C112: gradients through a loop around one problem object
-/

namespace JaxFem.Sensitivity

open scoped Topology

variable {Z E B Θ : Type} {fes : List FE}

/-! ### Helper lemmas -/

theorem nearly_of_fwdPred (S : Inverse.Setup E fes (totalDofs fes)) (p : E) (hw : WFBC fes (S.bcs p)) (hn : ∀ r, 0 ≤ S.norm r)
    (fuel : Nat) (u : Fin (totalDofs fes) → ℝ) (hf : S.fwdPred fuel p = some (.ok u)) : Nearly S p u := by
  rw [Inverse.Setup.fwdPred] at hf
  rcases hns : newtonSolve (newtonUpdate fes (S.bcs p) (S.res p) (S.tan p))
    (fun rA => .fin (S.norm rA.1)) (newtonStep fes (S.bcs p) (fun r => .fin (S.norm r)) (S.res p)
      S.solve S.lineSearch) (fun _ => true) S.tol S.relTol S.guess fuel with _ | e | ⟨d, n⟩
  · rw [hns] at hf; cases hf
  · rw [hns] at hf; cases hf
  rw [hns] at hf
  obtain rfl : d = u := Except.ok.inj (Option.some.inj hf)
  obtain ⟨r0, r, x, h0, -, h1, hx, -, hc⟩ := C20_converged _ _ _ _ _ _
    (fun r x h => by cases h; exact hn _) _ _ _ _ hns
  have hdef : ∀ w rA, newtonUpdate fes (S.bcs p) (S.res p) (S.tan p) w = .ok rA →
      Misses fes (S.bcs p) (S.res p) w rA.1 := by
    intro w rA h k
    cases h
    refine ⟨fun hp => (applyBcV_spec fes _ hw 1 _ _ k).1 hp, fun v hp => ?_⟩
    have := (applyBcV_spec fes _ hw 1 (S.res p w) w k).2 v hp
    rwa [mul_one] at this
  cases hx
  refine ⟨r.1, r0.1, hdef _ _ h1, hdef _ _ h0, ?_⟩
  rcases hc with hc | ⟨x0, hx0, hc⟩
  · exact .inl hc
  · cases hx0
    exact .inr hc

variable [NormedAddCommGroup E] [NormedSpace ℝ E] [NormedAddCommGroup B] [NormedSpace ℝ B] [NormedAddCommGroup Θ]
  [NormedSpace ℝ Θ]

theorem constraint_differentiable (S : Inverse.Setup E fes (totalDofs fes)) (p : E) (u : Fin (totalDofs fes) → ℝ)
    (h : SmoothAt S p u) :
    DifferentiableAt ℝ (fun up : (Fin (totalDofs fes) → ℝ) × E => constraintFn fes S.bcs S.res up.1 up.2) (u, p) := by
  rw [differentiableAt_pi]
  intro k
  rcases h.bcs k with hk | ⟨val, hv, hk⟩
  · have e : (fun up : (Fin (totalDofs fes) → ℝ) × E => constraintFn fes S.bcs S.res up.1 up.2 k)
        = fun up => S.res up.2 up.1 k := by
      funext up
      exact (applyBcV_spec fes _ (h.wf _) 1 _ _ k).1 (hk up.2)
    rw [e]
    exact differentiableAt_pi.1 h.res k
  · have e : (fun up : (Fin (totalDofs fes) → ℝ) × E => constraintFn fes S.bcs S.res up.1 up.2 k)
        = fun up => up.1 k - val up.2 * 1 := by
      funext up
      exact (applyBcV_spec fes _ (h.wf _) 1 _ _ k).2 _ (hk up.2)
    rw [e]
    have h1 : DifferentiableAt ℝ (fun up : (Fin (totalDofs fes) → ℝ) × E => val up.2) (u, p) :=
      DifferentiableAt.comp (g := val) (u, p) hv differentiableAt_snd
    fun_prop

/-- The backward pass with the stale problem object is that with the object of the step. -/
theorem vjp_stale (S Sl : Inverse.Setup E fes (totalDofs fes)) (hw : ∀ p, WFBC fes (S.bcs p)) (hwl : ∀ p, WFBC fes (Sl.bcs p))
    (h : SameUpToValues S Sl)
    (hfix : ∀ k : Fin (totalDofs fes), (∀ p, Prescribed fes (S.bcs p) k none) ∨
      ∃ val : E → ℝ, ∀ p, Prescribed fes (S.bcs p) k (some (val p)))
    (solve : (n : Nat) → Matrix (Fin n) (Fin n) ℝ → (Fin n → ℝ) → Except Err (Fin n → ℝ))
    (u : Fin (totalDofs fes) → ℝ) (p : E) (v : Fin (totalDofs fes) → ℝ) :
    implicitVjp fes Sl.bcs Sl.res Sl.tan none solve u p v = implicitVjp fes S.bcs S.res S.tan none solve u p v := by
  obtain ⟨d, hd⟩ := h.value
  have hA : elimRows fes (Sl.bcs p) (Sl.tan p u) = elimRows fes (S.bcs p) (S.tan p u) := by
    rw [h.tan]
    ext i j
    obtain ⟨o, ho⟩ := prescribed_exists fes (S.bcs p) (hw p) i i.2
    cases o with
    | none => rw [(elimRows_spec fes _ (hwl p) _ i j).1 (h.free p i ho), (elimRows_spec fes _ (hw p) _ i j).1 ho]
    | some x => rw [(elimRows_spec fes _ (hwl p) _ i j).2 _ (hd p i x ho), (elimRows_spec fes _ (hw p) _ i j).2 _ ho]
  have hc : ∃ c : Fin (totalDofs fes) → ℝ, ∀ q,
      constraintFn fes Sl.bcs Sl.res u q = constraintFn fes S.bcs S.res u q + c := by
    have hk : ∀ k, ∃ ck : ℝ, ∀ q, constraintFn fes Sl.bcs Sl.res u q k = constraintFn fes S.bcs S.res u q k + ck := by
      intro k
      rcases hfix k with hk | ⟨val, hk⟩
      · refine ⟨0, fun q => ?_⟩
        have h1 := (applyBcV_spec fes _ (hwl q) 1 (Sl.res q u) u k).1 (h.free q k (hk q))
        have h2 := (applyBcV_spec fes _ (hw q) 1 (S.res q u) u k).1 (hk q)
        rw [constraintFn, constraintFn, h1, h2, h.res, add_zero]
      · refine ⟨-d k, fun q => ?_⟩
        have h1 := (applyBcV_spec fes _ (hwl q) 1 (Sl.res q u) u k).2 _ (hd q k _ (hk q))
        have h2 := (applyBcV_spec fes _ (hw q) 1 (S.res q u) u k).2 _ (hk q)
        rw [constraintFn, constraintFn, h1, h2]
        ring
    choose c hc using hk
    exact ⟨c, fun q => funext fun k => hc k q⟩
  obtain ⟨c, hc⟩ := hc
  have hJ : fderiv ℝ (fun q => constraintFn fes Sl.bcs Sl.res u q) p = fderiv ℝ (fun q => constraintFn fes S.bcs S.res u q) p := by
    rw [funext hc]
    exact fderiv_add_const c
  simp only [implicitVjp, hA, jaxVjp, hJ]

/-- The differentiated step: along a differentiable family of equilibria the backward pass gives the pulled back cotangent,
whenever its linear system is solved; the tangent may be singular. -/
theorem step_deriv (S : Inverse.Setup E fes (totalDofs fes))
    (solve : (n : Nat) → Matrix (Fin n) (Fin n) ℝ → (Fin n → ℝ) → Except Err (Fin n → ℝ)) (hs : ExactAdjointSolver solve)
    (θ0 : Θ) (p : Θ → E) (hp : DifferentiableAt ℝ p θ0) (u : Θ → (Fin (totalDofs fes) → ℝ)) (hu : DifferentiableAt ℝ u θ0)
    (hr : SmoothAt S (p θ0) (u θ0)) (hz : ∀ᶠ θ in 𝓝 θ0, SolvesBVP fes (S.bcs (p θ)) (S.res (p θ)) (u θ))
    (φ : (Fin (totalDofs fes) → ℝ) →L[ℝ] ℝ) (g : E →L[ℝ] ℝ)
    (hg : implicitVjp fes S.bcs S.res S.tan none solve (u θ0) (p θ0) (fun k => φ (Pi.single k 1)) = .ok g) :
    φ.comp (fderiv ℝ u θ0) = g.comp (fderiv ℝ p θ0) := by
  have hcd := (constraint_differentiable S _ _ hr).hasFDerivAt
  obtain ⟨hA, hB⟩ := partials_constraint fes S.bcs S.res S.tan (p θ0) (u θ0) (hr.wf _) hr.tangent _ hcd
  set L := fderiv ℝ (fun up : (Fin (totalDofs fes) → ℝ) × E => constraintFn fes S.bcs S.res up.1 up.2) (u θ0, p θ0) with hL
  have hcomp : HasFDerivAt (fun θ => constraintFn fes S.bcs S.res (u θ) (p θ))
      (L.comp ((fderiv ℝ u θ0).prod (fderiv ℝ p θ0))) θ0 :=
    HasFDerivAt.comp (g := fun up : (Fin (totalDofs fes) → ℝ) × E => constraintFn fes S.bcs S.res up.1 up.2)
      (f := fun θ => (u θ, p θ)) θ0 hcd (hu.hasFDerivAt.prodMk hp.hasFDerivAt)
  have hzero : HasFDerivAt (fun θ => constraintFn fes S.bcs S.res (u θ) (p θ)) (0 : Θ →L[ℝ] (Fin (totalDofs fes) → ℝ)) θ0 := by
    refine (hasFDerivAt_const (0 : Fin (totalDofs fes) → ℝ) θ0).congr_of_eventuallyEq ?_
    filter_upwards [hz] with θ hθ
    exact (constraint_zero_iff fes S.bcs S.res (p θ) (hr.wf _) (u θ)).2 hθ
  have hsum := hcomp.unique hzero
  rw [implicitVjp] at hg
  rcases hl : solve _ (elimRows fes (S.bcs (p θ0)) (S.tan (p θ0) (u θ0))).transpose (fun k => φ (Pi.single k 1)) with e | l
  · rw [hl] at hg; cases hg
  rw [hl] at hg
  have hg' : -jaxVjp (fun q => constraintFn fes S.bcs S.res (u θ0) q) (p θ0) l = g := Except.ok.inj hg
  have hl' := hs _ _ _ _ hl
  ext d
  have hφ : ∀ x : (Fin (totalDofs fes) → ℝ), φ x = dotProduct (fun k => φ (Pi.single k 1)) x := by
    intro x
    conv_lhs => rw [pi_eq_sum_univ' x]
    simp only [map_sum, map_smul, smul_eq_mul, dotProduct]
    exact Finset.sum_congr rfl fun k _ => mul_comm _ _
  show φ (fderiv ℝ u θ0 d) = g (fderiv ℝ p θ0 d)
  rw [← hg', hφ, ← hl']
  show _ = -dotProduct l (fderiv ℝ (fun q => constraintFn fes S.bcs S.res (u θ0) q) (p θ0) (fderiv ℝ p θ0 d))
  rw [hB, Matrix.mulVec_transpose, ← Matrix.dotProduct_mulVec, ← hA]
  have h1 := congrArg (fun F : Θ →L[ℝ] (Fin (totalDofs fes) → ℝ) => F d) hsum
  have h2 : L (fderiv ℝ u θ0 d, 0) + L (0, fderiv ℝ p θ0 d) = 0 := by
    rw [← map_add]
    simpa using h1
  rw [eq_neg_of_add_eq_zero_left h2, dotProduct_neg]
  rfl

theorem sweep_deriv (S : Script Z E B fes (totalDofs fes)) (Sl : Inverse.Setup E fes (totalDofs fes))
    (hwl : ∀ p, WFBC fes (Sl.bcs p)) (hs : ExactAdjointSolver Sl.adjointSolve) (θ0 : Θ) (zs : List Z) :
    (∀ z ∈ zs, SameUpToValues (S.setup z) Sl) →
    ∀ (us : Θ → List (Fin (totalDofs fes) → ℝ)) (b : Θ → B) (J : Θ → ℝ), DifferentiableAt ℝ b θ0 →
      (∀ i, DifferentiableAt ℝ (fun θ => (us θ).getD i 0) θ0) → (∀ᶠ θ in 𝓝 θ0, Outcome S (b θ) zs (us θ) (J θ)) →
      SmoothAlong S (b θ0) zs (us θ0) → ∀ bar, S.sweep Sl zs (us θ0) (b θ0) = .ok bar →
      HasFDerivAt J (bar.comp (fderiv ℝ b θ0)) θ0 := by
  induction zs with
  | nil =>
    intro _ us b J _ _ ht
    exact absurd ht.self_of_nhds (by intro h; cases h)
  | cons z zs ih =>
    intro hsame us b J hb hdiff ht hreg bar hbar
    set u := fun θ => (us θ).getD 0 0 with hu
    have hud : DifferentiableAt ℝ u θ0 := hdiff 0
    have hsz := hsame z (by simp)
    have key : ∀ (hr : SmoothAt (S.setup z) (S.par z (b θ0)) (u θ0)) (hpar : DifferentiableAt ℝ (S.par z) (b θ0))
        (hz : ∀ᶠ θ in 𝓝 θ0, SolvesBVP fes ((S.setup z).bcs (S.par z (b θ))) ((S.setup z).res (S.par z (b θ))) (u θ))
        (φ : (Fin (totalDofs fes) → ℝ) →L[ℝ] ℝ) (g : E →L[ℝ] ℝ),
        implicitVjp fes Sl.bcs Sl.res Sl.tan none Sl.adjointSolve (u θ0) (S.par z (b θ0)) (fun k => φ (Pi.single k 1)) = .ok g →
        φ.comp (fderiv ℝ u θ0) = (g.comp (fderiv ℝ (S.par z) (b θ0))).comp (fderiv ℝ b θ0) := by
      intro hr hpar hz φ g hg
      rw [vjp_stale (S.setup z) Sl hr.wf hwl hsz (fun k => (hr.bcs k).imp id fun ⟨val, _, h⟩ => ⟨val, h⟩)] at hg
      have hp : HasFDerivAt (fun θ => S.par z (b θ)) ((fderiv ℝ (S.par z) (b θ0)).comp (fderiv ℝ b θ0)) θ0 :=
        HasFDerivAt.comp (g := S.par z) θ0 hpar.hasFDerivAt hb.hasFDerivAt
      rw [step_deriv (S.setup z) Sl.adjointSolve hs θ0 (fun θ => S.par z (b θ)) hp.differentiableAt u hud hr hz φ g hg,
        hp.fderiv]
      rfl
    cases hzs : zs with
    | nil =>
      subst hzs
      have hcons : ∀ θ, Outcome S (b θ) [z] (us θ) (J θ) → us θ = [u θ] ∧ J θ = S.objective z (u θ) (b θ) ∧
          SolvesBVP fes ((S.setup z).bcs (S.par z (b θ))) ((S.setup z).res (S.par z (b θ))) (u θ) := by
        intro θ h
        simp only [hu]
        generalize us θ = l at h
        generalize J θ = r at h
        cases h with
        | last _ _ w h1 => exact ⟨rfl, rfl, h1⟩
        | step _ _ _ w ws _ h1 h2 => cases h2
      obtain ⟨e0, -, -⟩ := hcons θ0 ht.self_of_nhds
      rw [e0] at hreg hbar
      obtain ⟨hr, hpar, hobj⟩ : SmoothAt (S.setup z) (S.par z (b θ0)) (u θ0) ∧ DifferentiableAt ℝ (S.par z) (b θ0) ∧
          DifferentiableAt ℝ (fun x : (Fin (totalDofs fes) → ℝ) × B => S.objective z x.1 x.2) (u θ0, b θ0) := by
        cases hreg with
        | last _ _ _ h1 h2 h3 => exact ⟨h1, h2, h3⟩
        | step _ _ _ _ _ h1 h2 h3 h4 => cases h4
      set D := fderiv ℝ (fun x : (Fin (totalDofs fes) → ℝ) × B => S.objective z x.1 x.2) (u θ0, b θ0) with hD
      have hval : HasFDerivAt (fun θ => S.objective z (u θ) (b θ)) (D.comp ((fderiv ℝ u θ0).prod (fderiv ℝ b θ0))) θ0 :=
        HasFDerivAt.comp (g := fun x : (Fin (totalDofs fes) → ℝ) × B => S.objective z x.1 x.2) (f := fun θ => (u θ, b θ)) θ0
          hobj.hasFDerivAt (hud.hasFDerivAt.prodMk hb.hasFDerivAt)
      set φ := D.comp (ContinuousLinearMap.inl ℝ (Fin (totalDofs fes) → ℝ) B) with hφ
      have hbar' : (implicitVjp fes Sl.bcs Sl.res Sl.tan none Sl.adjointSolve (u θ0) (S.par z (b θ0))
          (fun k => φ (Pi.single k 1)) >>= fun g => (pure (D.comp (ContinuousLinearMap.inr ℝ _ _)
            + g.comp (fderiv ℝ (S.par z) (b θ0))) : Except Err (B →L[ℝ] ℝ))) = .ok bar := hbar
      rcases hgv : implicitVjp fes Sl.bcs Sl.res Sl.tan none Sl.adjointSolve (u θ0) (S.par z (b θ0))
        (fun k => φ (Pi.single k 1)) with e | g
      · rw [hgv] at hbar'; cases hbar'
      rw [hgv] at hbar'
      have hbe : D.comp (ContinuousLinearMap.inr ℝ _ _) + g.comp (fderiv ℝ (S.par z) (b θ0)) = bar := Except.ok.inj hbar'
      have hk := key hr hpar (by filter_upwards [ht] with θ hθ using (hcons θ hθ).2.2) φ g hgv
      refine (hval.congr_fderiv ?_).congr_of_eventuallyEq ?_
      · subst hbe
        ext d
        have h1 := congrArg (fun F : Θ →L[ℝ] ℝ => F d) hk
        simp only [hφ, ContinuousLinearMap.comp_apply, ContinuousLinearMap.inl_apply] at h1
        have h2 : D (fderiv ℝ u θ0 d, fderiv ℝ b θ0 d) = D (fderiv ℝ u θ0 d, 0) + D (0, fderiv ℝ b θ0 d) := by
          rw [← map_add]
          simp
        simp only [ContinuousLinearMap.comp_apply, ContinuousLinearMap.add_apply, ContinuousLinearMap.inr_apply,
          ContinuousLinearMap.prod_apply]
        rw [h2]
        linarith
      · filter_upwards [ht] with θ hθ using (hcons θ hθ).2.1
    | cons z' zs' =>
      set vs := fun θ => (us θ).tail with hvs
      have hcons : ∀ θ, Outcome S (b θ) (z :: zs) (us θ) (J θ) → us θ = u θ :: vs θ ∧
          SolvesBVP fes ((S.setup z).bcs (S.par z (b θ))) ((S.setup z).res (S.par z (b θ))) (u θ) ∧
          Outcome S (S.update z (u θ) (b θ)) zs (vs θ) (J θ) := by
        intro θ h
        rw [hzs] at h ⊢
        simp only [hu, hvs]
        generalize us θ = l at h
        generalize J θ = r at h
        cases h with
        | step _ _ _ w ws _ h1 h2 => exact ⟨rfl, h1, h2⟩
      obtain ⟨e0, -, ho0⟩ := hcons θ0 ht.self_of_nhds
      obtain ⟨v, vs', hv0⟩ : ∃ v vs', vs θ0 = v :: vs' := by
        rw [hzs] at ho0
        generalize vs θ0 = l at ho0
        generalize J θ0 = r at ho0
        cases ho0 with
        | last _ _ w => exact ⟨_, _, rfl⟩
        | step _ _ _ w ws => exact ⟨_, _, rfl⟩
      rw [e0] at hreg
      obtain ⟨hr, hpar, hupd, hregs⟩ : SmoothAt (S.setup z) (S.par z (b θ0)) (u θ0) ∧ DifferentiableAt ℝ (S.par z) (b θ0) ∧
          DifferentiableAt ℝ (fun x : (Fin (totalDofs fes) → ℝ) × B => S.update z x.1 x.2) (u θ0, b θ0) ∧
          SmoothAlong S (S.update z (u θ0) (b θ0)) zs (vs θ0) := by
        rw [hv0, hzs] at hreg ⊢
        cases hreg with
        | step _ _ _ _ _ h1 h2 h3 h4 => exact ⟨h1, h2, h3, h4⟩
      set D := fderiv ℝ (fun x : (Fin (totalDofs fes) → ℝ) × B => S.update z x.1 x.2) (u θ0, b θ0) with hD
      have hb' : HasFDerivAt (fun θ => S.update z (u θ) (b θ)) (D.comp ((fderiv ℝ u θ0).prod (fderiv ℝ b θ0))) θ0 :=
        HasFDerivAt.comp (g := fun x : (Fin (totalDofs fes) → ℝ) × B => S.update z x.1 x.2) (f := fun θ => (u θ, b θ)) θ0
          hupd.hasFDerivAt (hud.hasFDerivAt.prodMk hb.hasFDerivAt)
      have hsw' : (S.sweep Sl zs (vs θ0) (S.update z (u θ0) (b θ0)) >>= fun bar' =>
          implicitVjp fes Sl.bcs Sl.res Sl.tan none Sl.adjointSolve (u θ0) (S.par z (b θ0))
            (fun k => (bar'.comp (D.comp (ContinuousLinearMap.inl ℝ _ _))) (Pi.single k 1)) >>= fun g =>
          (pure (bar'.comp (D.comp (ContinuousLinearMap.inr ℝ _ _)) + g.comp (fderiv ℝ (S.par z) (b θ0))) :
            Except Err (B →L[ℝ] ℝ))) = .ok bar := by
        rw [← hbar, e0, hv0, hzs]
        rfl
      rcases hsw : S.sweep Sl zs (vs θ0) (S.update z (u θ0) (b θ0)) with e | bar'
      · rw [hsw] at hsw'; cases hsw'
      rw [hsw] at hsw'
      set φ := bar'.comp (D.comp (ContinuousLinearMap.inl ℝ (Fin (totalDofs fes) → ℝ) B)) with hφ
      replace hsw' : (implicitVjp fes Sl.bcs Sl.res Sl.tan none Sl.adjointSolve (u θ0) (S.par z (b θ0))
            (fun k => φ (Pi.single k 1)) >>= fun g =>
          (pure (bar'.comp (D.comp (ContinuousLinearMap.inr ℝ _ _)) + g.comp (fderiv ℝ (S.par z) (b θ0))) :
            Except Err (B →L[ℝ] ℝ))) = .ok bar := hsw'
      rcases hgv : implicitVjp fes Sl.bcs Sl.res Sl.tan none Sl.adjointSolve (u θ0) (S.par z (b θ0))
        (fun k => φ (Pi.single k 1)) with e | g
      · rw [hgv] at hsw'; cases hsw'
      rw [hgv] at hsw'
      have hbe : bar'.comp (D.comp (ContinuousLinearMap.inr ℝ _ _)) + g.comp (fderiv ℝ (S.par z) (b θ0)) = bar :=
        Except.ok.inj hsw'
      have hih := ih (fun z' h => hsame z' (by simp [h])) vs (fun θ => S.update z (u θ) (b θ)) J hb'.differentiableAt
        (fun i => by
          refine (hdiff (i + 1)).congr_of_eventuallyEq ?_
          filter_upwards [ht] with θ hθ
          conv_rhs => rw [(hcons θ hθ).1]
          simp)
        (by filter_upwards [ht] with θ hθ using (hcons θ hθ).2.2) hregs bar' hsw
      have hk := key hr hpar (by filter_upwards [ht] with θ hθ using (hcons θ hθ).2.1) φ g hgv
      refine hih.congr_fderiv ?_
      rw [hb'.fderiv, ← hbe]
      ext d
      have h1 := congrArg (fun F : Θ →L[ℝ] ℝ => F d) hk
      simp only [hφ, ContinuousLinearMap.comp_apply, ContinuousLinearMap.inl_apply] at h1
      have h2 : D (fderiv ℝ u θ0 d, fderiv ℝ b θ0 d) = D (fderiv ℝ u θ0 d, 0) + D (0, fderiv ℝ b θ0 d) := by
        rw [← map_add]
        simp
      simp only [ContinuousLinearMap.comp_apply, ContinuousLinearMap.add_apply, ContinuousLinearMap.inr_apply,
        ContinuousLinearMap.prod_apply]
      rw [h2, map_add]
      linarith

omit [NormedAddCommGroup E] [NormedSpace ℝ E] [NormedAddCommGroup B] [NormedSpace ℝ B] in
theorem run_near (S : Script Z E B fes (totalDofs fes)) (hw : ∀ z p, WFBC fes ((S.setup z).bcs p))
    (hn : ∀ z r, 0 ≤ (S.setup z).norm r) (fuel : Nat) (zs : List Z) : ∀ (b : B) us (r : ℝ),
    S.run fuel zs b = some (.ok us) → S.last zs us b = .ok r → NearOutcome S b zs us r := by
  induction zs with
  | nil =>
    intro b us r h hr
    cases h
    cases hr
  | cons z zs ih =>
    intro b us r h hr
    rw [Script.run] at h
    rcases hf : (S.setup z).fwdPred fuel (S.par z b) with _ | e | u
    · rw [hf] at h; cases h
    · rw [hf] at h; cases h
    rw [hf] at h
    dsimp only at h
    rcases hrn : S.run fuel zs (S.update z u b) with _ | e | vs
    · rw [hrn] at h; cases h
    · rw [hrn] at h; cases h
    rw [hrn] at h
    obtain rfl : u :: vs = us := Except.ok.inj (Option.some.inj h)
    have hnear := nearly_of_fwdPred (S.setup z) (S.par z b) (hw z _) (hn z) fuel u hf
    cases zs with
    | nil =>
      cases hrn
      cases hr
      exact .last b z u hnear
    | cons z' zs =>
      refine .step b z _ u vs r hnear (ih _ _ _ hrn ?_)
      cases vs <;> exact hr

/-! ### Property theorems -/

omit [NormedAddCommGroup E] [NormedSpace ℝ E] [NormedAddCommGroup B] [NormedSpace ℝ B] [NormedAddCommGroup Θ]
  [NormedSpace ℝ Θ] in
/-- **C112 (value).** What `simulation` returns is the objective of the last of a sequence of equilibria up to the tolerances. -/
theorem C112_value (S : Script Z E B fes (totalDofs fes)) (hw : ∀ z p, WFBC fes ((S.setup z).bcs p))
    (hn : ∀ z r, 0 ≤ (S.setup z).norm r) (init : Θ → B) (fuel : Nat) (zs : List Z) (θ : Θ) (r : ℝ)
    (h : S.simulation init fuel zs θ = some (.ok r)) : ∃ us, NearOutcome S (init θ) zs us r := by
  rw [Script.simulation] at h
  rcases hr : S.run fuel zs (init θ) with _ | e | us
  · rw [hr] at h; cases h
  · rw [hr] at h; cases h
  rw [hr] at h
  exact ⟨us, run_near S hw hn fuel zs _ us r hr (Option.some.inj h)⟩

/-- **C112 (gradient).** The number returned by `jax.grad(simulation)` is the derivative of the returned value along every
differentiable family of equilibria through the computed solutions, although the backward pass runs with the problem object of
the last step, provided that the steps differ only in prescribed values; the linear systems of the backward pass must have
been solved, but may be singular. -/
theorem C112_gradient (S : Script Z E B fes (totalDofs fes)) (init : Θ → B) (θ0 : Θ) (hi : DifferentiableAt ℝ init θ0)
    (fuel : Nat) (zs : List Z) (hs : ∀ z ∈ zs, ExactAdjointSolver (S.setup z).adjointSolve)
    (hw : ∀ z p, WFBC fes ((S.setup z).bcs p))
    (hsame : ∀ z ∈ zs, ∀ z' ∈ zs, SameUpToValues (S.setup z) (S.setup z'))
    (us : Θ → List (Fin (totalDofs fes) → ℝ)) (J : Θ → ℝ) (hd : ∀ i, DifferentiableAt ℝ (fun θ => (us θ).getD i 0) θ0)
    (hrun : S.run fuel zs (init θ0) = some (.ok (us θ0))) (ht : ∀ᶠ θ in 𝓝 θ0, Outcome S (init θ) zs (us θ) (J θ))
    (hreg : SmoothAlong S (init θ0) zs (us θ0)) (g : Θ →L[ℝ] ℝ) (hg : S.grad init fuel zs θ0 = some (.ok g)) :
    HasFDerivAt J g θ0 := by
  rw [Script.grad, hrun] at hg
  cases hz : zs.getLast? with
  | none =>
    rw [hz] at hg
    cases hg
  | some zl =>
    rw [hz] at hg
    have hm : zl ∈ zs := List.mem_of_getLast? hz
    have hg' : (S.sweep (S.setup zl) zs (us θ0) (init θ0) >>= fun bar =>
        (pure (bar.comp (fderiv ℝ init θ0)) : Except Err (Θ →L[ℝ] ℝ))) = .ok g := Option.some.inj hg
    rcases hsw : S.sweep (S.setup zl) zs (us θ0) (init θ0) with e | bar
    · rw [hsw] at hg'; cases hg'
    rw [hsw] at hg'
    obtain rfl : bar.comp (fderiv ℝ init θ0) = g := Except.ok.inj hg'
    exact sweep_deriv S (S.setup zl) (hw zl) (hs zl hm) θ0 zs (fun z h => hsame z h zl hm) us init J hi hd ht hreg bar hsw

end JaxFem.Sensitivity
