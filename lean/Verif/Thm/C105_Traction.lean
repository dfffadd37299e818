import Verif.Thm.C105_Load

/-!
# C105: traction force identification: gradient
-/

namespace JaxFem.Traction

open scoped BigOperators Topology
open Inverse (l2Error Setup fdQuotient)

variable {nq nfq nn : Nat}

/-- What `ad_wrapper(problem)` is built from: fixed boundary conditions, the residual after `set_params`, and its tangent. -/
structure OfProblem {F : Nat} (P : Problem1 ℝ nq nfq nn 3 3) (bcs : List (List (BCEntry ℝ)))
    (S : Setup (Fin F → Fin nfq → ℝ) P.fes (totalDofs P.fes)) : Prop where
  bcs : ∀ θ, S.bcs θ = bcs
  res : ∀ θ, S.res θ = fun u => (setParams P θ).flat u
  tangent : ∀ θ u, DifferentiableAt ℝ (S.res θ) u → HasJacobianAt (S.res θ) (S.tan θ u) u

/-- Misfit to an observed displacement. -/
noncomputable abbrev misfit (P : Problem1 ℝ nq nfq nn 3 3) (obs x : Fin (totalDofs P.fes) → ℝ) : ℝ :=
  l2Error P (P.solArray x) (P.solArray obs)

section

variable (numTotalNodes : Nat) (points : List (Fin 3 → ℝ)) (cells : List (List Nat)) (el : RefElement ℝ nq nn 3)
  (fc : RefFaces ℝ nfq nn 3) (faces : List (Nat × Nat))

local notation "𝒫" => problem numTotalNodes points cells el fc faces
local notation "Θ" => Fin faces.length → Fin nfq → ℝ
set_option quotPrecheck false in
local notation "U" => Fin (totalDofs (𝒫).fes) → ℝ

/-! ### Helper lemmas -/

theorem tractionWork_lin (P : Problem1 ℝ nq nfq nn 3 3) (a : ℝ) (θ θ' : Θ) (v : Nat → Fin 3 → ℝ) :
    tractionWork P faces (a • θ + θ') v = a * tractionWork P faces θ v + tractionWork P faces θ' v := by
  simp only [tractionWork, Pi.add_apply, Pi.smul_apply, smul_eq_mul, Finset.mul_sum, ← Finset.sum_add_distrib]
  refine Finset.sum_congr rfl fun i _ => Finset.sum_congr rfl fun q _ => ?_
  ring

/-- Work of the tractions as a linear map. -/
noncomputable def workL (P : Problem1 ℝ nq nfq nn 3 3) (v : Nat → Fin 3 → ℝ) : Θ →L[ℝ] ℝ :=
  LinearMap.toContinuousLinearMap (IsLinearMap.mk' (fun θ => tractionWork P faces θ v) (by
    have h0 : tractionWork P faces 0 v = 0 := by
      have := tractionWork_lin faces P 1 0 0 v
      rw [one_smul, one_mul, add_zero] at this
      linarith
    refine ⟨fun x y => ?_, fun a x => ?_⟩
    · have := tractionWork_lin faces P 1 x y v
      rwa [one_smul, one_mul] at this
    · have := tractionWork_lin faces P a x 0 v
      rwa [add_zero, h0, add_zero] at this))

theorem workL_apply (P : Problem1 ℝ nq nfq nn 3 3) (v : Nat → Fin 3 → ℝ) (θ : Θ) :
    workL faces P v θ = tractionWork P faces θ v := rfl

/-- The residual is continuously differentiable in displacement and tractions. -/
theorem traction_smooth (h : (𝒫).WF) (θ0 : Θ) (u0 : U) (hadm : (𝒫).Admissible ((𝒫).vecField u0)) :
    ContDiffAt ℝ 1 (fun up : U × Θ => fun k : Fin (totalDofs (𝒫).fes) => (setParams 𝒫 up.2).flat up.1 k) (u0, θ0) := by
  have e : (fun up : U × Θ => fun k : Fin (totalDofs (𝒫).fes) => (setParams 𝒫 up.2).flat up.1 k)
      = fun up k => (∑ c : Fin (𝒫).cells.length, ∑ q,
        contract (Hyper.firstPK energy (Hyper.gradL 𝒫 (𝒫).cells[c] q up.1)) ((𝒫).gradAt ((𝒫).vecField (Pi.single k 1)) c q)
          * (𝒫).measureAt c q) - workL faces 𝒫 ((𝒫).vecField (Pi.single k 1)) up.2 := by
    funext up k
    rw [res_entry numTotalNodes points cells el fc faces h]
    rfl
  rw [e]
  refine contDiffAt_pi.2 fun k => ContDiffAt.sub ?_ (((workL faces 𝒫 _).contDiff.contDiffAt).comp (u0, θ0) contDiffAt_snd)
  refine ContDiffAt.sum fun c _ => ContDiffAt.sum fun q _ => ContDiffAt.mul ?_ contDiffAt_const
  have h1 : ContDiffAt ℝ 1 (fun up : U × Θ => Hyper.firstPK energy (Hyper.gradL 𝒫 (𝒫).cells[c] q up.1)) (u0, θ0) := by
    refine ContDiffAt.comp (g := Hyper.firstPK energy) (f := fun up : U × Θ => Hyper.gradL 𝒫 (𝒫).cells[c] q up.1)
      (u0, θ0) (Hyper.firstPK_smooth energy _ ?_) (((Hyper.gradL 𝒫 (𝒫).cells[c] q).contDiff.contDiffAt).comp (u0, θ0) contDiffAt_fst)
    have h2 : ContDiffAt ℝ 2 energy (fun i j => (𝒫).defGrad ((𝒫).vecField u0) ((𝒫).cells[c]).nodes q i j) :=
      (Hyper.C88_smooth _ _ 2).1 3 _ _ (.inl (hadm (𝒫).cells[c] (List.getElem_mem _) q))
    have h3 : (fun i j => (𝒫).defGrad ((𝒫).vecField u0) ((𝒫).cells[c]).nodes q i j)
        = fun i j => Hyper.gradL 𝒫 (𝒫).cells[c] q u0 i j + if i = j then (1 : ℝ) else 0 := by
      funext i j
      rw [Problem1.defGrad, Matrix.add_apply, Matrix.one_apply, add_comm]
      rfl
    rwa [h3] at h2
  unfold contract
  refine ContDiffAt.sum fun i _ => ContDiffAt.sum fun j _ => ContDiffAt.mul ?_ contDiffAt_const
  exact contDiffAt_pi.1 (contDiffAt_pi.1 h1 i) j

theorem res_diff (h : (𝒫).WF) (S : Setup Θ (𝒫).fes (totalDofs (𝒫).fes)) (bcs : List (List (BCEntry ℝ))) (hS : OfProblem 𝒫 bcs S)
    (θ0 : Θ) (u0 : U) (hadm : (𝒫).Admissible ((𝒫).vecField u0)) :
    ContDiffAt ℝ 1 (fun up : U × Θ => S.res up.2 up.1) (u0, θ0) ∧ DifferentiableAt ℝ (S.res θ0) u0 := by
  have hsm' : ContDiffAt ℝ 1 (fun up : U × Θ => S.res up.2 up.1) (u0, θ0) := by
    have e : (fun up : U × Θ => S.res up.2 up.1)
        = fun up => fun k : Fin (totalDofs (𝒫).fes) => (setParams 𝒫 up.2).flat up.1 k := by
      funext up
      rw [hS.res]
    rw [e]
    exact traction_smooth numTotalNodes points cells el fc faces h θ0 u0 hadm
  refine ⟨hsm', ?_⟩
  have : ContDiffAt ℝ 1 (fun u => S.res θ0 u) u0 :=
    ContDiffAt.comp (g := fun up : U × Θ => S.res up.2 up.1) (f := fun u => (u, θ0)) u0 hsm'
      (contDiffAt_id.prodMk contDiffAt_const)
  exact this.differentiableAt one_ne_zero

/-! ### Property theorems -/

/-- **C105 (gradient).** Let `u0`, returned by the forward solver for the tractions `θ0`, solve the equilibrium equations with
no cell turned inside out and a regular tangent. Then exactly one branch `u(θ)` of equilibria passes through `u0`, and
`jax.grad(J)(θ0)` returns the derivative of the misfit along the branch, for every observed displacement. -/
theorem C105_gradient (h : (𝒫).WF) (bcs : List (List (BCEntry ℝ))) (hw : WFBC (𝒫).fes bcs)
    (S : Setup Θ (𝒫).fes (totalDofs (𝒫).fes)) (hS : OfProblem 𝒫 bcs S) (hs : ExactAdjointSolver S.adjointSolve)
    (htot : ∀ n (A : Matrix (Fin n) (Fin n) ℝ) b, A.det ≠ 0 → ∃ x, S.adjointSolve n A b = .ok x)
    (θ0 : Θ) (u0 : U) (hadm : (𝒫).Admissible ((𝒫).vecField u0)) (hdet : (elimRows (𝒫).fes bcs (S.tan θ0 u0)).det ≠ 0)
    (hz : SolvesBVP (𝒫).fes bcs ((setParams 𝒫 θ0).flat) u0) (fuel : Nat) (hf : S.fwdPred fuel θ0 = some (.ok u0)) :
    ∃ u : Θ → U, u θ0 = u0 ∧
      (∀ᶠ pw in 𝓝 (θ0, u0), SolvesBVP (𝒫).fes bcs ((setParams 𝒫 pw.1).flat) pw.2 ↔ u pw.1 = pw.2) ∧
      (∀ᶠ θ in 𝓝 θ0, SolvesBVP (𝒫).fes bcs ((setParams 𝒫 θ).flat) (u θ)) ∧
      ∀ obs : U, ∃ g, S.grad fuel (misfit 𝒫 obs) θ0 = some (.ok g) ∧ HasFDerivAt (fun θ => misfit 𝒫 obs (u θ)) g θ0 := by
  obtain ⟨hsm', hd⟩ := res_diff numTotalNodes points cells el fc faces h S bcs hS θ0 u0 hadm
  have hc := CoDesign.constraint_contDiff S bcs hS.bcs hw u0 θ0 hsm'
  obtain ⟨u, h1, -, h2, h3, h4⟩ := S.grad_exact hs htot θ0 u0 (fun θ => by rw [hS.bcs]; exact hw)
    (hS.tangent θ0 u0 hd) hc (by rw [hS.bcs]; exact hdet) (by rw [hS.bcs, hS.res]; exact hz) fuel hf
  refine ⟨u, h1, ?_, ?_, fun obs => h4 _ (l2Error_derivative 𝒫 u0 obs).differentiableAt⟩
  · filter_upwards [h2] with pw hpw
    rw [hS.bcs, hS.res] at hpw
    exact hpw
  · filter_upwards [h3] with θ hθ
    rw [hS.bcs, hS.res] at hθ
    exact hθ

/-- **C105 (sensitivities).** Whenever `jax.grad(J)` returns, the gradient is the trace of an adjoint displacement `w` on the
loaded faces: `w` vanishes at the constrained degrees of freedom, solves the linearised equilibrium equations with twice the
misfit as body force, and the component for quadrature point `q` of face `i` is the vertical component of `w` there times
its area. The tangent is symmetric, so that the adjoint equations are the linearised equilibrium equations. -/
theorem C105_formula (h : (𝒫).WF) (bcs : List (List (BCEntry ℝ))) (hw : WFBC (𝒫).fes bcs)
    (S : Setup Θ (𝒫).fes (totalDofs (𝒫).fes)) (hS : OfProblem 𝒫 bcs S) (hs : ExactAdjointSolver S.adjointSolve)
    (θ0 : Θ) (u0 : U) (hadm : (𝒫).Admissible ((𝒫).vecField u0)) (fuel : Nat) (hf : S.fwdPred fuel θ0 = some (.ok u0))
    (obs : U) (g : Θ →L[ℝ] ℝ) (hg : S.grad fuel (misfit 𝒫 obs) θ0 = some (.ok g)) :
    (S.tan θ0 u0).transpose = S.tan θ0 u0 ∧
    ∃ w : U, (∀ (k : Fin (totalDofs (𝒫).fes)) v, Prescribed (𝒫).fes bcs k (some v) → w k = 0) ∧
      (∀ k : Fin (totalDofs (𝒫).fes), Prescribed (𝒫).fes bcs k none →
        ∑ r, S.tan θ0 u0 k r * w r = 2 * product 𝒫 ((𝒫).vecField (u0 - obs)) ((𝒫).vecField (Pi.single k 1))) ∧
      (∀ δ, g δ = tractionWork 𝒫 faces δ ((𝒫).vecField w)) ∧
      ∀ i q, g (Pi.single i (Pi.single q 1)) = vertical 𝒫 faces[i] q ((𝒫).vecField w) * area 𝒫 faces[i] q := by
  obtain ⟨hsm', hd⟩ := res_diff numTotalNodes points cells el fc faces h S bcs hS θ0 u0 hadm
  have hsymm : (S.tan θ0 u0).transpose = S.tan θ0 u0 := by
    have hJ := hS.tangent θ0 u0 hd
    rw [hS.res] at hJ
    refine (Hyper.C88_potential (setParams 𝒫 θ0) (setParams_WF _ h θ0) (fun _ => energy)
      (setParams_dead numTotalNodes points cells el fc faces θ0) u0 fun c hc q => ?_).2.2 _ hJ
    exact (Hyper.C88_smooth _ _ 2).1 3 _ _ (.inl (hadm c hc q))
  have hrd : DifferentiableAt ℝ (fun θ => S.res θ u0) θ0 := by
    have : ContDiffAt ℝ 1 (fun θ => S.res θ u0) θ0 :=
      ContDiffAt.comp (g := fun up : U × Θ => S.res up.2 up.1) (f := fun θ => (u0, θ)) θ0 hsm'
        (contDiffAt_const.prodMk contDiffAt_id)
    exact this.differentiableAt one_ne_zero
  obtain ⟨w, hw1, hw2, hw3⟩ := S.grad_formula bcs hS.bcs hw hs θ0 u0 hrd fuel hf _ g hg
  have hgδ : ∀ δ, g δ = tractionWork 𝒫 faces δ ((𝒫).vecField w) := by
    intro δ
    have hsum : (∑ r, w r * fderiv ℝ (fun θ => S.res θ u0 r) θ0 δ) = fderiv ℝ (fun θ => ∑ r, w r * S.res θ u0 r) θ0 δ := by
      have hd : HasFDerivAt (fun θ => ∑ r, w r * S.res θ u0 r) (∑ r, w r • fderiv ℝ (fun θ => S.res θ u0 r) θ0) θ0 :=
        HasFDerivAt.fun_sum fun r _ => ((differentiableAt_pi.1 hrd r).hasFDerivAt).const_mul (w r)
      rw [hd.fderiv]
      simp only [sum_apply, smul_apply, smul_eq_mul]
    obtain ⟨b, hb⟩ : ∃ b : ℝ, (fun θ => ∑ r, w r * S.res θ u0 r) = fun θ => b - workL faces 𝒫 ((𝒫).vecField w) θ := by
      refine ⟨_, funext fun θ => Eq.trans ?_ (C105_load numTotalNodes points cells el fc faces h θ u0 w)⟩
      rw [hS.res]
    rw [hw3, hsum, hb]
    have hd := ((workL faces 𝒫 ((𝒫).vecField w)).hasFDerivAt (x := θ0)).const_sub b
    rw [hd.fderiv]
    show - -(workL faces 𝒫 ((𝒫).vecField w) δ) = _
    rw [neg_neg, workL_apply]
  refine ⟨hsymm, w, hw1, ?_, hgδ, ?_⟩
  · intro k hk
    have h1 := hw2 k hk
    have h2 : ∀ r, S.tan θ0 u0 r k = S.tan θ0 u0 k r := fun r => congrFun (congrFun hsymm k) r
    simp only [h2] at h1
    rw [h1, (l2Error_derivative 𝒫 u0 obs).fderiv]
    simp only [sum_apply, smul_apply, smul_eq_mul, product, Finset.mul_sum, Finset.sum_mul]
    refine Finset.sum_congr rfl fun c _ => Finset.sum_congr rfl fun q _ => Finset.sum_congr rfl fun i _ => ?_
    rw [← fieldL_apply, ← fieldL_apply, map_sub]
    ring
  · intro i q
    rw [hgδ, tractionWork, Finset.sum_eq_single i, Finset.sum_eq_single q]
    · simp
    · intro q' _ hq'
      simp [hq']
    · simp
    · intro i' _ hi'
      simp [hi']
    · simp

/-- **C105 (stationary).** If the forward solver reproduces the observed displacement at all quadrature points, the misfit and
its gradient vanish; in particular at the reference traction that produced the data. -/
theorem C105_stationary (h : (𝒫).WF) (bcs : List (List (BCEntry ℝ))) (hw : WFBC (𝒫).fes bcs)
    (S : Setup Θ (𝒫).fes (totalDofs (𝒫).fes)) (hS : OfProblem 𝒫 bcs S) (hs : ExactAdjointSolver S.adjointSolve)
    (θ0 : Θ) (u0 : U) (hadm : (𝒫).Admissible ((𝒫).vecField u0)) (hdet : (elimRows (𝒫).fes bcs (S.tan θ0 u0)).det ≠ 0)
    (fuel : Nat) (hf : S.fwdPred fuel θ0 = some (.ok u0)) (obs : U)
    (hobs : ∀ c q i, fieldAt 𝒫 ((𝒫).vecField u0) c q i = fieldAt 𝒫 ((𝒫).vecField obs) c q i) :
    S.objective fuel (misfit 𝒫 obs) θ0 = some (.ok 0) ∧
      ∀ g, S.grad fuel (misfit 𝒫 obs) θ0 = some (.ok g) → g = 0 := by
  constructor
  · rw [Inverse.Setup.objective, hf]
    have : misfit 𝒫 obs u0 = 0 := by
      rw [misfit, l2Error_fields]
      refine Finset.sum_eq_zero fun c _ => Finset.sum_eq_zero fun q _ => Finset.sum_eq_zero fun i _ => ?_
      rw [fieldL_apply, fieldL_apply, hobs c q i]
      ring
    show some (Except.ok (misfit 𝒫 obs u0)) = _
    rw [this]
  · intro g hg
    obtain ⟨hsymm, w, hw1, hw2, hw3, -⟩ := C105_formula numTotalNodes points cells el fc faces h bcs hw S hS hs θ0 u0 hadm fuel hf obs g hg
    have hzero : ∀ k, product 𝒫 ((𝒫).vecField (u0 - obs)) ((𝒫).vecField (Pi.single k 1)) = 0 := by
      intro k
      refine Finset.sum_eq_zero fun c _ => Finset.sum_eq_zero fun q _ => ?_
      rw [Finset.sum_eq_zero, zero_mul]
      intro i _
      rw [← fieldL_apply, map_sub, fieldL_apply, fieldL_apply, hobs c q i, sub_self, zero_mul]
    have hz : (elimRows (𝒫).fes bcs (S.tan θ0 u0)).mulVec w = 0 := by
      funext r
      rw [Matrix.mulVec, dotProduct]
      obtain ⟨o, ho⟩ := prescribed_exists (𝒫).fes bcs hw r r.2
      cases o with
      | none =>
        simp only [(elimRows_spec (𝒫).fes bcs hw _ r _).1 ho]
        rw [hw2 r ho, hzero, mul_zero]
        rfl
      | some v =>
        simp only [(elimRows_spec (𝒫).fes bcs hw _ r _).2 v ho]
        simp [hw1 r v ho]
    have hw0 : w = 0 := by
      by_contra hne
      exact hdet (Matrix.exists_mulVec_eq_zero_iff.1 ⟨w, hne, hz⟩)
    ext δ
    rw [hw3, hw0, tractionWork]
    refine Finset.sum_eq_zero fun i _ => Finset.sum_eq_zero fun q _ => ?_
    have : vertical 𝒫 faces[i] q ((𝒫).vecField 0) = 0 := by
      simp [vertical, interp, restrict, Problem1.vecField]
    rw [this]
    ring

end

end JaxFem.Traction
