import Verif.Thm.C106_Vjp

/-!
# C106: computing gradients
-/

namespace JaxFem.Gradients

open scoped BigOperators Topology
open Inverse (Setup)

variable {nq nfq nn : Nat}

/-- What `ad_wrapper(problem)` is built from: boundary conditions and residual after `set_params`, and the tangent. -/
structure OfProblem (P : Problem1 (ℝ × ℝ) nq nfq nn 3 3) (Lz : ℝ)
    (S : Setup (Params P.cells.length nq) P.fes (totalDofs P.fes)) : Prop where
  bcs : ∀ p, S.bcs p = bcs P.points Lz p.2.2
  res : ∀ p, S.res p = fun u => (setParams P p).flat u
  tangent : ∀ p u, DifferentiableAt ℝ (S.res p) u → HasJacobianAt (S.res p) (S.tan p u) u

section

variable (numTotalNodes : Nat) (points : List (Fin 3 → ℝ)) (cells : List (List Nat)) (el : RefElement ℝ nq nn 3)
  (fc : RefFaces ℝ nfq nn 3) (faces : List (Nat × Nat))

local notation "𝒫" => problem numTotalNodes points cells el fc faces
set_option quotPrecheck false in
local notation "U" => Fin (totalDofs (𝒫).fes) → ℝ
set_option quotPrecheck false in
local notation "Θ" => Params (𝒫).cells.length nq

/-! ### Helper lemmas -/

open Classical in
/-- Values at the bottom as functions of the parameters. -/
noncomputable def bottomValue (C nq : Nat) (points : List (Fin 3 → ℝ)) (Lz : ℝ) (k : Nat) : Option (Params C nq →L[ℝ] ℝ) :=
  if OnBottom points (k / 3) then
    some (if k % 3 = 2 then Lz • (ContinuousLinearMap.snd ℝ (Fin C → Fin nq → ℝ) ℝ).comp
      (ContinuousLinearMap.snd ℝ ℝ ((Fin C → Fin nq → ℝ) × ℝ)) else 0)
  else none

theorem bottomValue_none (C nq : Nat) (Lz : ℝ) (k : Nat) : bottomValue C nq points Lz k = none ↔ ¬OnBottom points (k / 3) := by
  rw [bottomValue]
  split <;> simp_all

theorem values (h : (𝒫).WF) (Lz : ℝ) (S : Setup Θ (𝒫).fes (totalDofs (𝒫).fes)) (hS : OfProblem 𝒫 Lz S) :
    Values (𝒫).fes S.bcs fun k => bottomValue (𝒫).cells.length nq points Lz k := by
  have hp : points.length = numTotalNodes := h.points
  have key := fun s => C106_boundary ((𝒫).fes.head (by simp [Problem1.fes])) rfl points hp Lz s
  refine ⟨fun p => ?_, fun p k => ?_⟩
  · rw [hS.bcs]
    exact (key p.2.2).1
  · rw [hS.bcs]
    have hN : totalDofs (𝒫).fes = numTotalNodes * 3 := by simp [totalDofs, Problem1.fes, problem]
    have hk : k.1 < numTotalNodes * 3 := lt_of_lt_of_eq k.2 hN
    have h1 := (key p.2.2).2 (k / 3) (k % 3) (show k.1 / 3 < numTotalNodes by omega) (by omega)
    have h2 : k.1 / 3 * 3 + k.1 % 3 = k.1 := by omega
    rw [h2] at h1
    rw [bottomValue]
    by_cases hb : OnBottom points (k / 3)
    · rw [if_pos hb]
      have h3 := h1.1 hb
      have h4 : (if k.1 % 3 = 2 then p.2.2 * Lz else 0) = (if k.1 % 3 = 2 then Lz •
          (ContinuousLinearMap.snd ℝ (Fin (𝒫).cells.length → Fin nq → ℝ) ℝ).comp
          (ContinuousLinearMap.snd ℝ ℝ ((Fin (𝒫).cells.length → Fin nq → ℝ) × ℝ)) else 0 : Θ →L[ℝ] ℝ) p := by
        split
        · exact mul_comm _ _
        · rfl
      rw [h4] at h3
      exact h3
    · rw [if_neg hb]
      exact h1.2 hb

/-- `δE` as a kernel sees it. -/
def seenChange (e : Option ℝ) (d : ℝ) : ℝ := match e with
  | none => d
  | some _ => 0

/-- One density as a linear function of the parameters. -/
noncomputable def rhoL {C : Nat} (c : Fin C) (q : Fin nq) : Params C nq →L[ℝ] ℝ :=
  (ContinuousLinearMap.proj (R := ℝ) (φ := fun _ : Fin nq => ℝ) q).comp
    ((ContinuousLinearMap.proj (R := ℝ) (φ := fun _ : Fin C => Fin nq → ℝ) c).comp
      ((ContinuousLinearMap.fst ℝ (Fin C → Fin nq → ℝ) ℝ).comp (ContinuousLinearMap.snd ℝ ℝ ((Fin C → Fin nq → ℝ) × ℝ))))

theorem rhoL_apply {C : Nat} (c : Fin C) (q : Fin nq) (p : Params C nq) : rhoL c q p = p.2.1 c q := rfl

theorem modulus_deriv {C : Nat} (e : Option ℝ) (p : Params C nq) (c : Fin C) (q : Fin nq) :
    ∃ D : Params C nq →L[ℝ] ℝ, (∀ d, D d = seenChange e d.1 * p.2.1 c q + e.getD p.1 * d.2.1 c q) ∧
      HasFDerivAt (fun p' : Params C nq => (seen e p').1 * (seen e p').2.1 c q) D p := by
  have hr : HasFDerivAt (fun p' : Params C nq => p'.2.1 c q) (rhoL c q) p := (rhoL c q).hasFDerivAt
  cases e with
  | none =>
    have h1 : HasFDerivAt (fun p' : Params C nq => p'.1) (ContinuousLinearMap.fst ℝ ℝ ((Fin C → Fin nq → ℝ) × ℝ)) p := hasFDerivAt_fst
    refine ⟨_, fun d => ?_, h1.mul hr⟩
    show p.1 * d.2.1 c q + p.2.1 c q * d.1 = d.1 * p.2.1 c q + p.1 * d.2.1 c q
    ring
  | some a =>
    refine ⟨_, fun d => ?_, hr.const_mul a⟩
    show a * d.2.1 c q = 0 * p.2.1 c q + a * d.2.1 c q
    ring

theorem seen_work (h : (𝒫).WF) (Lz : ℝ) (S : Setup Θ (𝒫).fes (totalDofs (𝒫).fes)) (hS : OfProblem 𝒫 Lz S) (e : Option ℝ)
    (p : Θ) (u w : U) :
    ∃ D : Θ →L[ℝ] ℝ, (∀ d, D d = ∑ c, ∑ q, (seenChange e d.1 * p.2.1 c q + e.getD p.1 * d.2.1 c q)
        * power 𝒫 (Hyper.firstPK unitEnergy) ((𝒫).vecField u) ((𝒫).vecField w) c q) ∧
      HasFDerivAt (fun p' : Θ => ∑ k, w k * S.res (seen e p') u k) D p := by
  choose D hD1 hD2 using fun (c : Fin (𝒫).cells.length) (q : Fin nq) => modulus_deriv e p c q
  have e1 : (fun p' : Θ => ∑ k, w k * S.res (seen e p') u k) = fun p' => (∑ c, ∑ q, (seen e p').1 * (seen e p').2.1 c q
      * power 𝒫 (Hyper.firstPK unitEnergy) ((𝒫).vecField u) ((𝒫).vecField w) c q) + 1000 * lift 𝒫 faces ((𝒫).vecField w) := by
    funext p'
    rw [hS.res]
    exact res_work numTotalNodes points cells el fc faces h _ u w
  rw [e1]
  refine ⟨∑ c, ∑ q, power 𝒫 (Hyper.firstPK unitEnergy) ((𝒫).vecField u) ((𝒫).vecField w) c q • D c q, fun d => ?_, ?_⟩
  · simp only [sum_apply, smul_apply, smul_eq_mul, hD1]
    exact Finset.sum_congr rfl fun c _ => Finset.sum_congr rfl fun q _ => mul_comm _ _
  · refine HasFDerivAt.add_const _ (HasFDerivAt.fun_sum fun c _ => HasFDerivAt.fun_sum fun q _ => ?_)
    exact (hD2 c q).mul_const _

theorem seen_differentiable (h : (𝒫).WF) (Lz : ℝ) (S : Setup Θ (𝒫).fes (totalDofs (𝒫).fes)) (hS : OfProblem 𝒫 Lz S)
    (e : Option ℝ) (p : Θ) (u : U) : DifferentiableAt ℝ (fun p' : Θ => S.res (seen e p') u) p := by
  refine differentiableAt_pi.2 fun k => ?_
  obtain ⟨D, -, hD⟩ := seen_work numTotalNodes points cells el fc faces h Lz S hS e p u (Pi.single k 1)
  have e1 : (fun p' : Θ => ∑ l, (Pi.single k 1 : U) l * S.res (seen e p') u l) = fun p' => S.res (seen e p') u k := by
    funext p'
    rw [Finset.sum_eq_single k]
    · rw [Pi.single_eq_same, one_mul]
    · intro l _ hl
      rw [Pi.single_eq_of_ne hl, zero_mul]
    · simp
  rw [e1] at hD
  exact hD.differentiableAt

open Classical in
/-- The pulled-back cotangent. -/
theorem vjp_value (h : (𝒫).WF) (Lz : ℝ) (S : Setup Θ (𝒫).fes (totalDofs (𝒫).fes)) (hS : OfProblem 𝒫 Lz S) (e : Option ℝ)
    (p : Θ) (u l : U) (d : Θ) :
    let w : U := fun k => if OnBottom points (k / 3) then 0 else l k
    (-jaxVjp (fun p' => constraintFn (𝒫).fes S.bcs (fun p' => S.res (seen e p')) u p') p l) d
      = -(∑ c, ∑ q, (seenChange e d.1 * p.2.1 c q + e.getD p.1 * d.2.1 c q)
        * power 𝒫 (Hyper.firstPK unitEnergy) ((𝒫).vecField u) ((𝒫).vecField w) c q)
        + Lz * d.2.2 * ∑ k : Fin (totalDofs (𝒫).fes), if OnBottom points (k / 3) ∧ k.1 % 3 = 2 then l k else 0 := by
  intro w
  have hv := values numTotalNodes points cells el fc faces h Lz S hS
  have hr := seen_differentiable numTotalNodes points cells el fc faces h Lz S hS e p u
  rw [hv.deriv (fun p' => S.res (seen e p')) u p hr l d]
  obtain ⟨D, hD1, hD2⟩ := seen_work numTotalNodes points cells el fc faces h Lz S hS e p u w
  rw [← hD1, ← hD2.fderiv]
  have hd : HasFDerivAt (fun p' => ∑ k, w k * S.res (seen e p') u k)
      (∑ k, w k • fderiv ℝ (fun p' => S.res (seen e p') u k) p) p :=
    HasFDerivAt.fun_sum fun k _ => ((differentiableAt_pi.1 hr k).hasFDerivAt).const_mul (w k)
  rw [hd.fderiv]
  simp only [sum_apply, smul_apply, smul_eq_mul]
  rw [Finset.mul_sum, ← Finset.sum_neg_distrib, ← Finset.sum_add_distrib]
  refine Finset.sum_congr rfl fun k _ => ?_
  show _ = -((if OnBottom points (k / 3) then 0 else l k) * _) + _
  by_cases hb : OnBottom points (k / 3)
  · rw [if_pos hb, bottomValue, if_pos hb]
    by_cases hk : k.1 % 3 = 2
    · have hbk : OnBottom points (k / 3) ∧ k.1 % 3 = 2 := ⟨hb, hk⟩
      rw [if_pos hk, if_pos hbk]
      show l k * (Lz * d.2.2) = _
      ring
    · have hbk : ¬(OnBottom points (k / 3) ∧ k.1 % 3 = 2) := fun hh => hk hh.2
      rw [if_neg hk, if_neg hbk]
      show l k * 0 = _
      ring
  · rw [if_neg hb, bottomValue, if_neg hb, if_neg fun hh => hb hh.1]
    show l k * -_ = _
    ring

theorem testFn_fderiv {N : Nat} (u : Fin N → ℝ) : DifferentiableAt ℝ (testFn (N := N)) u ∧
    ∀ k, fderiv ℝ testFn u (Pi.single k 1) = 2 * u k := by
  have h1 : ∀ k : Fin N, HasFDerivAt (fun u : Fin N → ℝ => u k) (ContinuousLinearMap.proj (R := ℝ) (φ := fun _ : Fin N => ℝ) k) u :=
    fun k => (ContinuousLinearMap.proj (R := ℝ) (φ := fun _ : Fin N => ℝ) k).hasFDerivAt
  have h2 : HasFDerivAt (testFn (N := N)) _ u := HasFDerivAt.fun_sum fun k _ => (h1 k).pow 2
  refine ⟨h2.differentiableAt, fun k => ?_⟩
  rw [h2.fderiv, sum_apply, Finset.sum_eq_single k]
  · simp
  · intro l _ hl
    simp [hl]
  · simp

theorem params_diff (h : (𝒫).WF) (Lz : ℝ) (S : Setup Θ (𝒫).fes (totalDofs (𝒫).fes)) (hS : OfProblem 𝒫 Lz S) (p0 : Θ) (u0 : U)
    (hadm : (𝒫).Admissible ((𝒫).vecField u0)) :
    ContDiffAt ℝ 1 (fun up : U × Θ => S.res up.2 up.1) (u0, p0) ∧ DifferentiableAt ℝ (S.res p0) u0 := by
  have hsm' : ContDiffAt ℝ 1 (fun up : U × Θ => S.res up.2 up.1) (u0, p0) := by
    have e : (fun up : U × Θ => S.res up.2 up.1)
        = fun up => fun k : Fin (totalDofs (𝒫).fes) => (setParams 𝒫 up.2).flat up.1 k := by
      funext up
      rw [hS.res]
    rw [e]
    exact gradients_smooth numTotalNodes points cells el fc faces h p0 u0 hadm
  refine ⟨hsm', ?_⟩
  have : ContDiffAt ℝ 1 (fun u => S.res p0 u) u0 :=
    ContDiffAt.comp (g := fun up : U × Θ => S.res up.2 up.1) (f := fun u => (u, p0)) u0 hsm'
      (contDiffAt_id.prodMk contDiffAt_const)
  exact this.differentiableAt one_ne_zero

/-! ### Property theorems -/

/-- **C106 (gradient).** Let `u0`, returned by the forward solver for the parameters `p0`, solve the equilibrium equations with
no cell turned inside out and a regular tangent. Then exactly one branch `u(p)` of equilibria passes through `u0`, and the
gradient of a problem object with fresh kernels is the derivative of the sum of the squared displacements along the branch
with respect to Young's modulus, the densities and the displacement of the bottom. -/
theorem C106_gradient (h : (𝒫).WF) (Lz : ℝ) (S : Setup Θ (𝒫).fes (totalDofs (𝒫).fes)) (hS : OfProblem 𝒫 Lz S)
    (hs : ExactAdjointSolver S.adjointSolve)
    (htot : ∀ n (A : Matrix (Fin n) (Fin n) ℝ) b, A.det ≠ 0 → ∃ x, S.adjointSolve n A b = .ok x)
    (p0 : Θ) (u0 : U) (hadm : (𝒫).Admissible ((𝒫).vecField u0))
    (hdet : (elimRows (𝒫).fes (bcs points Lz p0.2.2) (S.tan p0 u0)).det ≠ 0)
    (hz : SolvesBVP (𝒫).fes (bcs points Lz p0.2.2) ((setParams 𝒫 p0).flat) u0) (fuel : Nat)
    (hf : S.fwdPred fuel p0 = some (.ok u0)) :
    ∃ u : Θ → U, u p0 = u0 ∧
      (∀ᶠ pw in 𝓝 (p0, u0), SolvesBVP (𝒫).fes (bcs points Lz pw.1.2.2) ((setParams 𝒫 pw.1).flat) pw.2 ↔ u pw.1 = pw.2) ∧
      (∀ᶠ p in 𝓝 p0, SolvesBVP (𝒫).fes (bcs points Lz p.2.2) ((setParams 𝒫 p).flat) (u p)) ∧
      ∃ g, gradFn S fuel ⟨none, none⟩ p0 = some (.ok g) ∧ HasFDerivAt (fun p => ∑ k, u p k ^ 2) g p0 := by
  obtain ⟨hsm', hd⟩ := params_diff numTotalNodes points cells el fc faces h Lz S hS p0 u0 hadm
  have hv := values numTotalNodes points cells el fc faces h Lz S hS
  have hc := hv.contDiff S.res u0 p0 hsm'
  have hb : ∀ p, S.bcs p = bcs points Lz p.2.2 := hS.bcs
  obtain ⟨u, h1, -, h2, h3, h4⟩ := S.grad_exact hs htot p0 u0 hv.wf (hS.tangent p0 u0 hd) hc
    (by rw [hb]; exact hdet) (by rw [hb, hS.res]; exact hz) fuel hf
  refine ⟨u, h1, ?_, ?_, h4 testFn (testFn_fderiv u0).1⟩
  · filter_upwards [h2] with pw hpw
    rw [hb, hS.res] at hpw
    exact hpw
  · filter_upwards [h3] with p hp
    rw [hb, hS.res] at hp
    exact hp

open Classical in
/-- **C106 (sensitivities).** Whenever the gradient is returned, there is an adjoint displacement `w` that vanishes at the
bottom and solves the linearised equilibrium equations with the load `2 u`; the derivative with respect to `E` is minus the
work of the stress per unit of `E` on `w`, that with respect to one density is minus `E` times the work at its point, and
that with respect to `scale` is `Lz` times the sum of the vertical reactions at the bottom. In particular
`E dE = ∑ rho drho`. -/
theorem C106_formula (h : (𝒫).WF) (Lz : ℝ) (S : Setup Θ (𝒫).fes (totalDofs (𝒫).fes)) (hS : OfProblem 𝒫 Lz S)
    (hs : ExactAdjointSolver S.adjointSolve) (p0 : Θ) (u0 : U) (hadm : (𝒫).Admissible ((𝒫).vecField u0)) (fuel : Nat)
    (hf : S.fwdPred fuel p0 = some (.ok u0)) (g : Θ →L[ℝ] ℝ) (hg : gradFn S fuel ⟨none, none⟩ p0 = some (.ok g)) :
    ∃ w : U, (∀ k : Fin (totalDofs (𝒫).fes), OnBottom points (k / 3) → w k = 0) ∧
      (∀ k : Fin (totalDofs (𝒫).fes), ¬OnBottom points (k / 3) → ∑ r, S.tan p0 u0 r k * w r = 2 * u0 k) ∧
      g (1, 0, 0) = -∑ c, ∑ q, p0.2.1 c q * power 𝒫 unitPiola ((𝒫).vecField u0) ((𝒫).vecField w) c q ∧
      (∀ c q, g (0, Pi.single c (Pi.single q 1), 0)
        = -(p0.1 * power 𝒫 unitPiola ((𝒫).vecField u0) ((𝒫).vecField w) c q)) ∧
      g (0, 0, 1) = Lz * (∑ k : Fin (totalDofs (𝒫).fes), if OnBottom points (k / 3) ∧ k.1 % 3 = 2
        then 2 * u0 k - ∑ r, S.tan p0 u0 r k * w r else 0) ∧
      p0.1 * g (1, 0, 0) = g (0, p0.2.1, 0) := by
  have hv := values numTotalNodes points cells el fc faces h Lz S hS
  rw [gradFn] at hg
  have hf' : S.fwdPred fuel (seen none p0) = some (.ok u0) := hf
  rw [hf'] at hg
  have hg' : implicitVjp (𝒫).fes S.bcs (fun p' => S.res (seen none p')) (fun p' => S.tan (seen (some p0.1) p')) none
      S.adjointSolve u0 p0 (fun j => fderiv ℝ testFn u0 (Pi.single j 1)) = .ok g := Option.some.inj hg
  rw [implicitVjp] at hg'
  have ht : S.tan (seen (some p0.1) p0) = S.tan p0 := rfl
  rcases hl : S.adjointSolve _ (elimRows (𝒫).fes (S.bcs p0) (S.tan p0 u0)).transpose
    (fun j => fderiv ℝ testFn u0 (Pi.single j 1)) with e | l
  · rw [ht, hl] at hg'; cases hg'
  rw [ht, hl] at hg'
  have hgl : -jaxVjp (fun p => constraintFn (𝒫).fes S.bcs (fun p' => S.res (seen none p')) u0 p) p0 l = g := Except.ok.inj hg'
  have hadj := hv.adjoint p0 (S.tan p0 u0) l _ (hs _ _ _ _ hl)
  have hval := fun d => vjp_value numTotalNodes points cells el fc faces h Lz S hS none p0 u0 l d
  have hw : (fun k : Fin (totalDofs (𝒫).fes) => if bottomValue (𝒫).cells.length nq points Lz k = none then l k else 0)
      = fun k : Fin (totalDofs (𝒫).fes) => if OnBottom points (k / 3) then 0 else l k := by
    funext k
    by_cases hb : OnBottom points (k / 3)
    · rw [if_pos hb, if_neg fun hn => (bottomValue_none points _ _ Lz k).1 hn hb]
    · rw [if_neg hb, if_pos ((bottomValue_none points _ _ Lz k).2 hb)]
  simp only [(testFn_fderiv u0).2] at hadj
  have hsum : ∀ k, (∑ r, S.tan p0 u0 r k * if bottomValue (𝒫).cells.length nq points Lz r = none then l r else 0)
      = ∑ r : Fin (totalDofs (𝒫).fes), S.tan p0 u0 r k * if OnBottom points (r / 3) then 0 else l r :=
    fun k => Finset.sum_congr rfl fun r _ => congrArg (S.tan p0 u0 r k * ·) (congrFun hw r)
  rw [hgl] at hval
  simp only [power_piola numTotalNodes points cells el fc faces hadm] at hval
  refine ⟨fun k : Fin (totalDofs (𝒫).fes) => if OnBottom points (k / 3) then 0 else l k, fun k hb => if_pos hb, fun k hb =>
    (hsum k).symm.trans ((hadj k).1 ((bottomValue_none points _ _ Lz k).2 hb)), ?_, ?_, ?_, ?_⟩
  · rw [hval]
    simp [seenChange]
  · intro c q
    rw [hval]
    have : ∀ (c' : Fin (𝒫).cells.length) (q' : Fin nq) (x : ℝ), (seenChange none (0 : ℝ) * p0.2.1 c' q'
        + (none : Option ℝ).getD p0.1 * (Pi.single c (Pi.single q 1) : Fin (𝒫).cells.length → Fin nq → ℝ) c' q') * x
        = if c' = c then if q' = q then p0.1 * x else 0 else 0 := by
      intro c' q' x
      by_cases hc : c' = c
      · subst hc
        by_cases hq : q' = q
        · subst hq
          simp [seenChange]
        · simp [seenChange, hq]
      · simp [seenChange, hc]
    simp only [this]
    simp
  · rw [hval]
    simp only [seenChange, Pi.zero_apply, zero_mul, mul_zero, add_zero, Finset.sum_const_zero, neg_zero, zero_add, mul_one]
    congr 1
    refine Finset.sum_congr rfl fun k _ => ?_
    by_cases hb : OnBottom points (k / 3) ∧ k.1 % 3 = 2
    · rw [if_pos hb, if_pos hb]
      rw [← hsum]
      exact (hadj k).2 fun hn => (bottomValue_none points _ _ Lz k).1 hn hb.1
    · rw [if_neg hb, if_neg hb]
  · rw [hval, hval]
    simp only [seenChange, Pi.zero_apply, zero_mul, mul_zero, add_zero, zero_add, one_mul]
    rw [mul_neg, Finset.mul_sum]
    congr 1
    refine Finset.sum_congr rfl fun c _ => ?_
    rw [Finset.mul_sum]
    refine Finset.sum_congr rfl fun q _ => ?_
    show _ = p0.1 * p0.2.1 c q * _
    ring

/-- **C106 (kernels that disagree).** If the tangent kernel was compiled with `E0`, then for all later parameters the backward
pass returns, raises or fails to end exactly as that at `E0` does, and what it returns is the gradient at `E0` with other
factors: if the residual kernel is compiled only now, the components of the densities are multiplied by `E / E0`; if it was
compiled with `e`, they are multiplied by `e / E0` and the derivative with respect to `E` is zero. -/
theorem C106_mismatch (h : (𝒫).WF) (Lz : ℝ) (S : Setup Θ (𝒫).fes (totalDofs (𝒫).fes)) (hS : OfProblem 𝒫 Lz S) (fuel : Nat)
    (E0 : ℝ) (hE : E0 ≠ 0) (p : Θ) :
    (∃ M : Θ →L[ℝ] Θ, (∀ d, M d = (d.1, (p.1 / E0) • d.2.1, d.2.2)) ∧
      gradFn S fuel ⟨some E0, none⟩ p = (S.grad fuel testFn (E0, p.2)).map fun r => r.map fun g => g.comp M) ∧
    ∀ e, ∃ M : Θ →L[ℝ] Θ, (∀ d, M d = (0, (e / E0) • d.2.1, d.2.2)) ∧
      gradFn S fuel ⟨some E0, some e⟩ p = (S.grad fuel testFn (E0, p.2)).map fun r => r.map fun g => g.comp M := by
  have key : ∀ (e : Option ℝ) (M : Θ →L[ℝ] Θ),
      (∀ d, M d = (seenChange e d.1, (e.getD p.1 / E0) • d.2.1, d.2.2)) →
      gradFn S fuel ⟨some E0, e⟩ p = (S.grad fuel testFn (E0, p.2)).map fun r => r.map fun g => g.comp M := by
    intro e M hM
    rw [gradFn, Setup.grad]
    have hseen : seen (Compiled.jac ⟨some E0, e⟩) p = (E0, p.2) := rfl
    rw [hseen]
    rcases S.fwdPred fuel (E0, p.2) with _ | (_ | u)
    · rfl
    · rfl
    · refine congrArg some ?_
      show implicitVjp (𝒫).fes S.bcs (fun p' => S.res (seen e p')) (fun p' => S.tan (seen (Compiled.call ⟨some E0, e⟩ p).jac p')) none
        S.adjointSolve u p (fun j => fderiv ℝ testFn u (Pi.single j 1))
        = Except.map (fun g : Θ →L[ℝ] ℝ => g.comp M) (implicitVjp (𝒫).fes S.bcs S.res S.tan none S.adjointSolve u (E0, p.2)
          (fun j => fderiv ℝ testFn u (Pi.single j 1)))
      rw [implicitVjp, implicitVjp]
      have hb : S.bcs p = S.bcs (E0, p.2) := by rw [hS.bcs, hS.bcs]
      have ht : S.tan (seen (Compiled.call ⟨some E0, e⟩ p).jac p) u = S.tan (E0, p.2) u := rfl
      simp only [hb, ht]
      rcases S.adjointSolve _ (elimRows (𝒫).fes (S.bcs (E0, p.2)) (S.tan (E0, p.2) u)).transpose
        (fun j => fderiv ℝ testFn u (Pi.single j 1)) with _ | l
      · rfl
      · show Except.ok _ = Except.ok _
        congr 1
        refine ContinuousLinearMap.ext fun d => ?_
        have h1 := vjp_value numTotalNodes points cells el fc faces h Lz S hS e p u l d
        have h2 := vjp_value numTotalNodes points cells el fc faces h Lz S hS none (E0, p.2) u l (M d)
        refine h1.trans (Eq.trans ?_ h2.symm)
        rw [hM]
        congr 2
        refine Finset.sum_congr rfl fun c _ => Finset.sum_congr rfl fun q _ => ?_
        congr 1
        show _ = seenChange e d.1 * p.2.1 c q + E0 * (e.getD p.1 / E0 * d.2.1 c q)
        field_simp
  have hfst : ∀ a : ℝ, ∀ b : Bool, ∃ M : Θ →L[ℝ] Θ, ∀ d, M d = ((if b then d.1 else 0), a • d.2.1, d.2.2) := by
    intro a b
    let sn := ContinuousLinearMap.snd ℝ ℝ ((Fin (𝒫).cells.length → Fin nq → ℝ) × ℝ)
    refine ⟨ContinuousLinearMap.prod (if b then ContinuousLinearMap.fst ℝ ℝ ((Fin (𝒫).cells.length → Fin nq → ℝ) × ℝ) else 0)
      (ContinuousLinearMap.prod (a • (ContinuousLinearMap.fst ℝ (Fin (𝒫).cells.length → Fin nq → ℝ) ℝ).comp sn)
        ((ContinuousLinearMap.snd ℝ (Fin (𝒫).cells.length → Fin nq → ℝ) ℝ).comp sn)), fun d => ?_⟩
    cases b <;> rfl
  constructor
  · obtain ⟨M, hM⟩ := hfst (p.1 / E0) true
    exact ⟨M, hM, key none M hM⟩
  · intro e
    obtain ⟨M, hM⟩ := hfst (e / E0) false
    exact ⟨M, hM, key (some e) M hM⟩

end

variable {C : Nat} {fes : List FE} {N : Nat}

/-- **C106 (stale modulus).** In a sequence of evaluations on a new problem object, for arbitrary parameters, every value is
the objective at the Young's modulus of the *first* evaluation and the other parameters of its own. -/
theorem C106_stale (S : Setup (Params C nq) fes N) (fuel : Nat) (p : Params C nq) (ps : List (Params C nq)) :
    evaluate S fuel ⟨none, none⟩ (p :: ps)
      = (p :: ps).map fun p' => S.objective fuel (fun u => ∑ k, u k ^ 2) (p.1, p'.2) := by
  have key : ∀ (ps : List (Params C nq)) (e : Option ℝ), evaluate S fuel ⟨some p.1, e⟩ ps
      = ps.map fun p' => S.objective fuel (fun u => ∑ k, u k ^ 2) (p.1, p'.2) := by
    intro ps
    induction ps with
    | nil => exact fun _ => rfl
    | cons p' ps ih =>
      intro e
      rw [evaluate, List.map_cons]
      congr 1
      exact ih e
  rw [evaluate, List.map_cons]
  congr 1
  exact key ps none

/-- **C106 (report).** Cells 7 and 8 return a report exactly if the evaluations at the parameters, at the changed density and at
the changed scale and the gradient return. Then the quotient for `E` is zero, whatever the problem, the quotients for the
density and the scale are the true ones, and the gradient is the one of a problem object with fresh kernels. -/
theorem C106_script (S : Setup (Params C nq) fes N) (fuel : Nat) (h : ℝ) (p : Params C nq) (R : Report C nq) :
    script S fuel h p = some (.ok R) ↔ ∃ (hC : 0 < C) (hq : 0 < nq) (v vR vS : ℝ) (g : Params C nq →L[ℝ] ℝ),
      S.objective fuel testFn p = some (.ok v) ∧
      S.objective fuel testFn (p.1, Function.update p.2.1 ⟨0, hC⟩ (Function.update (p.2.1 ⟨0, hC⟩) ⟨0, hq⟩
        ((1 + h) * p.2.1 ⟨0, hC⟩ ⟨0, hq⟩)), p.2.2) = some (.ok vR) ∧
      S.objective fuel testFn (p.1, p.2.1, (1 + h) * p.2.2) = some (.ok vS) ∧
      gradFn S fuel ⟨none, none⟩ p = some (.ok g) ∧
      R = ⟨0, (vR - v) / (h * p.2.1 ⟨0, hC⟩ ⟨0, hq⟩), (vS - v) / (h * p.2.2), g⟩ := by
  have hand : ∀ {α β : Type} (r : Option (Except Err α)) (f : α → Option (Except Err β)) (b : β),
      andThen r f = some (.ok b) ↔ ∃ a, r = some (.ok a) ∧ f a = some (.ok b) := by
    intro α β r f b
    rcases r with _ | (_ | a) <;> simp [andThen]
  have hset : ∀ (hC : 0 < C) (hq : 0 < nq) (x : ℝ), Inverse.setAt p.2.1 0 0 x
      = Function.update p.2.1 ⟨0, hC⟩ (Function.update (p.2.1 ⟨0, hC⟩) ⟨0, hq⟩ x) := by
    intro hC hq x
    funext i j
    rw [Inverse.setAt]
    by_cases hi : i = ⟨0, hC⟩
    · subst hi
      rw [Function.update_self]
      by_cases hj : j = ⟨0, hq⟩
      · subst hj
        rw [Function.update_self, if_pos ⟨rfl, rfl⟩]
      · rw [Function.update_of_ne hj, if_neg fun hh => hj (Fin.ext hh.2)]
    · rw [Function.update_of_ne hi, if_neg fun hh => hi (Fin.ext hh.1)]
  have hgr : gradFn S fuel ⟨some p.1, none⟩ p = gradFn S fuel ⟨none, none⟩ p := rfl
  have hget : ∀ (hC : 0 < C) (hq : 0 < nq), Inverse.getAt p.2.1 0 0 = .ok (p.2.1 ⟨0, hC⟩ ⟨0, hq⟩) := by
    intro hC hq
    rw [Inverse.getAt, dif_pos ⟨hC, hq⟩]
    simp
  rw [script, hand]
  simp only [hand]
  constructor
  · rintro ⟨v, h1, vE, h2, h3⟩
    by_cases hCq : 0 < C ∧ 0 < nq
    · obtain ⟨hC, hq⟩ := hCq
      rw [hget hC hq] at h3
      simp only [hand] at h3
      obtain ⟨vR, h4, vS, h5, g, h6, h7⟩ := h3
      have h1' : S.objective fuel testFn p = some (.ok v) := h1
      have h2' : S.objective fuel testFn p = some (.ok vE) := h2
      have hv : vE = v := Except.ok.inj (Option.some.inj (h2'.symm.trans h1'))
      refine ⟨hC, hq, v, vR, vS, g, h1, ?_, h5, h6, ?_⟩
      · rw [← hset hC hq]
        exact h4
      · rw [← Except.ok.inj (Option.some.inj h7), hv, sub_self, zero_div]
    · rw [Inverse.getAt, dif_neg hCq] at h3
      cases Option.some.inj h3
  · rintro ⟨hC, hq, v, vR, vS, g, h1, h4, h5, h6, rfl⟩
    refine ⟨v, h1, v, h1, ?_⟩
    rw [hget hC hq]
    simp only [hand]
    refine ⟨vR, ?_, vS, h5, g, h6, ?_⟩
    · rw [hset hC hq]
      exact h4
    · rw [sub_self, zero_div]

/-- **C106 (exceptions).** An exception of the first evaluation is the exception of the cells, and if the first evaluation does
not end the cells do not end; without cells or quadrature points the density cannot be read (`IndexError`); after evaluations
that return, an exception of the gradient is the exception of the cells. -/
theorem C106_raises (S : Setup (Params C nq) fes N) (fuel : Nat) (h : ℝ) (p : Params C nq) (e : Err) :
    (S.objective fuel testFn p = some (.error e) → script S fuel h p = some (.error e)) ∧
    (S.objective fuel testFn p = none → script S fuel h p = none) ∧
    (∀ v, S.objective fuel testFn p = some (.ok v) → ¬(0 < C ∧ 0 < nq) → script S fuel h p = some (.error .index)) ∧
    ((∀ p', ∃ v, S.objective fuel testFn p' = some (.ok v)) → 0 < C → 0 < nq →
      gradFn S fuel ⟨none, none⟩ p = some (.error e) → script S fuel h p = some (.error e)) := by
  have h0 : (composedFn S fuel ⟨none, none⟩ (p.1, p.2.1, p.2.2)).1 = S.objective fuel testFn p := rfl
  have h1 : (composedFn S fuel (composedFn S fuel ⟨none, none⟩ (p.1, p.2.1, p.2.2)).2 ((1 + h) * p.1, p.2.1, p.2.2)).1
      = S.objective fuel testFn p := rfl
  refine ⟨fun hp => ?_, fun hp => ?_, fun v hp hz => ?_, fun ht hC hq hg => ?_⟩
  · simp only [script, h0, hp, andThen]
  · simp only [script, h0, hp, andThen]
  · simp only [script, h0, h1, hp, andThen, Inverse.getAt, dif_neg hz]
  · obtain ⟨v, hv⟩ := ht p
    simp only [script, h0, h1, hv, andThen, Inverse.getAt, dif_pos (And.intro hC hq)]
    obtain ⟨v1, hv1⟩ := ht (p.1, Inverse.setAt p.2.1 0 0 ((1 + h) * p.2.1 ⟨min 0 (C - 1), by omega⟩ ⟨min 0 (nq - 1), by omega⟩),
      p.2.2)
    obtain ⟨v2, hv2⟩ := ht (p.1, p.2.1, (1 + h) * p.2.2)
    change andThen (S.objective fuel testFn (p.1, Inverse.setAt p.2.1 0 0
      ((1 + h) * p.2.1 ⟨min 0 (C - 1), by omega⟩ ⟨min 0 (nq - 1), by omega⟩), p.2.2)) (fun vR =>
        andThen (S.objective fuel testFn (p.1, p.2.1, (1 + h) * p.2.2)) fun vS =>
        andThen (gradFn S fuel ⟨none, none⟩ p) fun g => _) = _
    rw [hv1, hv2, hg]
    rfl

/-- **C106 (comparison).** Let the forward solver return points of a branch `u` near `p`, along which the sum of the squared
displacements has the derivative `g`, and let the gradient be `g`. Then cells 7 and 8 return a report for all small step
sizes; as the step size goes to zero, the quotients for the density and the scale tend to the components of the gradient,
but the quotient for `E` is zero for every step size, also if the derivative with respect to `E` is not. -/
theorem C106_check (S : Setup (Params C nq) fes N) (fuel : Nat) (p : Params C nq) (hC : 0 < C) (hq : 0 < nq)
    (hr : p.2.1 ⟨0, hC⟩ ⟨0, hq⟩ ≠ 0) (hsc : p.2.2 ≠ 0) (u : Params C nq → Fin N → ℝ)
    (hu : ∀ᶠ p' in 𝓝 p, S.fwdPred fuel p' = some (.ok (u p'))) (g : Params C nq →L[ℝ] ℝ)
    (hg : gradFn S fuel ⟨none, none⟩ p = some (.ok g)) (hd : HasFDerivAt (fun p' => ∑ k, u p' k ^ 2) g p) :
    ∃ R : ℝ → Report C nq, (∀ᶠ h in 𝓝 (0 : ℝ), script S fuel h p = some (.ok (R h))) ∧
      (∀ h, (R h).dEFd = 0) ∧ (∀ h, (R h).grad = g) ∧
      Filter.Tendsto (fun h => (R h).drhoFd) (𝓝[≠] 0) (𝓝 (g (0, Pi.single ⟨0, hC⟩ (Pi.single ⟨0, hq⟩ 1), 0))) ∧
      Filter.Tendsto (fun h => (R h).dscaleFd) (𝓝[≠] 0) (𝓝 (g (0, 0, 1))) := by
  set f : Params C nq → ℝ := fun p' => ∑ k, u p' k ^ 2 with hfdef
  set dr : Params C nq := (0, Pi.single ⟨0, hC⟩ (Pi.single ⟨0, hq⟩ 1), 0) with hdr
  set ds : Params C nq := (0, 0, 1) with hds
  set x := p.2.1 ⟨0, hC⟩ ⟨0, hq⟩ with hx
  have hobj : ∀ᶠ p' in 𝓝 p, S.objective fuel testFn p' = some (.ok (f p')) := by
    filter_upwards [hu] with p' hp'
    rw [Setup.objective, hp']
    rfl
  have hline : ∀ (y : ℝ) (d : Params C nq), Filter.Tendsto (fun h : ℝ => p + (h * y) • d) (𝓝 0) (𝓝 p) := by
    intro y d
    have h1 : Continuous fun h : ℝ => p + (h * y) • d := by fun_prop
    have h2 := h1.tendsto 0
    rw [zero_mul, zero_smul, add_zero] at h2
    exact h2
  have hslope : ∀ (y : ℝ) (d : Params C nq), y ≠ 0 →
      Filter.Tendsto (fun h : ℝ => (f (p + (h * y) • d) - f p) / (h * y)) (𝓝[≠] 0) (𝓝 (g d)) := by
    intro y d hy
    have h1 : HasDerivAt (fun t : ℝ => f (p + t • d)) (g d) 0 := by
      have h2 : HasDerivAt (fun t : ℝ => p + t • d) d 0 := by
        have := ((hasDerivAt_id (0 : ℝ)).smul_const d).const_add p
        simpa using this
      have h3 : HasFDerivAt f g (p + (0 : ℝ) • d) := by
        rw [zero_smul, add_zero]
        exact hd
      exact h3.comp_hasDerivAt (0 : ℝ) h2
    have h4 := hasDerivAt_iff_tendsto_slope_zero.1 h1
    have h5 : Filter.Tendsto (fun h : ℝ => h * y) (𝓝[≠] 0) (𝓝[≠] 0) := by
      refine tendsto_nhdsWithin_iff.2 ⟨?_, ?_⟩
      · have : Continuous fun h : ℝ => h * y := by fun_prop
        have h6 := this.tendsto 0
        rw [zero_mul] at h6
        exact h6.mono_left nhdsWithin_le_nhds
      · filter_upwards [self_mem_nhdsWithin] with h hh
        exact mul_ne_zero hh hy
    have h7 := h4.comp h5
    refine h7.congr fun h => ?_
    simp only [Function.comp_apply, zero_add, zero_smul, add_zero, smul_eq_mul]
    rw [div_eq_inv_mul]
  have er : ∀ h : ℝ, ((p.1, Function.update p.2.1 ⟨0, hC⟩ (Function.update (p.2.1 ⟨0, hC⟩) ⟨0, hq⟩ ((1 + h) * x)), p.2.2) : Params C nq)
      = p + (h * x) • dr := by
    intro h
    refine Prod.ext (by simp [hdr]) (Prod.ext ?_ (by simp [hdr]))
    funext i j
    show _ = p.2.1 i j + h * x * (Pi.single ⟨0, hC⟩ (Pi.single ⟨0, hq⟩ 1) : Fin C → Fin nq → ℝ) i j
    by_cases hi : i = ⟨0, hC⟩
    · subst hi
      simp only [Function.update_self, Pi.single_eq_same]
      by_cases hj : j = ⟨0, hq⟩
      · subst hj
        simp only [Function.update_self, Pi.single_eq_same]
        rw [hx]
        ring
      · simp [Function.update_of_ne hj, Pi.single_eq_of_ne hj]
    · simp [Function.update_of_ne hi, Pi.single_eq_of_ne hi]
  have es : ∀ h : ℝ, ((p.1, p.2.1, (1 + h) * p.2.2) : Params C nq) = p + (h * p.2.2) • ds := by
    intro h
    refine Prod.ext (by simp [hds]) (Prod.ext (by simp [hds]) ?_)
    show (1 + h) * p.2.2 = p.2.2 + h * p.2.2 * 1
    ring
  refine ⟨fun h => ⟨0, (f (p + (h * x) • dr) - f p) / (h * x), (f (p + (h * p.2.2) • ds) - f p) / (h * p.2.2), g⟩, ?_, fun _ => rfl,
    fun _ => rfl, hslope x dr hr, hslope p.2.2 ds hsc⟩
  filter_upwards [(hline x dr).eventually hobj, (hline p.2.2 ds).eventually hobj] with h h1 h2
  refine (C106_script S fuel h p _).2 ⟨hC, hq, f p, _, _, g, hobj.self_of_nhds, ?_, ?_, hg, rfl⟩
  · rw [er]
    exact h1
  · rw [es]
    exact h2

end JaxFem.Gradients
