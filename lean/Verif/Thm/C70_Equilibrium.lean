import Verif.Thm.C29_ArcLength
import Mathlib.Analysis.Calculus.FDeriv.Mul
import Mathlib.Analysis.Calculus.FDeriv.Pow
import Mathlib.Analysis.Calculus.FDeriv.Pi

/-!
# C70: arc-length states and the equilibrium path
-/

namespace JaxFem

/-! ### Specification -/

/-- `w` is the vector of prescribed values (zero at free degrees of freedom). -/
def IsBoundaryVector (fes : List FE) (bcs : List (List (BCEntry ℝ))) {N : Nat} (w : Fin N → ℝ) : Prop :=
  ∀ k : Fin N, (Prescribed fes bcs k none → w k = 0) ∧ ∀ v, Prescribed fes bcs k (some v) → w k = v

/-- `w` is `q` with zeros at the constrained degrees of freedom. -/
def IsFreePart (fes : List FE) (bcs : List (List (BCEntry ℝ))) {N : Nat} (q w : Fin N → ℝ) : Prop :=
  ∀ k : Fin N, (Prescribed fes bcs k none → w k = q k) ∧ ∀ v, Prescribed fes bcs k (some v) → w k = 0

/-- `r` is the out-of-balance vector of displacement control at `(u, lam)`. -/
def IsDispResidual (fes : List FE) (bcs : List (List (BCEntry ℝ))) {N : Nat}
    (res : (Fin N → ℝ) → Fin N → ℝ) (u : Fin N → ℝ) (lam : ℝ) (r : Fin N → ℝ) : Prop :=
  ∀ k : Fin N, (Prescribed fes bcs k none → r k = res u k) ∧
    ∀ v, Prescribed fes bcs k (some v) → r k = u k - lam * v

/-- `r` is the out-of-balance vector of force control at `(u, lam)` with load vector `q` (contained in `res` at
full strength). -/
def IsForceResidual (fes : List FE) (bcs : List (List (BCEntry ℝ))) {N : Nat}
    (res : (Fin N → ℝ) → Fin N → ℝ) (q u : Fin N → ℝ) (lam : ℝ) (r : Fin N → ℝ) : Prop :=
  ∀ k : Fin N, (Prescribed fes bcs k none → r k = res u k + (1 - lam) * q k) ∧
    ∀ v, Prescribed fes bcs k (some v) → r k = u k - v

/-! ### Helper lemmas -/

section
variable (fes : List FE) (bcs : List (List (BCEntry ℝ))) (h : WFBC fes bcs)
include h

theorem boundaryVector_eq {w : Fin (totalDofs fes) → ℝ} (hw : IsBoundaryVector fes bcs w) :
    assignBcV fes bcs 0 = w := by
  funext k
  obtain ⟨o, ho⟩ := prescribed_exists fes bcs h k k.2
  cases o with
  | none => rw [(assignBcV_spec fes bcs h _ k).1 ho, (hw k).1 ho]; rfl
  | some v => rw [(assignBcV_spec fes bcs h _ k).2 v ho, (hw k).2 v ho]

theorem freePart_eq {q w : Fin (totalDofs fes) → ℝ} (hw : IsFreePart fes bcs q w) :
    assignZerosBcV fes bcs q = w := by
  funext k
  obtain ⟨o, ho⟩ := prescribed_exists fes bcs h k k.2
  cases o with
  | none => rw [(assignZerosBcV_spec fes bcs h _ k).1 ho, (hw k).1 ho]
  | some v => rw [(assignZerosBcV_spec fes bcs h _ k).2 v ho, (hw k).2 v ho]

end

/-- The last iteration of a returning loop. -/
theorem arcLoop_last {N : Nat} (iter : ArcState N → Except Err (ArcState N × ℝ)) (tol : ℝ) (s0 : ArcState N) :
    ∀ (fuel n : Nat) (s : ArcState N) (r : ℝ), ArcIters iter s0 n s → ∀ t, tol < r →
      arcLoop iter tol fuel s r = some (.ok t) →
      ∃ m s' r', ArcIters iter s0 m s' ∧ iter s' = .ok (t, r') ∧ r' ≤ tol := by
  intro fuel
  induction fuel with
  | zero => intro n s r _ t _ h; cases h
  | succ fuel ih =>
    intro n s r hs t hr h
    rw [arcLoop, if_pos hr] at h
    rcases hi : iter s with e | ⟨s', r'⟩
    · rw [hi] at h; cases h
    rw [hi] at h
    dsimp only at h
    by_cases hr' : tol < r'
    · exact ih (n + 1) s' r' (.succ n s s' r' hs hi) t hr' h
    · cases fuel with
      | zero => cases h
      | succ fuel =>
        rw [arcLoop, if_neg hr'] at h
        cases h
        exact ⟨n, s, r', hs, hi, not_lt.1 hr'⟩

/-! ### Property theorems -/

section
variable (fes : List FE) (bcs : List (List (BCEntry ℝ))) (h : WFBC fes bcs)
  (res : (Fin (totalDofs fes) → ℝ) → Fin (totalDofs fes) → ℝ)
  (tan : (Fin (totalDofs fes) → ℝ) → Matrix (Fin (totalDofs fes)) (Fin (totalDofs fes)) ℝ)
  (spsolve : Matrix (Fin (totalDofs fes)) (Fin (totalDofs fes)) ℝ → (Fin (totalDofs fes) → ℝ) →
    Fin (totalDofs fes) → ℝ)
  (norm : (Fin (totalDofs fes) → ℝ) → ℝ)
  (hs : ∀ u b, (elimRows fes bcs (tan u)).mulVec (spsolve (elimRows fes bcs (tan u)) b) = b)
include h

include hs in
/-- **C70 (displacement control, partial).** If the corrector returns `(u, lam)`, then the increment has the arc
length asked for, constrained degrees of freedom have `lam` times their prescribed values, and the state before
the last correction satisfied the out-of-balance tolerance at its own load factor. Missing: the out-of-balance
vector of the returned state itself, see `C70_unchecked`. -/
theorem C70_disp_partial (psi deltaL : ℝ) (fuel : Nat) (s0 t : ArcState (totalDofs fes)) (w : Fin (totalDofs fes) → ℝ)
    (hw : IsBoundaryVector fes bcs w)
    (ht : arcDispSolve fes bcs res tan spsolve norm psi deltaL fuel s0 = some (.ok t)) :
    OnArc psi w deltaL (t.u - s0.u) (t.lam - s0.lam) ∧
    (∀ (k : Fin (totalDofs fes)) (v : ℝ), Prescribed fes bcs k (some v) → t.u k = t.lam * v) ∧
    ∃ (s : ArcState (totalDofs fes)) (r ubar ut : Fin (totalDofs fes) → ℝ),
      IsDispResidual fes bcs res s.u s.lam r ∧ norm r ≤ 1 / 10 ^ 6 ∧
      (elimRows fes bcs (tan s.u)).mulVec ubar = -r ∧
      (elimRows fes bcs (tan s.u)).mulVec ut = w ∧ t.u = s.u + (ubar + (t.lam - s.lam) • ut) := by
  rw [arcDispSolve] at ht
  obtain ⟨m, s, r, h1, h2, h3⟩ := arcLoop_last _ _ s0 fuel 0 s0 1 .zero t (by norm_num) ht
  have h4 := ArcIters.succ m s t r h1 h2
  have hc := (C29_constraint_disp fes bcs res tan spsolve norm psi deltaL s0 t m h4).1
  rw [boundaryVector_eq fes bcs h hw] at hc
  refine ⟨hc, C30_bc_disp fes bcs h res tan spsolve norm hs psi deltaL _ _ s0 t m h4, s, ?_⟩
  obtain ⟨t', h5, h6⟩ := map_ok h2
  obtain ⟨rfl, rfl⟩ := Prod.mk.inj h6
  obtain ⟨d, e, hu, hl, -⟩ := arcCorrect_spec h5
  refine ⟨applyBcV fes bcs s.lam (res s.u) s.u, _, _, fun k => ⟨fun hk => ?_, fun v hk => ?_⟩, h3, hs s.u _,
    (hs s.u _).trans (boundaryVector_eq fes bcs h hw), ?_⟩
  · rw [(applyBcV_spec fes bcs h _ _ _ k).1 hk]
  · rw [(applyBcV_spec fes bcs h _ _ _ k).2 v hk, mul_comm]
  · rw [hl, add_sub_cancel_left]
    exact hu

include hs in
/-- **C70 (force control, partial).** The same in force control, where constrained degrees of freedom have their
prescribed values. -/
theorem C70_force_partial (qAux : Fin (totalDofs fes) → ℝ) (psi deltaL : ℝ) (fuel : Nat)
    (s0 t : ArcState (totalDofs fes)) (w : Fin (totalDofs fes) → ℝ) (hw : IsFreePart fes bcs qAux w)
    (ht : arcForceSolve fes bcs res tan spsolve norm qAux psi deltaL fuel s0 = some (.ok t)) :
    OnArc psi w deltaL (t.u - s0.u) (t.lam - s0.lam) ∧ SatisfiesBC fes bcs t.u ∧
    ∃ (s : ArcState (totalDofs fes)) (r ubar ut : Fin (totalDofs fes) → ℝ),
      IsForceResidual fes bcs res qAux s.u s.lam r ∧ norm r ≤ 1 / 10 ^ 6 ∧
      (elimRows fes bcs (tan s.u)).mulVec ubar = -r ∧
      (elimRows fes bcs (tan s.u)).mulVec ut = w ∧ t.u = s.u + (ubar + (t.lam - s.lam) • ut) := by
  rw [arcForceSolve] at ht
  obtain ⟨m, s, r, h1, h2, h3⟩ := arcLoop_last _ _ s0 fuel 0 s0 1 .zero t (by norm_num) ht
  have h4 := ArcIters.succ m s t r h1 h2
  have hc := (C29_constraint_force fes bcs res tan spsolve norm qAux psi deltaL s0 t m h4).1
  rw [freePart_eq fes bcs h hw] at hc
  refine ⟨hc, C30_bc_force fes bcs h res tan spsolve norm hs qAux psi deltaL _ _ s0 t m h4, s, ?_⟩
  obtain ⟨t', h5, h6⟩ := map_ok h2
  obtain ⟨rfl, rfl⟩ := Prod.mk.inj h6
  obtain ⟨d, e, hu, hl, -⟩ := arcCorrect_spec h5
  refine ⟨applyBcV fes bcs 1 (res s.u) s.u + (1 - s.lam) • assignZerosBcV fes bcs qAux, _, _,
    fun k => ⟨fun hk => ?_, fun v hk => ?_⟩, h3, hs s.u _, (hs s.u _).trans (freePart_eq fes bcs h hw), ?_⟩
  · rw [Pi.add_apply, Pi.smul_apply, smul_eq_mul, (applyBcV_spec fes bcs h _ _ _ k).1 hk,
      (assignZerosBcV_spec fes bcs h _ k).1 hk]
  · rw [Pi.add_apply, Pi.smul_apply, smul_eq_mul, (applyBcV_spec fes bcs h _ _ _ k).2 v hk,
      (assignZerosBcV_spec fes bcs h _ k).2 v hk]
    ring
  · rw [hl, add_sub_cancel_left]
    exact hu

/-- **C70 (linear problems).** For an affine residual with exact solves every corrected state is exactly on the
equilibrium path: in displacement control the residual vanishes at free degrees of freedom and the boundary values
are `lam` times the prescribed ones; in force control the residual with the load at strength `lam` vanishes. -/
theorem C70_linear (T : Matrix (Fin (totalDofs fes)) (Fin (totalDofs fes)) ℝ) (f qAux : Fin (totalDofs fes) → ℝ)
    (hres : ∀ u, res u = T.mulVec u - f) (htan : ∀ u, tan u = T)
    (hsT : ∀ b, (elimRows fes bcs T).mulVec (spsolve (elimRows fes bcs T) b) = b)
    (psi deltaL : ℝ) (prevU : Fin (totalDofs fes) → ℝ) (prevLam : ℝ)
    (s0 t : ArcState (totalDofs fes)) (n : Nat) :
    (ArcIters (arcDispIter fes bcs res tan spsolve norm psi deltaL prevU prevLam) s0 (n + 1) t →
      IsDispResidual fes bcs res t.u t.lam 0) ∧
    (ArcIters (arcForceIter fes bcs res tan spsolve norm qAux psi deltaL prevU prevLam) s0 (n + 1) t →
      IsForceResidual fes bcs res qAux t.u t.lam 0) := by
  have hs' : ∀ u b, (elimRows fes bcs (tan u)).mulVec (spsolve (elimRows fes bcs (tan u)) b) = b := by
    intro u b
    rw [htan]
    exact hsT b
  constructor
  · intro hn k
    refine ⟨fun hk => ?_, fun v hk => ?_⟩
    · cases hn with
      | succ _ s _ r _ hi =>
        obtain ⟨t', h1, h2⟩ := map_ok hi
        obtain ⟨rfl, -⟩ := Prod.mk.inj h2
        obtain ⟨d, e, hu, hl, -⟩ := arcCorrect_spec h1
        have e1 := congrFun (hs' s.u (-applyBcV fes bcs s.lam (res s.u) s.u)) k
        have e2 := congrFun (hs' s.u (assignBcV fes bcs 0)) k
        rw [(mulVec_elim fes bcs h _ _ k).1 hk, Pi.neg_apply, (applyBcV_spec fes bcs h s.lam _ s.u k).1 hk, htan,
          hres] at e1
        rw [(mulVec_elim fes bcs h _ _ k).1 hk, (assignBcV_spec fes bcs h _ k).1 hk, htan] at e2
        rw [hres, hu, Matrix.mulVec_add, Matrix.mulVec_add, Matrix.mulVec_smul]
        simp only [Pi.add_apply, Pi.sub_apply, Pi.smul_apply, smul_eq_mul, Pi.zero_apply] at e1 e2 ⊢
        simp only [htan, hres] at e1 e2 ⊢
        rw [e1, e2]
        ring
    · rw [C30_bc_disp fes bcs h res tan spsolve norm hs' psi deltaL _ _ s0 t n hn k v hk]
      simp
  · intro hn k
    refine ⟨fun hk => ?_, fun v hk => ?_⟩
    · cases hn with
      | succ _ s _ r _ hi =>
        obtain ⟨t', h1, h2⟩ := map_ok hi
        obtain ⟨rfl, -⟩ := Prod.mk.inj h2
        obtain ⟨d, e, hu, hl, -⟩ := arcCorrect_spec h1
        have e1 := congrFun (hs' s.u (-(applyBcV fes bcs 1 (res s.u) s.u +
          (1 - s.lam) • assignZerosBcV fes bcs qAux))) k
        have e2 := congrFun (hs' s.u (assignZerosBcV fes bcs qAux)) k
        rw [(mulVec_elim fes bcs h _ _ k).1 hk, Pi.neg_apply, Pi.add_apply, Pi.smul_apply,
          (applyBcV_spec fes bcs h 1 _ s.u k).1 hk, (assignZerosBcV_spec fes bcs h _ k).1 hk, htan, hres] at e1
        rw [(mulVec_elim fes bcs h _ _ k).1 hk, (assignZerosBcV_spec fes bcs h _ k).1 hk, htan] at e2
        rw [hres, hu, hl, Matrix.mulVec_add, Matrix.mulVec_add, Matrix.mulVec_smul]
        simp only [Pi.add_apply, Pi.sub_apply, Pi.smul_apply, smul_eq_mul, Pi.zero_apply] at e1 e2 ⊢
        simp only [htan, hres] at e1 e2 ⊢
        rw [e1, e2]
        ring
    · rw [C30_bc_force fes bcs h res tan spsolve norm hs' qAux psi deltaL _ _ s0 t n hn k v hk]
      simp

end

/-! ### The returned state is not checked

One free degree of freedom with internal force `u + 5 u ^ 2` and load 1, force control with step length 1 from
rest: the residual is evaluated at rest only, the corrector returns `u = 1`, `lam = 1` with an out-of-balance force
of 5. -/

/-- Example problem. -/
def arcExFes : List FE := [⟨1, 1, 1, [[0]]⟩]

theorem arcEx_wf : WFBC arcExFes [[]] (K := ℝ) := by
  refine ⟨rfl, by decide, by decide, by simp, ?_⟩
  intro i fe es h1 h2
  cases i with
  | zero => cases h2; simp
  | succ i => cases h2

theorem arcEx_free (k : Fin (totalDofs arcExFes)) : Prescribed arcExFes [[]] (K := ℝ) k none := by
  have hk : (k : Nat) = 0 := by
    have : (k : Nat) < 1 := k.2
    omega
  exact .free 0 0 0 ⟨1, 1, 1, [[0]]⟩ [] rfl rfl (by decide) (by decide) (by rw [hk]; rfl)
    (fun e he => by cases he)

/-- Residual of the example (the load 1 is contained at full strength). -/
def arcExRes (u : Fin (totalDofs arcExFes) → ℝ) : Fin (totalDofs arcExFes) → ℝ := fun i => u i + 5 * u i ^ 2 - 1

/-- Its derivative. -/
def arcExTan (u : Fin (totalDofs arcExFes) → ℝ) : Matrix (Fin (totalDofs arcExFes)) (Fin (totalDofs arcExFes)) ℝ :=
  Matrix.diagonal fun i => 1 + 10 * u i

/-- The tangent of the example is the derivative of its residual. -/
theorem arcEx_jacobian (u : Fin (totalDofs arcExFes) → ℝ) : HasJacobianAt arcExRes (arcExTan u) u := by
  unfold HasJacobianAt
  rw [hasFDerivAt_pi']
  intro i
  have hi := hasFDerivAt_apply (𝕜 := ℝ) i u
  refine ((hi.add ((hi.pow 2).const_mul 5)).sub_const 1).congr_fderiv ?_
  ext v
  simp [matCLM, arcExTan, Matrix.mulVec_diagonal]
  ring

/-- **C70 (the returned state is not checked).** The corrector of force control can return a state whose
out-of-balance force is far above the tolerance. -/
theorem C70_unchecked :
    ∃ t, arcForceSolve arcExFes [[]] arcExRes arcExTan (fun A b i => b i / A i i) (fun r => ∑ i, |r i|) (fun _ => 1) 0 1 2
        ⟨0, 0, 0, 0⟩ = some (.ok t) ∧
      IsForceResidual arcExFes [[]] arcExRes (fun _ => 1) t.u t.lam (fun _ => 5) ∧
      ∀ u, HasJacobianAt arcExRes (arcExTan u) u := by
  have hq : assignZerosBcV arcExFes [[]] (fun _ : Fin (totalDofs arcExFes) => (1 : ℝ)) = fun _ => 1 := by
    funext k
    exact (assignZerosBcV_spec arcExFes [[]] arcEx_wf _ k).1 (arcEx_free k)
  have hr : ∀ u r : Fin (totalDofs arcExFes) → ℝ, applyBcV arcExFes [[]] 1 r u = r := by
    intro u r
    funext k
    exact (applyBcV_spec arcExFes [[]] arcEx_wf 1 r u k).1 (arcEx_free k)
  have hA : ∀ A : Matrix (Fin (totalDofs arcExFes)) (Fin (totalDofs arcExFes)) ℝ, elimRows arcExFes ([[]] : List (List (BCEntry ℝ))) A = A := by
    intro A
    ext k j
    exact (elimRows_spec arcExFes [[]] arcEx_wf A k j).1 (arcEx_free k)
  have h4 : √(4 : ℝ) = 2 := by
    rw [show (4 : ℝ) = 2 ^ 2 by norm_num]; exact Real.sqrt_sq (by norm_num)
  have hit : arcForceIter arcExFes [[]] arcExRes arcExTan (fun A b i => b i / A i i) (fun r => ∑ i, |r i|) (fun _ => 1)
      0 1 0 0 ⟨0, 0, 0, 0⟩ = .ok (⟨fun _ => 1, 1, fun _ => 1, 1⟩, 0) := by
    unfold arcForceIter
    simp only [hq, hr, hA]
    have e0 : arcExRes 0 + ((1 : ℝ) - 0) • (fun _ : Fin (totalDofs arcExFes) => (1 : ℝ)) = 0 := by
      funext k
      simp [arcExRes]
    have hT : arcExTan 0 = 1 := by
      unfold arcExTan
      simp
    rw [e0, hT]
    have hN : totalDofs arcExFes = 1 := rfl
    have hub : (fun i => (-(0 : Fin (totalDofs arcExFes) → ℝ)) i /
        (1 : Matrix (Fin (totalDofs arcExFes)) (Fin (totalDofs arcExFes)) ℝ) i i) = 0 := by
      funext i; simp
    have hut : (fun i => (1 : ℝ) / (1 : Matrix (Fin (totalDofs arcExFes)) (Fin (totalDofs arcExFes)) ℝ) i i) =
        fun _ => 1 := by
      funext i; simp
    rw [hub, hut]
    unfold arcCorrect
    norm_num [hN, h4]
    rfl
  refine ⟨⟨fun _ => 1, 1, fun _ => 1, 1⟩, ?_, ?_, arcEx_jacobian⟩
  · unfold arcForceSolve
    rw [arcLoop, if_pos (by norm_num)]
    simp only [hit]
    rw [arcLoop, if_neg (by norm_num)]
  · intro k
    refine ⟨fun _ => by norm_num [arcExRes], fun v hv => ?_⟩
    have := prescribed_unique arcExFes [[]] arcEx_wf k _ _ hv (arcEx_free k)
    cases this

end JaxFem
