import Verif.Thm.C38_Branch
import Verif.Spec.Modal
import Mathlib.LinearAlgebra.Matrix.DotProduct

/-!
# C99: eigenvalues of a symmetric pencil that depends on parameters (helper lemmas)
-/

namespace JaxFem.Modal

open scoped BigOperators Topology

variable {N : Nat} {X : Type} [NormedAddCommGroup X] [NormedSpace ℝ X] [CompleteSpace X]

theorem symm_dot {A : Matrix (Fin N) (Fin N) ℝ} (h : A.IsSymm) (x y : Fin N → ℝ) :
    dotProduct x (A.mulVec y) = dotProduct y (A.mulVec x) := by
  rw [Matrix.dotProduct_mulVec, ← Matrix.mulVec_transpose, h.eq, dotProduct_comm]

/-- Eigenvectors of different eigenvalues are orthogonal. -/
theorem orthogonal_of_ne {K M : Matrix (Fin N) (Fin N) ℝ} (hK : K.IsSymm) (hM : M.IsSymm) {lam mu : ℝ}
    {v w : Fin N → ℝ} (hv : IsEigenpair K M lam v) (hw : IsEigenpair K M mu w) (hne : lam ≠ mu) :
    dotProduct w (M.mulVec v) = 0 := by
  have h1 := symm_dot hK w v
  rw [hv.2, hw.2, dotProduct_smul, dotProduct_smul, symm_dot hM v w, smul_eq_mul, smul_eq_mul] at h1
  have : (lam - mu) * dotProduct w (M.mulVec v) = 0 := by linear_combination h1
  exact (mul_eq_zero.1 this).resolve_left (sub_ne_zero.2 hne)

/-- The linearisation of the eigenvalue equation with normalisation is injective at a simple eigenpair. -/
theorem bordered_injective {K M : Matrix (Fin N) (Fin N) ℝ} (hK : K.IsSymm) (hM : M.IsSymm) {lam : ℝ} {v : Fin N → ℝ}
    (hv : IsEigenpair K M lam v) (hs : IsSimple K M lam) (hn : dotProduct v (M.mulVec v) ≠ 0) (w : Fin N → ℝ) (mu : ℝ)
    (h1 : K.mulVec w - lam • M.mulVec w - mu • M.mulVec v = 0) (h2 : dotProduct v (M.mulVec w) = 0) :
    w = 0 ∧ mu = 0 := by
  have hmu : mu = 0 := by
    have := congrArg (dotProduct v) h1
    rw [dotProduct_sub, dotProduct_sub, dotProduct_smul, dotProduct_smul, dotProduct_zero, symm_dot hK v w, hv.2,
      dotProduct_smul, symm_dot hM w v, h2, smul_zero, sub_zero, zero_sub, neg_eq_zero, smul_eq_mul] at this
    exact (mul_eq_zero.1 this).resolve_right hn
  subst hmu
  refine ⟨?_, rfl⟩
  by_contra hw
  rw [zero_smul, sub_zero, sub_eq_zero] at h1
  obtain ⟨a, rfl⟩ := hs v w hv ⟨hw, h1⟩
  rw [Matrix.mulVec_smul, dotProduct_smul, smul_eq_mul] at h2
  rcases mul_eq_zero.1 h2 with h | h
  · exact hw (by rw [h, zero_smul])
  · exact hn h

/-- The linearised eigenvalue equation with normalisation. -/
noncomputable def bordered (K M : Matrix (Fin N) (Fin N) ℝ) (lam : ℝ) (v : Fin N → ℝ) :
    ((Fin N → ℝ) × ℝ) →L[ℝ] ((Fin N → ℝ) × ℝ) :=
  LinearMap.toContinuousLinearMap
    { toFun := fun p => (K.mulVec p.1 - lam • M.mulVec p.1 - p.2 • M.mulVec v, dotProduct v (M.mulVec p.1))
      map_add' := fun p q => by
        refine Prod.ext ?_ ?_
        · simp only [Prod.fst_add, Prod.snd_add, Matrix.mulVec_add, smul_add, add_smul]
          abel
        · simp only [Prod.fst_add, Prod.snd_add, Matrix.mulVec_add, dotProduct_add]
      map_smul' := fun a p => by
        refine Prod.ext ?_ ?_
        · simp only [Prod.smul_fst, Prod.smul_snd, Matrix.mulVec_smul, RingHom.id_apply, smul_sub, smul_smul,
            smul_eq_mul, mul_comm lam a]
        · simp only [Prod.smul_fst, Prod.smul_snd, Matrix.mulVec_smul, dotProduct_smul, RingHom.id_apply] }

theorem bordered_invertible {K M : Matrix (Fin N) (Fin N) ℝ} (hK : K.IsSymm) (hM : M.IsSymm) {lam : ℝ} {v : Fin N → ℝ}
    (hv : IsEigenpair K M lam v) (hs : IsSimple K M lam) (hn : dotProduct v (M.mulVec v) ≠ 0) :
    (bordered K M lam v).IsInvertible := by
  have hinj : Function.Injective (bordered K M lam v : ((Fin N → ℝ) × ℝ) →ₗ[ℝ] ((Fin N → ℝ) × ℝ)) := by
    refine (injective_iff_map_eq_zero _).2 fun p hp => ?_
    have h1 := congrArg Prod.fst hp
    have h2 := congrArg Prod.snd hp
    have := bordered_injective hK hM hv hs hn p.1 p.2 h1 h2
    exact Prod.ext this.1 this.2
  refine ⟨(LinearEquiv.ofInjectiveEndo _ hinj).toContinuousLinearEquiv, ?_⟩
  ext p <;> rfl

/-- Derivative of a matrix-valued function with differentiable entries, applied to a vector. -/
theorem hasFDerivAt_mulVec (A : X → Matrix (Fin N) (Fin N) ℝ) (x0 : X) (A' : Fin N → Fin N → X →L[ℝ] ℝ)
    (hA : ∀ i j, HasFDerivAt (fun x => A x i j) (A' i j) x0) (v w : Fin N → ℝ) :
    HasFDerivAt (fun x => dotProduct v ((A x).mulVec w)) (∑ i, ∑ j, (v i * w j) • A' i j) x0 := by
  have e : (fun x => dotProduct v ((A x).mulVec w)) = fun x => ∑ i, ∑ j, (v i * w j) * A x i j := by
    funext x
    simp only [dotProduct, Matrix.mulVec, Finset.mul_sum]
    exact Finset.sum_congr rfl fun i _ => Finset.sum_congr rfl fun j _ => by ring
  rw [e]
  exact HasFDerivAt.fun_sum fun i _ => HasFDerivAt.fun_sum fun j _ => (hA i j).const_mul _

/-- A simple eigenvalue of a symmetric pencil depends differentiably on the parameters, with a derivative given by the
eigenvector alone. -/
theorem simple_branch (K M : X → Matrix (Fin N) (Fin N) ℝ) (x0 : X)
    (hKc : ∀ i j, ContDiffAt ℝ 1 (fun x => K x i j) x0) (hMc : ∀ i j, ContDiffAt ℝ 1 (fun x => M x i j) x0)
    (hK : ∀ x, (K x).IsSymm) (hM : ∀ x, (M x).IsSymm) (lam0 : ℝ) (v0 : Fin N → ℝ)
    (hv : IsEigenpair (K x0) (M x0) lam0 v0) (hs : IsSimple (K x0) (M x0) lam0)
    (hn : dotProduct v0 ((M x0).mulVec v0) ≠ 0) :
    ∃ (lam : X → ℝ) (v : X → Fin N → ℝ), lam x0 = lam0 ∧ v x0 = v0 ∧
      (∀ᶠ x in 𝓝 x0, IsEigenpair (K x) (M x) (lam x) (v x)) ∧
      (∀ᶠ p : X × ((Fin N → ℝ) × ℝ) in 𝓝 (x0, (v0, lam0)), IsEigenpair (K p.1) (M p.1) p.2.2 p.2.1 →
        dotProduct v0 ((M x0).mulVec p.2.1) = dotProduct v0 ((M x0).mulVec v0) → p.2.2 = lam p.1 ∧ p.2.1 = v p.1) ∧
      DifferentiableAt ℝ v x0 ∧
      HasFDerivAt lam ((1 / dotProduct v0 ((M x0).mulVec v0)) •
        (fderiv ℝ (fun x => dotProduct v0 ((K x).mulVec v0)) x0
          - lam0 • fderiv ℝ (fun x => dotProduct v0 ((M x).mulVec v0)) x0)) x0 := by
  have hmul : ∀ A : X → Matrix (Fin N) (Fin N) ℝ, (∀ i j, ContDiffAt ℝ 1 (fun x => A x i j) x0) →
      ContDiffAt ℝ 1 (fun p : X × ((Fin N → ℝ) × ℝ) => (A p.1).mulVec p.2.1) (x0, (v0, lam0)) := by
    intro A hA
    refine contDiffAt_pi.2 fun i => ?_
    have : (fun p : X × ((Fin N → ℝ) × ℝ) => (A p.1).mulVec p.2.1 i) = fun p => ∑ j, A p.1 i j * p.2.1 j := rfl
    rw [this]
    refine ContDiffAt.sum fun j _ => ContDiffAt.mul ?_ ?_
    · exact ContDiffAt.comp (g := fun x => A x i j) (f := Prod.fst) (x0, (v0, lam0)) (hA i j) contDiffAt_fst
    · have : ContDiff ℝ 1 (fun p : X × ((Fin N → ℝ) × ℝ) => p.2.1 j) := by fun_prop
      exact this.contDiffAt
  let F : X × ((Fin N → ℝ) × ℝ) → (Fin N → ℝ) × ℝ := fun p =>
    ((K p.1).mulVec p.2.1 - p.2.2 • (M p.1).mulVec p.2.1, dotProduct v0 ((M x0).mulVec (p.2.1 - v0)))
  have hF : ContDiffAt ℝ 1 F (x0, (v0, lam0)) := by
    refine ContDiffAt.prodMk ((hmul K hKc).sub (ContDiffAt.fun_smul ?_ (hmul M hMc))) ?_
    · have : ContDiff ℝ 1 (fun p : X × ((Fin N → ℝ) × ℝ) => p.2.2) := by fun_prop
      exact this.contDiffAt
    · have e : (fun p : X × ((Fin N → ℝ) × ℝ) => dotProduct v0 ((M x0).mulVec (p.2.1 - v0)))
          = fun p => ∑ i, v0 i * ∑ j, M x0 i j * (p.2.1 j - v0 j) := rfl
      rw [e]
      have : ContDiff ℝ 1 (fun p : X × ((Fin N → ℝ) × ℝ) => ∑ i, v0 i * ∑ j, M x0 i j * (p.2.1 j - v0 j)) := by
        fun_prop
      exact this.contDiffAt
  have hFs : HasStrictFDerivAt F (fderiv ℝ F (x0, (v0, lam0))) (x0, (v0, lam0)) := hF.hasStrictFDerivAt one_ne_zero
  have hpart : (fderiv ℝ F (x0, (v0, lam0))).comp (ContinuousLinearMap.inr ℝ _ _) = bordered (K x0) (M x0) lam0 v0 := by
    have h1 : HasFDerivAt (fun w => F (x0, w))
        ((fderiv ℝ F (x0, (v0, lam0))).comp (ContinuousLinearMap.inr ℝ _ _)) (v0, lam0) :=
      HasFDerivAt.comp (g := F) (f := fun w => (x0, w)) (v0, lam0) hFs.hasFDerivAt
        (hasFDerivAt_prodMk_right x0 (v0, lam0))
    refine h1.unique ?_
    have hlin : ∀ A : Matrix (Fin N) (Fin N) ℝ, HasFDerivAt (fun p : (Fin N → ℝ) × ℝ => A.mulVec p.1)
        ((matCLM A).comp (ContinuousLinearMap.fst ℝ _ _)) (v0, lam0) := fun A =>
      ((matCLM A).comp (ContinuousLinearMap.fst ℝ (Fin N → ℝ) ℝ)).hasFDerivAt
    have hsnd : HasFDerivAt (fun p : (Fin N → ℝ) × ℝ => p.2) (ContinuousLinearMap.snd ℝ _ _) (v0, lam0) :=
      hasFDerivAt_snd
    have ha := (hlin (K x0)).sub (hsnd.smul (hlin (M x0)))
    have hb : HasFDerivAt (fun p : (Fin N → ℝ) × ℝ => dotProduct v0 ((M x0).mulVec (p.1 - v0)))
        ((ContinuousLinearMap.snd ℝ _ _).comp (bordered (K x0) (M x0) lam0 v0)) (v0, lam0) := by
      have e : (fun p : (Fin N → ℝ) × ℝ => dotProduct v0 ((M x0).mulVec (p.1 - v0))) = fun p =>
          ((ContinuousLinearMap.snd ℝ _ _).comp (bordered (K x0) (M x0) lam0 v0)) p
            - dotProduct v0 ((M x0).mulVec v0) := by
        funext p
        rw [Matrix.mulVec_sub, dotProduct_sub]
        rfl
      rw [e]
      exact ((ContinuousLinearMap.snd ℝ _ _).comp (bordered (K x0) (M x0) lam0 v0)).hasFDerivAt.sub_const _
    refine (ha.prodMk hb).congr_fderiv ?_
    refine ContinuousLinearMap.ext fun p => Prod.ext ?_ rfl
    show (K x0).mulVec p.1 - (lam0 • (M x0).mulVec p.1 + p.2 • (M x0).mulVec v0)
      = (K x0).mulVec p.1 - lam0 • (M x0).mulVec p.1 - p.2 • (M x0).mulVec v0
    abel
  have hinv : ((fderiv ℝ F (x0, (v0, lam0))).comp (ContinuousLinearMap.inr ℝ _ _)).IsInvertible := by
    rw [hpart]
    exact bordered_invertible (hK x0) (hM x0) hv hs hn
  have hF0 : F (x0, (v0, lam0)) = 0 := by
    refine Prod.ext ?_ ?_
    · show (K x0).mulVec v0 - lam0 • (M x0).mulVec v0 = 0
      rw [hv.2, sub_self]
    · show dotProduct v0 ((M x0).mulVec (v0 - v0)) = 0
      rw [sub_self, Matrix.mulVec_zero, dotProduct_zero]
  have e1 := hFs.eventually_apply_eq_iff_implicitFunctionOfProdDomain hinv
  have e2 := hFs.eventually_apply_implicitFunctionOfProdDomain hinv
  have e3 : hFs.implicitFunctionOfProdDomain hinv x0 = (v0, lam0) := e1.self_of_nhds.1 rfl
  have e4 := (hFs.hasStrictFDerivAt_implicitFunctionOfProdDomain hinv).hasFDerivAt.differentiableAt
  rw [hF0] at e1 e2
  generalize hFs.implicitFunctionOfProdDomain hinv = φ at e1 e2 e3 e4
  have hvd : DifferentiableAt ℝ (fun x => (φ x).1) x0 := e4.fst
  have hld : DifferentiableAt ℝ (fun x => (φ x).2) x0 := e4.snd
  have hne : ∀ᶠ x in 𝓝 x0, (φ x).1 ≠ 0 := by
    refine hvd.continuousAt.eventually_ne ?_
    rw [e3]
    exact hv.1
  have heig : ∀ᶠ x in 𝓝 x0, IsEigenpair (K x) (M x) (φ x).2 (φ x).1 := by
    filter_upwards [e2, hne] with x hx hx'
    exact ⟨hx', sub_eq_zero.1 (congrArg Prod.fst hx)⟩
  refine ⟨fun x => (φ x).2, fun x => (φ x).1, congrArg Prod.snd e3, congrArg Prod.fst e3, heig, ?_, hvd, ?_⟩
  · filter_upwards [e1] with p hp h1 h2
    have : φ p.1 = p.2 := hp.1 (Prod.ext (sub_eq_zero.2 h1.2) (by
      show dotProduct v0 ((M x0).mulVec (p.2.1 - v0)) = 0
      rw [Matrix.mulVec_sub, dotProduct_sub, h2, sub_self]))
    rw [this]
    exact ⟨rfl, rfl⟩
  · -- differentiate the scalar identity `v0 · K v = lam (v0 · M v)`
    have hKd : ∀ i j, HasFDerivAt (fun x => K x i j) (fderiv ℝ (fun x => K x i j) x0) x0 := fun i j =>
      ((hKc i j).differentiableAt one_ne_zero).hasFDerivAt
    have hMd : ∀ i j, HasFDerivAt (fun x => M x i j) (fderiv ℝ (fun x => M x i j) x0) x0 := fun i j =>
      ((hMc i j).differentiableAt one_ne_zero).hasFDerivAt
    rw [(hasFDerivAt_mulVec K x0 _ hKd v0 v0).fderiv, (hasFDerivAt_mulVec M x0 _ hMd v0 v0).fderiv]
    have hl := hld.hasFDerivAt
    have hvc : ∀ j, HasFDerivAt (fun x => (φ x).1 j) (fderiv ℝ (fun x => (φ x).1 j) x0) x0 := fun j =>
      ((differentiableAt_pi.1 hvd) j).hasFDerivAt
    have hbil : ∀ A : X → Matrix (Fin N) (Fin N) ℝ,
        (∀ i j, HasFDerivAt (fun x => A x i j) (fderiv ℝ (fun x => A x i j) x0) x0) →
        HasFDerivAt (fun x => dotProduct v0 ((A x).mulVec (φ x).1))
          ((∑ i, ∑ j, (v0 i * v0 j) • fderiv ℝ (fun x => A x i j) x0)
            + ∑ i, ∑ j, (v0 i * A x0 i j) • fderiv ℝ (fun x => (φ x).1 j) x0) x0 := by
      intro A hA
      have e : (fun x => dotProduct v0 ((A x).mulVec (φ x).1)) = fun x => ∑ i, ∑ j, v0 i * (A x i j * (φ x).1 j) := by
        funext x
        simp only [dotProduct, Matrix.mulVec, Finset.mul_sum]
      rw [e]
      refine (HasFDerivAt.fun_sum fun i _ => HasFDerivAt.fun_sum fun j _ =>
        ((hA i j).mul (hvc j)).const_mul (v0 i)).congr_fderiv ?_
      rw [← Finset.sum_add_distrib]
      refine Finset.sum_congr rfl fun i _ => ?_
      rw [← Finset.sum_add_distrib]
      refine Finset.sum_congr rfl fun j _ => ?_
      rw [e3, smul_add, smul_smul, smul_smul, add_comm]
    have hKb := hbil K hKd
    have hMb := hbil M hMd
    have hprod := hl.mul hMb
    have heq : (fun x => dotProduct v0 ((K x).mulVec (φ x).1))
        =ᶠ[𝓝 x0] fun x => (φ x).2 * dotProduct v0 ((M x).mulVec (φ x).1) := by
      filter_upwards [heig] with x hx
      rw [hx.2, dotProduct_smul, smul_eq_mul]
    have huniq := hKb.unique (hprod.congr_of_eventuallyEq heq)
    rw [e3] at huniq
    -- the derivative of the eigenvector drops out
    have hdrop : ∑ i, ∑ j, (v0 i * K x0 i j) • fderiv ℝ (fun x => (φ x).1 j) x0
        = lam0 • ∑ i, ∑ j, (v0 i * M x0 i j) • fderiv ℝ (fun x => (φ x).1 j) x0 := by
      refine ContinuousLinearMap.ext fun d => ?_
      have key : ∀ A : Matrix (Fin N) (Fin N) ℝ,
          (∑ i, ∑ j, (v0 i * A i j) • fderiv ℝ (fun x => (φ x).1 j) x0) d
            = dotProduct v0 (A.mulVec fun j => fderiv ℝ (fun x => (φ x).1 j) x0 d) := by
        intro A
        simp only [_root_.sum_apply, _root_.smul_apply, smul_eq_mul, dotProduct, Matrix.mulVec, Finset.mul_sum]
        exact Finset.sum_congr rfl fun i _ => Finset.sum_congr rfl fun j _ => by ring
      rw [_root_.smul_apply, key, key, symm_dot (hK x0), symm_dot (hM x0), hv.2, dotProduct_smul]
    refine hl.congr_fderiv ?_
    rw [hdrop, smul_add] at huniq
    simp only at huniq
    have h2 : dotProduct v0 ((M x0).mulVec v0) • fderiv ℝ (fun x => (φ x).2) x0
        = (∑ i, ∑ j, (v0 i * v0 j) • fderiv ℝ (fun x => K x i j) x0)
          - lam0 • ∑ i, ∑ j, (v0 i * v0 j) • fderiv ℝ (fun x => M x i j) x0 := by
      have h3 := huniq
      rw [← sub_eq_zero] at h3 ⊢
      rw [← neg_eq_zero, ← h3]
      abel
    rw [← h2, smul_smul, one_div, inv_mul_cancel₀ hn, one_smul]

end JaxFem.Modal
