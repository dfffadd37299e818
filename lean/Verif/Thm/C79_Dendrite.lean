import Verif.Thm.Dendrite
import Verif.Spec.Dendrite

/-!
# C79: enthalpy in the dendrite scripts
-/

namespace JaxFem

/-! ### Helper lemmas -/

section
variable {dim : Nat} (v : CVar dim)

theorem CVar.Unity.valueAt_const (h : v.Unity) (k : ℝ) (e q c : Nat) (hq : q < v.nq) :
    v.valueAt (fun _ _ => k) e q c = k := by
  rw [CVar.valueAt, ← Finset.sum_mul, (h q hq).1, one_mul]

theorem CVar.Unity.gradAt_const (h : v.Unity) (k : ℝ) (e q c : Nat) (hq : q < v.nq) :
    v.gradAt (fun _ _ => k) e q c = 0 := by
  rw [CVar.gradAt, ← Matrix.vecMul_vecMul]
  have : Matrix.vecMul (fun _ : Fin v.nn => k) (v.G q) = 0 := by
    funext j
    simp only [Matrix.vecMul, dotProduct, CVar.G, Matrix.of_apply, Pi.zero_apply]
    rw [← Finset.mul_sum, (h q hq).2 j, mul_zero]
  rw [this, Matrix.zero_vecMul]

end

namespace Dendrite

variable (m : Params) (vp vT : CVar 2)

/-- **C79 (conservation).** Semi-implicit step without Dirichlet conditions: if the residual vanishes, the
total enthalpy `∫ T - K p` after the step is the one before, whatever the noise, the anisotropy and the
reaction. -/
theorem C79_enthalpy_step (hw : WFVars [vp, vT]) (hp1 : vp.vec = 1) (hT1 : vT.vec = 1) (hdt : m.dt ≠ 0)
    (hu : vT.Unity) (pOld TOld : List (List ℝ)) (noise : List ℝ) (sols R : List (List (List ℝ)))
    (hs : HasShapes (solShapes ([vp, vT].map CVar.fe)) sols)
    (hR : implicitResidual m vp vT pOld TOld noise sols = .ok R)
    (h0 : FreeZero [vp, vT] (fun _ _ _ => False) R) :
    enthalpy m.K vp vT (fieldAt sols 0) (fieldAt sols 1)
      = enthalpy m.K vp vT (fieldAt [pOld] 0) (fieldAt [TOld] 0) := by
  obtain ⟨R', r1, -, r3⟩ := implicit_weak_form m vp vT hw hp1 hT1 pOld TOld noise sols hs
  obtain rfl : R = R' := by rw [r1] at hR; exact (Except.ok.inj hR).symm
  have h := r3 (fun i _ _ => if i = 0 then 0 else 1)
  rw [tested_zero _ _ _ h0 _ (fun _ _ _ _ _ _ h => h.elim)] at h
  have e1 : vp.integral (fun e q =>
      (∑ j, flux m (vp.gradAt (fieldAt [pOld] 0) e q 0) (vp.gradAt (fieldAt sols 0) e q 0) j
        * vp.gradAt (fun _ _ => 0) e q 0 j)
      + (reaction m (vp.valueAt (fieldAt [pOld] 0) e q 0) (vT.valueAt (fieldAt [TOld] 0) e q 0)
        + m.tau * (vp.valueAt (fieldAt sols 0) e q 0 - vp.valueAt (fieldAt [pOld] 0) e q 0) / m.dt
        + noiseTerm m (vp.valueAt (fieldAt [pOld] 0) e q 0) (noise.getD e 0))
        * vp.valueAt (fun _ _ => 0) e q 0) = 0 := by
    refine Finset.sum_eq_zero fun e _ => Finset.sum_eq_zero fun q _ => ?_
    have g0 : ∀ j, vp.gradAt (fun _ _ => 0) e q 0 j = 0 := by
      intro j
      have := vp.gradAt_smul 0 (fun _ _ => 0) e q 0 j
      simpa using this
    have v0 : vp.valueAt (fun _ _ => 0) e q 0 = 0 := by simp [CVar.valueAt]
    simp only [g0, v0, mul_zero, Finset.sum_const_zero, add_zero, zero_mul]
  have e2 : vT.integral (fun e q =>
      (∑ j, vT.gradAt (fieldAt sols 1) e q 0 j * vT.gradAt (fun _ _ => 1) e q 0 j)
      + ((vT.valueAt (fieldAt sols 1) e q 0 - vT.valueAt (fieldAt [TOld] 0) e q 0) / m.dt
        + - m.K * (vp.valueAt (fieldAt sols 0) e q 0 - vp.valueAt (fieldAt [pOld] 0) e q 0) / m.dt)
        * vT.valueAt (fun _ _ => 1) e q 0)
      = (1 / m.dt) * (enthalpy m.K vp vT (fieldAt sols 0) (fieldAt sols 1)
          - enthalpy m.K vp vT (fieldAt [pOld] 0) (fieldAt [TOld] 0)) := by
    rw [enthalpy, enthalpy, ← vT.integral_sub, ← vT.integral_smul]
    refine vT.integral_congr fun e _ q hq => ?_
    rw [hu.valueAt_const vT 1 e q 0 hq, hu.gradAt_const vT 1 e q 0 hq]
    simp only [Pi.zero_apply, mul_zero, Finset.sum_const_zero]
    ring
  have h' : (0 : ℝ) = 0 + (1 / m.dt) * (enthalpy m.K vp vT (fieldAt sols 0) (fieldAt sols 1)
          - enthalpy m.K vp vT (fieldAt [pOld] 0) (fieldAt [TOld] 0)) :=
    h.trans (congrArg₂ (· + ·) e1 e2)
  rw [zero_add] at h'
  rcases mul_eq_zero.1 h'.symm with h | h
  · exact absurd h (one_div_ne_zero hdt)
  · linarith

/-- **C79 (conservation over a run).** -/
theorem C79_enthalpy_run (hw : WFVars [vp, vT]) (hp1 : vp.vec = 1) (hT1 : vT.vec = 1) (hdt : m.dt ≠ 0)
    (hu : vT.Unity) (sols Rs : Nat → List (List (List ℝ))) (noise : Nat → List ℝ)
    (hs : ∀ t, HasShapes (solShapes ([vp, vT].map CVar.fe)) (sols t))
    (hR : ∀ t, implicitResidual m vp vT ((sols t).getD 0 []) ((sols t).getD 1 []) (noise t) (sols (t + 1))
      = .ok (Rs t))
    (h0 : ∀ t, FreeZero [vp, vT] (fun _ _ _ => False) (Rs t)) (t : Nat) :
    enthalpy m.K vp vT (fieldAt (sols t) 0) (fieldAt (sols t) 1)
      = enthalpy m.K vp vT (fieldAt (sols 0) 0) (fieldAt (sols 0) 1) := by
  induction t with
  | zero => rfl
  | succ t ih =>
    rw [C79_enthalpy_step m vp vT hw hp1 hT1 hdt hu _ _ _ _ _ (hs (t + 1)) (hR t) (h0 t), ← ih]
    rfl

end Dendrite

end JaxFem
