import Verif.Thm.C112_Example
import Verif.Thm.C89_Step

/-!
# C112: what a step of the scripts does to the crystal
-/

namespace JaxFem.Sensitivity

open scoped BigOperators Matrix
open Crystal (M3 Internal implicitResidual piola update fcc initial StepEquations normalise rawDirection rawNormal slipTable
  sgn gammaInc fpInvNew)

variable {nq nfq nn : Nat} (root : (M3 → M3) → M3) (P : Problem1 Pt nq nfq nn 3 3)

/-- **C112 (local equations).** At every quadrature point where the local solver finds a root, a step with increments `z` takes the
crystal from the old to the new internal variables by the equations of a time step of length `z.dt` (with the deformation gradient
of the computed displacements), in both scripts alike; the stress whose divergence is balanced in the step is the one of the new
state, and where the systems are equally hard they harden by the same amount, the total slip times the hardening rate. -/
theorem C112_local (hc : 0 < P.cells.length) (num : Numerics P.cells.length nq (totalDofs P.fes)) (z : Env) (hz : 0 ≤ z.dt)
    (u : Fin (totalDofs P.fes) → ℝ) (vars : Vars P.cells.length nq) (scale : ℝ) (c : Fin P.cells.length) (q : Fin nq)
    (hR : IsRotation (Matrix.of (vars c q).2.2.2))
    (hroot : ∀ f : M3 → M3, f = implicitResidual fcc z.dt (vars c q).internal (P.gradient (P.vecField u) (P.cells[c]).nodes q) →
      f (root f) = 0) :
    ∃ (S : Matrix (Fin 3) (Fin 3) ℝ) (γ : Fin 12 → ℝ) (new : Pt),
      (Stress.script root P hc num).update z u vars c q = new
      ∧ ((Volume.script root P num).update z u (scale, vars)).2 c q = new
      ∧ StepEquations (1 + Matrix.of (P.gradient (P.vecField u) (P.cells[c]).nodes q)) (Matrix.of (vars c q).1)
          (Matrix.of (vars c q).2.2.2) (vars c q).2.1 (fun a => normalise (rawDirection slipTable a))
          (fun a => normalise (rawNormal slipTable a)) 168400 121400 75400 (1 / 1000) 10 z.dt S γ (Matrix.of new.1)
      ∧ (∀ a, new.2.2.1 a = (vars c q).2.2.1 a + γ a)
      ∧ new.2.2.2 = (vars c q).2.2.2
      ∧ (∀ g, (∀ a, (vars c q).2.1 a = g) → ∀ a,
          new.2.1 a = g + 541.5 * |1 - g / 109.8| ^ (2.5 : ℝ) * sgn (1 - g / 109.8) * ∑ b, |γ b|)
      ∧ (let F := 1 + Matrix.of (P.gradient (P.vecField u) (P.cells[c]).nodes q)
         let Fe := F * Matrix.of new.1
         Matrix.of (tensorMap root z.dt (vars c q) (P.gradient (P.vecField u) (P.cells[c]).nodes q))
          = (F.det / Fe.det) • (Fe * S * Fe.transpose * F⁻¹.transpose)) := by
  have hr : (0 : ℝ) ≤ fcc.ao * z.dt := mul_nonneg (by norm_num [fcc]) hz
  have hx : fcc.xm ≠ 0 := by norm_num [fcc]
  set G : M3 := P.gradient (P.vecField u) (P.cells[c]).nodes q with hG
  set iv := (vars c q).internal with hiv
  set S := root (implicitResidual fcc z.dt iv G) with hS
  have hzero : implicitResidual fcc z.dt iv G S = 0 := hroot _ rfl
  have hnew : updateIntVarsGp root z.dt P (solOf P u) vars c q = Pt.of (update fcc z.dt iv S) := by
    simp only [updateIntVarsGp, sol_grad]
    rfl
  refine ⟨Matrix.of S, gammaInc fcc z.dt iv S, Pt.of (update fcc z.dt iv S), hnew, hnew, ?_, fun a => rfl, rfl, ?_, ?_⟩
  · have h := (Crystal.C89_equations fcc (fun a => normalise (rawDirection slipTable a))
      (fun a => normalise (rawNormal slipTable a)) 168400 121400 75400 z.dt (fun _ _ _ => rfl) rfl hr hx iv hR G (Matrix.of S)
      (fpInvNew fcc z.dt iv S) (gammaInc fcc z.dt iv S)).2 ⟨hzero, rfl, rfl⟩
    have e1 : fcc.ao = 1 / 1000 := by norm_num [fcc]
    have e2 : 1 / fcc.xm = 10 := by norm_num [fcc]
    rw [e1, e2] at h
    exact h
  · intro g hg a
    have h := ((Crystal.C89_slip fcc z.dt iv S hr).2.2.1 Crystal.fcc_q g hg a).1
    exact h
  · intro F Fe
    have hF : Crystal.defGrad G = F := add_comm _ _
    have hFe : Crystal.elasticF fcc z.dt iv G S = Fe := by
      rw [Crystal.elasticF, hF]; rfl
    show piola fcc z.dt iv G S = _
    rw [piola]
    simp only [hF, hFe]
    rw [Matrix.smul_mul, smul_smul, mul_one_div]

theorem body_pos : 0 < body.cells.length := Nat.one_pos

/-- The tetrahedron at any displacements, with a step of length zero: the trial stress is the root. -/
example (u : Fin (totalDofs body.fes) → ℝ) : ∃ S γ new, (Stress.script trial body body_pos bodyNum).update ⟨1, 0⟩ u (initVars _) ⟨0, body_pos⟩ 0 = new
    ∧ StepEquations (1 + Matrix.of (body.gradient (body.vecField u) [0, 1, 2, 3] 0)) 1 (Matrix.of initPt.2.2.2) (fun _ => 60.8)
      (fun a => normalise (rawDirection slipTable a)) (fun a => normalise (rawNormal slipTable a)) 168400 121400 75400 (1 / 1000) 10
      0 S γ (Matrix.of new.1) := by
  have hR : IsRotation (Matrix.of initPt.2.2.2) := by
    have : Matrix.of initPt.2.2.2 = (1 : Matrix (Fin 3) (Fin 3) ℝ) := by
      ext i j
      show Crystal.getRotMat ![1, 0, 0, 0] i j = _
      fin_cases i <;> fin_cases j <;> simp [Crystal.getRotMat]
    rw [this]
    exact ⟨by simp, by simp⟩
  obtain ⟨S, γ, new, h1, -, h2, -⟩ := C112_local trial body body_pos bodyNum ⟨1, 0⟩ le_rfl u (initVars _) 1 ⟨0, body_pos⟩ 0 hR (by
    rintro f rfl
    have hp : ∀ S, Crystal.plasticInc fcc 0 initPt.internal S = 0 := by
      intro S
      funext i j
      simp [Crystal.plasticInc, Crystal.gammaInc]
    have hc : ∀ S G i j, implicitResidual fcc 0 initPt.internal G S i j = S i j + implicitResidual fcc 0 initPt.internal G 0 i j := by
      intro S G i j
      simp only [implicitResidual, Crystal.elasticF, fpInvNew, hp]
      rw [show (0 : M3) i j = 0 from rfl]
      ring
    funext i j
    exact (hc _ (body.gradient (body.vecField u) [0, 1, 2, 3] 0) i j).trans (neg_add_cancel _))
  exact ⟨S, γ, new, h1, h2⟩

end JaxFem.Sensitivity
