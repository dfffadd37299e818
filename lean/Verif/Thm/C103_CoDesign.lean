import Verif.Thm.C103_Sequence
import Verif.Thm.C54_Plasticity
import Verif.Thm.C92_Design
import Verif.Thm.C88_Problem
import Verif.Thm.C98_Energy
import Mathlib.Analysis.SpecialFunctions.Sqrt

/-!
# C103: structure and material co-design
-/

namespace JaxFem.CoDesign

open scoped Topology BigOperators
open Plasticity (hooke IsDev Admissible sDev sNorm radialReturn sigmaTrial)

variable {nq nfq nn : Nat}

/-! ### Helper lemmas: the material -/

theorem predictor_eq (G : Tensor) (b : Body) :
    sigmaTrial (young b.2.2.2.1) 0.3 (Matrix.of G) (Matrix.of b.1) (Matrix.of b.2.1) = predictor (Matrix.of G) b := by
  rw [Plasticity.sigmaTrial_eq]
  rfl

theorem safeSqrt_eq (x : ℝ) : Plasticity.safeSqrt x = Real.sqrt x := by
  rw [Plasticity.safeSqrt]
  split_ifs with h
  · rfl
  · exact (Real.sqrt_eq_zero_of_nonpos (not_lt.1 h)).symm

/-- Squared norm of the deviator of the predictor. -/
noncomputable def devSq (x : Tensor × Body) : ℝ :=
  3 / 2 * ∑ i, ∑ j, sDev (sigmaTrial (young x.2.2.2.2.1) 0.3 x.1 x.2.1 x.2.2.1) i j
    * sDev (sigmaTrial (young x.2.2.2.2.1) 0.3 x.1 x.2.1 x.2.2.1) i j

theorem trial_smooth (i j : Fin 3) :
    ContDiff ℝ 1 fun x : Tensor × Body => sigmaTrial (young x.2.2.2.2.1) 0.3 x.1 x.2.1 x.2.2.1 i j := by
  simp only [sigmaTrial, Plasticity.stress, Plasticity.strain, Plasticity.lmbdaOf, Plasticity.muOf, young, Matrix.trace,
    Matrix.diag]
  fun_prop

theorem dev_smooth (i j : Fin 3) :
    ContDiff ℝ 1 fun x : Tensor × Body => sDev (sigmaTrial (young x.2.2.2.2.1) 0.3 x.1 x.2.1 x.2.2.1) i j := by
  have h := trial_smooth
  simp only [sDev, Matrix.trace, Matrix.diag]
  fun_prop

theorem devSq_smooth : ContDiff ℝ 1 devSq := by
  have h := dev_smooth
  unfold devSq
  fun_prop

theorem sNorm_devSq (x : Tensor × Body) :
    sNorm (sDev (sigmaTrial (young x.2.2.2.2.1) 0.3 x.1 x.2.1 x.2.2.1)) = Real.sqrt (devSq x) := by
  rw [sNorm, safeSqrt_eq]
  rfl

theorem regular_iff (x : Tensor × Body) (hs : 0 ≤ yieldStress x.2.2.2.2.2) (h : RegularPoint (Matrix.of x.1) x.2) :
    devSq x ≠ 0 ∧ Real.sqrt (devSq x) ≠ yieldStress x.2.2.2.2.2 := by
  have hd := h _ (Plasticity.isDev_sDev _)
  have e : devSq x = 3 / 2 * Plasticity.inner (sDev (predictor (Matrix.of x.1) x.2)) (sDev (predictor (Matrix.of x.1) x.2)) := by
    rw [← predictor_eq]
    rfl
  have hy : yieldStress x.2.2.2.2.2 = 250 + 100 * x.2.2.2.2.2 := by rw [yieldStress]; ring
  constructor
  · rw [e]
    exact mul_ne_zero (by norm_num) hd.1
  · intro h2
    apply hd.2
    rw [← e, ← hy, ← h2, Real.sq_sqrt]
    rw [e]
    exact mul_nonneg (by norm_num) (Plasticity.inner_self_nonneg _)

theorem helper_smooth (x : Tensor × Body) (hs : 0 ≤ yieldStress x.2.2.2.2.2) (h : RegularPoint (Matrix.of x.1) x.2) :
    ContDiffAt ℝ 1 (fun x : Tensor × Body => returnMapHelper x.1 x.2) x := by
  obtain ⟨h1, h2⟩ := regular_iff x hs h
  have hn : ContDiffAt ℝ 1 (fun x => Real.sqrt (devSq x)) x := (devSq_smooth.contDiffAt).sqrt h1
  have hy : ContDiffAt ℝ 1 (fun x : Tensor × Body => yieldStress x.2.2.2.2.2) x := by
    unfold yieldStress
    fun_prop
  have hf : ContDiffAt ℝ 1 (fun x => Real.sqrt (devSq x) - yieldStress x.2.2.2.2.2) x := hn.sub hy
  have hsn : ∀ x : Tensor × Body, (returnMapHelper x.1 x.2).2 = Real.sqrt (devSq x) - yieldStress x.2.2.2.2.2 := by
    intro x
    rw [← sNorm_devSq]
    rfl
  have hst : ∀ (x : Tensor × Body) i j, (returnMapHelper x.1 x.2).1 i j
      = sigmaTrial (young x.2.2.2.2.1) 0.3 x.1 x.2.1 x.2.2.1 i j - if Real.sqrt (devSq x) = 0 then 0 else
        (if 0 < Real.sqrt (devSq x) - yieldStress x.2.2.2.2.2 then Real.sqrt (devSq x) - yieldStress x.2.2.2.2.2 else 0)
        * sDev (sigmaTrial (young x.2.2.2.2.1) 0.3 x.1 x.2.1 x.2.2.1) i j / Real.sqrt (devSq x) := by
    intro x i j
    rw [← sNorm_devSq]
    rfl
  have hs0 : Real.sqrt (devSq x) ≠ 0 := by
    rw [Real.sqrt_ne_zero']
    refine lt_of_le_of_ne ?_ h1.symm
    exact mul_nonneg (by norm_num) (Finset.sum_nonneg fun i _ => Finset.sum_nonneg fun j _ => mul_self_nonneg _)
  suffices hstress : ContDiffAt ℝ 1 (fun x : Tensor × Body => fun i j => (returnMapHelper x.1 x.2).1 i j) x by
    exact hstress.prodMk (hf.congr_of_eventuallyEq (Filter.Eventually.of_forall hsn))
  refine contDiffAt_pi.2 fun i => contDiffAt_pi.2 fun j => ?_
  rcases lt_or_gt_of_ne h2 with hlt | hgt
  · refine ((trial_smooth i j).contDiffAt).congr_of_eventuallyEq ?_
    filter_upwards [(hf.continuousAt).eventually_lt continuousAt_const (show _ < (0 : ℝ) by linarith)] with y hy0
    rw [hst, if_neg (not_lt.2 hy0.le)]
    simp
  · have hq : ContDiffAt ℝ 1 (fun x => sigmaTrial (young x.2.2.2.2.1) 0.3 x.1 x.2.1 x.2.2.1 i j
        - (Real.sqrt (devSq x) - yieldStress x.2.2.2.2.2)
        * sDev (sigmaTrial (young x.2.2.2.2.1) 0.3 x.1 x.2.1 x.2.2.1) i j / Real.sqrt (devSq x)) x :=
      ((trial_smooth i j).contDiffAt).sub ((hf.mul (dev_smooth i j).contDiffAt).div hn hs0)
    refine hq.congr_of_eventuallyEq ?_
    filter_upwards [continuousAt_const.eventually_lt (hf.continuousAt) (show (0 : ℝ) < _ by linarith),
      hn.continuousAt.eventually_ne hs0] with y hy0 hy1
    rw [hst, if_pos hy0, if_neg hy1]

theorem updatePoint_smooth (x : Tensor × Body) (hs : 0 ≤ yieldStress x.2.2.2.2.2) (h : RegularPoint (Matrix.of x.1) x.2) :
    ContDiffAt ℝ 1 (fun x : Tensor × Body => updatePoint x.1 x.2) x := by
  have hh := helper_smooth x hs h
  have hstrain : ContDiffAt ℝ 1 (fun x : Tensor × Body => (fun i j => Plasticity.strain x.1 i j : Tensor)) x := by
    refine contDiffAt_pi.2 fun i => contDiffAt_pi.2 fun j => ?_
    simp only [Plasticity.strain]
    fun_prop
  have hθ : ContDiffAt ℝ 1 (fun x : Tensor × Body => x.2.2.2.2) x := by fun_prop
  exact hh.fst.prodMk (hstrain.prodMk (hh.snd.prodMk hθ))

end JaxFem.CoDesign
