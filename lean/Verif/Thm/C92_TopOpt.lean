import Verif.Thm.C92_Material
import Verif.Thm.C38_Branch
import Mathlib.Analysis.Calculus.FDeriv.Pow

/-!
# C92: compliance and its sensitivities
-/

namespace JaxFem

open scoped BigOperators Topology

variable {IV : Type} {nq nfq nn dim : Nat}

/-! ### Helper lemmas -/

/-- A function between zero and sums of squared increments has zero derivative. -/
theorem hasFDerivAt_of_squares {ι X : Type} [Fintype ι] [NormedAddCommGroup X] [NormedSpace ℝ X] (R : X → ℝ) (x0 : X)
    (E : X → ι → ℝ) (dE : ι → X →L[ℝ] ℝ) (hE : ∀ i, HasFDerivAt (fun x => E x i) (dE i) x0) (w : ι → ℝ)
    (hR : ∀ᶠ x in 𝓝 x0, 0 ≤ R x ∧ R x ≤ ∑ i, (E x i - E x0 i) * (E x i - E x0 i) * w i) :
    HasFDerivAt R (0 : X →L[ℝ] ℝ) x0 := by
  have hQ : HasFDerivAt (fun x => ∑ i, (E x i - E x0 i) * (E x i - E x0 i) * w i) (0 : X →L[ℝ] ℝ) x0 := by
    have : HasFDerivAt (fun x => ∑ i, (E x i - E x0 i) * (E x i - E x0 i) * w i)
        (∑ i : ι, (0 : X →L[ℝ] ℝ)) x0 := by
      refine HasFDerivAt.fun_sum fun i _ => ?_
      have h1 := (hE i).sub_const (E x0 i)
      have h2 := (h1.mul h1).mul_const (w i)
      simpa using h2
    simpa using this
  have hR0 : R x0 = 0 := by
    have := hR.self_of_nhds
    simp only [sub_self, mul_zero, zero_mul, Finset.sum_const_zero] at this
    exact le_antisymm this.2 this.1
  have h1 := hQ.isLittleO
  simp only [sub_self, mul_zero, zero_mul, Finset.sum_const_zero, sub_zero, ContinuousLinearMap.zero_apply] at h1
  refine HasFDerivAt.of_isLittleO ?_
  simp only [hR0, sub_zero, ContinuousLinearMap.zero_apply]
  refine Asymptotics.IsBigO.trans_isLittleO (Asymptotics.IsBigO.of_bound 1 ?_) h1
  filter_upwards [hR] with x hx
  rw [one_mul, Real.norm_eq_abs, Real.norm_eq_abs, abs_of_nonneg hx.1, abs_of_nonneg (hx.1.trans hx.2)]
  exact hx.2

/-- First-order change of the work of a load when the stiffness changes. -/
theorem compliance_deriv {ι V X : Type} [Fintype ι] [AddCommGroup V] [Module ℝ V] [NormedAddCommGroup X]
    [NormedSpace ℝ X] (B : ι → V → V → ℝ) (hB : ∀ i, PSD (B i)) (l : V → ℝ) (S : Submodule ℝ V)
    (E : X → ι → ℝ) (x0 : X) (dE : ι → X →L[ℝ] ℝ) (hE : ∀ i, HasFDerivAt (fun x => E x i) (dE i) x0)
    (hpos : ∀ i, 0 < E x0 i) (u : X → V) (hu : ∀ᶠ x in 𝓝 x0, u x ∈ S ∧ ∀ v ∈ S, ∑ i, E x i * B i (u x) v = l v) :
    HasFDerivAt (fun x => l (u x)) (-∑ i, B i (u x0) (u x0) • dE i) x0 := by
  have hhalf : ∀ᶠ x in 𝓝 x0, ∀ i, E x0 i / 2 < E x i := by
    rw [Filter.eventually_all]
    intro i
    exact (hE i).continuousAt.eventually (lt_mem_nhds (by have := hpos i; linarith))
  have h0 := hu.self_of_nhds
  have hR := hasFDerivAt_of_squares
    (fun x => l (u x) - l (u x0) + ∑ i, (E x i - E x0 i) * B i (u x0) (u x0)) x0 E dE hE
    (fun i => 2 / E x0 i * B i (u x0) (u x0)) (by
      filter_upwards [hu, hhalf] with x hx hh
      have hp : ∀ i, 0 < E x i := fun i => lt_trans (by have := hpos i; linarith) (hh i)
      have := compliance_expand B hB l S (E x0) (E x) hp (u x0) (u x) h0.1 hx.1 h0.2 hx.2
      refine ⟨this.1, this.2.trans (Finset.sum_le_sum fun i _ => ?_)⟩
      have hb := (hB i).nonneg (u x0)
      have hle : (E x i - E x0 i) ^ 2 / E x i ≤ (E x i - E x0 i) ^ 2 * (2 / E x0 i) := by
        rw [div_eq_mul_inv]
        refine mul_le_mul_of_nonneg_left ?_ (sq_nonneg _)
        rw [← inv_div]
        exact inv_anti₀ (by have := hpos i; linarith) (hh i).le
      calc (E x i - E x0 i) ^ 2 / E x i * B i (u x0) (u x0)
          ≤ (E x i - E x0 i) ^ 2 * (2 / E x0 i) * B i (u x0) (u x0) := mul_le_mul_of_nonneg_right hle hb
        _ = (E x i - E x0 i) * (E x i - E x0 i) * (2 / E x0 i * B i (u x0) (u x0)) := by ring)
  have hlin : HasFDerivAt (fun x => ∑ i, (E x i - E x0 i) * B i (u x0) (u x0))
      (∑ i, B i (u x0) (u x0) • dE i) x0 := by
    refine HasFDerivAt.fun_sum fun i _ => ?_
    exact ((hE i).sub_const (E x0 i)).mul_const (B i (u x0) (u x0))
  have := (hR.sub hlin).add_const (l (u x0))
  rw [zero_sub] at this
  refine this.congr_of_eventuallyEq (Filter.Eventually.of_forall fun x => ?_)
  simp only [Pi.sub_apply]
  ring

theorem compliance_value (P : Problem1 IV nq nfq nn dim dim) (hl : P.DeadLoad) (iv : Nat → Fin nq → IV)
    (u : Fin (totalDofs P.fes) → ℝ) (c : ℝ) :
    TopOpt.computeCompliance (P.atIv iv) (P.solArray u) = .ok c ↔ c = P.loadWork (P.vecField u) := by
  rw [computeCompliance_eq P hl]
  constructor
  · intro h; injection h with h; exact h.symm
  · intro h; rw [h]

section

variable (P : Problem1 IV nq nfq nn dim dim) (h : P.WF) (hpos : P.PositiveMeasure) (hl : P.DeadLoad) (e : IV → ℝ)
  (C : (Fin dim → Fin dim → ℝ) →ₗ[ℝ] (Fin dim → Fin dim → ℝ)) (hC : P.Scaled e C)
  (bcs : List (List (BCEntry ℝ))) (hb : WFBC P.fes bcs) (hz : ZeroValues bcs)

include h hpos hl hC hb hz

/-! ### Property theorems -/

/-- **C92 (compliance).** For a structure with homogeneous supports and a load that does not depend on the
displacement, what `compute_compliance` returns for the solution is the stored energy (twice), it is not negative, and
it is the maximum of twice the work of the load minus the stored energy over all displacements that respect the
supports. -/
theorem C92_compliance (iv : Nat → Fin nq → IV) (he : ∀ c < P.cells.length, ∀ q, 0 ≤ e (iv c q)) (u : Fin (totalDofs P.fes) → ℝ)
    (hu : SolvesBVP P.fes bcs (P.flatIv iv) u) :
    ∃ c, TopOpt.computeCompliance (P.atIv iv) (P.solArray u) = .ok c ∧
      c = ∑ i : Fin P.cells.length, ∑ q, e (iv i q) * P.energyAt C (P.vecField u) i q ∧ 0 ≤ c ∧
      ∀ (y : Fin (totalDofs P.fes) → ℝ) (ly : ℝ), SatisfiesBC P.fes bcs y →
        TopOpt.computeCompliance (P.atIv iv) (P.solArray y) = .ok ly →
        2 * ly - ∑ i : Fin P.cells.length, ∑ q, e (iv i q) * P.energyAt C (P.vecField y) i q ≤ c := by
  have hB := dofForm_psd P hpos e C hC
  have hf := solves_forms P h hl e C hC bcs hb iv u hu
  have hus := mem_vanishing P.fes bcs hz u hu.1
  have hc := hf u hus
  have sum_eq : ∀ y : Fin (totalDofs P.fes) → ℝ,
      ∑ i : Fin P.cells.length, ∑ q, e (iv i q) * P.energyAt C (P.vecField y) i q
        = ∑ i : Fin P.cells.length × Fin nq, e (iv i.1 i.2) * P.dofForm C i y y := by
    intro y
    rw [Fintype.sum_prod_type]
    rfl
  refine ⟨P.loadWork (P.vecField u), computeCompliance_eq P hl iv u, ?_, ?_, fun y ly hy hly => ?_⟩
  · rw [sum_eq, hc]
  · rw [← hc]
    exact Finset.sum_nonneg fun i _ => mul_nonneg (he _ i.1.2 _) ((hB i).nonneg _)
  · rw [sum_eq, (compliance_value P hl iv y ly).1 hly, ← hf y (mem_vanishing P.fes bcs hz y hy), ← hc]
    have hs : 0 ≤ ∑ i : Fin P.cells.length × Fin nq, e (iv i.1 i.2) * P.dofForm C i (u - y) (u - y) :=
      Finset.sum_nonneg fun i _ => mul_nonneg (he _ i.1.2 _) ((hB i).nonneg _)
    have hd : ∑ i : Fin P.cells.length × Fin nq, e (iv i.1 i.2) * P.dofForm C i (u - y) (u - y)
        = ∑ i : Fin P.cells.length × Fin nq, e (iv i.1 i.2) * P.dofForm C i u u
          - 2 * ∑ i : Fin P.cells.length × Fin nq, e (iv i.1 i.2) * P.dofForm C i u y
          + ∑ i : Fin P.cells.length × Fin nq, e (iv i.1 i.2) * P.dofForm C i y y := by
      rw [Finset.mul_sum, ← Finset.sum_sub_distrib, ← Finset.sum_add_distrib]
      refine Finset.sum_congr rfl fun i _ => ?_
      rw [(hB i).sub, (hB i).sub_right, (hB i).sub_right, (hB i).symm y u]
      ring
    linarith

/-- **C92 (more material, less compliance).** If the stiffness does not decrease at any quadrature point, the
compliance does not increase. -/
theorem C92_monotone (iv iv' : Nat → Fin nq → IV) (he : ∀ c < P.cells.length, ∀ q, 0 ≤ e (iv c q))
    (hle : ∀ c < P.cells.length, ∀ q, e (iv c q) ≤ e (iv' c q)) (u u' : Fin (totalDofs P.fes) → ℝ)
    (hu : SolvesBVP P.fes bcs (P.flatIv iv) u) (hu' : SolvesBVP P.fes bcs (P.flatIv iv') u') (c c' : ℝ)
    (hc : TopOpt.computeCompliance (P.atIv iv) (P.solArray u) = .ok c)
    (hc' : TopOpt.computeCompliance (P.atIv iv') (P.solArray u') = .ok c') : c' ≤ c := by
  rw [(compliance_value P hl iv u c).1 hc, (compliance_value P hl iv' u' c').1 hc']
  exact compliance_mono (fun i => P.dofForm C i) (dofForm_psd P hpos e C hC) (fun y => P.loadWork (P.vecField y))
    (vanishing P.fes bcs) (fun i => e (iv i.1 i.2)) (fun i => e (iv' i.1 i.2)) (fun i => he _ i.1.2 _)
    (fun i => hle _ i.1.2 _) u u' (mem_vanishing P.fes bcs hz u hu.1) (mem_vanishing P.fes bcs hz u' hu'.1)
    (solves_forms P h hl e C hC bcs hb iv u hu) (solves_forms P h hl e C hC bcs hb iv' u' hu')

/-- **C92 (expansion).** The compliance after an arbitrary change of the stiffness, minus the compliance before, is at
least minus the energy of the old solution in the changed stiffness; the excess is bounded by the squares of the
changes. -/
theorem C92_expansion (iv iv' : Nat → Fin nq → IV) (he' : ∀ c < P.cells.length, ∀ q, 0 < e (iv' c q))
    (u u' : Fin (totalDofs P.fes) → ℝ) (hu : SolvesBVP P.fes bcs (P.flatIv iv) u)
    (hu' : SolvesBVP P.fes bcs (P.flatIv iv') u') (c c' : ℝ)
    (hc : TopOpt.computeCompliance (P.atIv iv) (P.solArray u) = .ok c)
    (hc' : TopOpt.computeCompliance (P.atIv iv') (P.solArray u') = .ok c') :
    0 ≤ c' - c + ∑ i : Fin P.cells.length, ∑ q,
      (e (iv' i q) - e (iv i q)) * P.energyAt C (P.vecField u) i q ∧
    c' - c + ∑ i : Fin P.cells.length, ∑ q, (e (iv' i q) - e (iv i q)) * P.energyAt C (P.vecField u) i q
      ≤ ∑ i : Fin P.cells.length, ∑ q,
        (e (iv' i q) - e (iv i q)) ^ 2 / e (iv' i q) * P.energyAt C (P.vecField u) i q := by
  rw [(compliance_value P hl iv u c).1 hc, (compliance_value P hl iv' u' c').1 hc']
  have := compliance_expand (fun i => P.dofForm C i) (dofForm_psd P hpos e C hC) (fun y => P.loadWork (P.vecField y))
    (vanishing P.fes bcs) (fun i => e (iv i.1 i.2)) (fun i => e (iv' i.1 i.2)) (fun i => he' _ i.1.2 _)
    u u' (mem_vanishing P.fes bcs hz u hu.1) (mem_vanishing P.fes bcs hz u' hu'.1)
    (solves_forms P h hl e C hC bcs hb iv u hu) (solves_forms P h hl e C hC bcs hb iv' u' hu')
  simp only [Fintype.sum_prod_type] at this
  exact this

/-- **C92 (sensitivity).** If the stiffness depends differentiably on a parameter, the compliance along any family of
solutions has the derivative minus energy times derivative of the stiffness, summed over the quadrature points.  No
derivative of the solution is involved or assumed. -/
theorem C92_sensitivity {X : Type} [NormedAddCommGroup X] [NormedSpace ℝ X] (iv : X → Nat → Fin nq → IV) (x0 : X)
    (de : Fin P.cells.length → Fin nq → X →L[ℝ] ℝ)
    (hd : ∀ (c : Fin P.cells.length) q, HasFDerivAt (fun x => e (iv x c q)) (de c q) x0) (he : ∀ (c : Fin P.cells.length) q, 0 < e (iv x0 c q))
    (u : X → Fin (totalDofs P.fes) → ℝ) (hu : ∀ᶠ x in 𝓝 x0, SolvesBVP P.fes bcs (P.flatIv (iv x)) (u x))
    (c : X → ℝ) (hc : ∀ x, TopOpt.computeCompliance (P.atIv (iv x)) (P.solArray (u x)) = .ok (c x)) :
    HasFDerivAt c (-∑ i : Fin P.cells.length, ∑ q, P.energyAt C (P.vecField (u x0)) i q • de i q) x0 := by
  have hc' : c = fun x => P.loadWork (P.vecField (u x)) := funext fun x => (compliance_value P hl _ _ _).1 (hc x)
  have := compliance_deriv (fun i => P.dofForm C i) (dofForm_psd P hpos e C hC)
    (fun y => P.loadWork (P.vecField y)) (vanishing P.fes bcs) (fun x i => e (iv x i.1 i.2)) x0
    (fun i => de i.1 i.2) (fun i => hd i.1 i.2) (fun i => he i.1 i.2) u (by
      filter_upwards [hu] with x hx
      exact ⟨mem_vanishing P.fes bcs hz _ hx.1, solves_forms P h hl e C hC bcs hb (iv x) (u x) hx⟩)
  rw [Fintype.sum_prod_type] at this
  rw [hc']
  exact this

/-- **C92 (bounds).** Between uniform stiffnesses: if the stiffness is between `Emin` and `Emax`, the compliance is at
least that of the structure with `Emax` everywhere and at most `Emax / Emin` times it. -/
theorem C92_bounds (Emin Emax : ℝ) (hmin : 0 < Emin) (iv iv1 : Nat → Fin nq → IV)
    (he : ∀ c < P.cells.length, ∀ q, Emin ≤ e (iv c q) ∧ e (iv c q) ≤ Emax)
    (he1 : ∀ c < P.cells.length, ∀ q, e (iv1 c q) = Emax) (u u1 : Fin (totalDofs P.fes) → ℝ)
    (hu : SolvesBVP P.fes bcs (P.flatIv iv) u) (hu1 : SolvesBVP P.fes bcs (P.flatIv iv1) u1) (c c1 : ℝ)
    (hc : TopOpt.computeCompliance (P.atIv iv) (P.solArray u) = .ok c)
    (hc1 : TopOpt.computeCompliance (P.atIv iv1) (P.solArray u1) = .ok c1) :
    c1 ≤ c ∧ c ≤ Emax / Emin * c1 := by
  have hB := dofForm_psd P hpos e C hC
  rw [(compliance_value P hl iv u c).1 hc, (compliance_value P hl iv1 u1 c1).1 hc1]
  have hus := mem_vanishing P.fes bcs hz u hu.1
  have hus1 := mem_vanishing P.fes bcs hz u1 hu1.1
  have f := solves_forms P h hl e C hC bcs hb iv u hu
  have f1 := solves_forms P h hl e C hC bcs hb iv1 u1 hu1
  constructor
  · exact compliance_mono (fun i => P.dofForm C i) hB (fun y => P.loadWork (P.vecField y))
      (vanishing P.fes bcs) (fun i => e (iv i.1 i.2)) (fun i => e (iv1 i.1 i.2))
      (fun i => hmin.le.trans (he _ i.1.2 _).1) (fun i => by rw [he1 _ i.1.2]; exact (he _ i.1.2 _).2) u u1 hus hus1 f f1
  · have hm : (Emax / Emin) • u1 ∈ vanishing P.fes bcs := (vanishing P.fes bcs).smul_mem _ hus1
    have f2 : ∀ y ∈ vanishing P.fes bcs, ∑ i : Fin P.cells.length × Fin nq,
        Emin * P.dofForm C i ((Emax / Emin) • u1) y = P.loadWork (P.vecField y) := by
      intro y hy
      rw [← f1 y hy]
      refine Finset.sum_congr rfl fun i _ => ?_
      rw [(hB i).smul, he1 _ i.1.2]
      field_simp
    have hle := compliance_mono (fun i => P.dofForm C i) hB (fun y => P.loadWork (P.vecField y))
      (vanishing P.fes bcs) (fun _ => Emin) (fun i => e (iv i.1 i.2)) (fun _ => hmin.le)
      (fun i => (he _ i.1.2 _).1) ((Emax / Emin) • u1) u hm hus f2 f
    refine hle.trans (le_of_eq ?_)
    show P.loadWork (P.vecField ((Emax / Emin) • u1)) = Emax / Emin * P.loadWork (P.vecField u1)
    rw [← f1 _ hm, ← f1 _ hus1, Finset.mul_sum]
    refine Finset.sum_congr rfl fun i _ => ?_
    rw [(hB i).symm, (hB i).smul]
    ring

end

end JaxFem
