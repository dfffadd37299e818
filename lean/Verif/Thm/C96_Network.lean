import Verif.Model.Surrogate
import Mathlib.Analysis.Calculus.ContDiff.Basic
import Mathlib.Analysis.Calculus.ContDiff.Operations
import Mathlib.Analysis.Calculus.Deriv.Inv
import Mathlib.Analysis.Calculus.Deriv.Slope
import Mathlib.Analysis.SpecialFunctions.ExpDeriv
import Mathlib.Analysis.Calculus.FDeriv.Add
import Mathlib.Analysis.Calculus.FDeriv.Mul
import Mathlib.Analysis.Calculus.FDeriv.Pi

/-!
# C96: the network of the surrogate model, its gradient and its loss
-/

namespace JaxFem.Surrogate

open scoped BigOperators

/-! ### Helper lemmas -/

/-- Derivative of `elu`. -/
noncomputable def slope (x : ℝ) : ℝ := if x > 0 then 1 else Real.exp x

theorem elu_hasDerivAt (x : ℝ) : HasDerivAt elu (slope x) x := by
  rcases lt_trichotomy x 0 with h | h | h
  · have e : elu =ᶠ[nhds x] fun y => Real.exp y - 1 := by
      filter_upwards [gt_mem_nhds h] with y hy
      simp [elu, not_lt.2 hy.le]
    have : slope x = Real.exp x := by simp [slope, not_lt.2 h.le]
    rw [this]
    exact ((Real.hasDerivAt_exp x).sub_const 1).congr_of_eventuallyEq e
  · subst h
    have e : slope 0 = 1 := by simp [slope]
    rw [e]
    have l : HasDerivWithinAt elu 1 (Set.Iic 0) 0 := by
      have := ((Real.hasDerivAt_exp 0).sub_const 1).hasDerivWithinAt (s := Set.Iic (0 : ℝ))
      rw [Real.exp_zero] at this
      refine this.congr (fun y hy => ?_) ?_
      · have : ¬ 0 < y := not_lt.2 hy
        simp [elu, this]
      · simp [elu]
    have r : HasDerivWithinAt elu 1 (Set.Ici 0) 0 := by
      have := (hasDerivAt_id (0 : ℝ)).hasDerivWithinAt (s := Set.Ici (0 : ℝ))
      refine this.congr (fun y hy => ?_) ?_
      · rcases (show (0 : ℝ) ≤ y from hy).eq_or_lt with h | h
        · subst h; simp [elu]
        · simp [elu, h]
      · simp [elu]
    have := l.union r
    rwa [Set.Iic_union_Ici, hasDerivWithinAt_univ] at this
  · have e : elu =ᶠ[nhds x] fun y => y := by
      filter_upwards [lt_mem_nhds h] with y hy
      simp [elu, hy]
    have : slope x = 1 := by simp [slope, h]
    rw [this]
    exact (hasDerivAt_id x).congr_of_eventuallyEq e

theorem slope_continuous : Continuous slope := by
  have : slope = fun x => Real.exp (min x 0) := by
    funext x
    rcases lt_or_ge 0 x with h | h
    · simp [slope, h, min_eq_right h.le]
    · simp [slope, not_lt.2 h, min_eq_left h]
  rw [this]
  exact Real.continuous_exp.comp (continuous_id.min continuous_const)

theorem elu_contDiff : ContDiff ℝ 1 elu := by
  rw [contDiff_one_iff_deriv]
  refine ⟨fun x => (elu_hasDerivAt x).differentiableAt, ?_⟩
  have : deriv elu = slope := funext fun x => (elu_hasDerivAt x).deriv
  rw [this]
  exact slope_continuous

theorem dense_hasFDerivAt {m n : Nat} (K : Fin m → Fin n → ℝ) (b : Fin n → ℝ) {f : (Fin 3 → ℝ) → Fin m → ℝ}
    {g : Fin m → (Fin 3 → ℝ) →L[ℝ] ℝ} {x : Fin 3 → ℝ} (hf : ∀ i, HasFDerivAt (fun y => f y i) (g i) x) (j : Fin n) :
    HasFDerivAt (fun y => dense K b (f y) j) (∑ i, K i j • g i) x := by
  unfold dense
  refine HasFDerivAt.add_const _ (HasFDerivAt.fun_sum fun i _ => ?_)
  exact (hf i).mul_const (K i j)

theorem elu_comp {f : (Fin 3 → ℝ) → ℝ} {g : (Fin 3 → ℝ) →L[ℝ] ℝ} {x : Fin 3 → ℝ} (hf : HasFDerivAt f g x) :
    HasFDerivAt (fun y => elu (f y)) (slope (f x) • g) x :=
  (elu_hasDerivAt (f x)).comp_hasFDerivAt x hf

/-- Inputs of the activations of the three hidden layers. -/
noncomputable def pre0 {w : Nat} (p : Params w) (x : Fin 3 → ℝ) (j : Fin w) : ℝ := ∑ i, x i * p.kernel0 i j + p.bias0 j

noncomputable def pre1 {w : Nat} (p : Params w) (x : Fin 3 → ℝ) (k : Fin w) : ℝ :=
  ∑ j, elu (pre0 p x j) * p.kernel1 j k + p.bias1 k

noncomputable def pre2 {w : Nat} (p : Params w) (x : Fin 3 → ℝ) (l : Fin w) : ℝ :=
  ∑ k, elu (pre1 p x k) * p.kernel2 k l + p.bias2 l

theorem network_hasFDerivAt {w : Nat} (p : Params w) (x : Fin 3 → ℝ) :
    HasFDerivAt (fun x => ∑ o, network p x o)
      (∑ l, p.kernel3 l 0 • slope (pre2 p x l) • ∑ k, p.kernel2 k l • slope (pre1 p x k) • ∑ j, p.kernel1 j k •
        slope (pre0 p x j) • ∑ i, p.kernel0 i j • ContinuousLinearMap.proj (R := ℝ) (φ := fun _ : Fin 3 => ℝ) i) x := by
  have h0 : ∀ i, HasFDerivAt (fun y : Fin 3 → ℝ => y i) (ContinuousLinearMap.proj (R := ℝ) (φ := fun _ : Fin 3 => ℝ) i) x :=
    fun i => hasFDerivAt_apply i x
  have h1 : ∀ j, HasFDerivAt (fun y => elu (dense p.kernel0 p.bias0 y j)) _ x := fun j =>
    elu_comp (dense_hasFDerivAt p.kernel0 p.bias0 (f := fun y => y) h0 j)
  have h2 : ∀ j, HasFDerivAt (fun y => elu (dense p.kernel1 p.bias1 (fun j => elu (dense p.kernel0 p.bias0 y j)) j)) _ x :=
    fun j => elu_comp (dense_hasFDerivAt p.kernel1 p.bias1 (f := fun y j => elu (dense p.kernel0 p.bias0 y j)) h1 j)
  have h3 : ∀ j, HasFDerivAt (fun y => elu (dense p.kernel2 p.bias2 (fun j => elu (dense p.kernel1 p.bias1
      (fun j => elu (dense p.kernel0 p.bias0 y j)) j)) j)) _ x :=
    fun j => elu_comp (dense_hasFDerivAt p.kernel2 p.bias2
      (f := fun y j => elu (dense p.kernel1 p.bias1 (fun j => elu (dense p.kernel0 p.bias0 y j)) j)) h2 j)
  have h4 := dense_hasFDerivAt p.kernel3 p.bias3 (f := fun y j => elu (dense p.kernel2 p.bias2 (fun j => elu (dense p.kernel1 p.bias1
      (fun j => elu (dense p.kernel0 p.bias0 y j)) j)) j)) h3 0
  have e : (fun x => ∑ o, network p x o) = fun x => network p x 0 := by
    funext x; simp
  rw [e]
  exact h4

theorem network_contDiff {w : Nat} (p : Params w) : ContDiff ℝ 1 fun x => ∑ o, network p x o := by
  have e : (fun x => ∑ o, network p x o) = fun x => network p x 0 := by
    funext x; simp
  rw [e]
  have d : ∀ {m n : Nat} (K : Fin m → Fin n → ℝ) (b : Fin n → ℝ) (f : (Fin 3 → ℝ) → Fin m → ℝ),
      (∀ i, ContDiff ℝ 1 fun y => f y i) → ∀ j, ContDiff ℝ 1 fun y => dense K b (f y) j := by
    intro m n K b f hf j
    unfold dense
    exact (ContDiff.sum fun i _ => (hf i).mul contDiff_const).add contDiff_const
  have a : ∀ f : (Fin 3 → ℝ) → ℝ, ContDiff ℝ 1 f → ContDiff ℝ 1 fun y => elu (f y) := fun f hf => elu_contDiff.comp hf
  unfold network
  refine d _ _ _ (fun i => a _ (d _ _ _ (fun i => a _ (d _ _ _ (fun i => a _ (d _ _ _ (fun i => ?_) i)) i)) i)) 0
  exact contDiff_apply ℝ ℝ i

theorem network_grad {w : Nat} (p : Params w) (x d : Fin 3 → ℝ) :
    fderiv ℝ (fun x => ∑ o, network p x o) x d = ∑ i, inputGradient p x i * d i := by
  unfold inputGradient
  set L := fderiv ℝ (fun x => ∑ o, network p x o) x
  have : d = ∑ i, d i • (Pi.single i 1 : Fin 3 → ℝ) := by
    funext k
    simp [Finset.sum_apply, Pi.single_apply]
  conv_lhs => rw [this]
  rw [map_sum]
  refine Finset.sum_congr rfl fun i _ => ?_
  rw [map_smul, smul_eq_mul, mul_comm]

/-! ### Property theorems -/

/-- C96. The network is continuously differentiable for all weights, `compute_input_gradient` returns its gradient at every
input, the gradient is continuous and has the stated closed form: the sum over all paths through the network of the products of
the weights and the slopes (1 or `exp`) of the activations. -/
theorem C96_network {w : Nat} (p : Params w) (x : Fin 3 → ℝ) :
    ContDiff ℝ 1 (fun x => network p x 0) ∧
    (∃ L : (Fin 3 → ℝ) →L[ℝ] ℝ, HasFDerivAt (fun x => network p x 0) L x ∧ ∀ d, L d = ∑ i, inputGradient p x i * d i) ∧
    Continuous (inputGradient p) ∧
    (∀ i, inputGradient p x i = ∑ l, ∑ k, ∑ j, p.kernel0 i j * (if 0 < pre0 p x j then 1 else Real.exp (pre0 p x j)) *
      p.kernel1 j k * (if 0 < pre1 p x k then 1 else Real.exp (pre1 p x k)) *
      p.kernel2 k l * (if 0 < pre2 p x l then 1 else Real.exp (pre2 p x l)) * p.kernel3 l 0) ∧
    network p x 0 = ∑ l, (if 0 < pre2 p x l then pre2 p x l else Real.exp (pre2 p x l) - 1) * p.kernel3 l 0 + p.bias3 0 := by
  have e : (fun x => ∑ o, network p x o) = fun x => network p x 0 := by
    funext x; simp
  have hc := network_contDiff p
  refine ⟨e ▸ hc, ⟨fderiv ℝ (fun x => ∑ o, network p x o) x, ?_, network_grad p x⟩, ?_, fun i => ?_, rfl⟩
  · rw [← e]
    exact (hc.differentiable one_ne_zero x).hasFDerivAt
  · refine continuous_pi fun i => ?_
    exact (hc.continuous_fderiv one_ne_zero).clm_apply continuous_const
  · unfold inputGradient
    rw [(network_hasFDerivAt p x).fderiv]
    simp only [_root_.sum_apply, _root_.smul_apply, ContinuousLinearMap.proj_apply, smul_eq_mul, Pi.single_apply,
      mul_ite, mul_one, mul_zero, Finset.sum_ite_eq', Finset.mem_univ, if_true, Finset.mul_sum]
    refine Finset.sum_congr rfl fun l _ => Finset.sum_congr rfl fun k _ => Finset.sum_congr rfl fun j _ => ?_
    simp only [slope, gt_iff_lt]
    split_ifs <;> ring

/-- C96. The gradient with respect to a batch, as computed in training, is the gradient of each input of the batch. -/
theorem C96_batch {w b : Nat} (p : Params w) (x : Fin b → Fin 3 → ℝ) (k : Fin b) :
    batchGradient p x k = inputGradient p (x k) := by
  funext i
  unfold batchGradient forward
  have h : HasFDerivAt (fun x : Fin b → Fin 3 → ℝ => ∑ k, ∑ o, network p (x k) o)
      (∑ k, (fderiv ℝ (fun x => ∑ o, network p x o) (x k)).comp
        (ContinuousLinearMap.proj (R := ℝ) (φ := fun _ : Fin b => Fin 3 → ℝ) k)) x := by
    refine HasFDerivAt.fun_sum fun k _ => ?_
    have h1 := ((network_contDiff p).differentiable one_ne_zero (x k)).hasFDerivAt
    exact HasFDerivAt.comp (f := fun y : Fin b → Fin 3 → ℝ => y k) x h1 (hasFDerivAt_apply k x)
  rw [h.fderiv]
  simp only [_root_.sum_apply, ContinuousLinearMap.comp_apply, ContinuousLinearMap.proj_apply]
  rw [Finset.sum_eq_single k]
  · simp [inputGradient]
  · intro c _ hc
    simp [Pi.single_eq_of_ne hc]
  · simp

/-- C96. The loss of a nonempty batch is nonnegative, and zero exactly if the gradient of the network at every strain of the batch is the
label: `S₀₀`, `S₁₀`, `S₁₁`. -/
theorem C96_loss {w b : Nat} (hb : 0 < b) (p : Params w) (x : Fin b → Fin 3 → ℝ) (S : Fin b → Fin 2 → Fin 2 → ℝ) :
    0 ≤ loss p x (fun k => label (S k)) ∧
    (loss p x (fun k => label (S k)) = 0 ↔ ∀ k, inputGradient p (x k) 0 = S k 0 0 ∧ inputGradient p (x k) 1 = S k 1 0 ∧
      inputGradient p (x k) 2 = S k 1 1) := by
  have hp : (0 : ℝ) < (b : ℝ) * 3 := by positivity
  have hn : ∀ k i, 0 ≤ Real.sqrt ((label (S k) i - batchGradient p x k i) ^ 2 / (label (S k) i ^ 2 + 1 / 10 ^ 3)) :=
    fun k i => Real.sqrt_nonneg _
  refine ⟨div_nonneg (Finset.sum_nonneg fun k _ => Finset.sum_nonneg fun i _ => hn k i) hp.le, ?_⟩
  unfold loss
  dsimp only
  rw [div_eq_zero_iff, or_iff_left hp.ne', Finset.sum_eq_zero_iff_of_nonneg fun k _ => Finset.sum_nonneg fun i _ => hn k i]
  refine forall_congr' fun k => ?_
  rw [Finset.sum_eq_zero_iff_of_nonneg fun i _ => hn k i]
  have key : ∀ i, Real.sqrt ((label (S k) i - batchGradient p x k i) ^ 2 / (label (S k) i ^ 2 + 1 / 10 ^ 3)) = 0
      ↔ inputGradient p (x k) i = label (S k) i := by
    intro i
    have hd : 0 < label (S k) i ^ 2 + 1 / 10 ^ 3 := by positivity
    rw [Real.sqrt_eq_zero (by positivity), div_eq_zero_iff, or_iff_left hd.ne', sq_eq_zero_iff, sub_eq_zero, C96_batch]
    exact eq_comm
  simp only [Finset.mem_univ, true_implies, key]
  simp [Fin.forall_fin_succ, label]

/-- Weights with one unit per layer: all kernels 1 (only the first strain component enters), all biases 0. -/
def unitParams : Params 1 where
  kernel0 := fun i _ => if i = 0 then 1 else 0
  bias0 := fun _ => 0
  kernel1 := fun _ _ => 1
  bias1 := fun _ => 0
  kernel2 := fun _ _ => 1
  bias2 := fun _ => 0
  kernel3 := fun _ _ => 1
  bias3 := fun _ => 0

/-- C96. The gradient of the network need not be differentiable: for the unit network the derivative of the stress from the right at zero
strain is 0, from the left it is 3. The tangent of the Newton method does not exist in the undeformed state. -/
theorem C96_kink : ¬ DifferentiableAt ℝ (fun t : ℝ => inputGradient unitParams ![t, 0, 0] 0) 0 ∧
    (∀ t, 0 < t → inputGradient unitParams ![t, 0, 0] 0 = 1) ∧
    HasDerivWithinAt (fun t : ℝ => inputGradient unitParams ![t, 0, 0] 0) 3 (Set.Iic 0) 0 := by
  have e : ∀ t : ℝ, inputGradient unitParams ![t, 0, 0] 0 = slope t * slope (elu t) * slope (elu (elu t)) := by
    intro t
    rw [(C96_network unitParams ![t, 0, 0]).2.2.2.1 0]
    simp [pre2, pre1, pre0, unitParams, Fin.sum_univ_three, slope]
  have hp : ∀ t, 0 < t → inputGradient unitParams ![t, 0, 0] 0 = 1 := by
    intro t ht
    have h1 : elu t = t := by simp [elu, ht]
    rw [e, h1, h1]
    simp [slope, ht]
  have hl : HasDerivWithinAt (fun t : ℝ => inputGradient unitParams ![t, 0, 0] 0) 3 (Set.Iic 0) 0 := by
    have d1 : HasDerivAt (fun t : ℝ => Real.exp t - 1) 1 0 := by
      simpa using (Real.hasDerivAt_exp 0).sub_const 1
    have d2 : HasDerivAt (fun t : ℝ => Real.exp (Real.exp t - 1)) 1 0 := by
      have := d1.exp
      simpa using this
    have d3 : HasDerivAt (fun t : ℝ => Real.exp (Real.exp (Real.exp t - 1) - 1)) 1 0 := by
      have := (d2.sub_const 1).exp
      simpa using this
    have d4 := ((Real.hasDerivAt_exp 0).mul d2).mul d3
    have d5 : HasDerivAt (fun t : ℝ => Real.exp t * Real.exp (Real.exp t - 1) * Real.exp (Real.exp (Real.exp t - 1) - 1)) 3 0 := by
      refine d4.congr_deriv ?_
      simp
      norm_num
    have h0 : ∀ t : ℝ, t ≤ 0 → elu t = Real.exp t - 1 ∧ elu t ≤ 0 ∧ slope t = Real.exp t := by
      intro t ht
      have h1 : elu t = Real.exp t - 1 := by simp [elu, not_lt.2 ht]
      refine ⟨h1, ?_, by simp [slope, not_lt.2 ht]⟩
      rw [h1]
      linarith [Real.exp_le_one_iff.2 ht]
    have hc : ∀ t : ℝ, t ≤ 0 → inputGradient unitParams ![t, 0, 0] 0
        = Real.exp t * Real.exp (Real.exp t - 1) * Real.exp (Real.exp (Real.exp t - 1) - 1) := by
      intro t ht
      obtain ⟨a, b, c⟩ := h0 t ht
      obtain ⟨a', b', c'⟩ := h0 _ b
      obtain ⟨_, _, c''⟩ := h0 _ b'
      rw [e, c, c', c'', a', a]
    exact d5.hasDerivWithinAt.congr (fun t ht => hc t ht) (hc 0 le_rfl)
  refine ⟨fun hd => ?_, hp, hl⟩
  have h1 := hd.hasDerivAt
  have h2 : HasDerivWithinAt (fun t : ℝ => inputGradient unitParams ![t, 0, 0] 0) 0 (Set.Ioi 0) 0 := by
    refine (hasDerivWithinAt_const (0 : ℝ) (Set.Ioi 0) (1 : ℝ)).congr (fun t ht => hp t ht) ?_
    rw [e]
    simp [slope, elu]
  have h3 := (uniqueDiffWithinAt_Ioi (0 : ℝ)).eq_deriv _ h1.hasDerivWithinAt h2
  have h4 := (uniqueDiffWithinAt_Iic (0 : ℝ)).eq_deriv _ h1.hasDerivWithinAt hl
  linarith

end JaxFem.Surrogate
