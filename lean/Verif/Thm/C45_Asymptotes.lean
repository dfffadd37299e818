import Verif.Model.MMA
import Mathlib.Tactic.Linarith
import Mathlib.Tactic.NormNum
import Mathlib.Tactic.Positivity
import Mathlib.Tactic.FieldSimp
import Mathlib.Analysis.Calculus.Deriv.Inv
import Mathlib.Analysis.Calculus.Deriv.Add

/-!
# C45 and C62: asymptotes, bounds and coefficients of the MMA subproblem
-/

namespace JaxFem
namespace MMA

open scoped BigOperators

variable {m n : Nat}

/-! ### Helper lemmas -/

theorem newLow_lt (iter : Nat) (xmin xmax xval xold1 xold2 low : ℝ) (h : xmin < xmax) :
    newLow iter xmin xmax xval xold1 xold2 low ≤ xval - 0.01 * (xmax - xmin) := by
  unfold newLow
  split_ifs
  · linarith
  · exact min_le_right _ _

theorem newUpp_gt (iter : Nat) (xmin xmax xval xold1 xold2 upp : ℝ) (h : xmin < xmax) :
    xval + 0.01 * (xmax - xmin) ≤ newUpp iter xmin xmax xval xold1 xold2 upp := by
  unfold newUpp
  split_ifs
  · linarith
  · exact le_max_right _ _

theorem newLow_ge (iter : Nat) (xmin xmax xval xold1 xold2 low : ℝ) (h : xmin < xmax) :
    xval - 10 * (xmax - xmin) ≤ newLow iter xmin xmax xval xold1 xold2 low := by
  unfold newLow
  split_ifs
  · linarith
  · exact le_min (le_max_right _ _) (by linarith)

theorem newUpp_le (iter : Nat) (xmin xmax xval xold1 xold2 upp : ℝ) (h : xmin < xmax) :
    newUpp iter xmin xmax xval xold1 xold2 upp ≤ xval + 10 * (xmax - xmin) := by
  unfold newUpp
  split_ifs
  · linarith
  · exact max_le (min_le_right _ _) (by linarith)

/-! ### C45 -/

/-- What is required of the bounds of one variable of the subproblem. -/
structure BoundsOrdered (xmin xmax move x low upp alfa beta : ℝ) : Prop where
  low_lt : low < x
  lt_upp : x < upp
  xmin_le : xmin ≤ alfa
  alfa_le : alfa ≤ x
  le_beta : x ≤ beta
  beta_le : beta ≤ xmax
  alfa_lt_beta : alfa < beta
  low_lt_alfa : low < alfa
  beta_lt_upp : beta < upp
  move_alfa : x - move * (xmax - xmin) ≤ alfa
  move_beta : beta ≤ x + move * (xmax - xmin)
  low_ge : x - 10 * (xmax - xmin) ≤ low
  low_le : low ≤ x - 0.01 * (xmax - xmin)
  upp_ge : x + 0.01 * (xmax - xmin) ≤ upp
  upp_le : upp ≤ x + 10 * (xmax - xmin)

/-- **C45.** For every state of the optimiser (any previous iterates and asymptotes, any iteration
number), every objective and constraint data: if `xmin < xmax`, the move limit is positive and the current
point is within the bounds, the asymptotes and bounds of the subproblem are ordered as required. -/
theorem C45_bounds (o : Obj m n) (xval df0dx : Fin n → ℝ) (fval : Fin m → ℝ) (dfdx : Fin m → Fin n → ℝ)
    (j : Fin n) (hb : o.xmin j < o.xmax j) (hmove : 0 < o.move) (h1 : o.xmin j ≤ xval j)
    (h2 : xval j ≤ o.xmax j) :
    let pb := mmasubProblem o xval df0dx fval dfdx
    BoundsOrdered (o.xmin j) (o.xmax j) o.move (xval j) (pb.low j) (pb.upp j) (pb.alfa j) (pb.beta j) := by
  intro pb
  have hl : pb.low j ≤ xval j - 0.01 * (o.xmax j - o.xmin j) := newLow_lt _ _ _ _ _ _ _ hb
  have hu : xval j + 0.01 * (o.xmax j - o.xmin j) ≤ pb.upp j := newUpp_gt _ _ _ _ _ _ _ hb
  have hl' : xval j - 10 * (o.xmax j - o.xmin j) ≤ pb.low j := newLow_ge _ _ _ _ _ _ _ hb
  have hu' : pb.upp j ≤ xval j + 10 * (o.xmax j - o.xmin j) := newUpp_le _ _ _ _ _ _ _ hb
  have ea : pb.alfa j = max (max (pb.low j + 0.1 * (xval j - pb.low j))
    (xval j - o.move * (o.xmax j - o.xmin j))) (o.xmin j) := rfl
  have eb : pb.beta j = min (min (pb.upp j - 0.1 * (pb.upp j - xval j))
    (xval j + o.move * (o.xmax j - o.xmin j))) (o.xmax j) := rfl
  have hmr : 0 < o.move * (o.xmax j - o.xmin j) := mul_pos hmove (by linarith)
  generalize pb.low j = low at *
  generalize pb.upp j = upp at *
  generalize pb.alfa j = alfa at *
  generalize pb.beta j = beta at *
  generalize hmr' : o.move * (o.xmax j - o.xmin j) = mr at *
  have a1 : low + 0.1 * (xval j - low) ≤ alfa := by rw [ea]; exact (le_max_left _ _).trans (le_max_left _ _)
  have a2 : xval j - mr ≤ alfa := by rw [ea]; exact (le_max_right _ _).trans (le_max_left _ _)
  have a3 : o.xmin j ≤ alfa := by rw [ea]; exact le_max_right _ _
  have a4 : alfa ≤ xval j := by
    rw [ea]; exact max_le (max_le (by linarith) (by linarith)) h1
  have b1 : beta ≤ upp - 0.1 * (upp - xval j) := by rw [eb]; exact (min_le_left _ _).trans (min_le_left _ _)
  have b2 : beta ≤ xval j + mr := by rw [eb]; exact (min_le_left _ _).trans (min_le_right _ _)
  have b3 : beta ≤ o.xmax j := by rw [eb]; exact min_le_right _ _
  have b4 : xval j ≤ beta := by
    rw [eb]; exact le_min (le_min (by linarith) (by linarith)) h2
  refine ⟨by linarith, by linarith, a3, a4, b4, b3, ?_, by linarith, by linarith, hmr' ▸ a2, hmr' ▸ b2, hl', hl, hu, hu'⟩
  by_cases hx : o.xmin j < xval j
  · have : alfa < xval j := by
      rw [ea]; exact max_lt (max_lt (by linarith) (by linarith)) hx
    linarith
  · have : xval j < beta := by
      rw [eb]; exact lt_min (lt_min (by linarith) (by linarith)) (by linarith)
    linarith

/-- **C45 (response of the asymptotes).** From the third iteration on, as long as the safeguards do not
bind, a variable that keeps moving in the same direction gets asymptotes 1.2 times as far from the current
point as they were from the previous one, an oscillating one 0.7 times, and a resting one the same
distance. -/
theorem C45_factor (o : Obj m n) (xval df0dx : Fin n → ℝ) (fval : Fin m → ℝ) (dfdx : Fin m → Fin n → ℝ)
    (j : Fin n) (hiter : 3 ≤ o.epoch) (g : ℝ)
    (hg : (0 < (xval j - o.xold1 j) * (o.xold1 j - o.xold2 j) ∧ g = 1.2) ∨
      ((xval j - o.xold1 j) * (o.xold1 j - o.xold2 j) < 0 ∧ g = 0.7) ∨
      ((xval j - o.xold1 j) * (o.xold1 j - o.xold2 j) = 0 ∧ g = 1)) :
    let pb := mmasubProblem o xval df0dx fval dfdx
    (0.01 * (o.xmax j - o.xmin j) ≤ g * (o.xold1 j - o.low j) →
      g * (o.xold1 j - o.low j) ≤ 10 * (o.xmax j - o.xmin j) →
      xval j - pb.low j = g * (o.xold1 j - o.low j)) ∧
    (0.01 * (o.xmax j - o.xmin j) ≤ g * (o.upp j - o.xold1 j) →
      g * (o.upp j - o.xold1 j) ≤ 10 * (o.xmax j - o.xmin j) →
      pb.upp j - xval j = g * (o.upp j - o.xold1 j)) := by
  intro pb
  have hf : asyFactor (xval j) (o.xold1 j) (o.xold2 j) = g := by
    unfold asyFactor
    rcases hg with ⟨h, rfl⟩ | ⟨h, rfl⟩ | ⟨h, rfl⟩
    · simp only; rw [if_neg (by linarith), if_pos h]
    · simp only; rw [if_pos h]
    · simp only; rw [h, if_neg (lt_irrefl _), if_neg (lt_irrefl _)]
  have hi : ¬o.epoch ≤ 2 := by omega
  constructor
  · intro ha hb
    have e : pb.low j = min (max (xval j - g * (o.xold1 j - o.low j)) (xval j - 10 * (o.xmax j - o.xmin j)))
        (xval j - 0.01 * (o.xmax j - o.xmin j)) := by
      show newLow _ _ _ _ _ _ _ = _
      rw [newLow, if_neg hi, hf]
    rw [e, max_eq_left (by linarith), min_eq_left (by linarith)]; ring
  · intro ha hb
    have e : pb.upp j = max (min (xval j + g * (o.upp j - o.xold1 j)) (xval j + 10 * (o.xmax j - o.xmin j)))
        (xval j + 0.01 * (o.xmax j - o.xmin j)) := by
      show newUpp _ _ _ _ _ _ _ = _
      rw [newUpp, if_neg hi, hf]
    rw [e, min_eq_left (by linarith), max_eq_left (by linarith)]; ring

/-- **C45 (start).** In the first two iterations the asymptotes are half the range away. -/
theorem C45_start (o : Obj m n) (xval df0dx : Fin n → ℝ) (fval : Fin m → ℝ) (dfdx : Fin m → Fin n → ℝ)
    (j : Fin n) (hiter : o.epoch ≤ 2) :
    (mmasubProblem o xval df0dx fval dfdx).low j = xval j - (o.xmax j - o.xmin j) / 2 ∧
    (mmasubProblem o xval df0dx fval dfdx).upp j = xval j + (o.xmax j - o.xmin j) / 2 := by
  constructor
  · show newLow _ _ _ _ _ _ _ = _
    rw [newLow, if_pos hiter]; ring
  · show newUpp _ _ _ _ _ _ _ = _
    rw [newUpp, if_pos hiter]; ring

/-! ### C62 -/

theorem pCoef_pos (df r : ℝ) (hr : 0 < r) : 0 < pCoef df r := by
  unfold pCoef
  have h1 : 0 ≤ max df 0 := le_max_right _ _
  have h2 : 0 ≤ max (-df) 0 := le_max_right _ _
  nlinarith

theorem pCoef_sub (df r : ℝ) : pCoef df r - pCoef (-df) r = df := by
  unfold pCoef
  rw [neg_neg]
  rcases le_total df 0 with h | h
  · rw [max_eq_right h, max_eq_left (by linarith : (0 : ℝ) ≤ -df)]; ring
  · rw [max_eq_left h, max_eq_right (by linarith : -df ≤ 0)]; ring

/-- The separable approximation with moving asymptotes of one function. -/
noncomputable def mmaApprox (low upp p q : Fin n → ℝ) (x : Fin n → ℝ) : ℝ :=
  ∑ j, (p j / (upp j - x j) + q j / (x j - low j))

/-- Derivative of a term. -/
theorem hasDerivAt_term (l u p q t : ℝ) (hl : l < t) (hu : t < u) :
    HasDerivAt (fun s => p / (u - s) + q / (s - l)) (p / (u - t) ^ 2 - q / (t - l) ^ 2) t := by
  have h1 : HasDerivAt (fun s => p / (u - s)) (p / (u - t) ^ 2) t := by
    have h0 : HasDerivAt (fun s : ℝ => u - s) (-1) t := (hasDerivAt_id t).const_sub u
    have := (hasDerivAt_const t p).div h0 (by linarith)
    refine this.congr_deriv ?_
    ring
  have h2 : HasDerivAt (fun s => q / (s - l)) (-(q / (t - l) ^ 2)) t := by
    have h0 : HasDerivAt (fun s : ℝ => s - l) 1 t := (hasDerivAt_id t).sub_const l
    have := (hasDerivAt_const t q).div h0 (by linarith)
    refine this.congr_deriv ?_
    ring
  have := h1.add h2
  rwa [← sub_eq_add_neg] at this

/-- **C62.** Under the hypotheses of C45 the subproblem is a convex, first-order exact approximation: all
coefficients are positive; at the current point the approximated constraints (minus the right-hand side
`b`) have the given values; and the partial derivatives of the approximated objective and constraints at
the current point are the given gradients. -/
theorem C62_first_order (o : Obj m n) (xval df0dx : Fin n → ℝ) (fval : Fin m → ℝ) (dfdx : Fin m → Fin n → ℝ)
    (hb : ∀ j, o.xmin j < o.xmax j) :
    let pb := mmasubProblem o xval df0dx fval dfdx
    (∀ j, 0 < pb.p0 j ∧ 0 < pb.q0 j) ∧ (∀ i j, 0 < pb.P i j ∧ 0 < pb.Q i j) ∧
    (∀ i, mmaApprox pb.low pb.upp (pb.P i) (pb.Q i) xval - pb.b i = fval i) ∧
    (∀ j, HasDerivAt (fun t => mmaApprox pb.low pb.upp pb.p0 pb.q0 (Function.update xval j t)) (df0dx j)
      (xval j)) ∧
    (∀ i j, HasDerivAt (fun t => mmaApprox pb.low pb.upp (pb.P i) (pb.Q i) (Function.update xval j t))
      (dfdx i j) (xval j)) := by
  intro pb
  have hl : ∀ j, pb.low j < xval j := fun j => by
    have : pb.low j ≤ xval j - 0.01 * (o.xmax j - o.xmin j) := newLow_lt _ _ _ _ _ _ _ (hb j)
    have := hb j
    linarith
  have hu : ∀ j, xval j < pb.upp j := fun j => by
    have : xval j + 0.01 * (o.xmax j - o.xmin j) ≤ pb.upp j := newUpp_gt _ _ _ _ _ _ _ (hb j)
    have := hb j
    linarith
  have hr : ∀ j, 0 < 1 / max (o.xmax j - o.xmin j) 0.00001 := fun j => by
    apply one_div_pos.2
    exact lt_max_of_lt_left (by have := hb j; linarith)
  have hu2 : ∀ j, 0 < (pb.upp j - xval j) * (pb.upp j - xval j) := fun j =>
    mul_pos (by linarith [hu j]) (by linarith [hu j])
  have hl2 : ∀ j, 0 < (xval j - pb.low j) * (xval j - pb.low j) := fun j =>
    mul_pos (by linarith [hl j]) (by linarith [hl j])
  have key : ∀ (p q : Fin n → ℝ) (df : Fin n → ℝ),
      (∀ j, p j / (pb.upp j - xval j) ^ 2 - q j / (xval j - pb.low j) ^ 2 = df j) →
      ∀ j, HasDerivAt (fun t => mmaApprox pb.low pb.upp p q (Function.update xval j t)) (df j) (xval j) := by
    intro p q df hdf j
    unfold mmaApprox
    have hsum : HasDerivAt (fun t => ∑ k, (p k / (pb.upp k - Function.update xval j t k) +
        q k / (Function.update xval j t k - pb.low k))) (∑ k, if k = j then df j else 0) (xval j) := by
      apply HasDerivAt.fun_sum
      intro k _
      by_cases hk : k = j
      · subst hk
        simp only [Function.update_self, if_true]
        rw [← hdf k]
        exact hasDerivAt_term _ _ _ _ _ (hl k) (hu k)
      · simp only [Function.update_of_ne hk, if_neg hk]
        exact hasDerivAt_const _ _
    rw [Finset.sum_ite_eq' Finset.univ j] at hsum
    simpa using hsum
  refine ⟨fun j => ⟨mul_pos (pCoef_pos _ _ (hr j)) (hu2 j), mul_pos (pCoef_pos _ _ (hr j)) (hl2 j)⟩,
    fun i j => ⟨mul_pos (hu2 j) (pCoef_pos _ _ (hr j)), mul_pos (hl2 j) (pCoef_pos _ _ (hr j))⟩, ?_, ?_, ?_⟩
  · intro i
    have e : pb.b i = ∑ j, pb.P i j * (1 / (pb.upp j - xval j)) + ∑ j, pb.Q i j * (1 / (xval j - pb.low j)) -
      fval i := rfl
    rw [e, mmaApprox, Finset.sum_add_distrib]
    have e1 : ∀ j, pb.P i j / (pb.upp j - xval j) = pb.P i j * (1 / (pb.upp j - xval j)) := fun j => by ring
    have e2 : ∀ j, pb.Q i j / (xval j - pb.low j) = pb.Q i j * (1 / (xval j - pb.low j)) := fun j => by ring
    simp only [e1, e2]
    ring
  · apply key
    intro j
    have e1 : pb.p0 j = pCoef (df0dx j) (1 / max (o.xmax j - o.xmin j) 0.00001) *
      ((pb.upp j - xval j) * (pb.upp j - xval j)) := rfl
    have e2 : pb.q0 j = pCoef (-df0dx j) (1 / max (o.xmax j - o.xmin j) 0.00001) *
      ((xval j - pb.low j) * (xval j - pb.low j)) := rfl
    rw [e1, e2, pow_two, pow_two, mul_div_cancel_right₀ _ (hu2 j).ne', mul_div_cancel_right₀ _ (hl2 j).ne',
      pCoef_sub]
  · intro i
    apply key
    intro j
    have e1 : pb.P i j = (pb.upp j - xval j) * (pb.upp j - xval j) *
      pCoef (dfdx i j) (1 / max (o.xmax j - o.xmin j) 0.00001) := rfl
    have e2 : pb.Q i j = (xval j - pb.low j) * (xval j - pb.low j) *
      pCoef (-dfdx i j) (1 / max (o.xmax j - o.xmin j) 0.00001) := rfl
    rw [e1, e2, pow_two, pow_two, mul_div_cancel_left₀ _ (hu2 j).ne', mul_div_cancel_left₀ _ (hl2 j).ne',
      pCoef_sub]

/-- A variable at its lower bound: `alfa = 0 < beta`. -/
example : let o : Obj 1 1 := ⟨5, fun _ => 0, fun _ => 1, fun _ => 0.1, fun _ => 0.3, fun _ => -7, fun _ => -3, 0.2, 1,
      fun _ => 0, fun _ => 0, fun _ => 0⟩
    let pb := mmasubProblem o (fun _ => 0) (fun _ => 1) (fun _ => 0) (fun _ _ => 1)
    pb.alfa 0 = 0 ∧ pb.beta 0 = 0.009 ∧ pb.upp 0 = 0.01 := by
  simp only [mmasubProblem, newLow, newUpp, alfaOf, betaOf, asyFactor]
  norm_num

end MMA
end JaxFem
