import Mathlib.Analysis.Calculus.MeanValue
import Mathlib.Analysis.Calculus.Deriv.Pow
import Mathlib.Analysis.Calculus.ContDiff.Operations
import Mathlib.Analysis.Calculus.ContDiff.FTaylorSeries
import Mathlib.Tactic.Linarith
import Verif.Spec.GridPoisson

/-!
# C91: Taylor expansions along lines (helper lemmas)
-/

namespace JaxFem

/-- Integration of a bound. -/
theorem bound_step {g g' : ℝ → ℝ} (hg : ∀ t, HasDerivAt g (g' t) t) (h0 : g 0 = 0) (K : ℝ) (n : Nat)
    (hb : ∀ t, 0 ≤ t → t ≤ 1 → |g' t| ≤ K * t ^ n) (t : ℝ) (ht : 0 ≤ t) (ht' : t ≤ 1) :
    |g t| ≤ K / (n + 1) * t ^ (n + 1) := by
  have hn : (n + 1 : ℝ) ≠ 0 := by positivity
  have := image_norm_le_of_norm_deriv_right_le_deriv_boundary (a := 0) (b := 1) (f := g) (f' := g')
    (B := fun t => K / (n + 1) * t ^ (n + 1)) (B' := fun t => K * t ^ n)
    (fun x _ => (hg x).continuousAt.continuousWithinAt)
    (fun x _ => (hg x).hasDerivWithinAt) (by simp [h0])
    (fun x => by
      have := ((hasDerivAt_pow (n + 1) x).const_mul (K / (n + 1)))
      refine this.congr_deriv ?_
      push_cast
      field_simp)
    (fun x hx => hb x hx.1 hx.2.le) ⟨ht, ht'⟩
  exact this

/-- First-order Taylor expansion. -/
theorem taylor_one {g g1 g2 : ℝ → ℝ} (h1 : ∀ t, HasDerivAt g (g1 t) t) (h2 : ∀ t, HasDerivAt g1 (g2 t) t)
    (K : ℝ) (hb : ∀ t, 0 ≤ t → t ≤ 1 → |g2 t| ≤ K) : |g 1 - g 0 - g1 0| ≤ K / 2 := by
  have s1 := bound_step (g := fun t => g1 t - g1 0) (g' := g2) (fun t => (h2 t).sub_const _) (sub_self _) K 0
    (fun t a b => by simpa using hb t a b)
  have s2 := bound_step (g := fun t => g t - g 0 - g1 0 * t) (g' := fun t => g1 t - g1 0)
    (fun t => by
      have := ((h1 t).sub_const (g 0)).sub ((hasDerivAt_id t).const_mul (g1 0))
      exact this.congr_deriv (by simp)) (by simp) K 1
    (fun t a b => by simpa using s1 t a b) 1 zero_le_one le_rfl
  norm_num at s2
  exact s2

/-- Symmetric second difference. -/
theorem taylor_second {g g1 g2 g3 g4 : ℝ → ℝ} (h1 : ∀ t, HasDerivAt g (g1 t) t)
    (h2 : ∀ t, HasDerivAt g1 (g2 t) t) (h3 : ∀ t, HasDerivAt g2 (g3 t) t)
    (h4 : ∀ t, HasDerivAt g3 (g4 t) t) (K : ℝ) (hb : ∀ t, -1 ≤ t → t ≤ 1 → |g4 t| ≤ K) :
    |g 1 + g (-1) - 2 * g 0 - g2 0| ≤ K / 12 := by
  have neg : ∀ {a b : ℝ → ℝ} (_ : ∀ t, HasDerivAt a (b t) t) (t : ℝ),
      HasDerivAt (fun t => a (-t)) (-b (-t)) t := by
    intro a b hab t
    have := (hab (-t)).comp t (hasDerivAt_neg t)
    exact this.congr_deriv (by simp)
  have s3 := bound_step (g := fun t => g3 t - g3 (-t)) (g' := fun t => g4 t + g4 (-t))
    (fun t => ((h4 t).sub (neg h4 t)).congr_deriv (by simp)) (by simp) (2 * K) 0
    (fun t a b => by
      have := abs_add_le (g4 t) (g4 (-t))
      have := hb t (by linarith) b
      have := hb (-t) (by linarith) (by linarith)
      simp only [pow_zero, mul_one]
      linarith)
  have s2 := bound_step (g := fun t => g2 t + g2 (-t) - 2 * g2 0) (g' := fun t => g3 t - g3 (-t))
    (fun t => by
      have := ((h3 t).add (neg h3 t)).sub_const (2 * g2 0)
      exact this.congr_deriv (by ring)) (by simp; ring) (2 * K) 1
    (fun t a b => by simpa using s3 t a b)
  have s1 := bound_step (g := fun t => g1 t - g1 (-t) - 2 * g2 0 * t)
    (g' := fun t => g2 t + g2 (-t) - 2 * g2 0)
    (fun t => by
      have := ((h2 t).sub (neg h2 t)).sub ((hasDerivAt_id t).const_mul (2 * g2 0))
      exact this.congr_deriv (by simp)) (by simp) (2 * K / 2) 2
    (fun t a b => by
      have := s2 t a b
      norm_num at this ⊢
      exact this)
  have s0 := bound_step (g := fun t => g t + g (-t) - 2 * g 0 - g2 0 * t ^ 2)
    (g' := fun t => g1 t - g1 (-t) - 2 * g2 0 * t)
    (fun t => by
      have := (((h1 t).add (neg h1 t)).sub_const (2 * g 0)).sub ((hasDerivAt_pow 2 t).const_mul (g2 0))
      refine this.congr_deriv ?_
      norm_num
      ring) (by simp; ring) (2 * K / 2 / 3) 3
    (fun t a b => by
      have := s1 t a b
      norm_num at this ⊢
      exact this) 1 zero_le_one le_rfl
  norm_num at s0
  refine s0.trans (le_of_eq ?_)
  ring

variable {E : Type*} [NormedAddCommGroup E] [NormedSpace ℝ E]

/-- Derivatives of a function along a line. -/
theorem line_deriv {u : E → ℝ} {n : WithTop ℕ∞} (hu : ContDiff ℝ n u) (k : Nat) (hk : (k : WithTop ℕ∞) < n)
    (x d : E) (m : Fin k → E) (t : ℝ) :
    HasDerivAt (fun t : ℝ => iteratedFDeriv ℝ k u (x + t • d) m)
      (iteratedFDeriv ℝ (k + 1) u (x + t • d) (Fin.cons d m)) t := by
  have h1 : HasFDerivAt (iteratedFDeriv ℝ k u) (fderiv ℝ (iteratedFDeriv ℝ k u) (x + t • d)) (x + t • d) :=
    (hu.differentiable_iteratedFDeriv hk _).hasFDerivAt
  have h2 : HasDerivAt (fun t : ℝ => x + t • d) d t := by
    simpa using ((hasDerivAt_id t).smul_const d).const_add x
  have h3 := h1.comp_hasDerivAt t h2
  have h4 := (ContinuousMultilinearMap.apply ℝ (fun _ : Fin k => E) ℝ m).hasFDerivAt.comp_hasDerivAt t h3
  exact h4

theorem line_bound {u : E → ℝ} (k : Nat) (y : E) (m : Fin k → E) (M c : ℝ)
    (hM : ‖iteratedFDeriv ℝ k u y‖ ≤ M) (hm : ∏ i, ‖m i‖ ≤ c) (hM0 : 0 ≤ M) :
    |iteratedFDeriv ℝ k u y m| ≤ M * c := by
  rw [← Real.norm_eq_abs]
  refine (ContinuousMultilinearMap.le_opNorm _ _).trans ?_
  exact mul_le_mul hM hm (Finset.prod_nonneg fun _ _ => norm_nonneg _) hM0

omit [NormedAddCommGroup E] [NormedSpace ℝ E] in
theorem cons_const {k : Nat} (d : E) : (Fin.cons d (fun _ : Fin k => d) : Fin (k + 1) → E) = fun _ => d := by
  funext i
  refine Fin.cases ?_ (fun j => ?_) i <;> simp

/-- Second difference of a `C⁴` function along a line. -/
theorem second_difference {u : E → ℝ} (hu : ContDiff ℝ 4 u) (x d : E) (M : ℝ) (hM0 : 0 ≤ M)
    (hM : ∀ t : ℝ, -1 ≤ t → t ≤ 1 → ‖iteratedFDeriv ℝ 4 u (x + t • d)‖ ≤ M) :
    |u (x + d) + u (x - d) - 2 * u x - iteratedFDeriv ℝ 2 u x (fun _ => d)| ≤ M * ‖d‖ ^ 4 / 12 := by
  have hd : ∀ k : Nat, (k : WithTop ℕ∞) < 4 → ∀ t : ℝ,
      HasDerivAt (fun t : ℝ => iteratedFDeriv ℝ k u (x + t • d) fun _ => d)
        (iteratedFDeriv ℝ (k + 1) u (x + t • d) fun _ => d) t := by
    intro k hk t
    have := line_deriv hu k hk x d (fun _ => d) t
    rwa [cons_const] at this
  have h := taylor_second (hd 0 (by norm_num)) (hd 1 (by norm_num)) (hd 2 (by norm_num))
    (hd 3 (by norm_num)) (M * ‖d‖ ^ 4)
    (fun t a b => line_bound 4 _ _ M _ (hM t a b) (by simp) hM0)
  simpa [sub_eq_add_neg] using h

/-- First-order expansion of a second derivative of a `C⁴` function. -/
theorem second_derivative_expand {u : E → ℝ} (hu : ContDiff ℝ 4 u) (x d e : E) (M : ℝ) (hM0 : 0 ≤ M)
    (he : ‖e‖ ≤ 1) (hM : ∀ t : ℝ, 0 ≤ t → t ≤ 1 → ‖iteratedFDeriv ℝ 4 u (x + t • d)‖ ≤ M) :
    |iteratedFDeriv ℝ 2 u (x + d) (fun _ => e) - iteratedFDeriv ℝ 2 u x (fun _ => e)
      - iteratedFDeriv ℝ 3 u x (Fin.cons d fun _ => e)| ≤ M * ‖d‖ ^ 2 / 2 := by
  have h := taylor_one (fun t => line_deriv hu 2 (by norm_num) x d (fun _ => e) t)
    (fun t => line_deriv hu 3 (by norm_num) x d (Fin.cons d fun _ => e) t) (M * ‖d‖ ^ 2)
    (fun t a b => line_bound 4 _ _ M _ (hM t a b) (by
      rw [Fin.prod_univ_succ, Fin.prod_univ_succ]
      simp only [Fin.cons_zero, Fin.cons_succ, Finset.prod_const, Finset.card_univ, Fintype.card_fin]
      have : ‖e‖ ^ 2 ≤ 1 := pow_le_one₀ (norm_nonneg _) he
      nlinarith [mul_le_of_le_one_right (mul_nonneg (norm_nonneg d) (norm_nonneg d)) this]) hM0)
  simpa using h

end JaxFem
