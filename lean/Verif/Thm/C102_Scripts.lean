import Verif.Spec.ForwardMode
import Verif.Thm.C17_Tangent
import Mathlib.Analysis.SpecialFunctions.Sqrt
import Mathlib.Analysis.SpecialFunctions.Trigonometric.Deriv
import Mathlib.Analysis.SpecialFunctions.Trigonometric.Basic

/-!
# C102 (part 2): the derivative rules of the scripts
-/

namespace JaxFem
namespace ForwardMode

open scoped Topology

/-! ### `custom_jvp.py`: helper lemmas -/

theorem implicitResidual_apply (x y : Fin 3 → ℝ) :
    implicitResidual x y = ![y 0 - x 0, 2 * y 1 - x 1, 3 * y 2 - x 2] := by
  funext i
  fin_cases i <;> simp [implicitResidual, Matrix.mulVec_diagonal]

theorem jacfwd_y (x y : Fin 3 → ℝ) :
    jacfwd (fun y => implicitResidual x y) y = Matrix.diagonal ![1, 2, 3] := by
  have h : HasFDerivAt (fun y => implicitResidual x y) (matCLM (Matrix.diagonal ![1, 2, 3])) y :=
    (matCLM (Matrix.diagonal ![1, 2, 3] : Matrix (Fin 3) (Fin 3) ℝ)).hasFDerivAt.sub_const x
  ext i j
  rw [jacfwd, h.fderiv]
  show (Matrix.diagonal ![1, 2, 3] : Matrix (Fin 3) (Fin 3) ℝ).mulVec (Pi.single j 1) i = _
  rw [Matrix.mulVec_single_one]
  rfl

theorem jacfwd_x (x y : Fin 3 → ℝ) : jacfwd (fun x => implicitResidual x y) x = -1 := by
  have h : HasFDerivAt (fun x => implicitResidual x y) (-ContinuousLinearMap.id ℝ (Fin 3 → ℝ)) x :=
    (hasFDerivAt_id x).const_sub _
  ext i j
  rw [jacfwd, h.fderiv]
  show -((Pi.single j 1 : Fin 3 → ℝ) i) = -((1 : Matrix (Fin 3) (Fin 3) ℝ) i j)
  rw [Matrix.one_apply, Pi.single_apply]

theorem solve_diag (b : Fin 3 → ℝ) :
    linalgSolve (Matrix.diagonal ![1, 2, 3]) b = ![b 0, b 1 / 2, b 2 / 3] := by
  have h : (Matrix.diagonal ![1, 2, 3] : Matrix (Fin 3) (Fin 3) ℝ)⁻¹ = Matrix.diagonal ![1, 1 / 2, 1 / 3] := by
    refine Matrix.inv_eq_right_inv ?_
    rw [Matrix.diagonal_mul_diagonal, ← Matrix.diagonal_one]
    congr 1
    funext i
    fin_cases i <;> simp
  rw [linalgSolve, h]
  funext i
  fin_cases i <;> simp [Matrix.mulVec_diagonal] <;> ring

theorem norm2_neg {n : Nat} (x : Fin n → ℝ) : norm2 (-x) = norm2 x := by
  simp [norm2]

theorem norm2_zero {n : Nat} : norm2 (0 : Fin n → ℝ) = 0 := by
  simp [norm2]

theorem residual_zero (x : Fin 3 → ℝ) : implicitResidual x 0 = -x := by
  rw [implicitResidual, Matrix.mulVec_zero, zero_sub]

theorem newtonBody_first (x : Fin 3 → ℝ) :
    newtonBody x (0, implicitResidual x 0, 0) = (1, 0, ![x 0, x 1 / 2, x 2 / 3]) := by
  have h : (0 : Fin 3 → ℝ) + linalgSolve (Matrix.diagonal ![1, 2, 3]) (-implicitResidual x 0) =
      ![x 0, x 1 / 2, x 2 / 3] := by
    rw [zero_add, solve_diag, residual_zero, neg_neg]
  simp only [newtonBody, jacfwd_y]
  rw [h]
  refine Prod.ext rfl (Prod.ext ?_ rfl)
  show implicitResidual x _ = 0
  rw [implicitResidual_apply]
  funext i
  fin_cases i <;> simp <;> ring

theorem newtonSolver_eq (x : Fin 3 → ℝ) (fuel : Nat) :
    newtonSolver x (fuel + 2) = some (if norm2 x > 1e-8 then (1, ![x 0, x 1 / 2, x 2 / 3]) else (0, 0)) := by
  have hz : ¬norm2 (0 : Fin 3 → ℝ) > 1e-8 := by rw [norm2_zero]; norm_num
  rw [newtonSolver, newtonWhile]
  simp only [residual_zero, norm2_neg]
  by_cases h : norm2 x > 1e-8
  · rw [if_pos h, if_pos h, newtonWhile, ← residual_zero, newtonBody_first, if_neg hz]
    rfl
  · rw [if_neg h, if_neg h]
    rfl

theorem continuous_norm2 {n : Nat} : Continuous (norm2 (n := n)) := by
  unfold norm2
  exact Real.continuous_sqrt.comp (continuous_finsetSum _ fun i _ => (continuous_apply i).pow 2)

theorem norm2_eucl (x : Fin 3 → ℝ) : norm2 x = eucl x := by
  rw [norm2, eucl, Fin.sum_univ_three]

/-! ### Property theorems -/

/-- **C102 (`newton_solver`).** For every right hand side the loop ends after at most one step; the residual
of the result has norm at most `1e-8`; and the result is the solution of `A y = x` if `‖x‖ > 1e-8`, and the
initial guess zero otherwise. -/
theorem C102_newton (x : Fin 3 → ℝ) : ∃ (n : Nat) (y : Fin 3 → ℝ),
    (∀ fuel, newtonSolver x (fuel + 2) = some (n, y)) ∧ n ≤ 1 ∧
    eucl (![y 0, 2 * y 1, 3 * y 2] - x) ≤ 1e-8 ∧
    (1e-8 < eucl x → ![y 0, 2 * y 1, 3 * y 2] = x) ∧ (eucl x ≤ 1e-8 → y = 0) := by
  simp only [← norm2_eucl]
  refine ⟨(if norm2 x > 1e-8 then (1, ![x 0, x 1 / 2, x 2 / 3]) else (0, 0)).1,
    (if norm2 x > 1e-8 then (1, ![x 0, x 1 / 2, x 2 / 3]) else (0, 0)).2,
    fun fuel => newtonSolver_eq x fuel, ?_⟩
  by_cases h : norm2 x > 1e-8
  · have e : ![(![x 0, x 1 / 2, x 2 / 3] : Fin 3 → ℝ) 0, 2 * (![x 0, x 1 / 2, x 2 / 3] : Fin 3 → ℝ) 1,
        3 * (![x 0, x 1 / 2, x 2 / 3] : Fin 3 → ℝ) 2] = x := by
      funext i
      fin_cases i <;> simp <;> ring
    simp only [if_pos h]
    refine ⟨le_refl _, ?_, fun _ => e, fun h' => absurd h' (not_le.2 h)⟩
    rw [e, sub_self, norm2_zero]; norm_num
  · simp only [if_neg h]
    refine ⟨Nat.zero_le _, ?_, fun h' => absurd h' h, fun _ => trivial⟩
    have e : ![(0 : Fin 3 → ℝ) 0, 2 * (0 : Fin 3 → ℝ) 1, 3 * (0 : Fin 3 → ℝ) 2] - x = -x := by
      funext i
      fin_cases i <;> simp
    rw [e, norm2_neg]
    exact not_lt.1 h

/-- **C102 (`f_jvp`).** For every `x` and every direction the rule returns the result of the solver and the
solution of `A ẏ = ẋ`. Where `‖x‖ > 1e-8` this is the derivative of what the solver returns; where
`‖x‖ < 1e-8` the solver returns a constant, its derivative is zero, and the rule returns `A⁻¹ ẋ` all the
same. -/
theorem C102_newton_jvp (x : Fin 3 → ℝ) : ∃ Y : (Fin 3 → ℝ) → Fin 3 → ℝ,
    (∀ x' fuel, (newtonSolver x' (fuel + 2)).map Prod.snd = some (Y x')) ∧
    ∃ T : (Fin 3 → ℝ) →L[ℝ] (Fin 3 → ℝ), (∀ v, ![T v 0, 2 * T v 1, 3 * T v 2] = v) ∧
      (∀ v fuel, newtonJvp x v (fuel + 2) = some (Y x, T v)) ∧
      (1e-8 < eucl x → HasFDerivAt Y T x) ∧
      (eucl x < 1e-8 → HasFDerivAt Y (0 : (Fin 3 → ℝ) →L[ℝ] (Fin 3 → ℝ)) x ∧ T ≠ 0) := by
  classical
  simp only [← norm2_eucl]
  set A : Matrix (Fin 3) (Fin 3) ℝ := Matrix.diagonal ![1, 1 / 2, 1 / 3] with hA
  have hAv : ∀ v : Fin 3 → ℝ, matCLM A v = ![v 0, v 1 / 2, v 2 / 3] := by
    intro v
    show A.mulVec v = _
    rw [hA]
    funext i
    fin_cases i <;> simp [Matrix.mulVec_diagonal] <;> ring
  have hT : ∀ v : Fin 3 → ℝ, ![matCLM A v 0, 2 * matCLM A v 1, 3 * matCLM A v 2] = v := by
    intro v
    rw [hAv]
    funext i
    fin_cases i <;> simp <;> ring
  refine ⟨fun x => if norm2 x > 1e-8 then ![x 0, x 1 / 2, x 2 / 3] else 0, ?_, matCLM A, hT, ?_, ?_, ?_⟩
  · intro x' fuel
    rw [newtonSolver_eq]
    by_cases h : norm2 x' > 1e-8
    · simp only [if_pos h, Option.map_some]
    · simp only [if_neg h, Option.map_some]
  · intro v fuel
    rw [newtonJvp, newtonSolver_eq]
    simp only [Option.map_some, jacfwd_x, jacfwd_y, solve_diag, hAv, Matrix.neg_mulVec, Matrix.one_mulVec,
      neg_neg]
    by_cases h : norm2 x > 1e-8
    · simp only [if_pos h]
    · simp only [if_neg h]
  · intro h
    refine (matCLM A).hasFDerivAt.congr_of_eventuallyEq ?_
    filter_upwards [(isOpen_lt continuous_const continuous_norm2).mem_nhds h] with x' hx'
    rw [if_pos hx', hAv]
  · intro h
    refine ⟨(hasFDerivAt_const (0 : Fin 3 → ℝ) x).congr_of_eventuallyEq ?_, ?_⟩
    · filter_upwards [(isOpen_lt continuous_norm2 continuous_const).mem_nhds h] with x' hx'
      rw [if_neg (not_lt.2 (le_of_lt hx'))]
    · intro h0
      have := congrFun (hT (fun _ => 1)) 0
      rw [h0] at this
      simp at this

/-- Both cases occur. -/
example : (1e-8 : ℝ) < eucl ![1, 1, 1] ∧ eucl 0 < 1e-8 := by
  rw [← norm2_eucl, ← norm2_eucl]
  constructor
  · rw [norm2, Real.lt_sqrt (by norm_num)]
    simp [Fin.sum_univ_three]
    norm_num
  · rw [norm2_zero]; norm_num

/-- **C102 (residuals in a file).** After any calls whose last forward pass had the argument `x'`, the
backward pass of the evaluation at `(x, y)` returns the cotangents `(cos x' g y, g sin x)`. They are the cotangents
of `sin(x) y` for every `g` exactly if `cos x' = cos x` or `y = 0`, in particular directly after the forward
pass at `x`. Without a forward pass and without the file it raises. -/
theorem C102_file (ops : List FileOp) (file : Option ℝ) (x y : ℝ) :
    (∀ x', LastForward ops x' →
      (∀ g, fBwd (Real.sin x) y g (fileAfter file ops) = .ok (Real.cos x' * g * y, Real.sin x * g)) ∧
      ((∀ g c, fBwd (Real.sin x) y g (fileAfter file ops) = .ok c →
        Cotangents (fun s t => Real.sin s * t) x y g c) ↔ Real.cos x' = Real.cos x ∨ y = 0)) ∧
    ((∀ x y, FileOp.fwd x y ∉ ops) → ∀ s g, fBwd s y g (fileAfter none ops) = .error .fileNotFound) := by
  have hno : ∀ (b : List FileOp), (∀ x y, FileOp.fwd x y ∉ b) → ∀ f, fileAfter f b = f := by
    intro b
    induction b with
    | nil => intro _ f; rfl
    | cons o b ih =>
      intro h f
      cases o with
      | fwd x y => exact absurd List.mem_cons_self (h x y)
      | bwd s y g => exact ih (fun x y hm => h x y (List.mem_cons_of_mem _ hm)) f
  constructor
  · intro x' hl
    have hlast : fileAfter file ops = some (Real.cos x') := by
      obtain ⟨a, b, y', rfl, hb⟩ := hl
      have happ : ∀ (a : List FileOp) f, fileAfter f (a ++ .fwd x' y' :: b) = some (Real.cos x') := by
        intro a
        induction a with
        | nil => intro f; exact hno b hb _
        | cons o a ih =>
          intro f
          cases o with
          | fwd x y => exact ih _
          | bwd s y g => exact ih _
      exact happ a file
    have hval : ∀ g, fBwd (Real.sin x) y g (fileAfter file ops) =
        .ok (Real.cos x' * g * y, Real.sin x * g) := fun g => by rw [hlast]; rfl
    have hx : ∀ g, HasDerivAt (fun s => g * (Real.sin s * y)) (g * (Real.cos x * y)) x := fun g =>
      ((Real.hasDerivAt_sin x).mul_const y).const_mul g
    refine ⟨hval, ?_, ?_⟩
    · intro h
      have h1 := ((h 1 _ (hval 1)).1).unique (hx 1)
      have h2 : (Real.cos x' - Real.cos x) * y = 0 := by
        simp only [mul_one, one_mul] at h1
        linear_combination h1
      rcases mul_eq_zero.1 h2 with h3 | h3
      · exact .inl (sub_eq_zero.1 h3)
      · exact .inr h3
    · intro h g c hc
      rw [hval g] at hc
      cases hc
      refine ⟨(hx g).congr_deriv ?_, ?_⟩
      · rcases h with h | h
        · show g * (Real.cos x * y) = Real.cos x' * g * y
          rw [h]; ring
        · show g * (Real.cos x * y) = Real.cos x' * g * y
          rw [h]; ring
      · have := ((hasDerivAt_id y).const_mul (Real.sin x)).const_mul g
        exact this.congr_deriv (by show g * (Real.sin x * 1) = Real.sin x * g; ring)
  · intro h s g
    rw [hno ops h]
    rfl

/-- **C102 (nested evaluations).** The gradient of `x ↦ f(f(x, y), z)` takes the file's `cos` of the outer
argument for both factors. For `x = π`, `y = z = 1` the sign is wrong. -/
theorem C102_nested (x y z : ℝ) (file : Option ℝ) :
    gradNested x y z file = .ok (Real.cos (Real.sin x * y) ^ 2 * z * y) ∧
    HasDerivAt (fun s => Real.sin (Real.sin s * y) * z)
      (Real.cos (Real.sin x * y) * (Real.cos x * y) * z) x ∧
    gradNested Real.pi 1 1 file = .ok 1 ∧
    HasDerivAt (fun s => Real.sin (Real.sin s * 1) * 1) (-1) Real.pi := by
  have h1 : ∀ x y z : ℝ, gradNested x y z file = .ok (Real.cos (Real.sin x * y) ^ 2 * z * y) := by
    intro x y z
    simp only [gradNested, fFwd, fBwd]
    congr 1
    ring
  have h2 : ∀ x y z : ℝ, HasDerivAt (fun s => Real.sin (Real.sin s * y) * z)
      (Real.cos (Real.sin x * y) * (Real.cos x * y) * z) x := fun x y z =>
    (((Real.hasDerivAt_sin x).mul_const y).sin).mul_const z
  refine ⟨h1 x y z, h2 x y z, ?_, ?_⟩
  · rw [h1, Real.sin_pi]
    simp
  · exact (h2 Real.pi 1 1).congr_deriv (by rw [Real.sin_pi, Real.cos_pi]; simp)

/-- **C102 (jitted closure over an attribute).** Once the compiled function has been called with the attribute value
`E0`, every sequence of later calls returns `E0`, whatever value is set before; so the derivative with
respect to the argument is zero, not one. The variant with the setter inside the compiled function returns its argument. -/
theorem C102_jit (a : GlobalA) (ha : a.compiled = none) (E0 E : ℝ) (Es : List ℝ) :
    (testFnA E0 a).1 = .ok E0 ∧
    (let s := Es.foldl (fun s E => (testFnA E s).2) (testFnA E0 a).2
     (testFnA E s).1 = .ok E0 ∧ ∀ F : ℝ → ℝ, (∀ e, (testFnA e s).1 = .ok (F e)) → HasDerivAt F 0 E) ∧
    HasDerivAt testFnB 1 E := by
  have h0 : testFnA E0 a = (.ok E0, { E := some E0, compiled := some E0 }) := by
    simp only [testFnA, GlobalA.f, ha]
  have hc : ∀ (Es : List ℝ) (s : GlobalA), s.compiled = some E0 →
      (Es.foldl (fun s E => (testFnA E s).2) s).compiled = some E0 := by
    intro Es
    induction Es with
    | nil => intro s hs; exact hs
    | cons e Es ih =>
      intro s hs
      refine ih _ ?_
      simp only [testFnA, GlobalA.f, hs]
  refine ⟨by rw [h0], ?_, hasDerivAt_id E⟩
  have hs := hc Es (testFnA E0 a).2 (by rw [h0])
  have hv : ∀ e, (testFnA e (Es.foldl (fun s E => (testFnA E s).2) (testFnA E0 a).2)).1 = .ok E0 := by
    intro e
    rw [testFnA, GlobalA.f]
    simp only [hs]
  refine ⟨hv E, ?_⟩
  intro F hF
  have : F = fun _ => E0 := funext fun e => Except.ok.inj ((hF e).symm.trans (hv e))
  rw [this]
  exact hasDerivAt_const E E0

/-- The new object of the script: `test_fn_a(10.)`, then `test_fn_a(20.)`. -/
example : (testFnA 20 (testFnA 10 {}).2).1 = .ok 10 := rfl

/-- **C102 (`safe_sqrt`).** The function is `√x` for positive and zero for other arguments. For `x > 0` forward
and reverse mode return its derivative; for every `x ≤ 0` forward mode returns zero (for `x < 0` this is the
derivative, at zero there is none) and reverse mode NaN. -/
theorem C102_safe_sqrt (x : ℝ) :
    safeSqrt x = .fin (Real.sqrt x) ∧
    (0 < x → ∃ d, HasDerivAt Real.sqrt d x ∧ safeSqrtFwd x = .fin d ∧ safeSqrtRev x = .fin d) ∧
    (x < 0 → HasDerivAt Real.sqrt 0 x) ∧
    (x ≤ 0 → safeSqrtFwd x = .fin 0 ∧ safeSqrtRev x = .nan) := by
  refine ⟨?_, ?_, ?_, ?_⟩
  · rw [safeSqrt]
    split
    · rename_i h
      simp only [Flt.sqrt, if_neg (not_lt.2 (le_of_lt h))]
    · rename_i h
      rw [Real.sqrt_eq_zero_of_nonpos (not_lt.1 h)]
  · intro h
    have hne : Real.sqrt x ≠ 0 := (Real.sqrt_pos.2 h).ne'
    have ht : sqrtTangent x (.fin 1) = .fin (1 / (2 * Real.sqrt x)) := by
      show Flt.mul (.fin 1) (Flt.div (.fin 0.5) (Flt.sqrt Real.sqrt (.fin x))) = _
      simp only [Flt.sqrt, if_neg (not_lt.2 (le_of_lt h)), Flt.div, if_neg hne, Flt.mul]
      congr 1
      field_simp
      norm_num
    refine ⟨1 / (2 * Real.sqrt x), Real.hasDerivAt_sqrt h.ne', ?_, ?_⟩
    · rw [safeSqrtFwd, if_pos h, ht]
    · rw [safeSqrtRev, if_pos h, ht]
  · intro h
    refine (hasDerivAt_const x (0 : ℝ)).congr_of_eventuallyEq ?_
    filter_upwards [gt_mem_nhds h] with t ht
    exact Real.sqrt_eq_zero_of_nonpos (le_of_lt ht)
  · intro h
    refine ⟨by rw [safeSqrtFwd, if_neg (not_lt.2 h)], ?_⟩
    rw [safeSqrtRev, if_neg (not_lt.2 h)]
    show Flt.mul (.fin 0) (Flt.div (.fin 0.5) (Flt.sqrt Real.sqrt (.fin x))) = _
    rcases h.lt_or_eq with h | h
    · simp only [Flt.sqrt, if_pos h, Flt.div, Flt.mul]
    · subst h
      have h5 : (0.5 : ℝ) ≠ 0 := by norm_num
      simp only [Flt.sqrt, lt_self_iff_false, if_false, Real.sqrt_zero, Flt.div, if_true, if_neg h5, Flt.mul]

/-! ### Stacking arrays -/

theorem stackArrays_ok {K : Type} (w : Nat) (l : List (List (List K))) (a : List (List K)) :
    stackArrays w l = .ok a ↔ a = l.flatten ∧ (∀ m ∈ l, ∀ r ∈ m, r.length = w) ∧
      ∃ m, l.head? = some m ∧ (l.map List.length).sum = m.length * l.length := by
  cases l with
  | nil => simp [stackArrays]
  | cons m l =>
    have hall : ((m :: l).flatten.all fun row => row.length == w) = true ↔
        ∀ m' ∈ m :: l, ∀ r ∈ m', r.length = w := by
      rw [List.all_eq_true]
      simp only [List.mem_flatten, beq_iff_eq, forall_exists_index, and_imp]
      exact ⟨fun h m' hm r hr => h r m' hm hr, fun h r m' hm hr => h m' hm r hr⟩
    rw [← hall, stackArrays]
    simp only [List.head?_cons, Option.some.injEq, exists_eq_left', List.length_flatten]
    split
    · rename_i h1
      split
      · rename_i h2
        constructor
        · intro h; cases h; exact ⟨rfl, h1, h2⟩
        · rintro ⟨rfl, -, -⟩; rfl
      · rename_i h2
        constructor
        · intro h; cases h
        · rintro ⟨-, -, h⟩; exact absurd h h2
    · rename_i h1
      constructor
      · intro h; cases h
      · rintro ⟨-, h, -⟩; exact absurd h h1

theorem flatten_line (t : ℝ) (l lDot : List (List (List ℝ)))
    (h : List.Forall₂ (fun m m' => m.length = m'.length) l lDot) :
    (List.zipWith (line t) l lDot).flatten = line t l.flatten lDot.flatten := by
  induction h with
  | nil => rfl
  | cons h1 _ ih =>
    simp only [List.zipWith_cons_cons, List.flatten_cons, ih]
    rw [line, line, line, List.zipWith_append h1]

/-- **C102 (stacking).** The rows of the result are the rows of the arrays in order; the function returns
exactly for lists that are not empty, whose rows have the same length and whose arrays have together as many rows as the
first times the number of arrays. The rule for the tangent is exact: along the line `l + t l̇` (arrays
of the same shapes) the stacked array is `a + t ȧ`. -/
theorem C102_stack (w : Nat) (l : List (List (List ℝ))) :
    (∀ a, stackArrays w l = .ok a ↔ a = l.flatten ∧ (∀ m ∈ l, ∀ r ∈ m, r.length = w) ∧
      ∃ m, l.head? = some m ∧ (l.map List.length).sum = m.length * l.length) ∧
    ∀ (lDot : List (List (List ℝ))) a aDot, stackArraysJvp w l lDot = .ok (a, aDot) →
      List.Forall₂ (fun m m' => m.length = m'.length) l lDot →
      ∀ t, stackArrays w (List.zipWith (line t) l lDot) = .ok (line t a aDot) := by
  refine ⟨fun a => stackArrays_ok w l a, ?_⟩
  intro lDot a aDot h hsh t
  rw [stackArraysJvp] at h
  rcases h1 : stackArrays w l with e | a'
  · rw [h1] at h; cases h
  rcases h2 : stackArrays w lDot with e | b'
  · rw [h1, h2] at h; cases h
  rw [h1, h2] at h
  cases h
  obtain ⟨rfl, hw, m, hm, hl⟩ := (stackArrays_ok w l _).1 h1
  obtain ⟨rfl, hw', m', hm', hl'⟩ := (stackArrays_ok w lDot _).1 h2
  rw [stackArrays_ok]
  refine ⟨(flatten_line t l lDot hsh).symm, ?_, ?_⟩
  · clear h1 h2 hl hl' hm hm'
    induction hsh with
    | nil => simp
    | cons h3 _ ih =>
      intro q hq
      rw [List.zipWith_cons_cons] at hq
      rcases List.mem_cons.1 hq with rfl | hq
      · intro r hr
        obtain ⟨k, hk, rfl⟩ := List.mem_iff_getElem.1 hr
        simp only [line, List.getElem_zipWith, List.length_zipWith]
        rw [hw _ List.mem_cons_self _ (List.getElem_mem _), hw' _ List.mem_cons_self _ (List.getElem_mem _),
          Nat.min_self]
      · exact ih (fun m hm => hw m (List.mem_cons_of_mem _ hm))
          (fun m hm => hw' m (List.mem_cons_of_mem _ hm)) q hq
  · cases hsh with
    | nil => cases hm
    | cons h3 h4 =>
      rename_i c d l1 l2
      obtain rfl : c = m := Option.some.inj hm
      obtain rfl : d = m' := Option.some.inj hm'
      refine ⟨line t c d, rfl, ?_⟩
      have hlen : (line t c d).length = c.length := by
        rw [line, List.length_zipWith, ← h3, Nat.min_self]
      have hll : (List.zipWith (line t) l1 l2).length = l1.length := by
        rw [List.length_zipWith, ← h4.length_eq, Nat.min_self]
      have hmap : ∀ l1 l2 : List (List (List ℝ)), List.Forall₂ (fun m m' => m.length = m'.length) l1 l2 →
          (List.zipWith (line t) l1 l2).map List.length = l1.map List.length := by
        intro l1 l2 h
        induction h with
        | nil => rfl
        | cons h5 _ ih =>
          rw [List.zipWith_cons_cons, List.map_cons, List.map_cons, ih, line, List.length_zipWith, ← h5,
            Nat.min_self]
      rw [hlen, hmap _ _ (.cons h3 h4), hl, List.zipWith_cons_cons, List.length_cons, List.length_cons, hll]

/-- Two arrays with two rows each; arrays with one and with three rows are accepted beside one with two, since only the
total is compared. -/
example : stackArrays 1 [[[1], [2]], [[3], [4]]] = .ok [[1], [2], [3], [4]] ∧
    stackArrays 1 [[[1], [2]], [[3]], [[4], [5], [6]]] = .ok [[1], [2], [3], [4], [5], [6]] ∧
    stackArrays 1 [[[1], [2]], [[3]]] = .error .runtime ∧
    stackArraysJvp 1 [[[1]], [[2]]] [[[5]], [[7]]] = .ok ([[1], [2]], [[5], [7]]) := by
  decide

end ForwardMode
end JaxFem
