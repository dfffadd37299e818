import Verif.Thm.Coupled

/-!
# Helper lemmas for fields of several variables: linearity, integrals, testing
-/

namespace JaxFem

variable {dim : Nat}

namespace CVar

variable (v : CVar dim)

theorem gradAt_sub (u w : Nat → Nat → ℝ) (e q c : Nat) (j : Fin dim) :
    v.gradAt (fun n c => u n c - w n c) e q c j = v.gradAt u e q c j - v.gradAt w e q c j := by
  simp only [gradAt_eq, ← Finset.sum_sub_distrib, sub_mul]

theorem gradAt_neg (u : Nat → Nat → ℝ) (e q c : Nat) (j : Fin dim) :
    v.gradAt (fun n c => - u n c) e q c j = - v.gradAt u e q c j := by
  simp only [gradAt_eq, ← Finset.sum_neg_distrib, neg_mul]

theorem gradAt_smul (k : ℝ) (u : Nat → Nat → ℝ) (e q c : Nat) (j : Fin dim) :
    v.gradAt (fun n c => k * u n c) e q c j = k * v.gradAt u e q c j := by
  simp only [gradAt_eq, Finset.mul_sum, mul_assoc]

theorem valueAt_sub (u w : Nat → Nat → ℝ) (e q c : Nat) :
    v.valueAt (fun n c => u n c - w n c) e q c = v.valueAt u e q c - v.valueAt w e q c := by
  simp only [valueAt, ← Finset.sum_sub_distrib, mul_sub]

theorem valueAt_neg (u : Nat → Nat → ℝ) (e q c : Nat) :
    v.valueAt (fun n c => - u n c) e q c = - v.valueAt u e q c := by
  simp only [valueAt, ← Finset.sum_neg_distrib, mul_neg]

theorem valueAt_smul (k : ℝ) (u : Nat → Nat → ℝ) (e q c : Nat) :
    v.valueAt (fun n c => k * u n c) e q c = k * v.valueAt u e q c := by
  simp only [valueAt, Finset.mul_sum]
  exact Finset.sum_congr rfl fun a _ => by ring

theorem integral_congr {f g : Nat → Nat → ℝ}
    (h : ∀ e < v.cells.length, ∀ q < v.nq, f e q = g e q) : v.integral f = v.integral g :=
  Finset.sum_congr rfl fun e he => Finset.sum_congr rfl fun q hq => by
    rw [h e (Finset.mem_range.1 he) q (Finset.mem_range.1 hq)]

theorem integral_add (f g : Nat → Nat → ℝ) :
    v.integral (fun e q => f e q + g e q) = v.integral f + v.integral g := by
  simp only [integral, add_mul, Finset.sum_add_distrib]

theorem integral_sub (f g : Nat → Nat → ℝ) :
    v.integral (fun e q => f e q - g e q) = v.integral f - v.integral g := by
  simp only [integral, sub_mul, Finset.sum_sub_distrib]

theorem integral_smul (k : ℝ) (f : Nat → Nat → ℝ) :
    v.integral (fun e q => k * f e q) = k * v.integral f := by
  simp only [integral, Finset.mul_sum, mul_assoc]

theorem integral_nonneg (hp : v.Positive) (f : Nat → Nat → ℝ)
    (h : ∀ e < v.cells.length, ∀ q < v.nq, 0 ≤ f e q) : 0 ≤ v.integral f :=
  Finset.sum_nonneg fun e he => Finset.sum_nonneg fun q hq =>
    mul_nonneg (h e (Finset.mem_range.1 he) q (Finset.mem_range.1 hq))
      (hp e (Finset.mem_range.1 he) q (Finset.mem_range.1 hq)).le

theorem integral_eq_zero (hp : v.Positive) (f : Nat → Nat → ℝ)
    (h : ∀ e < v.cells.length, ∀ q < v.nq, 0 ≤ f e q) (h0 : v.integral f = 0) (e : Nat)
    (he : e < v.cells.length) (q : Nat) (hq : q < v.nq) : f e q = 0 := by
  have nn : ∀ e ∈ Finset.range v.cells.length, ∀ q ∈ Finset.range v.nq, 0 ≤ f e q * v.measure e q :=
    fun e he q hq => mul_nonneg (h e (Finset.mem_range.1 he) q (Finset.mem_range.1 hq))
      (hp e (Finset.mem_range.1 he) q (Finset.mem_range.1 hq)).le
  have h1 := (Finset.sum_eq_zero_iff_of_nonneg fun e he => Finset.sum_nonneg (nn e he)).1 h0 e
    (Finset.mem_range.2 he)
  have h2 := (Finset.sum_eq_zero_iff_of_nonneg (nn e (Finset.mem_range.2 he))).1 h1 q
    (Finset.mem_range.2 hq)
  exact (mul_eq_zero.1 h2).resolve_right (hp e he q hq).ne'

theorem integral_same (w : CVar dim) (hc : v.cells.length = w.cells.length) (hq : v.nq = w.nq)
    (hm : SameMeasure v w) (f : Nat → Nat → ℝ) : w.integral f = v.integral f := by
  rw [integral, integral, ← hc, ← hq]
  exact Finset.sum_congr rfl fun e he => Finset.sum_congr rfl fun q hq => by
    rw [hm e (Finset.mem_range.1 he) q (Finset.mem_range.1 hq)]

end CVar

/-- A residual that vanishes at the free degrees of freedom, tested with a field that vanishes at the
others. -/
theorem tested_zero (vars : List (CVar dim)) (D : Nat → Nat → Nat → Prop) (R : List (List (List ℝ)))
    (h : FreeZero vars D R) (w : Nat → Nat → Nat → ℝ)
    (hw : ∀ i (hi : i < vars.length), ∀ n < vars[i].numTotalNodes, ∀ c < vars[i].vec,
      D i n c → w i n c = 0) : tested vars R w = 0 := by
  refine Finset.sum_eq_zero fun i _ => Finset.sum_eq_zero fun n hn => Finset.sum_eq_zero fun c hc => ?_
  by_cases hd : D i n c
  · rw [hw i i.2 n (Finset.mem_range.1 hn) c (Finset.mem_range.1 hc) hd, zero_mul]
  · rw [h i i.2 n (Finset.mem_range.1 hn) c (Finset.mem_range.1 hc) hd, mul_zero]

theorem freeZero_of_tested (vars : List (CVar dim)) (R : List (List (List ℝ)))
    (h : ∀ w, tested vars R w = 0) : FreeZero vars (fun _ _ _ => False) R := by
  intro i hi n hn c hc _
  have := h (fun i' n' c' => if i' = i ∧ n' = n ∧ c' = c then 1 else 0)
  rw [tested, Finset.sum_eq_single ⟨i, hi⟩, Finset.sum_eq_single n, Finset.sum_eq_single c] at this
  · simpa using this
  · intro c' _ h'
    simp [h']
  · intro h'
    exact absurd (Finset.mem_range.2 hc) h'
  · intro n' _ h'
    exact Finset.sum_eq_zero fun c' _ => by simp [h']
  · intro h'
    exact absurd (Finset.mem_range.2 hn) h'
  · intro i' _ h'
    have : (i' : Nat) ≠ i := fun e => h' (Fin.ext e)
    exact Finset.sum_eq_zero fun n' _ => Finset.sum_eq_zero fun c' _ => by simp [this]
  · intro h'
    exact absurd (Finset.mem_univ _) h'

theorem hasShapes_one (v : CVar dim) (f : Nat → Nat → ℝ) :
    HasShapes (cellShapes ([v].map CVar.fe)) [mk2 v.nn v.vec f] :=
  ⟨_, _, rfl, mk2_length _ _ _, mk2_row _ _ _, rfl⟩

theorem hasShapes_two (v w : CVar dim) (f g : Nat → Nat → ℝ) :
    HasShapes (cellShapes ([v, w].map CVar.fe)) [mk2 v.nn v.vec f, mk2 w.nn w.vec g] :=
  ⟨_, _, rfl, mk2_length _ _ _, mk2_row _ _ _, _, _, rfl, mk2_length _ _ _, mk2_row _ _ _, rfl⟩

end JaxFem
