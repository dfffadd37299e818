import Mathlib.Algebra.Algebra.Operations
import Mathlib.Algebra.Algebra.Pi
import Mathlib.MeasureTheory.Integral.DominatedConvergence
import Verif.Spec.Quadrature
import Verif.Thm.C69_Complete

/-!
# C113: exactness of the quadrature rules
-/

namespace JaxFem.Quadrature

open scoped BigOperators
open MeasureTheory

/-! ### Linearity -/

theorem quadSum_add (R : Rule) (f g : (Nat → ℝ) → ℝ) : quadSum R (f + g) = quadSum R f + quadSum R g := by
  unfold quadSum
  induction R with
  | nil => simp
  | cons p R ih => rw [List.map_cons, List.sum_cons, ih, Pi.add_apply]; simp only [List.map_cons, List.sum_cons]; ring

theorem quadSum_smul (R : Rule) (c : ℝ) (f : (Nat → ℝ) → ℝ) : quadSum R (c • f) = c * quadSum R f := by
  unfold quadSum
  induction R with
  | nil => simp
  | cons p R ih => rw [List.map_cons, List.sum_cons, ih, Pi.smul_apply, smul_eq_mul]; simp only [List.map_cons, List.sum_cons]; ring

theorem continuous_point1 : Continuous fun x : ℝ => point [x] := by
  refine continuous_pi fun d => ?_
  match d with
  | 0 => exact continuous_id
  | d + 1 => exact continuous_const

theorem continuous_point2 : Continuous fun x : ℝ × ℝ => point [x.1, x.2] := by
  refine continuous_pi fun d => ?_
  match d with
  | 0 => exact continuous_fst
  | 1 => exact continuous_snd
  | d + 2 => exact continuous_const

theorem continuous_point3 : Continuous fun x : (ℝ × ℝ) × ℝ => point [x.1.1, x.1.2, x.2] := by
  refine continuous_pi fun d => ?_
  match d with
  | 0 => exact continuous_fst.comp continuous_fst
  | 1 => exact continuous_snd.comp continuous_fst
  | 2 => exact continuous_snd
  | d + 3 => exact continuous_const

/-- Integral with a variable upper limit. -/
theorem inner_continuous {X : Type} [TopologicalSpace X] {f : X → ℝ → ℝ} (hf : Continuous (Function.uncurry f)) {s : X → ℝ}
    (hs : Continuous s) : Continuous fun x => ∫ t in (0 : ℝ)..s x, f x t :=
  intervalIntegral.continuous_parametric_intervalIntegral_of_continuous hf hs

theorem integral2_add {s : ℝ → ℝ} (hs : Continuous s) {f g : ℝ × ℝ → ℝ} (hf : Continuous f) (hg : Continuous g) :
    ∫ x in (0 : ℝ)..1, ∫ y in (0 : ℝ)..s x, (f (x, y) + g (x, y))
      = (∫ x in (0 : ℝ)..1, ∫ y in (0 : ℝ)..s x, f (x, y)) + ∫ x in (0 : ℝ)..1, ∫ y in (0 : ℝ)..s x, g (x, y) := by
  have e : ∀ x, ∫ y in (0 : ℝ)..s x, (f (x, y) + g (x, y)) = (∫ y in (0 : ℝ)..s x, f (x, y)) + ∫ y in (0 : ℝ)..s x, g (x, y) := fun x =>
    intervalIntegral.integral_add (Continuous.intervalIntegrable (by fun_prop) _ _) (Continuous.intervalIntegrable (by fun_prop) _ _)
  simp only [e]
  exact intervalIntegral.integral_add
    (Continuous.intervalIntegrable (inner_continuous (f := fun x y => f (x, y)) (by simpa [Function.uncurry_def] using hf) hs) _ _)
    (Continuous.intervalIntegrable (inner_continuous (f := fun x y => g (x, y)) (by simpa [Function.uncurry_def] using hg) hs) _ _)

theorem integral3_add {s : ℝ → ℝ} (hs : Continuous s) {r : ℝ × ℝ → ℝ} (hr : Continuous r) {f g : (ℝ × ℝ) × ℝ → ℝ}
    (hf : Continuous f) (hg : Continuous g) :
    ∫ x in (0 : ℝ)..1, ∫ y in (0 : ℝ)..s x, ∫ z in (0 : ℝ)..r (x, y), (f ((x, y), z) + g ((x, y), z))
      = (∫ x in (0 : ℝ)..1, ∫ y in (0 : ℝ)..s x, ∫ z in (0 : ℝ)..r (x, y), f ((x, y), z))
        + ∫ x in (0 : ℝ)..1, ∫ y in (0 : ℝ)..s x, ∫ z in (0 : ℝ)..r (x, y), g ((x, y), z) := by
  have e : ∀ x y, ∫ z in (0 : ℝ)..r (x, y), (f ((x, y), z) + g ((x, y), z))
      = (∫ z in (0 : ℝ)..r (x, y), f ((x, y), z)) + ∫ z in (0 : ℝ)..r (x, y), g ((x, y), z) := fun x y =>
    intervalIntegral.integral_add (Continuous.intervalIntegrable (by fun_prop) _ _) (Continuous.intervalIntegrable (by fun_prop) _ _)
  simp only [e]
  exact integral2_add hs (f := fun p => ∫ z in (0 : ℝ)..r p, f (p, z)) (g := fun p => ∫ z in (0 : ℝ)..r p, g (p, z))
    (inner_continuous (f := fun p z => f (p, z)) (by simpa [Function.uncurry_def] using hf) hr)
    (inner_continuous (f := fun p z => g (p, z)) (by simpa [Function.uncurry_def] using hg) hr)

theorem cellIntegral_add (cell : CellType) {f g : (Nat → ℝ) → ℝ} (hf : Continuous f) (hg : Continuous g) :
    cellIntegral cell (f + g) = cellIntegral cell f + cellIntegral cell g := by
  have h2f := hf.comp continuous_point2
  have h2g := hg.comp continuous_point2
  have h3f := hf.comp continuous_point3
  have h3g := hg.comp continuous_point3
  cases cell with
  | interval =>
    exact intervalIntegral.integral_add (Continuous.intervalIntegrable (hf.comp continuous_point1) _ _)
      (Continuous.intervalIntegrable (hg.comp continuous_point1) _ _)
  | triangle => exact integral2_add (s := fun x => 1 - x) (by fun_prop) h2f h2g
  | quadrilateral => exact integral2_add (s := fun _ => 1) (by fun_prop) h2f h2g
  | tetrahedron => exact integral3_add (s := fun x => 1 - x) (by fun_prop) (r := fun p => 1 - p.1 - p.2) (by fun_prop) h3f h3g
  | hexahedron => exact integral3_add (s := fun _ => 1) (by fun_prop) (r := fun _ => 1) (by fun_prop) h3f h3g

theorem cellIntegral_smul (cell : CellType) (c : ℝ) (f : (Nat → ℝ) → ℝ) : cellIntegral cell (c • f) = c * cellIntegral cell f := by
  cases cell <;> simp [cellIntegral, intervalIntegral.integral_const_mul]

/-- Continuous functions that a rule integrates exactly. -/
def exactSpace (cell : CellType) (R : Rule) : Submodule ℝ ((Nat → ℝ) → ℝ) where
  carrier := {f | Continuous f ∧ Exact cell R f}
  zero_mem' := by
    refine ⟨continuous_const, ?_⟩
    have h1 := quadSum_smul R 0 (0 : (Nat → ℝ) → ℝ)
    have h2 := cellIntegral_smul cell 0 (0 : (Nat → ℝ) → ℝ)
    rw [zero_smul, zero_mul] at h1 h2
    rw [Exact, h1, h2]
  add_mem' := by
    rintro f g ⟨hf, hf'⟩ ⟨hg, hg'⟩
    refine ⟨hf.add hg, ?_⟩
    rw [Exact, quadSum_add, cellIntegral_add cell hf hg, hf', hg']
  smul_mem' := by
    rintro c f ⟨hf, hf'⟩
    refine ⟨hf.const_smul c, ?_⟩
    rw [Exact, quadSum_smul, cellIntegral_smul, hf']

/-! ### Spaces of polynomials -/

/-- Monomial. -/
def mono (i j k : Nat) : (Nat → ℝ) → ℝ := fun x => x 0 ^ i * x 1 ^ j * x 2 ^ k

theorem mono_continuous (i j k : Nat) : Continuous (mono i j k) := by unfold mono; fun_prop

/-- Degree at most `n` in total. -/
def totalSpan (n : Nat) : Submodule ℝ ((Nat → ℝ) → ℝ) := Submodule.span ℝ {f | ∃ i j k, i + j + k ≤ n ∧ f = mono i j k}

/-- Degree at most `n` in each coordinate. -/
def boxSpan (n : Nat) : Submodule ℝ ((Nat → ℝ) → ℝ) :=
  Submodule.span ℝ {f | ∃ i j k, i ≤ n ∧ j ≤ n ∧ k ≤ n ∧ f = mono i j k}

theorem mono_mul (i j k i' j' k' : Nat) : mono i j k * mono i' j' k' = mono (i + i') (j + j') (k + k') := by
  funext x; simp only [Pi.mul_apply, mono]; ring

theorem total_mul {n m : Nat} {f g : (Nat → ℝ) → ℝ} (hf : f ∈ totalSpan n) (hg : g ∈ totalSpan m) : f * g ∈ totalSpan (n + m) := by
  have h := Submodule.mul_mem_mul hf hg
  rw [totalSpan, totalSpan, Submodule.span_mul_span] at h
  refine Submodule.span_mono ?_ h
  rintro _ ⟨a, ⟨i, j, k, h1, rfl⟩, b, ⟨i', j', k', h2, rfl⟩, rfl⟩
  exact ⟨i + i', j + j', k + k', by omega, mono_mul ..⟩

theorem box_mul {n m : Nat} {f g : (Nat → ℝ) → ℝ} (hf : f ∈ boxSpan n) (hg : g ∈ boxSpan m) : f * g ∈ boxSpan (n + m) := by
  have h := Submodule.mul_mem_mul hf hg
  rw [boxSpan, boxSpan, Submodule.span_mul_span] at h
  refine Submodule.span_mono ?_ h
  rintro _ ⟨a, ⟨i, j, k, h1, h2, h3, rfl⟩, b, ⟨i', j', k', h1', h2', h3', rfl⟩, rfl⟩
  exact ⟨i + i', j + j', k + k', by omega, by omega, by omega, mono_mul ..⟩

theorem total_le {n m : Nat} (h : n ≤ m) : totalSpan n ≤ totalSpan m :=
  Submodule.span_mono fun _ ⟨i, j, k, h1, e⟩ => ⟨i, j, k, h1.trans h, e⟩

theorem box_le {n m : Nat} (h : n ≤ m) : boxSpan n ≤ boxSpan m :=
  Submodule.span_mono fun _ ⟨i, j, k, h1, h2, h3, e⟩ => ⟨i, j, k, h1.trans h, h2.trans h, h3.trans h, e⟩

theorem total_const (n : Nat) (c : ℝ) : (fun _ => c) ∈ totalSpan n := by
  have h : mono 0 0 0 ∈ totalSpan n := Submodule.subset_span ⟨0, 0, 0, by omega, rfl⟩
  have := (totalSpan n).smul_mem c h
  refine (congrArg (· ∈ totalSpan n) ?_).mp this
  funext x; simp [mono]

theorem total_coord {d : Nat} (hd : d < 3) : (fun x : Nat → ℝ => x d) ∈ totalSpan 1 := by
  interval_cases d
  · exact Submodule.subset_span ⟨1, 0, 0, by omega, by funext x; simp [mono]⟩
  · exact Submodule.subset_span ⟨0, 1, 0, by omega, by funext x; simp [mono]⟩
  · exact Submodule.subset_span ⟨0, 0, 1, by omega, by funext x; simp [mono]⟩

/-! ### Gauss rules in every direction -/

theorem sum_map_flatMap' {α β : Type} (l : List α) (f : α → List β) (h : β → ℝ) :
    ((l.flatMap f).map h).sum = (l.map fun a => ((f a).map h).sum).sum := by
  induction l with
  | nil => rfl
  | cons a l ih => simp [List.flatMap_cons, ih]

theorem sum_mul_left' {α : Type} (l : List α) (c : ℝ) (f : α → ℝ) : (l.map fun a => c * f a).sum = c * (l.map f).sum := by
  induction l with
  | nil => simp
  | cons a l ih => simp [ih, mul_add]

theorem sum_mul_right' {α : Type} (l : List α) (c : ℝ) (f : α → ℝ) : (l.map fun a => f a * c).sum = (l.map f).sum * c := by
  induction l with
  | nil => simp
  | cons a l ih => simp [ih, add_mul]

theorem integral_pow01 (k : Nat) : ∫ t in (0 : ℝ)..1, t ^ k = 1 / (k + 1) := by simp [integral_pow]

theorem box_exact {m : Nat} {g : List (ℝ × ℝ)} (hg : IsGauss m g) (cell : CellType) (hc : ¬ Simplex cell) {i j k : Nat}
    (hi : i < 2 * m) (hj : j < 2 * m) (hk : k < 2 * m) : Exact cell (productRule g cell) (mono i j k) := by
  have h := hg.2
  unfold Exact quadSum
  cases cell with
  | interval =>
    simp only [productRule, cellIntegral, List.map_map, Function.comp_def, mono, point]
    simp only [List.getD_cons_zero, List.getD_cons_succ, List.getD_nil]
    rw [intervalIntegral.integral_mul_const, intervalIntegral.integral_mul_const, integral_pow01, ← h i hi]
    simp only [← mul_assoc]
    rw [sum_mul_right', sum_mul_right']
  | quadrilateral =>
    simp only [productRule, cellIntegral, sum_map_flatMap', List.map_map, Function.comp_def, mono, point]
    simp only [List.getD_cons_zero, List.getD_cons_succ, List.getD_nil]
    simp only [intervalIntegral.integral_mul_const, intervalIntegral.integral_const_mul, integral_pow01, ← h i hi, ← h j hj]
    have e : ∀ a : ℝ × ℝ, (g.map fun b => a.2 * b.2 * (a.1 ^ i * b.1 ^ j * 0 ^ k)).sum
        = a.2 * a.1 ^ i * ((g.map fun b => b.2 * b.1 ^ j).sum * 0 ^ k) := by
      intro a
      rw [← sum_mul_right', ← sum_mul_left']
      congr 1; refine List.map_congr_left fun b _ => by ring
    simp only [e]
    rw [sum_mul_right']
    ring
  | hexahedron =>
    simp only [productRule, cellIntegral, sum_map_flatMap', List.map_map, Function.comp_def, mono, point]
    simp only [List.getD_cons_zero, List.getD_cons_succ]
    simp only [intervalIntegral.integral_mul_const, intervalIntegral.integral_const_mul, integral_pow01, ← h i hi, ← h j hj, ← h k hk]
    have e : ∀ a b : ℝ × ℝ, (g.map fun c => a.2 * b.2 * c.2 * (a.1 ^ i * b.1 ^ j * c.1 ^ k)).sum
        = a.2 * a.1 ^ i * (b.2 * b.1 ^ j * (g.map fun c => c.2 * c.1 ^ k).sum) := by
      intro a b
      rw [← sum_mul_left', ← sum_mul_left']
      congr 1; refine List.map_congr_left fun c _ => by ring
    simp only [e]
    simp only [sum_mul_left', sum_mul_right']
    ring
  | triangle => exact absurd (Or.inl rfl) hc
  | tetrahedron => exact absurd (Or.inr rfl) hc

/-! ### Simplices -/

theorem integral_poly5 (b c0 c1 c2 c3 c4 c5 : ℝ) :
    ∫ t in (0 : ℝ)..b, (c0 + c1 * t + c2 * t ^ 2 + c3 * t ^ 3 + c4 * t ^ 4 + c5 * t ^ 5)
      = c0 * b + c1 * b ^ 2 / 2 + c2 * b ^ 3 / 3 + c3 * b ^ 4 / 4 + c4 * b ^ 5 / 5 + c5 * b ^ 6 / 6 := by
  have h : ∀ t ∈ Set.uIcc 0 b, HasDerivAt (fun t => c0 * t + c1 * t ^ 2 / 2 + c2 * t ^ 3 / 3 + c3 * t ^ 4 / 4 + c4 * t ^ 5 / 5
      + c5 * t ^ 6 / 6) (c0 + c1 * t + c2 * t ^ 2 + c3 * t ^ 3 + c4 * t ^ 4 + c5 * t ^ 5) t := by
    intro t _
    have hp : ∀ n : Nat, HasDerivAt (fun t : ℝ => t ^ n) (n * t ^ (n - 1)) t := fun n => hasDerivAt_pow n t
    have := ((((((hasDerivAt_id t).const_mul c0).add (((hp 2).const_mul c1).div_const 2)).add (((hp 3).const_mul c2).div_const 3)).add
      (((hp 4).const_mul c3).div_const 4)).add (((hp 5).const_mul c4).div_const 5)).add (((hp 6).const_mul c5).div_const 6)
    refine this.congr_deriv ?_
    norm_num
    ring
  rw [intervalIntegral.integral_eq_sub_of_hasDerivAt h (Continuous.intervalIntegrable (by fun_prop) _ _)]
  ring

/-- Integral of a polynomial that is written in another way. -/
theorem integral_as (f : ℝ → ℝ) (b c0 c1 c2 c3 c4 c5 : ℝ)
    (h : ∀ t, f t = c0 + c1 * t + c2 * t ^ 2 + c3 * t ^ 3 + c4 * t ^ 4 + c5 * t ^ 5) :
    ∫ t in (0 : ℝ)..b, f t = c0 * b + c1 * b ^ 2 / 2 + c2 * b ^ 3 / 3 + c3 * b ^ 4 / 4 + c4 * b ^ 5 / 5 + c5 * b ^ 6 / 6 := by
  rw [← integral_poly5]; exact intervalIntegral.integral_congr fun t _ => h t

/-- Integrals of monomials over the triangle. -/
theorem triangle_mono {i j : Nat} (h : i + j ≤ 2) : cellIntegral .triangle (mono i j 0)
    = if i + j = 0 then 1 / 2 else if i + j = 1 then 1 / 6 else if i = 1 then 1 / 24 else 1 / 12 := by
  have e : cellIntegral .triangle (mono i j 0) = ∫ x in (0 : ℝ)..1, ∫ y in (0 : ℝ)..(1 - x), x ^ i * y ^ j := by
    simp [cellIntegral, mono, point]
  rw [e]
  have hy : ∀ x : ℝ, ∫ y in (0 : ℝ)..(1 - x), x ^ i * y ^ j = x ^ i * ((1 - x) ^ (j + 1) / (j + 1)) := by
    intro x
    rw [intervalIntegral.integral_const_mul, integral_pow]; simp
  simp only [hy]
  have hij : (i = 0 ∧ j = 0) ∨ (i = 1 ∧ j = 0) ∨ (i = 0 ∧ j = 1) ∨ (i = 2 ∧ j = 0) ∨ (i = 1 ∧ j = 1) ∨ (i = 0 ∧ j = 2) := by omega
  rcases hij with ⟨rfl, rfl⟩ | ⟨rfl, rfl⟩ | ⟨rfl, rfl⟩ | ⟨rfl, rfl⟩ | ⟨rfl, rfl⟩ | ⟨rfl, rfl⟩
  · rw [integral_as _ 1 1 (-1) 0 0 0 0 (fun t => by norm_num; ring)]; norm_num
  · rw [integral_as _ 1 0 1 (-1) 0 0 0 (fun t => by norm_num; ring)]; norm_num
  · rw [integral_as _ 1 (1 / 2) (-1) (1 / 2) 0 0 0 (fun t => by norm_num; ring)]; norm_num
  · rw [integral_as _ 1 0 0 1 (-1) 0 0 (fun t => by norm_num; ring)]; norm_num
  · rw [integral_as _ 1 0 (1 / 2) (-1) (1 / 2) 0 0 (fun t => by norm_num; ring)]; norm_num
  · rw [integral_as _ 1 (1 / 3) (-1) 1 (-1 / 3) 0 0 (fun t => by norm_num; ring)]; norm_num

theorem degree2_cases {i j k : Nat} (h : i + j + k ≤ 2) : (i = 0 ∧ j = 0 ∧ k = 0) ∨ (i = 1 ∧ j = 0 ∧ k = 0) ∨ (i = 0 ∧ j = 1 ∧ k = 0) ∨ (i = 0 ∧ j = 0 ∧ k = 1) ∨
      (i = 2 ∧ j = 0 ∧ k = 0) ∨ (i = 0 ∧ j = 2 ∧ k = 0) ∨ (i = 0 ∧ j = 0 ∧ k = 2) ∨ (i = 1 ∧ j = 1 ∧ k = 0) ∨
      (i = 1 ∧ j = 0 ∧ k = 1) ∨ (i = 0 ∧ j = 1 ∧ k = 1) := by
  have hi : i ≤ 2 := by omega
  have hj : j ≤ 2 := by omega
  have hk : k ≤ 2 := by omega
  interval_cases i <;> interval_cases j <;> interval_cases k <;> first | omega | simp

/-- Integrals of monomials over the tetrahedron. -/
theorem tetrahedron_mono {i j k : Nat} (h : i + j + k ≤ 2) : cellIntegral .tetrahedron (mono i j k)
    = if i + j + k = 0 then 1 / 6 else if i + j + k = 1 then 1 / 24 else if i = 1 ∨ j = 1 then 1 / 120 else 1 / 60 := by
  have e : cellIntegral .tetrahedron (mono i j k)
      = ∫ x in (0 : ℝ)..1, ∫ y in (0 : ℝ)..(1 - x), ∫ z in (0 : ℝ)..(1 - x - y), x ^ i * y ^ j * z ^ k := by
    simp [cellIntegral, mono, point]
  rw [e]
  have hz : ∀ x y : ℝ, ∫ z in (0 : ℝ)..(1 - x - y), x ^ i * y ^ j * z ^ k = x ^ i * (y ^ j * ((1 - x - y) ^ (k + 1) / (k + 1))) := by
    intro x y
    rw [intervalIntegral.integral_const_mul, integral_pow]; simp [mul_assoc]
  simp only [hz, intervalIntegral.integral_const_mul]
  have hij := degree2_cases h
  have y00 : ∀ x : ℝ, ∫ y in (0 : ℝ)..(1 - x), y ^ 0 * ((1 - x - y) ^ (0 + 1) / ((0 : Nat) + 1)) = (1 - x) ^ 2 / 2 := fun x => by
    rw [integral_as _ _ (1 - x) (-1) 0 0 0 0 (fun t => by norm_num; ring)]; ring
  have y01 : ∀ x : ℝ, ∫ y in (0 : ℝ)..(1 - x), y ^ 0 * ((1 - x - y) ^ (1 + 1) / ((1 : Nat) + 1)) = (1 - x) ^ 3 / 6 := fun x => by
    rw [integral_as _ _ ((1 - x) ^ 2 / 2) (-(1 - x)) (1 / 2) 0 0 0 (fun t => by norm_num; ring)]; ring
  have y02 : ∀ x : ℝ, ∫ y in (0 : ℝ)..(1 - x), y ^ 0 * ((1 - x - y) ^ (2 + 1) / ((2 : Nat) + 1)) = (1 - x) ^ 4 / 12 := fun x => by
    rw [integral_as _ _ ((1 - x) ^ 3 / 3) (-(1 - x) ^ 2) (1 - x) (-1 / 3) 0 0 (fun t => by norm_num; ring)]; ring
  have y10 : ∀ x : ℝ, ∫ y in (0 : ℝ)..(1 - x), y ^ 1 * ((1 - x - y) ^ (0 + 1) / ((0 : Nat) + 1)) = (1 - x) ^ 3 / 6 := fun x => by
    rw [integral_as _ _ 0 (1 - x) (-1) 0 0 0 (fun t => by norm_num; ring)]; ring
  have y11 : ∀ x : ℝ, ∫ y in (0 : ℝ)..(1 - x), y ^ 1 * ((1 - x - y) ^ (1 + 1) / ((1 : Nat) + 1)) = (1 - x) ^ 4 / 24 := fun x => by
    rw [integral_as _ _ 0 ((1 - x) ^ 2 / 2) (-(1 - x)) (1 / 2) 0 0 (fun t => by norm_num; ring)]; ring
  have y20 : ∀ x : ℝ, ∫ y in (0 : ℝ)..(1 - x), y ^ 2 * ((1 - x - y) ^ (0 + 1) / ((0 : Nat) + 1)) = (1 - x) ^ 4 / 12 := fun x => by
    rw [integral_as _ _ 0 0 (1 - x) (-1) 0 0 (fun t => by norm_num; ring)]; ring
  rcases hij with ⟨rfl, rfl, rfl⟩ | ⟨rfl, rfl, rfl⟩ | ⟨rfl, rfl, rfl⟩ | ⟨rfl, rfl, rfl⟩ | ⟨rfl, rfl, rfl⟩ | ⟨rfl, rfl, rfl⟩ |
    ⟨rfl, rfl, rfl⟩ | ⟨rfl, rfl, rfl⟩ | ⟨rfl, rfl, rfl⟩ | ⟨rfl, rfl, rfl⟩
  · simp only [y00]; rw [integral_as _ 1 (1 / 2) (-1) (1 / 2) 0 0 0 (fun t => by norm_num; ring)]; norm_num
  · simp only [y00]; rw [integral_as _ 1 0 (1 / 2) (-1) (1 / 2) 0 0 (fun t => by norm_num; ring)]; norm_num
  · simp only [y10]; rw [integral_as _ 1 (1 / 6) (-1 / 2) (1 / 2) (-1 / 6) 0 0 (fun t => by norm_num; ring)]; norm_num
  · simp only [y01]; rw [integral_as _ 1 (1 / 6) (-1 / 2) (1 / 2) (-1 / 6) 0 0 (fun t => by norm_num; ring)]; norm_num
  · simp only [y00]; rw [integral_as _ 1 0 0 (1 / 2) (-1) (1 / 2) 0 (fun t => by norm_num; ring)]; norm_num
  · simp only [y20]; rw [integral_as _ 1 (1 / 12) (-1 / 3) (1 / 2) (-1 / 3) (1 / 12) 0 (fun t => by norm_num; ring)]; norm_num
  · simp only [y02]; rw [integral_as _ 1 (1 / 12) (-1 / 3) (1 / 2) (-1 / 3) (1 / 12) 0 (fun t => by norm_num; ring)]; norm_num
  · simp only [y10]; rw [integral_as _ 1 0 (1 / 6) (-1 / 2) (1 / 2) (-1 / 6) 0 (fun t => by norm_num; ring)]; norm_num
  · simp only [y01]; rw [integral_as _ 1 0 (1 / 6) (-1 / 2) (1 / 2) (-1 / 6) 0 (fun t => by norm_num; ring)]; norm_num
  · simp only [y11]; rw [integral_as _ 1 (1 / 24) (-1 / 6) (1 / 4) (-1 / 6) (1 / 24) 0 (fun t => by norm_num; ring)]; norm_num

theorem triangle_default (b : Basix) {order i j : Nat} (ho : order ≤ 2) (h : i + j ≤ max 1 order) :
    Exact .triangle (defaultRule b .triangle order) (mono i j 0) := by
  rw [Exact, triangle_mono (by omega)]
  by_cases h1 : order ≤ 1
  · rw [show defaultRule b .triangle order = [(point [1 / 3, 1 / 3], 1 / 2)] by simp [defaultRule, h1]]
    have hij : (i = 0 ∧ j = 0) ∨ (i = 1 ∧ j = 0) ∨ (i = 0 ∧ j = 1) := by omega
    rcases hij with ⟨rfl, rfl⟩ | ⟨rfl, rfl⟩ | ⟨rfl, rfl⟩ <;> norm_num [quadSum, mono, point]
  · obtain rfl : order = 2 := by omega
    rw [show defaultRule b .triangle 2 = [(point [1 / 6, 1 / 6], 1 / 6), (point [1 / 6, 2 / 3], 1 / 6), (point [2 / 3, 1 / 6], 1 / 6)] by
      simp [defaultRule]]
    have hij : (i = 0 ∧ j = 0) ∨ (i = 1 ∧ j = 0) ∨ (i = 0 ∧ j = 1) ∨ (i = 2 ∧ j = 0) ∨ (i = 1 ∧ j = 1) ∨ (i = 0 ∧ j = 2) := by omega
    rcases hij with ⟨rfl, rfl⟩ | ⟨rfl, rfl⟩ | ⟨rfl, rfl⟩ | ⟨rfl, rfl⟩ | ⟨rfl, rfl⟩ | ⟨rfl, rfl⟩ <;> norm_num [quadSum, mono, point]

theorem tetrahedron_default (b : Basix) {order i j k : Nat} (ho : order ≤ 2) (h : i + j + k ≤ max 1 order) :
    Exact .tetrahedron (defaultRule b .tetrahedron order) (mono i j k) := by
  rw [Exact, tetrahedron_mono (by omega)]
  by_cases h1 : order ≤ 1
  · rw [show defaultRule b .tetrahedron order = [(point [1 / 4, 1 / 4, 1 / 4], 1 / 6)] by simp [defaultRule, h1]]
    have hij : (i = 0 ∧ j = 0 ∧ k = 0) ∨ (i = 1 ∧ j = 0 ∧ k = 0) ∨ (i = 0 ∧ j = 1 ∧ k = 0) ∨ (i = 0 ∧ j = 0 ∧ k = 1) := by omega
    rcases hij with ⟨rfl, rfl, rfl⟩ | ⟨rfl, rfl, rfl⟩ | ⟨rfl, rfl, rfl⟩ | ⟨rfl, rfl, rfl⟩ <;> norm_num [quadSum, mono, point]
  · obtain rfl : order = 2 := by omega
    have h5 : Real.sqrt 5 * Real.sqrt 5 = 5 := Real.mul_self_sqrt (by norm_num)
    have hs : ∀ f, quadSum (defaultRule b .tetrahedron 2) f
        = 1 / 24 * f (point [(5 + 3 * Real.sqrt 5) / 20, (5 - Real.sqrt 5) / 20, (5 - Real.sqrt 5) / 20])
        + (1 / 24 * f (point [(5 - Real.sqrt 5) / 20, (5 + 3 * Real.sqrt 5) / 20, (5 - Real.sqrt 5) / 20])
        + (1 / 24 * f (point [(5 - Real.sqrt 5) / 20, (5 - Real.sqrt 5) / 20, (5 + 3 * Real.sqrt 5) / 20])
        + (1 / 24 * f (point [(5 - Real.sqrt 5) / 20, (5 - Real.sqrt 5) / 20, (5 - Real.sqrt 5) / 20]) + 0))) := fun f => rfl
    rw [hs]
    generalize Real.sqrt 5 = s at h5
    have hm : ∀ x y z : ℝ, mono i j k (point [x, y, z]) = x ^ i * y ^ j * z ^ k := fun _ _ _ => rfl
    simp only [hm]
    have hij := degree2_cases (h.trans (by norm_num) : i + j + k ≤ 2)
    rcases hij with ⟨rfl, rfl, rfl⟩ | ⟨rfl, rfl, rfl⟩ | ⟨rfl, rfl, rfl⟩ | ⟨rfl, rfl, rfl⟩ | ⟨rfl, rfl, rfl⟩ | ⟨rfl, rfl, rfl⟩ |
      ⟨rfl, rfl, rfl⟩ | ⟨rfl, rfl, rfl⟩ | ⟨rfl, rfl, rfl⟩ | ⟨rfl, rfl, rfl⟩
    · norm_num
    · norm_num; ring
    · norm_num; ring
    · norm_num; ring
    · norm_num; linear_combination (1 / 800 : ℝ) * h5
    · norm_num; linear_combination (1 / 800 : ℝ) * h5
    · norm_num; linear_combination (1 / 800 : ℝ) * h5
    · norm_num; linear_combination (-1 / 2400 : ℝ) * h5
    · norm_num; linear_combination (-1 / 2400 : ℝ) * h5
    · norm_num; linear_combination (-1 / 2400 : ℝ) * h5

/-! ### All default rules -/

/-- Degree up to which the default rule is exact. -/
def precision (cell : CellType) (order : Nat) : Nat :=
  match cell with
  | .triangle | .tetrahedron => max 1 order
  | _ => 2 * ((order + 2) / 2) - 1

theorem le_precision (cell : CellType) (order : Nat) : order ≤ precision cell order := by
  cases cell <;> simp only [precision] <;> omega

/-- Polynomials of degree at most `n`: in total on simplices, in each coordinate on the other cells. -/
def flatSpace (cell : CellType) (n : Nat) : Submodule ℝ ((Nat → ℝ) → ℝ) :=
  match cell with
  | .triangle => Submodule.span ℝ {f | ∃ i j, i + j ≤ n ∧ f = mono i j 0}
  | .tetrahedron => totalSpan n
  | _ => boxSpan n

theorem flat_mul (cell : CellType) {n m : Nat} {f g : (Nat → ℝ) → ℝ} (hf : f ∈ flatSpace cell n) (hg : g ∈ flatSpace cell m) :
    f * g ∈ flatSpace cell (n + m) := by
  cases cell with
  | triangle =>
    have h := Submodule.mul_mem_mul hf hg
    rw [flatSpace, flatSpace, Submodule.span_mul_span] at h
    refine Submodule.span_mono ?_ h
    rintro _ ⟨a, ⟨i, j, h1, rfl⟩, b, ⟨i', j', h2, rfl⟩, rfl⟩
    exact ⟨i + i', j + j', by omega, mono_mul ..⟩
  | tetrahedron => exact total_mul hf hg
  | interval => exact box_mul hf hg
  | quadrilateral => exact box_mul hf hg
  | hexahedron => exact box_mul hf hg

theorem flat_le (cell : CellType) {n m : Nat} (h : n ≤ m) : flatSpace cell n ≤ flatSpace cell m := by
  cases cell with
  | triangle => exact Submodule.span_mono fun _ ⟨i, j, h1, e⟩ => ⟨i, j, h1.trans h, e⟩
  | tetrahedron => exact total_le h
  | interval => exact box_le h
  | quadrilateral => exact box_le h
  | hexahedron => exact box_le h

theorem default_exact (b : Basix) {cell : CellType} {order : Nat} (hb : Documented b cell order) {f : (Nat → ℝ) → ℝ} {n : Nat}
    (hn : n ≤ precision cell order) (hf : f ∈ flatSpace cell n) : Exact cell (defaultRule b cell order) f := by
  suffices h : flatSpace cell n ≤ exactSpace cell (defaultRule b cell order) from (h hf).2
  have hbox : ¬ Simplex cell → IsGauss ((order + 2) / 2) (b.gauss ((order + 2) / 2)) →
      defaultRule b cell order = productRule (b.gauss ((order + 2) / 2)) cell → n < 2 * ((order + 2) / 2) →
      boxSpan n ≤ exactSpace cell (defaultRule b cell order) := by
    intro hs hg hd hlt
    refine Submodule.span_le.2 ?_
    rintro _ ⟨i, j, k, hi, hj, hk, rfl⟩
    refine ⟨mono_continuous i j k, ?_⟩
    rw [hd]
    exact box_exact hg cell hs (by omega) (by omega) (by omega)
  cases cell with
  | interval => exact hbox (by simp [Simplex]) hb rfl (by simp only [precision] at hn; omega)
  | quadrilateral => exact hbox (by simp [Simplex]) hb rfl (by simp only [precision] at hn; omega)
  | hexahedron => exact hbox (by simp [Simplex]) hb rfl (by simp only [precision] at hn; omega)
  | triangle =>
    refine Submodule.span_le.2 ?_
    rintro _ ⟨i, j, hij, rfl⟩
    refine ⟨mono_continuous i j 0, ?_⟩
    simp only [precision] at hn
    by_cases ho : order ≤ 2
    · exact triangle_default b ho (by omega)
    · have h := hb (by omega) i j (by omega)
      have e : defaultRule b .triangle order = b.xiaoGimbutas .triangle order := by
        have h1 : ¬ order ≤ 1 := by omega
        have h2 : order ≠ 2 := by omega
        simp [defaultRule, h1, h2]
      rw [e]
      refine (congrArg (Exact _ _) ?_).mp h
      funext x; simp [mono]
  | tetrahedron =>
    refine Submodule.span_le.2 ?_
    rintro _ ⟨i, j, k, hij, rfl⟩
    refine ⟨mono_continuous i j k, ?_⟩
    simp only [precision] at hn
    by_cases ho : order ≤ 2
    · exact tetrahedron_default b ho (by omega)
    · have h := hb (by omega) i j k (by omega)
      have e : defaultRule b .tetrahedron order = b.xiaoGimbutas .tetrahedron order := by
        have h1 : ¬ order ≤ 1 := by omega
        have h2 : order ≠ 2 := by omega
        simp [defaultRule, h1, h2]
      rw [e]
      exact h

end JaxFem.Quadrature
