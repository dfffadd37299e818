import Verif.Thm.C113_Exact

/-!
# C113: the element functions and their gradients as polynomials
-/

namespace JaxFem.Quadrature

open scoped BigOperators

/-! ### Products of functions of one coordinate -/

/-- Polynomial of degree at most `n` in one variable. -/
def Deg (n : Nat) (f : ℝ → ℝ) : Prop := ∃ p : Nat → ℝ, ∀ t, f t = ∑ i ∈ Finset.range (n + 1), p i * t ^ i

theorem box_prod {n : Nat} {f g h : ℝ → ℝ} (hf : Deg n f) (hg : Deg n g) (hh : Deg n h) :
    (fun x : Nat → ℝ => f (x 0) * g (x 1) * h (x 2)) ∈ boxSpan n := by
  obtain ⟨p, hp⟩ := hf
  obtain ⟨q, hq⟩ := hg
  obtain ⟨r, hr⟩ := hh
  have e : (fun x : Nat → ℝ => f (x 0) * g (x 1) * h (x 2)) = ∑ i ∈ Finset.range (n + 1), ∑ j ∈ Finset.range (n + 1),
      ∑ k ∈ Finset.range (n + 1), (p i * q j * r k) • mono i j k := by
    funext x
    simp only [Finset.sum_apply, Pi.smul_apply, smul_eq_mul, mono]
    rw [hp, hq, hr, Finset.sum_mul_sum, Finset.sum_mul]
    refine Finset.sum_congr rfl fun i _ => ?_
    rw [Finset.sum_mul_sum]
    refine Finset.sum_congr rfl fun j _ => Finset.sum_congr rfl fun k _ => by ring
  rw [e]
  refine Submodule.sum_mem _ fun i hi => Submodule.sum_mem _ fun j hj => Submodule.sum_mem _ fun k hk => Submodule.smul_mem _ _ ?_
  rw [Finset.mem_range] at hi hj hk
  exact Submodule.subset_span ⟨i, j, k, by omega, by omega, by omega, rfl⟩

theorem Deg.of1 {f : ℝ → ℝ} (n : Nat) (hn : 1 ≤ n) (a b : ℝ) (h : ∀ t, f t = a + b * t) : Deg n f := by
  refine ⟨fun i => [a, b].getD i 0, fun t => ?_⟩
  obtain ⟨m, rfl⟩ : ∃ m, n = m + 1 := ⟨n - 1, by omega⟩
  rw [Finset.sum_range_succ', Finset.sum_range_succ', Finset.sum_eq_zero (fun i _ => by simp), h]
  simp; ring

theorem Deg.of2 {f : ℝ → ℝ} (a b c : ℝ) (h : ∀ t, f t = a + b * t + c * t ^ 2) : Deg 2 f := by
  refine ⟨fun i => [a, b, c].getD i 0, fun t => ?_⟩
  simp [Finset.sum_range_succ, h]

theorem Deg.one (n : Nat) : Deg n fun _ => 1 := by
  refine ⟨fun i => if i = 0 then 1 else 0, fun t => ?_⟩
  simp

theorem lag1_deg {deg : Nat} (hd : deg = 1 ∨ deg = 2) (pos : Nat) : Deg deg (fun t => lag1 deg pos t) ∧ Deg deg fun t => dlag1 deg pos t := by
  rcases hd with rfl | rfl
  · constructor
    · by_cases h0 : pos = 0
      · exact Deg.of1 1 le_rfl 1 (-1) fun t => by simp [lag1, h0]; ring
      · by_cases h2 : pos = 2
        · exact Deg.of1 1 le_rfl 0 1 fun t => by simp [lag1, h2]
        · exact Deg.of1 1 le_rfl 0 0 fun t => by simp [lag1, h0, h2]
    · by_cases h0 : pos = 0
      · exact Deg.of1 1 le_rfl (-1) 0 fun t => by simp [dlag1, h0]
      · by_cases h2 : pos = 2
        · exact Deg.of1 1 le_rfl 1 0 fun t => by simp [dlag1, h2]
        · exact Deg.of1 1 le_rfl 0 0 fun t => by simp [dlag1, h0, h2]
  · constructor
    · by_cases h0 : pos = 0
      · exact Deg.of2 1 (-3) 2 fun t => by simp [lag1, h0]; ring
      · by_cases h1 : pos = 1
        · exact Deg.of2 0 4 (-4) fun t => by simp [lag1, h1]; ring
        · by_cases h2 : pos = 2
          · exact Deg.of2 0 (-1) 2 fun t => by simp [lag1, h2]; ring
          · exact Deg.of2 0 0 0 fun t => by simp [lag1, h0, h1, h2]
    · by_cases h0 : pos = 0
      · exact Deg.of2 (-3) 4 0 fun t => by simp [dlag1, h0]; ring
      · by_cases h1 : pos = 1
        · exact Deg.of2 4 (-8) 0 fun t => by simp [dlag1, h1]; ring
        · by_cases h2 : pos = 2
          · exact Deg.of2 (-1) 4 0 fun t => by simp [dlag1, h2]; ring
          · exact Deg.of2 0 0 0 fun t => by simp [dlag1, h0, h1, h2]

theorem ser1_deg (pos : Nat) : Deg 2 (fun t => ser1 pos t) ∧ Deg 2 fun t => dser1 pos t := by
  constructor
  · by_cases h0 : pos = 0
    · exact Deg.of2 1 (-1) 0 fun t => by simp [ser1, h0]; ring
    · by_cases h1 : pos = 1
      · exact Deg.of2 0 6 (-6) fun t => by simp [ser1, h1]; ring
      · by_cases h2 : pos = 2
        · exact Deg.of2 0 1 0 fun t => by simp [ser1, h2]
        · exact Deg.of2 0 0 0 fun t => by simp [ser1, h0, h1, h2]
  · by_cases h0 : pos = 0
    · exact Deg.of2 (-1) 0 0 fun t => by simp [dser1, h0]
    · by_cases h1 : pos = 1
      · exact Deg.of2 6 (-12) 0 fun t => by simp [dser1, h1]; ring
      · by_cases h2 : pos = 2
        · exact Deg.of2 1 0 0 fun t => by simp [dser1, h2]
        · exact Deg.of2 0 0 0 fun t => by simp [dser1, h0, h1, h2]

theorem ser1_away_deg {pos : Nat} (h1 : pos ≠ 1) : Deg 2 (fun t => ser1 pos t * away pos t) ∧ Deg 2 fun t => dser1 pos t * away pos t := by
  constructor
  · by_cases h0 : pos = 0
    · exact Deg.of2 0 1 (-1) fun t => by simp [ser1, away, h0]; ring
    · by_cases h2 : pos = 2
      · exact Deg.of2 0 1 (-1) fun t => by simp [ser1, away, h2]; ring
      · exact Deg.of2 0 0 0 fun t => by simp [ser1, h0, h1, h2]
  · by_cases h0 : pos = 0
    · exact Deg.of2 0 (-1) 0 fun t => by simp [dser1, away, h0]
    · by_cases h2 : pos = 2
      · exact Deg.of2 1 (-1) 0 fun t => by simp [dser1, away, h2]; ring
      · exact Deg.of2 0 0 0 fun t => by simp [dser1, h0, h1, h2]

theorem mem_of_eq {S : Submodule ℝ ((Nat → ℝ) → ℝ)} {f g : (Nat → ℝ) → ℝ} (hg : g ∈ S) (h : ∀ x, f x = g x) : f ∈ S := by
  rwa [show f = g from funext h]

theorem lagrange_box {cell : CellType} (hc : ¬ Simplex cell) {deg : Nat} (hd : deg = 1 ∨ deg = 2) (pos : List Nat) :
    (fun x : Nat → ℝ => lagrangeFn cell deg pos x) ∈ boxSpan deg ∧ ∀ d, (fun x : Nat → ℝ => lagrangeGrad cell deg pos x d) ∈ boxSpan deg := by
  have h1 := fun p => (lag1_deg hd p).1
  have h2 := fun p => (lag1_deg hd p).2
  have ho := Deg.one deg
  have hz : (fun _ : Nat → ℝ => (0 : ℝ)) ∈ boxSpan deg := (boxSpan deg).zero_mem
  cases cell with
  | interval =>
    refine ⟨mem_of_eq (box_prod (h1 (pos.getD 0 0)) ho ho) fun x => by simp [lagrangeFn], fun d => ?_⟩
    by_cases e0 : d = 0
    · exact mem_of_eq (box_prod (h2 (pos.getD 0 0)) ho ho) fun x => by simp [lagrangeGrad, e0]
    · exact mem_of_eq hz fun x => by simp [lagrangeGrad, e0]
  | quadrilateral =>
    refine ⟨mem_of_eq (box_prod (h1 (pos.getD 0 0)) (h1 (pos.getD 1 0)) ho) fun x => by simp [lagrangeFn], fun d => ?_⟩
    by_cases e0 : d = 0
    · exact mem_of_eq (box_prod (h2 (pos.getD 0 0)) (h1 (pos.getD 1 0)) ho) fun x => by simp [lagrangeGrad, e0]
    by_cases e1 : d = 1
    · exact mem_of_eq (box_prod (h1 (pos.getD 0 0)) (h2 (pos.getD 1 0)) ho) fun x => by simp [lagrangeGrad, e1]
    · exact mem_of_eq hz fun x => by simp [lagrangeGrad, e0, e1]
  | hexahedron =>
    refine ⟨mem_of_eq (box_prod (h1 (pos.getD 0 0)) (h1 (pos.getD 1 0)) (h1 (pos.getD 2 0))) fun x => by simp [lagrangeFn], fun d => ?_⟩
    by_cases e0 : d = 0
    · exact mem_of_eq (box_prod (h2 (pos.getD 0 0)) (h1 (pos.getD 1 0)) (h1 (pos.getD 2 0))) fun x => by simp [lagrangeGrad, e0]
    by_cases e1 : d = 1
    · exact mem_of_eq (box_prod (h1 (pos.getD 0 0)) (h2 (pos.getD 1 0)) (h1 (pos.getD 2 0))) fun x => by simp [lagrangeGrad, e1]
    by_cases e2 : d = 2
    · exact mem_of_eq (box_prod (h1 (pos.getD 0 0)) (h1 (pos.getD 1 0)) (h2 (pos.getD 2 0))) fun x => by simp [lagrangeGrad, e2]
    · exact mem_of_eq hz fun x => by simp [lagrangeGrad, e0, e1, e2]
  | triangle => exact absurd (Or.inl rfl) hc
  | tetrahedron => exact absurd (Or.inr rfl) hc

theorem serendipity_box (cell : CellType) (pos : List Nat) (hp : 1 ∈ pos ∨ (pos.getD 0 0 ≠ 1 ∧ pos.getD 1 0 ≠ 1 ∧ pos.getD 2 0 ≠ 1)) :
    (fun x : Nat → ℝ => serendipityFn cell pos x) ∈ boxSpan 2 ∧ ∀ d, (fun x : Nat → ℝ => serendipityGrad cell pos x d) ∈ boxSpan 2 := by
  have h1 := fun p => (ser1_deg p).1
  have h2 := fun p => (ser1_deg p).2
  have ho := Deg.one 2
  have hz : (fun _ : Nat → ℝ => (0 : ℝ)) ∈ boxSpan 2 := (boxSpan 2).zero_mem
  by_cases hm : 1 ∈ pos
  · cases cell with
    | quadrilateral =>
      refine ⟨mem_of_eq (box_prod (h1 (pos.getD 0 0)) (h1 (pos.getD 1 0)) ho) fun x => by simp [serendipityFn, hm], fun d => ?_⟩
      by_cases e0 : d = 0
      · exact mem_of_eq (box_prod (h2 (pos.getD 0 0)) (h1 (pos.getD 1 0)) ho) fun x => by simp [serendipityGrad, e0, hm]
      by_cases e1 : d = 1
      · exact mem_of_eq (box_prod (h1 (pos.getD 0 0)) (h2 (pos.getD 1 0)) ho) fun x => by simp [serendipityGrad, e1, hm]
      · exact mem_of_eq hz fun x => by simp [serendipityGrad, e0, e1]
    | hexahedron =>
      refine ⟨mem_of_eq (box_prod (h1 (pos.getD 0 0)) (h1 (pos.getD 1 0)) (h1 (pos.getD 2 0))) fun x => by simp [serendipityFn, hm],
        fun d => ?_⟩
      by_cases e0 : d = 0
      · exact mem_of_eq (box_prod (h2 (pos.getD 0 0)) (h1 (pos.getD 1 0)) (h1 (pos.getD 2 0))) fun x => by simp [serendipityGrad, e0, hm]
      by_cases e1 : d = 1
      · exact mem_of_eq (box_prod (h1 (pos.getD 0 0)) (h2 (pos.getD 1 0)) (h1 (pos.getD 2 0))) fun x => by simp [serendipityGrad, e1, hm]
      by_cases e2 : d = 2
      · exact mem_of_eq (box_prod (h1 (pos.getD 0 0)) (h1 (pos.getD 1 0)) (h2 (pos.getD 2 0))) fun x => by simp [serendipityGrad, e2, hm]
      · exact mem_of_eq hz fun x => by simp [serendipityGrad, e0, e1, e2]
    | interval => exact ⟨mem_of_eq hz fun x => by simp [serendipityFn], fun d => mem_of_eq hz fun x => by simp [serendipityGrad]⟩
    | triangle => exact ⟨mem_of_eq hz fun x => by simp [serendipityFn], fun d => mem_of_eq hz fun x => by simp [serendipityGrad]⟩
    | tetrahedron => exact ⟨mem_of_eq hz fun x => by simp [serendipityFn], fun d => mem_of_eq hz fun x => by simp [serendipityGrad]⟩
  · obtain ⟨ha, hb, hc⟩ := hp.resolve_left hm
    have a1 := fun {p} (h : p ≠ 1) => (ser1_away_deg h).1
    have a2 := fun {p} (h : p ≠ 1) => (ser1_away_deg h).2
    cases cell with
    | quadrilateral =>
      refine ⟨?_, fun d => ?_⟩
      · refine mem_of_eq ((boxSpan 2).sub_mem ((boxSpan 2).sub_mem (box_prod (h1 (pos.getD 0 0)) (h1 (pos.getD 1 0)) ho)
          ((boxSpan 2).smul_mem 3 (box_prod (a1 ha) (h1 (pos.getD 1 0)) ho)))
          ((boxSpan 2).smul_mem 3 (box_prod (h1 (pos.getD 0 0)) (a1 hb) ho))) fun x => ?_
        simp only [serendipityFn, hm, if_false, Pi.sub_apply, Pi.smul_apply, smul_eq_mul]; ring
      by_cases e0 : d = 0
      · refine mem_of_eq ((boxSpan 2).add_mem ((boxSpan 2).sub_mem ((boxSpan 2).sub_mem (box_prod (h2 (pos.getD 0 0)) (h1 (pos.getD 1 0)) ho)
          ((boxSpan 2).smul_mem 3 (box_prod (a2 ha) (h1 (pos.getD 1 0)) ho)))
          ((boxSpan 2).smul_mem 3 (box_prod (h2 (pos.getD 0 0)) (a1 hb) ho)))
          ((boxSpan 2).smul_mem (-3 * daway (pos.getD 0 0)) (box_prod (h1 (pos.getD 0 0)) (h1 (pos.getD 1 0)) ho))) fun x => ?_
        simp only [serendipityGrad, hm, e0, if_true, if_false, Pi.sub_apply, Pi.add_apply, Pi.smul_apply, smul_eq_mul]; ring
      by_cases e1 : d = 1
      · refine mem_of_eq ((boxSpan 2).add_mem ((boxSpan 2).sub_mem ((boxSpan 2).sub_mem (box_prod (h1 (pos.getD 0 0)) (h2 (pos.getD 1 0)) ho)
          ((boxSpan 2).smul_mem 3 (box_prod (a1 ha) (h2 (pos.getD 1 0)) ho)))
          ((boxSpan 2).smul_mem 3 (box_prod (h1 (pos.getD 0 0)) (a2 hb) ho)))
          ((boxSpan 2).smul_mem (-3 * daway (pos.getD 1 0)) (box_prod (h1 (pos.getD 0 0)) (h1 (pos.getD 1 0)) ho))) fun x => ?_
        simp only [serendipityGrad, hm, e1, one_ne_zero, if_true, if_false, Pi.sub_apply, Pi.add_apply, Pi.smul_apply, smul_eq_mul]; ring
      · exact mem_of_eq hz fun x => by simp [serendipityGrad, e0, e1]
    | hexahedron =>
      refine ⟨?_, fun d => ?_⟩
      · refine mem_of_eq ((boxSpan 2).sub_mem ((boxSpan 2).sub_mem ((boxSpan 2).sub_mem
          (box_prod (h1 (pos.getD 0 0)) (h1 (pos.getD 1 0)) (h1 (pos.getD 2 0)))
          ((boxSpan 2).smul_mem 3 (box_prod (a1 ha) (h1 (pos.getD 1 0)) (h1 (pos.getD 2 0)))))
          ((boxSpan 2).smul_mem 3 (box_prod (h1 (pos.getD 0 0)) (a1 hb) (h1 (pos.getD 2 0)))))
          ((boxSpan 2).smul_mem 3 (box_prod (h1 (pos.getD 0 0)) (h1 (pos.getD 1 0)) (a1 hc)))) fun x => ?_
        simp only [serendipityFn, hm, if_false, Pi.sub_apply, Pi.smul_apply, smul_eq_mul]; ring
      by_cases e0 : d = 0
      · refine mem_of_eq ((boxSpan 2).add_mem ((boxSpan 2).sub_mem ((boxSpan 2).sub_mem ((boxSpan 2).sub_mem
          (box_prod (h2 (pos.getD 0 0)) (h1 (pos.getD 1 0)) (h1 (pos.getD 2 0)))
          ((boxSpan 2).smul_mem 3 (box_prod (a2 ha) (h1 (pos.getD 1 0)) (h1 (pos.getD 2 0)))))
          ((boxSpan 2).smul_mem 3 (box_prod (h2 (pos.getD 0 0)) (a1 hb) (h1 (pos.getD 2 0)))))
          ((boxSpan 2).smul_mem 3 (box_prod (h2 (pos.getD 0 0)) (h1 (pos.getD 1 0)) (a1 hc))))
          ((boxSpan 2).smul_mem (-3 * daway (pos.getD 0 0)) (box_prod (h1 (pos.getD 0 0)) (h1 (pos.getD 1 0)) (h1 (pos.getD 2 0))))) fun x => ?_
        simp only [serendipityGrad, hm, e0, if_true, if_false, Pi.sub_apply, Pi.add_apply, Pi.smul_apply, smul_eq_mul]; ring
      by_cases e1 : d = 1
      · refine mem_of_eq ((boxSpan 2).add_mem ((boxSpan 2).sub_mem ((boxSpan 2).sub_mem ((boxSpan 2).sub_mem
          (box_prod (h1 (pos.getD 0 0)) (h2 (pos.getD 1 0)) (h1 (pos.getD 2 0)))
          ((boxSpan 2).smul_mem 3 (box_prod (a1 ha) (h2 (pos.getD 1 0)) (h1 (pos.getD 2 0)))))
          ((boxSpan 2).smul_mem 3 (box_prod (h1 (pos.getD 0 0)) (a2 hb) (h1 (pos.getD 2 0)))))
          ((boxSpan 2).smul_mem 3 (box_prod (h1 (pos.getD 0 0)) (h2 (pos.getD 1 0)) (a1 hc))))
          ((boxSpan 2).smul_mem (-3 * daway (pos.getD 1 0)) (box_prod (h1 (pos.getD 0 0)) (h1 (pos.getD 1 0)) (h1 (pos.getD 2 0))))) fun x => ?_
        simp only [serendipityGrad, hm, e1, one_ne_zero, if_true, if_false, Pi.sub_apply, Pi.add_apply, Pi.smul_apply, smul_eq_mul]; ring
      by_cases e2 : d = 2
      · refine mem_of_eq ((boxSpan 2).add_mem ((boxSpan 2).sub_mem ((boxSpan 2).sub_mem ((boxSpan 2).sub_mem
          (box_prod (h1 (pos.getD 0 0)) (h1 (pos.getD 1 0)) (h2 (pos.getD 2 0)))
          ((boxSpan 2).smul_mem 3 (box_prod (a1 ha) (h1 (pos.getD 1 0)) (h2 (pos.getD 2 0)))))
          ((boxSpan 2).smul_mem 3 (box_prod (h1 (pos.getD 0 0)) (a1 hb) (h2 (pos.getD 2 0)))))
          ((boxSpan 2).smul_mem 3 (box_prod (h1 (pos.getD 0 0)) (h1 (pos.getD 1 0)) (a2 hc))))
          ((boxSpan 2).smul_mem (-3 * daway (pos.getD 2 0)) (box_prod (h1 (pos.getD 0 0)) (h1 (pos.getD 1 0)) (h1 (pos.getD 2 0))))) fun x => ?_
        simp only [serendipityGrad, hm, e2, OfNat.ofNat_ne_zero, OfNat.ofNat_ne_one, if_true, if_false, Pi.sub_apply, Pi.add_apply,
          Pi.smul_apply, smul_eq_mul]; ring
      · exact mem_of_eq hz fun x => by simp [serendipityGrad, e0, e1, e2]
    | interval => exact ⟨mem_of_eq hz fun x => by simp [serendipityFn], fun d => mem_of_eq hz fun x => by simp [serendipityGrad]⟩
    | triangle => exact ⟨mem_of_eq hz fun x => by simp [serendipityFn], fun d => mem_of_eq hz fun x => by simp [serendipityGrad]⟩
    | tetrahedron => exact ⟨mem_of_eq hz fun x => by simp [serendipityFn], fun d => mem_of_eq hz fun x => by simp [serendipityGrad]⟩

/-! ### Barycentric functions -/

/-- Degree of the factor that belongs to one barycentric coordinate. -/
def beta (deg pos : Nat) : Nat := if deg = 1 then pos / 2 else pos

section

variable {S : Nat → Submodule ℝ ((Nat → ℝ) → ℝ)} (hmul : ∀ {n m f g}, f ∈ S n → g ∈ S m → f * g ∈ S (n + m))
  (hle : ∀ {n m}, n ≤ m → S n ≤ S m) (hc : ∀ c : ℝ, (fun _ => c) ∈ S 0)
include hmul hle hc

theorem bary_mem {deg pos : Nat} (hd : deg = 1 ∨ deg = 2) (hp : pos ≤ 2) {l : (Nat → ℝ) → ℝ} (hl : l ∈ S 1) :
    (fun x => bary deg pos (l x)) ∈ S (beta deg pos) := by
  rcases hd with rfl | rfl <;> interval_cases pos
  · exact mem_of_eq (hc 1) fun x => by simp [bary]
  · exact mem_of_eq (hc 0) fun x => by simp [bary]
  · exact mem_of_eq hl fun x => by simp [bary]
  · exact mem_of_eq (hc 1) fun x => by simp [bary]
  · exact mem_of_eq ((S 1).smul_mem 2 hl) fun x => by simp [bary]
  · exact mem_of_eq ((S 2).sub_mem ((S 2).smul_mem 2 (hmul hl hl)) (hle one_le_two hl)) fun x => by simp [bary]; ring

theorem dbary_mul {deg pos m : Nat} (hd : deg = 1 ∨ deg = 2) (hp : pos ≤ 2) {l f : (Nat → ℝ) → ℝ} (hl : l ∈ S 1) (hf : f ∈ S m) :
    (fun x => dbary deg pos (l x) * f x) ∈ S (beta deg pos + m - 1) := by
  have hz : ∀ n, (fun _ : Nat → ℝ => (0 : ℝ)) ∈ S n := fun n => (S n).zero_mem
  rcases hd with rfl | rfl <;> interval_cases pos
  · exact mem_of_eq (hz _) fun x => by simp [dbary]
  · exact mem_of_eq (hz _) fun x => by simp [dbary]
  · refine hle (by simp [beta]) (mem_of_eq hf fun x => by simp [dbary])
  · exact mem_of_eq (hz _) fun x => by simp [dbary]
  · refine hle (by simp [beta]) (mem_of_eq ((S m).smul_mem 2 hf) fun x => by simp [dbary])
  · have h4 : (fun x => 4 * l x - 1) ∈ S 1 := mem_of_eq ((S 1).sub_mem ((S 1).smul_mem 4 hl) (hle zero_le_one (hc 1))) fun x => by simp
    refine hle (by simp [beta]; try omega) (mem_of_eq (hmul h4 hf) fun x => by simp [dbary])

theorem simplex2_mem (h0 : (fun x : Nat → ℝ => x 0) ∈ S 1) (h1 : (fun x : Nat → ℝ => x 1) ∈ S 1) {deg : Nat} (hd : deg = 1 ∨ deg = 2)
    (pos : List Nat) (ha : pos.getD 0 0 ≤ 2) (hb : pos.getD 1 0 ≤ 2)
    (hs : beta deg (2 - pos.getD 0 0 - pos.getD 1 0) + beta deg (pos.getD 0 0) + beta deg (pos.getD 1 0) = deg) :
    (fun x : Nat → ℝ => lagrangeFn .triangle deg pos x) ∈ S deg ∧ ∀ d, (fun x : Nat → ℝ => lagrangeGrad .triangle deg pos x d) ∈ S (deg - 1) := by
  have hl : (fun x : Nat → ℝ => 1 - x 0 - x 1) ∈ S 1 :=
    mem_of_eq ((S 1).sub_mem ((S 1).sub_mem (hle zero_le_one (hc 1)) h0) h1) fun x => rfl
  have hz2 : 2 - pos.getD 0 0 - pos.getD 1 0 ≤ 2 := by omega
  have bz := bary_mem hmul hle hc hd hz2 hl
  have ba := bary_mem hmul hle hc hd ha h0
  have bb := bary_mem hmul hle hc hd hb h1
  refine ⟨?_, fun d => ?_⟩
  · refine hle hs.le (mem_of_eq (hmul (hmul bz ba) bb) fun x => by simp [lagrangeFn])
  by_cases e0 : d = 0
  · have t1 := dbary_mul hmul hle hc hd ha h0 (hmul bz bb)
    have t2 := dbary_mul hmul hle hc hd hz2 hl (hmul ba bb)
    refine mem_of_eq ((S (deg - 1)).sub_mem (hle (by omega) t1) (hle (by omega) t2)) fun x => ?_
    simp only [lagrangeGrad, e0, if_true, Pi.sub_apply, Pi.mul_apply]; ring
  by_cases e1 : d = 1
  · have t1 := dbary_mul hmul hle hc hd hb h1 (hmul bz ba)
    have t2 := dbary_mul hmul hle hc hd hz2 hl (hmul ba bb)
    refine mem_of_eq ((S (deg - 1)).sub_mem (hle (by omega) t1) (hle (by omega) t2)) fun x => ?_
    simp only [lagrangeGrad, e1, one_ne_zero, if_true, if_false, Pi.sub_apply, Pi.mul_apply]; ring
  · exact mem_of_eq (S (deg - 1)).zero_mem fun x => by simp [lagrangeGrad, e0, e1]

theorem simplex3_mem (h0 : (fun x : Nat → ℝ => x 0) ∈ S 1) (h1 : (fun x : Nat → ℝ => x 1) ∈ S 1) (h2 : (fun x : Nat → ℝ => x 2) ∈ S 1)
    {deg : Nat} (hd : deg = 1 ∨ deg = 2) (pos : List Nat) (ha : pos.getD 0 0 ≤ 2) (hb : pos.getD 1 0 ≤ 2) (hg : pos.getD 2 0 ≤ 2)
    (hs : beta deg (2 - pos.getD 0 0 - pos.getD 1 0 - pos.getD 2 0) + beta deg (pos.getD 0 0) + beta deg (pos.getD 1 0)
      + beta deg (pos.getD 2 0) = deg) :
    (fun x : Nat → ℝ => lagrangeFn .tetrahedron deg pos x) ∈ S deg ∧
      ∀ d, (fun x : Nat → ℝ => lagrangeGrad .tetrahedron deg pos x d) ∈ S (deg - 1) := by
  have hl : (fun x : Nat → ℝ => 1 - x 0 - x 1 - x 2) ∈ S 1 :=
    mem_of_eq ((S 1).sub_mem ((S 1).sub_mem ((S 1).sub_mem (hle zero_le_one (hc 1)) h0) h1) h2) fun x => rfl
  have hz2 : 2 - pos.getD 0 0 - pos.getD 1 0 - pos.getD 2 0 ≤ 2 := by omega
  have bz := bary_mem hmul hle hc hd hz2 hl
  have ba := bary_mem hmul hle hc hd ha h0
  have bb := bary_mem hmul hle hc hd hb h1
  have bg := bary_mem hmul hle hc hd hg h2
  refine ⟨?_, fun d => ?_⟩
  · refine hle hs.le (mem_of_eq (hmul (hmul (hmul bz ba) bb) bg) fun x => by simp [lagrangeFn])
  have t2 := dbary_mul hmul hle hc hd hz2 hl (hmul (hmul ba bb) bg)
  by_cases e0 : d = 0
  · have t1 := dbary_mul hmul hle hc hd ha h0 (hmul (hmul bz bb) bg)
    refine mem_of_eq ((S (deg - 1)).sub_mem (hle (by omega) t1) (hle (by omega) t2)) fun x => ?_
    simp only [lagrangeGrad, e0, if_true, Pi.sub_apply, Pi.mul_apply]; ring
  by_cases e1 : d = 1
  · have t1 := dbary_mul hmul hle hc hd hb h1 (hmul (hmul bz ba) bg)
    refine mem_of_eq ((S (deg - 1)).sub_mem (hle (by omega) t1) (hle (by omega) t2)) fun x => ?_
    simp only [lagrangeGrad, e1, one_ne_zero, if_true, if_false, Pi.sub_apply, Pi.mul_apply]; ring
  by_cases e2 : d = 2
  · have t1 := dbary_mul hmul hle hc hd hg h2 (hmul (hmul bz ba) bb)
    refine mem_of_eq ((S (deg - 1)).sub_mem (hle (by omega) t1) (hle (by omega) t2)) fun x => ?_
    simp only [lagrangeGrad, e2, OfNat.ofNat_ne_zero, OfNat.ofNat_ne_one, if_true, if_false, Pi.sub_apply, Pi.mul_apply]; ring
  · exact mem_of_eq (S (deg - 1)).zero_mem fun x => by simp [lagrangeGrad, e0, e1, e2]

end

/-! ### All elements -/

/-- Degree of the gradients: one less on simplices, the same (in each coordinate) on the other cells. -/
def gradDegree (info : ElementInfo) : Nat :=
  match info.ele with
  | .triangle | .tetrahedron => info.degree - 1
  | _ => info.degree

/-- What the tables say about degrees, families and positions. -/
def posOk (info : ElementInfo) (pos : List Nat) : Bool :=
  (info.degree == 1 || info.degree == 2) &&
  match info.family with
  | .serendipity => info.degree == 2 && (info.ele == .quadrilateral || info.ele == .hexahedron) &&
      (pos.contains 1 || (pos.getD 0 0 != 1 && pos.getD 1 0 != 1 && pos.getD 2 0 != 1))
  | .P =>
    match info.ele with
    | .triangle => decide (pos.getD 0 0 ≤ 2) && decide (pos.getD 1 0 ≤ 2) &&
        (beta info.degree (2 - pos.getD 0 0 - pos.getD 1 0) + beta info.degree (pos.getD 0 0) + beta info.degree (pos.getD 1 0) == info.degree)
    | .tetrahedron => decide (pos.getD 0 0 ≤ 2) && decide (pos.getD 1 0 ≤ 2) && decide (pos.getD 2 0 ≤ 2) &&
        (beta info.degree (2 - pos.getD 0 0 - pos.getD 1 0 - pos.getD 2 0) + beta info.degree (pos.getD 0 0)
          + beta info.degree (pos.getD 1 0) + beta info.degree (pos.getD 2 0) == info.degree)
    | _ => true

theorem posOk_all {e : String × String × List (List Nat)} (he : e ∈ meshNodes) {info : ElementInfo}
    (hi : getElements e.1 = .ok info) {pos : List Nat} (hp : pos ∈ e.2.2) : posOk info pos = true := by
  have key : ∀ e ∈ meshNodes, (match getElements e.1 with
      | .ok info => e.2.2.all (posOk info)
      | .error _ => false) = true := by decide +kernel
  have h := key e he
  rw [hi] at h
  exact List.all_eq_true.1 h pos hp

theorem nodeFn_mem {e : String × String × List (List Nat)} (he : e ∈ meshNodes) {info : ElementInfo}
    (hi : getElements e.1 = .ok info) {pos : List Nat} (hp : pos ∈ e.2.2) :
    (fun x : Nat → ℝ => nodeFn info pos x) ∈ flatSpace info.ele info.degree ∧
      ∀ d, (fun x : Nat → ℝ => nodeGrad info pos x d) ∈ flatSpace info.ele (gradDegree info) := by
  have h := posOk_all he hi hp
  have hc2 : ∀ c : ℝ, (fun _ => c) ∈ flatSpace .triangle 0 := fun c => by
    refine mem_of_eq ((flatSpace .triangle 0).smul_mem c (show mono 0 0 0 ∈ flatSpace .triangle 0 from Submodule.subset_span ⟨0, 0, le_rfl, rfl⟩)) fun x => ?_
    simp [mono]
  have hx0 : (fun x : Nat → ℝ => x 0) ∈ flatSpace .triangle 1 := Submodule.subset_span ⟨1, 0, le_rfl, by funext x; simp [mono]⟩
  have hx1 : (fun x : Nat → ℝ => x 1) ∈ flatSpace .triangle 1 := Submodule.subset_span ⟨0, 1, le_rfl, by funext x; simp [mono]⟩
  obtain ⟨fam, ele, faceEle, qo, deg, ro⟩ := info
  simp only [posOk, Bool.and_eq_true, Bool.or_eq_true, beq_iff_eq] at h
  obtain ⟨hd, h⟩ := h
  cases fam with
  | serendipity =>
    simp only [Bool.and_eq_true, Bool.or_eq_true, beq_iff_eq, List.contains_iff_mem, bne_iff_ne, ne_eq] at h
    obtain ⟨⟨rfl, hce⟩, h1⟩ := h
    have hb := serendipity_box ele pos (h1.imp id fun h => ⟨h.1.1, h.1.2, h.2⟩)
    rcases hce with rfl | rfl <;> exact hb
  | P =>
    cases ele with
    | triangle =>
      simp only [Bool.and_eq_true, decide_eq_true_eq, beq_iff_eq] at h
      exact simplex2_mem (S := flatSpace .triangle) (flat_mul _) (flat_le _) hc2 hx0 hx1 hd pos h.1.1 h.1.2 h.2
    | tetrahedron =>
      simp only [Bool.and_eq_true, decide_eq_true_eq, beq_iff_eq] at h
      exact simplex3_mem (S := flatSpace .tetrahedron) (flat_mul _) (flat_le _) (total_const 0) (total_coord (by norm_num))
        (total_coord (by norm_num)) (total_coord (by norm_num)) hd pos h.1.1.1 h.1.1.2 h.1.2 h.2
    | interval => exact lagrange_box (cell := .interval) (by simp [Simplex]) hd pos
    | quadrilateral => exact lagrange_box (cell := .quadrilateral) (by simp [Simplex]) hd pos
    | hexahedron => exact lagrange_box (cell := .hexahedron) (by simp [Simplex]) hd pos

theorem shape_mem {e : String × String × List (List Nat)} (he : e ∈ meshNodes) {info : ElementInfo}
    (hi : getElements e.1 = .ok info) {a : Nat} (ha : a < e.2.2.length) :
    (fun x : Nat → ℝ => shapeValue info a x) ∈ flatSpace info.ele info.degree ∧
      ∀ d, (fun x : Nat → ℝ => shapeGrad info a x d) ∈ flatSpace info.ele (gradDegree info) := by
  have hp : e.2.2[a]? = some e.2.2[a] := List.getElem?_eq_getElem ha
  have h := nodeFn_mem he hi (List.getElem_mem ha)
  exact ⟨mem_of_eq h.1 fun x => shapeValue_node he hi hp x, fun d => mem_of_eq (h.2 d) fun x => shapeGrad_node he hi hp x d⟩

end JaxFem.Quadrature
