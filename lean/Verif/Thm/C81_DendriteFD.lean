import Mathlib.Analysis.SpecialFunctions.Trigonometric.Deriv
import Mathlib.Analysis.SpecialFunctions.Sqrt
import Mathlib.Tactic.FieldSimp
import Mathlib.Algebra.BigOperators.Field
import Mathlib.Tactic.LinearCombination
import Mathlib.Tactic.IntervalCases
import Verif.Spec.DendriteFD
import Verif.Thm.Coupled

/-!
# C81: the finite-difference dendrite script
-/

namespace JaxFem

namespace DendriteFD

open Dendrite (Params)

/-! ### Helper lemmas -/

theorem shiftNeg_getD {α : Type} (m : List α) (d : α) (i : Nat) (hi : i < m.length) :
    (shiftNeg m).getD i d = m.getD (before i) d := by
  cases m with
  | nil => simp at hi
  | cons a m =>
    rw [shiftNeg, before]
    cases i with
    | zero => simp
    | succ i =>
      simp only [List.take_succ_cons, List.take_zero, List.cons_append, List.nil_append,
        List.getD_cons_succ, Nat.add_sub_cancel]
      have h : i < (a :: m).dropLast.length := by simpa using hi
      rw [List.getD_eq_getElem _ _ h, List.getElem_dropLast, List.getD_eq_getElem]

theorem shiftPos_getD {α : Type} (m : List α) (d : α) (i : Nat) (hi : i < m.length) :
    (shiftPos m).getD i d = m.getD (after m.length i) d := by
  rw [shiftPos, after]
  by_cases h : i + 1 < m.length
  · rw [if_pos h, List.getD_append _ _ _ _ (by simp; omega), List.getD_eq_getElem _ _ (by simp; omega),
      List.getElem_drop, List.getD_eq_getElem _ _ h]
    congr 1
    omega
  · rw [if_neg h, List.getD_append_right _ _ _ _ (by simp; omega)]
    have e : i - (m.drop 1).length = 0 := by simp; omega
    rw [e, List.getD_eq_getElem _ _ (by simp; omega), List.getElem_drop, List.getD_eq_getElem _ _ hi]
    congr 1
    omega

theorem cols_eq {nx ny : Nat} {m : List (List ℝ)} (h : Rect nx ny m) (hx : 0 < nx) : cols m = ny := by
  cases m with
  | nil => simp [Rect] at h; omega
  | cons r m => exact h.2 r (by simp)

theorem row_length {nx ny : Nat} {m : List (List ℝ)} (h : Rect nx ny m) {i : Nat} (hi : i < nx) :
    (m.getD i []).length = ny := by
  have : i < m.length := by rw [h.1]; exact hi
  rw [List.getD_eq_getElem _ _ this]
  exact h.2 _ (List.getElem_mem this)

theorem rect_mk2 (nx ny : Nat) (f : Nat → Nat → ℝ) : Rect nx ny (mk2 nx ny f) :=
  ⟨mk2_length _ _ _, mk2_row _ _ _⟩

section shift
variable {nx ny : Nat} {m : List (List ℝ)} (h : Rect nx ny m) {i j : Nat} (hi : i < nx) (hj : j < ny)
include h hi

theorem at2_negX : at2 (shiftNeg m) i j = at2 m (before i) j := by
  rw [at2, at2, shiftNeg_getD m [] i (by rw [h.1]; exact hi)]

theorem at2_posX : at2 (shiftPos m) i j = at2 m (after nx i) j := by
  rw [at2, at2, shiftPos_getD m [] i (by rw [h.1]; exact hi), h.1]

theorem at2_map (f : List ℝ → List ℝ) : at2 (m.map f) i j = (f (m.getD i [])).getD j 0 := by
  have : i < m.length := by rw [h.1]; exact hi
  rw [at2, List.getD_eq_getElem (n := i) _ _ (by simpa using this), List.getElem_map,
    List.getD_eq_getElem (n := i) _ _ this]

include hj

theorem at2_negY : at2 (m.map shiftNeg) i j = at2 m i (before j) := by
  rw [at2_map h hi, shiftNeg_getD _ _ _ (by rw [row_length h hi]; exact hj), at2]

theorem at2_posY : at2 (m.map shiftPos) i j = at2 m i (after ny j) := by
  rw [at2_map h hi, shiftPos_getD _ _ _ (by rw [row_length h hi]; exact hj), row_length h hi, at2]

theorem at2_laplace (hx hy : ℝ) : at2 (laplace m hx hy) i j
    = (at2 m (before i) j + at2 m (after nx i) j - 2 * at2 m i j) / hx ^ 2
      + (at2 m i (before j) + at2 m i (after ny j) - 2 * at2 m i j) / hy ^ 2 := by
  rw [laplace, h.1, cols_eq h (by omega), at2_mk2 _ _ _ _ _ hi hj, at2_negX h hi, at2_posX h hi,
    at2_negY h hi hj, at2_posY h hi hj]

theorem at2_gradX (dx dy : ℝ) : at2 (grad m dx dy).1 i j
    = (at2 m (after nx i) j - at2 m (before i) j) / 2 / dx := by
  rw [grad, h.1, cols_eq h (by omega)]
  dsimp only
  rw [at2_mk2 _ _ _ _ _ hi hj, at2_negX h hi, at2_posX h hi]

theorem at2_gradY (dx dy : ℝ) : at2 (grad m dx dy).2 i j
    = (at2 m i (after ny j) - at2 m i (before j)) / 2 / dy := by
  rw [grad, h.1, cols_eq h (by omega)]
  dsimp only
  rw [at2_mk2 _ _ _ _ _ hi hj, at2_negY h hi hj, at2_posY h hi hj]

end shift

theorem sum_before_after (n : Nat) (u : Nat → ℝ) :
    ∑ i ∈ Finset.range n, (u (before i) + u (after n i) - 2 * u i) = 0 := by
  cases n with
  | zero => simp
  | succ n =>
    have h1 : ∑ i ∈ Finset.range (n + 1), u (before i) = ∑ i ∈ Finset.range n, u i + u 0 := by
      rw [Finset.sum_range_succ']
      simp [before]
    have h2 : ∑ i ∈ Finset.range (n + 1), u (after (n + 1) i) = ∑ i ∈ Finset.range n, u (i + 1) + u n := by
      rw [Finset.sum_range_succ]
      congr 1
      · refine Finset.sum_congr rfl fun i hi => ?_
        have := Finset.mem_range.1 hi
        rw [after, if_pos (by omega)]
      · rw [after, if_neg (by omega)]
    have h3 := Finset.sum_range_succ u n
    have h4 := Finset.sum_range_succ' u n
    rw [Finset.sum_sub_distrib, Finset.sum_add_distrib, h1, h2, ← Finset.mul_sum]
    linarith

theorem sum_energy (n : Nat) (u : Nat → ℝ) :
    ∑ i ∈ Finset.range n, u i * (u (before i) + u (after n i) - 2 * u i)
      = - ∑ i ∈ Finset.range (n - 1), (u (i + 1) - u i) ^ 2 := by
  cases n with
  | zero => simp
  | succ n =>
    have h1 : ∑ i ∈ Finset.range (n + 1), u i * (u (before i) - u i)
        = ∑ i ∈ Finset.range n, u (i + 1) * (u i - u (i + 1)) := by
      rw [Finset.sum_range_succ']
      simp [before]
    have h2 : ∑ i ∈ Finset.range (n + 1), u i * (u (after (n + 1) i) - u i)
        = ∑ i ∈ Finset.range n, u i * (u (i + 1) - u i) := by
      rw [Finset.sum_range_succ]
      have : u n * (u (after (n + 1) n) - u n) = 0 := by rw [after, if_neg (by omega)]; ring
      rw [this, add_zero]
      refine Finset.sum_congr rfl fun i hi => ?_
      have := Finset.mem_range.1 hi
      rw [after, if_pos (by omega)]
    have h3 : ∑ i ∈ Finset.range (n + 1), u i * (u (before i) + u (after (n + 1) i) - 2 * u i)
        = ∑ i ∈ Finset.range (n + 1), u i * (u (before i) - u i)
          + ∑ i ∈ Finset.range (n + 1), u i * (u (after (n + 1) i) - u i) := by
      rw [← Finset.sum_add_distrib]
      exact Finset.sum_congr rfl fun i _ => by ring
    rw [h3, h1, h2, ← Finset.sum_add_distrib, Nat.add_sub_cancel, ← Finset.sum_neg_distrib]
    exact Finset.sum_congr rfl fun i _ => by ring

/-! ### Property theorems -/

/-- **C81 (angle).** `get_theta` returns the angle in `[0, 2π)` of every non-zero gradient. -/
theorem C81_theta (fx fy : ℝ) (h : ¬ (fx = 0 ∧ fy = 0)) :
    0 ≤ getTheta fx fy ∧ getTheta fx fy < 2 * Real.pi ∧
      Real.sqrt (fx ^ 2 + fy ^ 2) * Real.cos (getTheta fx fy) = fx ∧
      Real.sqrt (fx ^ 2 + fy ^ 2) * Real.sin (getTheta fx fy) = fy := by
  have hπ := Real.pi_pos
  have hat : fx ≠ 0 → Real.sqrt (fx ^ 2 + fy ^ 2) = |fx| * Real.sqrt (1 + (fy / fx) ^ 2) := by
    intro hne
    rw [← Real.sqrt_sq_eq_abs, ← Real.sqrt_mul (sq_nonneg fx)]
    congr 1
    field_simp
  have hs : Real.sqrt (1 + (fy / fx) ^ 2) ≠ 0 := (Real.sqrt_pos.2 (by positivity)).ne'
  rcases lt_trichotomy fx 0 with hx | hx | hx
  · have e : getTheta fx fy = Real.pi + Real.arctan (fy / fx) := by simp [getTheta, hx]
    have h1 := Real.neg_pi_div_two_lt_arctan (fy / fx)
    have h2 := Real.arctan_lt_pi_div_two (fy / fx)
    rw [e, add_comm, Real.cos_add_pi, Real.sin_add_pi, Real.cos_arctan, Real.sin_arctan, hat hx.ne,
      abs_of_neg hx]
    refine ⟨by linarith, by linarith, ?_, ?_⟩
    · field_simp
    · have := hx.ne
      field_simp
  · subst hx
    have hy : fy ≠ 0 := fun e => h ⟨rfl, e⟩
    rcases lt_or_gt_of_ne hy with hy | hy
    · have e : getTheta 0 fy = 1.5 * Real.pi := by simp [getTheta, hy, hy.le]
      rw [e, show (1.5 : ℝ) * Real.pi = Real.pi / 2 + Real.pi by ring, Real.cos_add_pi, Real.sin_add_pi,
        Real.cos_pi_div_two, Real.sin_pi_div_two]
      refine ⟨by linarith, by linarith, by simp, ?_⟩
      rw [show (0 : ℝ) ^ 2 + fy ^ 2 = fy ^ 2 by ring, Real.sqrt_sq_eq_abs, abs_of_neg hy]
      ring
    · have e : getTheta 0 fy = 0.5 * Real.pi := by simp [getTheta, hy, hy.le]
      rw [e, show (0.5 : ℝ) * Real.pi = Real.pi / 2 by ring, Real.cos_pi_div_two, Real.sin_pi_div_two]
      refine ⟨by linarith, by linarith, by simp, ?_⟩
      rw [show (0 : ℝ) ^ 2 + fy ^ 2 = fy ^ 2 by ring, Real.sqrt_sq_eq_abs, abs_of_pos hy]
      ring
  · have h1 := Real.neg_pi_div_two_lt_arctan (fy / fx)
    have h2 := Real.arctan_lt_pi_div_two (fy / fx)
    have key : Real.sqrt (fx ^ 2 + fy ^ 2) * Real.cos (Real.arctan (fy / fx)) = fx ∧
        Real.sqrt (fx ^ 2 + fy ^ 2) * Real.sin (Real.arctan (fy / fx)) = fy := by
      rw [Real.cos_arctan, Real.sin_arctan, hat hx.ne', abs_of_pos hx]
      constructor <;> field_simp
    rcases lt_trichotomy fy 0 with hy | hy | hy
    · have e : getTheta fx fy = Real.arctan (fy / fx) + 2 * Real.pi := by
        have n1 : ¬ fx < 0 := not_lt.2 hx.le
        have n2 : ¬ 0 < fy := not_lt.2 hy.le
        simp [getTheta, hx, hy, hx.ne', n1, n2, add_comm]
      have h3 : Real.arctan (fy / fx) < 0 := Real.arctan_lt_zero.2 (div_neg_of_neg_of_pos hy hx)
      rw [e, Real.cos_add_two_pi, Real.sin_add_two_pi]
      exact ⟨by linarith, by linarith, key⟩
    · have e : getTheta fx fy = Real.arctan (fy / fx) := by
        have n1 : ¬ fx < 0 := not_lt.2 hx.le
        subst hy; simp [getTheta, n1]
      subst hy
      rw [e]
      refine ⟨by simp, by simp; linarith, key⟩
    · have e : getTheta fx fy = Real.arctan (fy / fx) := by
        have n1 : ¬ fx < 0 := not_lt.2 hx.le
        simp [getTheta, hx, hy, n1]
      have h3 : 0 < Real.arctan (fy / fx) := Real.arctan_pos.2 (div_pos hy hx)
      rw [e]
      exact ⟨h3.le, by linarith, key⟩

/-- **C81 (anisotropy).** The second value of `get_eps` is the derivative of the first. For `J = 4 k + 2`, such as
the shipped `J = 6`, it is the function of the finite-element scripts with the opposite sign of `δ`. -/
theorem C81_eps (m : Params) (θ : ℝ) :
    HasDerivAt (fun θ => (getEps m θ).1) (getEps m θ).2 θ ∧
      ∀ k : ℤ, m.J = 4 * k + 2 →
        (getEps m θ).1 = Dendrite.epsFn { m with delta := - m.delta } θ := by
  constructor
  · have h1 : HasDerivAt (fun θ : ℝ => m.J * θ) m.J θ := by simpa using (hasDerivAt_id θ).const_mul m.J
    have h2 := ((h1.cos.const_mul m.delta).const_add 1).const_mul m.epsBar
    refine h2.congr_deriv ?_
    rw [getEps]
    ring
  · intro k hk
    simp only [getEps, Dendrite.epsFn]
    have : m.J * (θ - Real.pi / 2) = m.J * θ - Real.pi - (k : ℝ) * (2 * Real.pi) := by rw [hk]; ring
    rw [this, Real.cos_sub_int_mul_two_pi, Real.cos_sub_pi]
    ring

/-- **C81 (Laplacian).** With mirrored edges the entries of `laplace` sum to zero, and `laplace` is dissipative:
`Σ u Δu` is minus a sum of squares of differences of neighbours. -/
theorem C81_laplace (nx ny : Nat) (m : List (List ℝ)) (h : Rect nx ny m) (hx hy : ℝ) :
    gsum nx ny (laplace m hx hy) = 0 ∧
    ∑ i ∈ Finset.range nx, ∑ j ∈ Finset.range ny, at2 m i j * at2 (laplace m hx hy) i j
      = - (∑ j ∈ Finset.range ny, ∑ i ∈ Finset.range (nx - 1), (at2 m (i + 1) j - at2 m i j) ^ 2) / hx ^ 2
        - (∑ i ∈ Finset.range nx, ∑ j ∈ Finset.range (ny - 1), (at2 m i (j + 1) - at2 m i j) ^ 2) / hy ^ 2 := by
  constructor
  · rw [gsum, Finset.sum_congr rfl fun i hi => Finset.sum_congr rfl fun j hj =>
      at2_laplace h (Finset.mem_range.1 hi) (Finset.mem_range.1 hj) hx hy]
    simp only [Finset.sum_add_distrib, ← Finset.sum_div]
    rw [Finset.sum_comm, Finset.sum_congr rfl fun j _ => sum_before_after nx fun i => at2 m i j]
    simp only [Finset.sum_const_zero, zero_div, zero_add]
    rw [Finset.sum_congr rfl fun i _ => sum_before_after ny fun j => at2 m i j]
    simp
  · have e : ∀ i ∈ Finset.range nx, ∀ j ∈ Finset.range ny, at2 m i j * at2 (laplace m hx hy) i j
        = at2 m i j * (at2 m (before i) j + at2 m (after nx i) j - 2 * at2 m i j) / hx ^ 2
          + at2 m i j * (at2 m i (before j) + at2 m i (after ny j) - 2 * at2 m i j) / hy ^ 2 := by
      intro i hi j hj
      rw [at2_laplace h (Finset.mem_range.1 hi) (Finset.mem_range.1 hj)]
      ring
    rw [Finset.sum_congr rfl fun i hi => Finset.sum_congr rfl fun j hj => e i hi j hj]
    simp only [Finset.sum_add_distrib, ← Finset.sum_div]
    rw [Finset.sum_comm, Finset.sum_congr rfl fun j _ => sum_energy nx fun i => at2 m i j,
      Finset.sum_congr (s₁ := Finset.range nx) rfl fun i _ => sum_energy ny fun j => at2 m i j]
    simp only [Finset.sum_neg_distrib]
    ring

/-- **C81 (enthalpy).** `T_field` moves heat and adds `K` times the change of the phase, noise included; the
overwriting of the edges by `zero_flux_BC` comes after. -/
theorem C81_enthalpy (m : Params) (nx ny : Nat) (hx hy : ℝ) (T d : List (List ℝ)) (h : Rect nx ny T) :
    gsum nx ny (tField m hx hy T d) = gsum nx ny T + m.K * gsum nx ny d := by
  rcases Nat.eq_zero_or_pos nx with rfl | hn
  · simp [gsum]
  have e : ∀ i ∈ Finset.range nx, ∀ j ∈ Finset.range ny, at2 (tField m hx hy T d) i j
      = at2 T i j + m.dt * at2 (laplace T hx hy) i j + m.K * at2 d i j := by
    intro i hi j hj
    rw [tField, h.1, cols_eq h hn, at2_mk2 _ _ _ _ _ (Finset.mem_range.1 hi) (Finset.mem_range.1 hj)]
  have h0 := (C81_laplace nx ny T h hx hy).1
  rw [gsum] at h0 ⊢
  rw [Finset.sum_congr rfl fun i hi => Finset.sum_congr rfl fun j hj => e i hi j hj]
  simp only [Finset.sum_add_distrib, ← Finset.mul_sum]
  rw [h0]
  simp [gsum]

/-- **C81 (maximum principle).** Without phase change and for `2 dt (1/hx² + 1/hy²) ≤ 1` the new temperatures stay
between any bounds of the old ones. -/
theorem C81_max_principle (m : Params) (nx ny : Nat) (hx hy : ℝ) (T d : List (List ℝ)) (h : Rect nx ny T)
    (hdt : 0 ≤ m.dt) (hst : 2 * m.dt * (1 / hx ^ 2 + 1 / hy ^ 2) ≤ 1)
    (hd : ∀ i < nx, ∀ j < ny, at2 d i j = 0) (lo hi : ℝ)
    (hb : ∀ i < nx, ∀ j < ny, lo ≤ at2 T i j ∧ at2 T i j ≤ hi) :
    ∀ i < nx, ∀ j < ny, lo ≤ at2 (tField m hx hy T d) i j ∧ at2 (tField m hx hy T d) i j ≤ hi := by
  intro i hin j hjn
  have hbi : before i < nx := by rw [before]; omega
  have hai : after nx i < nx := by rw [after]; split <;> omega
  have hbj : before j < ny := by rw [before]; omega
  have haj : after ny j < ny := by rw [after]; split <;> omega
  rw [tField, h.1, cols_eq h (by omega), at2_mk2 _ _ _ _ _ hin hjn, hd i hin j hjn,
    at2_laplace h hin hjn]
  obtain ⟨a1, a2⟩ := hb _ hbi _ hjn
  obtain ⟨b1, b2⟩ := hb _ hai _ hjn
  obtain ⟨c1, c2⟩ := hb _ hin _ hbj
  obtain ⟨d1, d2⟩ := hb _ hin _ haj
  obtain ⟨e1, e2⟩ := hb _ hin _ hjn
  set x := m.dt * (1 / hx ^ 2) with hxd
  set y := m.dt * (1 / hy ^ 2) with hyd
  have hx0 : 0 ≤ x := by positivity
  have hy0 : 0 ≤ y := by positivity
  have hxy : 2 * x + 2 * y ≤ 1 := by rw [hxd, hyd]; linarith
  have e : ∀ A B C D E : ℝ, E + m.dt * ((A + B - 2 * E) / hx ^ 2 + (C + D - 2 * E) / hy ^ 2) + m.K * 0
      = (1 - 2 * x - 2 * y) * E + x * A + x * B + y * C + y * D := by
    intro A B C D E
    rw [hxd, hyd]
    ring
  rw [e]
  constructor
  · nlinarith [mul_le_mul_of_nonneg_left a1 hx0, mul_le_mul_of_nonneg_left b1 hx0,
      mul_le_mul_of_nonneg_left c1 hy0, mul_le_mul_of_nonneg_left d1 hy0,
      mul_le_mul_of_nonneg_left e1 (by linarith : 0 ≤ 1 - 2 * x - 2 * y)]
  · nlinarith [mul_le_mul_of_nonneg_left a2 hx0, mul_le_mul_of_nonneg_left b2 hx0,
      mul_le_mul_of_nonneg_left c2 hy0, mul_le_mul_of_nonneg_left d2 hy0,
      mul_le_mul_of_nonneg_left e2 (by linarith : 0 ≤ 1 - 2 * x - 2 * y)]

theorem rect_setRow {nx ny : Nat} {arr : List (List ℝ)} (h : Rect nx ny arr) (i k : Nat) (hk : k < nx) :
    Rect nx ny (setRow i k arr) := by
  refine ⟨by simp [setRow, h.1], fun r hr => ?_⟩
  rcases List.mem_or_eq_of_mem_set hr with hr | rfl
  · exact h.2 r hr
  · exact row_length h hk

theorem rect_setCol {nx ny : Nat} {arr : List (List ℝ)} (h : Rect nx ny arr) (i k : Nat) :
    Rect nx ny (setCol i k arr) := by
  refine ⟨by simp [setCol, h.1], fun r hr => ?_⟩
  obtain ⟨r', hr', rfl⟩ := List.mem_map.1 hr
  rw [List.length_set]
  exact h.2 r' hr'

theorem at2_setRow {nx ny : Nat} {arr : List (List ℝ)} (h : Rect nx ny arr) (i k a c : Nat) (ha : a < nx) :
    at2 (setRow i k arr) a c = at2 arr (if a = i then k else a) c := by
  have h' : a < arr.length := by rw [h.1]; exact ha
  rw [at2, at2, setRow, List.getD_eq_getElem (n := a) _ _ (by simpa using h'), List.getElem_set]
  by_cases e : a = i
  · rw [if_pos e.symm, if_pos e]
  · rw [if_neg (Ne.symm e), if_neg e, List.getD_eq_getElem (n := a) _ _ h']

theorem at2_setCol {nx ny : Nat} {arr : List (List ℝ)} (h : Rect nx ny arr) (i k a c : Nat) (ha : a < nx)
    (hc : c < ny) : at2 (setCol i k arr) a c = at2 arr a (if c = i then k else c) := by
  have hl := row_length h ha
  rw [setCol, at2_map h ha, List.getD_eq_getElem _ _ (by rw [List.length_set, hl]; exact hc),
    List.getElem_set, at2]
  by_cases e : c = i
  · rw [if_pos e.symm, if_pos e]
  · rw [if_neg (Ne.symm e), if_neg e, List.getD_eq_getElem (n := c) _ _ (by rw [hl]; exact hc)]

theorem rect_zeroFlux {nx ny : Nat} {arr : List (List ℝ)} (h : Rect nx ny arr) (hx : 2 ≤ nx) :
    Rect nx ny (zeroFlux arr) := by
  refine rect_setCol (rect_setRow (rect_setCol (rect_setRow h 0 1 (by omega)) 0 1) _ _ ?_) _ _
  rw [h.1]
  omega

/-- **C81 (edges).** `zero_flux_BC` copies the nearest interior entry to every edge entry, corners included, and
leaves the interior alone. -/
theorem C81_zero_flux (nx ny : Nat) (arr : List (List ℝ)) (h : Rect nx ny arr) (hx : 2 ≤ nx) (hy : 2 ≤ ny) :
    Rect nx ny (zeroFlux arr) ∧ ∀ i < nx, ∀ j < ny,
      at2 (zeroFlux arr) i j = at2 arr (max 1 (min i (nx - 2))) (max 1 (min j (ny - 2))) := by
  refine ⟨rect_zeroFlux h hx, fun i hi j hj => ?_⟩
  have r1 := rect_setRow h 0 1 (by omega)
  have r2 := rect_setCol r1 0 1
  have r3 := rect_setRow r2 (nx - 1) (nx - 2) (by omega)
  rw [zeroFlux, h.1, cols_eq h (by omega), at2_setCol r3 _ _ i j hi hj, at2_setRow r2 _ _ i _ hi,
    at2_setCol r1 _ _ _ _ (by split <;> omega) (by split <;> omega),
    at2_setRow h _ _ _ _ (by split <;> omega)]
  congr 1
  · by_cases h1 : i = nx - 1
    · rw [if_pos h1]
      by_cases h2 : nx - 2 = 0
      · rw [if_pos h2]; omega
      · rw [if_neg h2]; omega
    · rw [if_neg h1]
      by_cases h2 : i = 0
      · rw [if_pos h2]; omega
      · rw [if_neg h2]; omega
  · by_cases h1 : j = ny - 1
    · rw [if_pos h1]
      by_cases h2 : ny - 2 = 0
      · rw [if_pos h2]; omega
      · rw [if_neg h2]; omega
    · rw [if_neg h1]
      by_cases h2 : j = 0
      · rw [if_pos h2]; omega
      · rw [if_neg h2]; omega

/-- Everything `phase_field` computes besides the constants compiled into it. -/
theorem phaseField_diff (m : Params) (chi : List (List ℝ)) (c c' : List (List ℝ) × List (List ℝ)) (hx hy : ℝ)
    (eps epsP px py p T : List (List ℝ)) (i j : Nat) (hi : i < p.length) (hj : j < cols p) :
    at2 (phaseField m chi c hx hy eps epsP px py p T) i j
        - at2 (phaseField m chi c' hx hy eps epsP px py p T) i j
      = m.dt / m.tau * ((at2 c.1 i j - at2 c'.1 i j) * at2 px i j
        + (at2 c.2 i j - at2 c'.2 i j) * at2 py i j) := by
  rw [phaseField, phaseField, at2_mk2 _ _ _ _ _ hi hj, at2_mk2 _ _ _ _ _ hi hj]
  ring

/-- **C81 (stale constants).** After any positive number of passes the compiled `phase_field` holds the gradient of
`eps²` of the initial phase. Each later pass adds that initial gradient instead of the current one: before the edges
are overwritten, the new phase differs from the intended one by
`dt/τ ((∂ₓε²(p₀) - ∂ₓε²(pₙ)) ∂ₓpₙ + (∂_yε²(p₀) - ∂_yε²(pₙ)) ∂_ypₙ)`. -/
theorem C81_stale (m : Params) (hx hy : ℝ) (chi p0 T0 : List (List ℝ)) (n : Nat) :
    (run m hx hy chi p0 T0 (n + 1)).compiled = some (eps2 m hx hy p0) ∧
    let s := run m hx hy chi p0 T0 n
    let g := grad s.p hx hy
    let e := epsArrays m g s.p.length (cols s.p)
    let code := phaseField m chi (eps2 m hx hy p0) hx hy e.1 e.2 g.1 g.2 s.p s.T
    let intended := phaseField m chi (eps2 m hx hy s.p) hx hy e.1 e.2 g.1 g.2 s.p s.T
    (run m hx hy chi p0 T0 (n + 1)).p = zeroFlux code ∧
    ∀ i < s.p.length, ∀ j < cols s.p, at2 code i j - at2 intended i j
      = m.dt / m.tau * ((at2 (eps2 m hx hy p0).1 i j - at2 (eps2 m hx hy s.p).1 i j) * at2 g.1 i j
        + (at2 (eps2 m hx hy p0).2 i j - at2 (eps2 m hx hy s.p).2 i j) * at2 g.2 i j) := by
  have hc : ∀ n, (run m hx hy chi p0 T0 (n + 1)).compiled = some (eps2 m hx hy p0) := by
    intro n
    induction n with
    | zero => rfl
    | succ n ih =>
      change some ((run m hx hy chi p0 T0 (n + 1)).compiled.getD _) = _
      rw [ih]
      rfl
  refine ⟨hc n, ?_, fun i hi j hj => phaseField_diff m chi _ _ hx hy _ _ _ _ _ _ i j hi hj⟩
  change zeroFlux (phaseField m chi ((run m hx hy chi p0 T0 n).compiled.getD _) _ _ _ _ _ _ _ _) = _
  cases n with
  | zero => rfl
  | succ n => rw [hc n]; rfl

/-! ### A concrete case

A bar of four rows with phase `1, 1, 0, 0`, one branch (`J = 1`), no reaction: the first pass turns the step around
(`0.29, 0.29, 0.71, 0.71`), so that the gradient of `eps²` vanishes, while the compiled function still holds the
gradient of the initial phase. -/

/-- Parameters of the example. -/
noncomputable def exParams : Params := ⟨1, 1 / 10, 1, 0, 0, 0, 0, 0, 1, 1⟩

/-- Initial phase of the example. -/
noncomputable def exPhase : List (List ℝ) := [[1, 1, 1], [1, 1, 1], [0, 0, 0], [0, 0, 0]]

theorem ex_eps (x : ℝ) : (getEps exParams (getTheta x 0)).1 = if x < 0 then 9 / 10 else 11 / 10 := by
  by_cases h : x < 0
  · simp [getEps, getTheta, h, exParams]
    norm_num
  · simp [getEps, getTheta, h, exParams]
    norm_num

section
variable {p : List (List ℝ)} (h : Rect 4 3 p) (f : Nat → ℝ) (hf : ∀ i < 4, ∀ j < 3, at2 p i j = f i)
include h hf

theorem ex_px (i j : Nat) (hi : i < 4) (hj : j < 3) :
    at2 (grad p 1 1).1 i j = (f (after 4 i) - f (before i)) / 2 := by
  rw [at2_gradX h hi hj, hf _ (by rw [after]; split <;> omega) j hj, hf _ (by rw [before]; omega) j hj]
  ring

theorem ex_py (i j : Nat) (hi : i < 4) (hj : j < 3) : at2 (grad p 1 1).2 i j = 0 := by
  rw [at2_gradY h hi hj, hf i hi _ (by rw [after]; split <;> omega), hf i hi _ (by rw [before]; omega)]
  ring

theorem ex_arr (i j : Nat) (hi : i < 4) (hj : j < 3) :
    at2 (epsArrays exParams (grad p 1 1) 4 3).1 i j
      = if (f (after 4 i) - f (before i)) / 2 < 0 then 9 / 10 else 11 / 10 := by
  rw [epsArrays, at2_mk2 _ _ _ _ _ hi hj, ex_px h f hf i j hi hj, ex_py h f hf i j hi hj, ex_eps]

theorem ex_eps2 (i j : Nat) (hi : i < 4) (hj : j < 3) :
    at2 (eps2 exParams 1 1 p).1 i j
      = ((if (f (after 4 (after 4 i)) - f (before (after 4 i))) / 2 < 0 then 9 / 10 else 11 / 10) ^ 2
        - (if (f (after 4 (before i)) - f (before (before i))) / 2 < 0 then 9 / 10 else 11 / 10) ^ 2) / 2 := by
  have ha : after 4 i < 4 := by rw [after]; split <;> omega
  have hb : before i < 4 := by rw [before]; omega
  rw [eps2, h.1, cols_eq h (by omega), at2_gradX (rect_mk2 4 3 _) hi hj, at2_mk2 _ _ _ _ _ ha hj,
    at2_mk2 _ _ _ _ _ hb hj, ex_arr h f hf _ j ha hj, ex_arr h f hf _ j hb hj]
  ring

end

theorem exPhase_rect : Rect 4 3 exPhase := by simp [Rect, exPhase]

theorem exPhase_at : ∀ i < 4, ∀ j < 3, at2 exPhase i j = if i < 2 then 1 else 0 := by
  intro i hi j hj
  interval_cases i <;> interval_cases j <;> simp [exPhase, at2]

/-- First pass of the example, before the edges are overwritten. -/
theorem ex_first (T chi : List (List ℝ)) (i : Nat) (hi : i < 4) (hi1 : 1 ≤ i) (hi2 : i ≤ 2) :
    at2 (phaseField exParams chi (eps2 exParams 1 1 exPhase) 1 1
      (epsArrays exParams (grad exPhase 1 1) 4 3).1 (epsArrays exParams (grad exPhase 1 1) 4 3).2
      (grad exPhase 1 1).1 (grad exPhase 1 1).2 exPhase T) i 1 = if i = 1 then 0.29 else 0.71 := by
  have h := exPhase_rect
  have hf := exPhase_at
  have hj : (1 : Nat) < 3 := by omega
  have e1 : at2 (grad (mk2 4 3 fun i j => at2 (epsArrays exParams (grad exPhase 1 1) 4 3).1 i j
      * at2 (epsArrays exParams (grad exPhase 1 1) 4 3).2 i j * at2 (grad exPhase 1 1).2 i j) 1 1).1 i 1 = 0 := by
    have ha : after 4 i < 4 := by rw [after]; split <;> omega
    have hb : before i < 4 := by rw [before]; omega
    rw [at2_gradX (rect_mk2 4 3 _) hi hj, at2_mk2 _ _ _ _ _ ha hj, at2_mk2 _ _ _ _ _ hb hj,
      ex_py h _ hf _ _ ha hj, ex_py h _ hf _ _ hb hj]
    ring
  have e2 : at2 (grad (mk2 4 3 fun i j => at2 (epsArrays exParams (grad exPhase 1 1) 4 3).1 i j
      * at2 (epsArrays exParams (grad exPhase 1 1) 4 3).2 i j * at2 (grad exPhase 1 1).1 i j) 1 1).2 i 1 = 0 := by
    have ha : after 3 1 = 2 := rfl
    have hb : before 1 = 0 := rfl
    rw [at2_gradY (rect_mk2 4 3 _) hi hj, ha, hb, at2_mk2 _ _ _ _ _ hi (by omega),
      at2_mk2 _ _ _ _ _ hi (by omega)]
    simp only [epsArrays]
    rw [at2_mk2 _ _ _ _ _ hi (by omega), at2_mk2 _ _ _ _ _ hi (by omega), at2_mk2 _ _ _ _ _ hi (by omega),
      at2_mk2 _ _ _ _ _ hi (by omega), ex_px h _ hf _ _ hi (by omega), ex_px h _ hf _ _ hi (by omega),
      ex_py h _ hf _ _ hi (by omega), ex_py h _ hf _ _ hi (by omega)]
    ring
  rw [phaseField, h.1, cols_eq h (by omega), at2_mk2 _ _ _ _ _ hi hj, e1, e2, ex_px h _ hf i 1 hi hj,
    ex_py h _ hf i 1 hi hj, ex_eps2 h _ hf i 1 hi hj, ex_arr h _ hf i 1 hi hj, at2_laplace h hi hj,
    hf i hi _ hj, hf _ (by rw [before]; omega) _ hj, hf _ (by rw [after]; split <;> omega) _ hj,
    hf i hi (before 1) (by rw [before]; omega), hf i hi (after 3 1) (by rw [after]; split <;> omega)]
  obtain rfl | rfl : i = 1 ∨ i = 2 := by omega
  · norm_num [before, after, exParams]
  · norm_num [before, after, exParams]

/-- In the second pass the code's new phase differs from the intended one. -/
example (T chi : List (List ℝ)) :
    let s := run exParams 1 1 chi exPhase T 1
    let g := grad s.p 1 1
    let e := epsArrays exParams g s.p.length (cols s.p)
    at2 (phaseField exParams chi (eps2 exParams 1 1 exPhase) 1 1 e.1 e.2 g.1 g.2 s.p s.T) 1 1
      ≠ at2 (phaseField exParams chi (eps2 exParams 1 1 s.p) 1 1 e.1 e.2 g.1 g.2 s.p s.T) 1 1 := by
  intro s g e
  have hs : s.p = zeroFlux (phaseField exParams chi (eps2 exParams 1 1 exPhase) 1 1
      (epsArrays exParams (grad exPhase 1 1) 4 3).1 (epsArrays exParams (grad exPhase 1 1) 4 3).2
      (grad exPhase 1 1).1 (grad exPhase 1 1).2 exPhase T) := rfl
  have hr0 : Rect 4 3 (phaseField exParams chi (eps2 exParams 1 1 exPhase) 1 1
      (epsArrays exParams (grad exPhase 1 1) 4 3).1 (epsArrays exParams (grad exPhase 1 1) 4 3).2
      (grad exPhase 1 1).1 (grad exPhase 1 1).2 exPhase T) := rect_mk2 4 3 _
  obtain ⟨hr, hz⟩ := C81_zero_flux 4 3 _ hr0 (by omega) (by omega)
  rw [← hs] at hr hz
  have hf : ∀ i < 4, ∀ j < 3, at2 s.p i j = if i < 2 then 0.29 else 0.71 := by
    intro i hi j hj
    rw [hz i hi j hj]
    have : max 1 (min j (3 - 2)) = 1 := by omega
    rw [this, ex_first T chi _ (by omega) (by omega) (by omega)]
    interval_cases i <;> simp
  have h1 := (C81_stale exParams 1 1 chi exPhase T 1).2.2 1 (by rw [hr.1]; omega) 1
    (by rw [cols_eq hr (by omega)]; omega)
  intro heq
  have h2 := h1.symm.trans (sub_eq_zero.2 heq)
  rw [ex_eps2 exPhase_rect _ exPhase_at 1 1 (by omega) (by omega), ex_eps2 hr _ hf 1 1 (by omega) (by omega),
    ex_px hr _ hf 1 1 (by omega) (by omega), ex_py hr _ hf 1 1 (by omega) (by omega)] at h2
  norm_num [before, after, exParams] at h2

end DendriteFD

end JaxFem
