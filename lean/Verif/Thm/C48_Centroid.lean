import Verif.Thm.C48_Filter
import Mathlib.Tactic.FieldSimp
import Mathlib.Tactic.Ring
import Mathlib.Tactic.Positivity

/-!
# C48: geometry of the density filter

Centroids, and independence of the filter from the place of the mesh and the unit of length.
-/

namespace JaxFem
namespace MMA

open scoped BigOperators

variable {n dim : Nat}

/-! ### Helper lemmas -/

theorem sum_bounds (l : List ℝ) (lo hi : ℝ) (h : ∀ x ∈ l, lo ≤ x ∧ x ≤ hi) : l.length * lo ≤ l.sum ∧ l.sum ≤ l.length * hi := by
  induction l with
  | nil => simp
  | cons x l ih =>
    obtain ⟨h1, h2⟩ := ih fun y hy => h y (by simp [hy])
    obtain ⟨h3, h4⟩ := h x (by simp)
    simp only [List.length_cons, List.sum_cons, Nat.cast_add, Nat.cast_one]
    constructor <;> linarith

theorem sum_affine (points : List (Fin dim → ℝ)) (s : ℝ) (b : Fin dim → ℝ) (cell : List Nat)
    (hv : ∀ a ∈ cell, a < points.length) (i : Fin dim) :
    (cell.map fun a => (points.map fun p => s • p + b).getD a 0 i).sum
      = s * (cell.map fun a => points.getD a 0 i).sum + cell.length * b i := by
  induction cell with
  | nil => simp
  | cons a cell ih =>
    have ha := hv a (by simp)
    have e : (points.map fun p => s • p + b).getD a 0 i = s * points.getD a 0 i + b i := by
      rw [List.getD_eq_getElem _ _ (by simpa using ha), List.getD_eq_getElem _ _ ha]
      simp
    simp only [List.map_cons, List.sum_cons, List.length_cons, Nat.cast_add, Nat.cast_one, e]
    rw [ih fun x hx => hv x (by simp [hx])]
    ring

/-! ### Property theorems -/

/-- **C48 (centroid).** The centroid of a cell lies between any bounds of its nodes in every direction. -/
theorem C48_centroid (points : List (Fin dim → ℝ)) (cell : List Nat) (hne : cell ≠ []) (i : Fin dim) (lo hi : ℝ)
    (h : ∀ a ∈ cell, ∃ p, points[a]? = some p ∧ lo ≤ p i ∧ p i ≤ hi) :
    lo ≤ cellCentroid points cell i ∧ cellCentroid points cell i ≤ hi := by
  have hl : (0 : ℝ) < cell.length := by exact_mod_cast List.length_pos_iff.2 hne
  have := sum_bounds (cell.map fun a => points.getD a 0 i) lo hi (by
    intro x hx
    obtain ⟨a, ha, rfl⟩ := List.mem_map.1 hx
    obtain ⟨p, hp, hb⟩ := h a ha
    rw [List.getD_eq_getElem?_getD, hp]
    exact hb)
  rw [List.length_map] at this
  rw [cellCentroid, le_div_iff₀ hl, div_le_iff₀ hl]
  exact ⟨by linarith [this.1], by linarith [this.2]⟩

/-- **C48 (moved and scaled meshes).** If a mesh is scaled by `s` and moved by `b`, the centroids follow and the distances of the
centroids are multiplied by `|s|`. -/
theorem C48_similar (points : List (Fin dim → ℝ)) (s : ℝ) (b : Fin dim → ℝ) (cells : Fin n → List Nat)
    (hne : ∀ e, cells e ≠ []) (hv : ∀ e, ∀ a ∈ cells e, a < points.length) :
    (∀ e, cellCentroid (points.map fun p => s • p + b) (cells e) = s • cellCentroid points (cells e) + b) ∧
    ∀ e e', centroidDist (fun e => cellCentroid (points.map fun p => s • p + b) (cells e)) e e'
      = |s| * centroidDist (fun e => cellCentroid points (cells e)) e e' := by
  have h1 : ∀ e, cellCentroid (points.map fun p => s • p + b) (cells e) = s • cellCentroid points (cells e) + b := by
    intro e
    have hl : ((cells e).length : ℝ) ≠ 0 := by exact_mod_cast (List.length_pos_iff.2 (hne e)).ne'
    funext i
    simp only [cellCentroid, Pi.add_apply, Pi.smul_apply, smul_eq_mul]
    rw [sum_affine points s b (cells e) (hv e) i]
    field_simp
  refine ⟨h1, fun e e' => ?_⟩
  simp only [centroidDist, h1]
  rw [← Real.sqrt_sq_eq_abs, ← Real.sqrt_mul (sq_nonneg s), Finset.mul_sum]
  congr 1
  refine Finset.sum_congr rfl fun k _ => ?_
  simp only [Pi.add_apply, Pi.smul_apply, smul_eq_mul]
  ring

/-- **C48 (unit of length).** With volumes multiplied by `s ^ dim` and distances by `s`, the filter radius and all weights are
multiplied by `s`, and the filtered density is the same: it does not depend on the unit of length. -/
theorem C48_units (s : ℝ) (hs : 0 < s) :
    (∀ V (numCells d : Nat), 0 < d → 0 ≤ V → filterRadius (s ^ d * V) numCells d = s * filterRadius V numCells d) ∧
    (∀ r d, filterWeight (s * r) (s * d) = s * filterWeight r d) ∧
    (∀ (query : Fin n → List (Nat × ℝ)) r H Hs, computeFilter query r = .ok (H, Hs) →
      ∃ H' Hs', computeFilter (fun i => (query i).map fun p => (p.1, s * p.2)) (s * r) = .ok (H', Hs') ∧
        ∀ rho, applyDensityFilter H' Hs' rho = applyDensityFilter H Hs rho) := by
  have hw : ∀ r d, filterWeight (s * r) (s * d) = s * filterWeight r d := by
    intro r d
    have e : s * r - s * d = s * (r - d) := by ring
    rw [filterWeight, filterWeight, e, mul_ite, mul_zero]
    by_cases h : r - d > 0
    · rw [if_pos h, if_pos (mul_pos hs h)]
    · rw [if_neg h, if_neg fun h' => h (pos_of_mul_pos_right h' hs.le)]
  refine ⟨fun V numCells d hd hV => ?_, hw, fun query r H Hs h => ?_⟩
  · have hd' : (d : ℝ) ≠ 0 := by exact_mod_cast hd.ne'
    rw [filterRadius, filterRadius, mul_div_assoc, Real.mul_rpow (by positivity) (by positivity), ← Real.rpow_natCast,
      ← Real.rpow_mul hs.le, mul_one_div_cancel hd', Real.rpow_one]
    ring
  · rw [computeFilter] at h
    split at h
    · rename_i hall
      simp only [Except.ok.injEq, Prod.mk.injEq] at h
      obtain ⟨rfl, rfl⟩ := h
      refine ⟨fun i j => s * ((query i).map fun p => if p.1 = j.1 then filterWeight r p.2 else 0).sum,
        fun i => s * ∑ j : Fin n, ((query i).map fun p => if p.1 = j.1 then filterWeight r p.2 else 0).sum, ?_, ?_⟩
      · rw [computeFilter, if_pos]
        · have e : ∀ i j : Fin n, (((query i).map fun p => (p.1, s * p.2)).map fun p =>
              if p.1 = j.1 then filterWeight (s * r) p.2 else 0).sum
              = s * ((query i).map fun p => if p.1 = j.1 then filterWeight r p.2 else 0).sum := by
            intro i j
            rw [List.map_map, ← List.sum_map_mul_left]
            congr 1
            refine List.map_congr_left fun p _ => ?_
            simp only [Function.comp_apply, hw, mul_ite, mul_zero]
          simp only [e, Finset.mul_sum]
        · simpa [List.all_eq_true] using hall
      · intro rho
        funext i
        simp only [applyDensityFilter]
        have e : ∀ a : Fin n → ℝ, ∑ j, s * a j * rho j = s * ∑ j, a j * rho j := by
          intro a
          rw [Finset.mul_sum]
          exact Finset.sum_congr rfl fun j _ => mul_assoc _ _ _
        rw [e, mul_div_mul_left _ _ hs.ne']
    · cases h

/-! ### Examples -/

/-- A cell with two nodes. -/
example : cellCentroid [(fun _ => 1 : Fin 1 → ℝ), fun _ => 4] [0, 1] = fun _ => 5 / 2 := by
  funext i
  simp [cellCentroid]
  norm_num

example : ∃ (query : Fin 1 → List (Nat × ℝ)) (H : Fin 1 → Fin 1 → ℝ) (Hs : Fin 1 → ℝ), computeFilter query 2 = .ok (H, Hs) :=
  ⟨fun _ => [(0, 0)], _, _, by rw [computeFilter, if_pos (by simp)]⟩

end MMA
end JaxFem
