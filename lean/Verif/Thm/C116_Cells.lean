import Verif.Thm.C116_Sides

/-!
C116, second part: the integral of the gradient over one cell as a sum over its sides.
-/

namespace JaxFem.Patch

open Matrix

variable {nq : Nat}

/-- Node positions. -/
def pos {dim : Nat} (points : List (Fin dim → ℝ)) (n : Nat) : Fin dim → ℝ := points.getD n 0

/-- Integral over a cell of a gradient times measure without division. -/
noncomputable def cofSum {nn dim : Nat} (el : RefElement ℝ nq nn dim) (points : List (Fin dim → ℝ)) (cell : List Nat)
    (v : Nat → ℝ) (j : Fin dim) : ℝ :=
  ∑ q, (∑ a : Fin nn, v (cell.getD a 0) * (Matrix.of (el.shapeGradsRef q)
    * (mapJacobian (coords nn points cell) (Matrix.of (el.shapeGradsRef q))).adjugate) a j) * el.quadWeights q

theorem tri3_cell (p : Fin nq → Fin 2 → ℝ) (w : Fin nq → ℝ) (points : List (Fin 2 → ℝ)) (cell : List Nat)
    (hcell : cell.length = 3) (v : Nat → ℝ) (j : Fin 2) :
    cofSum (tabulate tri3N tri3G p w) points cell v j
      = (∑ q, w q) * ((polyEdges cell).map fun e => edgeTerm v (pos points) e j).sum := by
  obtain ⟨a, b, c, rfl⟩ : ∃ a b c, cell = [a, b, c] := List.length_eq_three.1 hcell
  rw [cofSum, Finset.sum_mul]
  refine Finset.sum_congr rfl fun q _ => ?_
  rw [mul_comm]
  congr 1
  fin_cases j <;> simp [polyEdges, List.range_succ, edgeTerm, tabulate, tri3G, Fin.sum_univ_three, Matrix.mul_apply,
    Fin.sum_univ_two, Matrix.adjugate_fin_two, mapJacobian, coords, Matrix.vecHead, Matrix.vecTail, pos] <;> ring

theorem quad4_cell (p : Fin nq → Fin 2 → ℝ) (w : Fin nq → ℝ) (h : ∑ q, w q = 1) (h0 : ∑ q, w q * p q 0 = 1 / 2)
    (h1 : ∑ q, w q * p q 1 = 1 / 2) (points : List (Fin 2 → ℝ)) (cell : List Nat)
    (hcell : cell.length = 4) (v : Nat → ℝ) (j : Fin 2) :
    cofSum (tabulate quad4N quad4G p w) points cell v j
      = (1 / 2) * ((polyEdges cell).map fun e => edgeTerm v (pos points) e j).sum := by
  obtain ⟨a, b, c, d, rfl⟩ : ∃ a b c d, cell = [a, b, c, d] := by
    match cell, hcell with
    | [a, b, c, d], _ => exact ⟨a, b, c, d, rfl⟩
  set β : (Nat → ℝ) → ℝ := fun f => f b - f a with hβ
  set γ : (Nat → ℝ) → ℝ := fun f => f d - f a with hγ
  set δ : (Nat → ℝ) → ℝ := fun f => f a - f b + f c - f d with hδ
  -- coefficients of the bracket of two bilinear functions
  have key : ∀ q, (∑ a' : Fin 4, v ([a, b, c, d].getD a' 0) * (Matrix.of ((tabulate quad4N quad4G p w).shapeGradsRef q)
      * (mapJacobian (coords 4 points [a, b, c, d]) (Matrix.of ((tabulate quad4N quad4G p w).shapeGradsRef q))).adjugate) a' j)
        = (if j = 0 then (1 : ℝ) else -1) * ((fun y => (β v * γ y - γ v * β y) + (β v * δ y - δ v * β y) * p q 0
          + (δ v * γ y - γ v * δ y) * p q 1) fun n => pos points n (if j = 0 then 1 else 0)) := by
    intro q
    fin_cases j <;> simp [hβ, hγ, hδ, tabulate, quad4G, Fin.sum_univ_four, Matrix.mul_apply,
      Fin.sum_univ_two, Matrix.adjugate_fin_two, mapJacobian, coords, Matrix.vecHead, Matrix.vecTail, pos] <;> ring
  rw [cofSum]
  simp only [key]
  have e : ∀ (s A B C : ℝ) (q : Fin nq), s * (A + B * p q 0 + C * p q 1) * (tabulate quad4N quad4G p w).quadWeights q
      = s * A * w q + s * B * (w q * p q 0) + s * C * (w q * p q 1) := fun s A B C q => by
    change _ * w q = _; ring
  simp only [e, Finset.sum_add_distrib, ← Finset.mul_sum, h, h0, h1]
  fin_cases j <;> simp [hβ, hγ, hδ, polyEdges, List.range_succ, edgeTerm] <;> ring

/-- Twice the area vector of a triangle, a component. -/
def areaVec (x y z : Fin 3 → ℝ) (j : Fin 3) : ℝ :=
  (y (j + 1) - x (j + 1)) * (z (j + 2) - x (j + 2)) - (y (j + 2) - x (j + 2)) * (z (j + 1) - x (j + 1))

/-- Contribution of an oriented triangle. -/
def triTerm (v : Nat → ℝ) (x : Nat → Fin 3 → ℝ) (j : Fin 3) : List Nat → ℝ
  | [p, q, r] => (v p + v q + v r) * areaVec (x p) (x q) (x r) j
  | _ => 0

theorem tet4_cell (p : Fin nq → Fin 3 → ℝ) (w : Fin nq → ℝ) (points : List (Fin 3 → ℝ)) (cell : List Nat)
    (hcell : cell.length = 4) (v : Nat → ℝ) (j : Fin 3) :
    cofSum (tabulate tet4N tet4G p w) points cell v j
      = (∑ q, w q) * ((tetFaces cell).map (triTerm v (pos points) j)).sum := by
  obtain ⟨a, b, c, d, rfl⟩ : ∃ a b c d, cell = [a, b, c, d] := by
    match cell, hcell with
    | [a, b, c, d], _ => exact ⟨a, b, c, d, rfl⟩
  rw [cofSum, Finset.sum_mul]
  refine Finset.sum_congr rfl fun q _ => ?_
  rw [mul_comm]
  congr 1
  fin_cases j <;> simp [tetFaces, triTerm, areaVec, tabulate, tet4G, Fin.sum_univ_four, Matrix.mul_apply,
    Fin.sum_univ_three, Matrix.adjugate_fin_three, mapJacobian, coords, Matrix.vecHead, Matrix.vecTail, pos] <;> ring

end JaxFem.Patch
