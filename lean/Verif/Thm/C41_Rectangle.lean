import Mathlib.Algebra.Order.Field.Basic
import Mathlib.Tactic.FieldSimp
import Mathlib.Tactic.Positivity
import Mathlib.Tactic.FinCases
import Mathlib.Data.Rat.Defs
import Verif.Thm.Grid

/-!
# C41: the structured rectangle mesh
-/

namespace JaxFem

variable {K : Type} [Field K]

/-! ### Helper lemmas -/

/-- Two-dimensional grid numbering is injective. -/
theorem gridNode_inj {W a b a' b' : Nat} (hb : b < W) (hb' : b' < W)
    (h : a * W + b = a' * W + b') : a = a' ∧ b = b' := by
  have h1 : (a * W + b) / W = (a' * W + b') / W := by rw [h]
  have h2 : (a * W + b) % W = (a' * W + b') % W := by rw [h]
  have hW : 0 < W := by omega
  rw [mul_comm a, mul_comm a', Nat.mul_add_div hW, Nat.mul_add_div hW, Nat.div_eq_of_lt hb,
    Nat.div_eq_of_lt hb'] at h1
  rw [mul_comm a, mul_comm a', Nat.mul_add_mod, Nat.mul_add_mod, Nat.mod_eq_of_lt hb,
    Nat.mod_eq_of_lt hb'] at h2
  omega

theorem gridNode_lt {W H a b : Nat} (ha : a < H) (hb : b < W) : a * W + b < H * W := by
  calc a * W + b < a * W + W := by omega
    _ = (a + 1) * W := by ring
    _ ≤ H * W := Nat.mul_le_mul_right _ ha

theorem rect_point (Nx Ny : Nat) (Lx Ly : K) (i j : Nat) (hi : i ≤ Nx) (hj : j ≤ Ny) :
    (rectangleMesh Nx Ny Lx Ly).1[i * (Ny + 1) + j]?
      = some ![(i : K) * (Lx / Nx), (j : K) * (Ly / Ny)] := by
  have hlt : i * (Ny + 1) + j < (rectangleMesh Nx Ny Lx Ly).1.length := by
    rw [rectangleMesh_eq, flatMap_map_length]
    exact gridNode_lt (by omega) (by omega)
  rw [List.getElem?_eq_getElem hlt]
  simp only [rectangleMesh_eq]
  rw [flatMap_map_getElem (Nx + 1) (Ny + 1)
    (fun i j => ![(i : K) * (Lx / Nx), (j : K) * (Ly / Ny)]) i j (by omega) (by omega)]

theorem rect_cell (Nx Ny : Nat) (Lx Ly : K) (i j : Nat) (hi : i < Nx) (hj : j < Ny) :
    (rectangleMesh Nx Ny Lx Ly).2[i * Ny + j]?
      = some [i * (Ny + 1) + j, (i + 1) * (Ny + 1) + j,
        (i + 1) * (Ny + 1) + (j + 1), i * (Ny + 1) + (j + 1)] := by
  have hlt : i * Ny + j < (rectangleMesh Nx Ny Lx Ly).2.length := by
    rw [rectangleMesh_eq, flatMap_map_length]
    exact gridNode_lt hi hj
  rw [List.getElem?_eq_getElem hlt]
  simp only [rectangleMesh_eq]
  rw [flatMap_map_getElem Nx Ny (fun i j => [i * (Ny + 1) + j, (i + 1) * (Ny + 1) + j,
        (i + 1) * (Ny + 1) + (j + 1), i * (Ny + 1) + (j + 1)]) i j hi hj]

theorem rect_cell_mem (Nx Ny : Nat) (Lx Ly : K) (cell : List Nat)
    (h : cell ∈ (rectangleMesh Nx Ny Lx Ly).2) : ∃ i j, i < Nx ∧ j < Ny ∧
      cell = [i * (Ny + 1) + j, (i + 1) * (Ny + 1) + j,
        (i + 1) * (Ny + 1) + (j + 1), i * (Ny + 1) + (j + 1)] := by
  rw [rectangleMesh_eq] at h
  simp only [List.mem_flatMap, List.mem_range, List.mem_map] at h
  obtain ⟨i, hi, j, hj, rfl⟩ := h
  exact ⟨i, j, hi, hj, rfl⟩

/-! ### Property theorems -/

/-- **C41 (points).** There are `(Nx+1)(Ny+1)` points; point number `i (Ny+1) + j` is the grid point
`(i Lx/Nx, j Ly/Ny)`. -/
theorem C41_points (Nx Ny : Nat) (Lx Ly : K) :
    (rectangleMesh Nx Ny Lx Ly).1.length = (Nx + 1) * (Ny + 1) ∧
    ∀ i j, i ≤ Nx → j ≤ Ny → (rectangleMesh Nx Ny Lx Ly).1[i * (Ny + 1) + j]?
      = some ![(i : K) * (Lx / Nx), (j : K) * (Ly / Ny)] :=
  ⟨by rw [rectangleMesh_eq, flatMap_map_length], fun i j => rect_point Nx Ny Lx Ly i j⟩

/-- **C41 (distinct points).** No two points coincide. -/
theorem C41_points_distinct [CharZero K] (Nx Ny : Nat) (Lx Ly : K) (hx : Lx ≠ 0) (hy : Ly ≠ 0)
    (hNx : 0 < Nx) (hNy : 0 < Ny) : (rectangleMesh Nx Ny Lx Ly).1.Nodup := by
  rw [List.nodup_iff_injective_getElem]
  intro ⟨p, hp⟩ ⟨q, hq⟩ h
  simp only at h
  have hlen := (C41_points Nx Ny Lx Ly).1
  have dec : ∀ r, r < (Nx + 1) * (Ny + 1) → ∃ i j, i ≤ Nx ∧ j ≤ Ny ∧ r = i * (Ny + 1) + j := by
    intro r hr
    refine ⟨r / (Ny + 1), r % (Ny + 1), ?_, ?_, ?_⟩
    · have := Nat.div_lt_of_lt_mul (m := r) (n := Ny + 1) (k := Nx + 1) (by rw [mul_comm]; exact hr)
      omega
    · have := Nat.mod_lt r (y := Ny + 1) (by omega)
      omega
    · rw [mul_comm]; exact (Nat.div_add_mod r (Ny + 1)).symm
  obtain ⟨i, j, hi, hj, rfl⟩ := dec p (by rw [← hlen]; exact hp)
  obtain ⟨i', j', hi', hj', rfl⟩ := dec q (by rw [← hlen]; exact hq)
  have e1 := (C41_points Nx Ny Lx Ly).2 i j hi hj
  have e2 := (C41_points Nx Ny Lx Ly).2 i' j' hi' hj'
  rw [List.getElem?_eq_getElem hp] at e1
  rw [List.getElem?_eq_getElem hq, ← h, e1] at e2
  have e3 := Option.some.inj e2
  have f0 := congrFun e3 0
  have f1 := congrFun e3 1
  have hx' : Lx / Nx ≠ 0 := div_ne_zero hx (Nat.cast_ne_zero.2 hNx.ne')
  have hy' : Ly / Ny ≠ 0 := div_ne_zero hy (Nat.cast_ne_zero.2 hNy.ne')
  simp only [Matrix.cons_val_zero, Matrix.cons_val_one] at f0 f1
  have g0 := Nat.cast_injective (mul_right_cancel₀ hx' f0)
  have g1 := Nat.cast_injective (mul_right_cancel₀ hy' f1)
  subst g0 g1
  rfl

/-- **C41 (cells).** There are `Nx Ny` cells; cell number `i Ny + j` lists the corners of grid square
`(i, j)`: lower left, lower right, upper right, upper left. -/
theorem C41_cells (Nx Ny : Nat) (Lx Ly : K) :
    (rectangleMesh Nx Ny Lx Ly).2.length = Nx * Ny ∧
    ∀ i j, i < Nx → j < Ny → ∃ cell, (rectangleMesh Nx Ny Lx Ly).2[i * Ny + j]? = some cell ∧
      cell.map (fun n => (rectangleMesh Nx Ny Lx Ly).1[n]?)
        = [some ![(i : K) * (Lx / Nx), (j : K) * (Ly / Ny)],
           some ![((i + 1 : Nat) : K) * (Lx / Nx), (j : K) * (Ly / Ny)],
           some ![((i + 1 : Nat) : K) * (Lx / Nx), ((j + 1 : Nat) : K) * (Ly / Ny)],
           some ![(i : K) * (Lx / Nx), ((j + 1 : Nat) : K) * (Ly / Ny)]] := by
  refine ⟨by rw [rectangleMesh_eq, flatMap_map_length], fun i j hi hj =>
    ⟨_, rect_cell Nx Ny Lx Ly i j hi hj, ?_⟩⟩
  simp only [List.map_cons, List.map_nil]
  rw [rect_point Nx Ny Lx Ly i j (by omega) (by omega),
    rect_point Nx Ny Lx Ly (i + 1) j (by omega) (by omega),
    rect_point Nx Ny Lx Ly (i + 1) (j + 1) (by omega) (by omega),
    rect_point Nx Ny Lx Ly i (j + 1) (by omega) (by omega)]

/-- **C41 (valid indices, no unused node).** Every cell lists four existing, pairwise distinct
nodes; with at least one cell in each direction every node belongs to a cell. -/
theorem C41_indices (Nx Ny : Nat) (Lx Ly : K) :
    (∀ cell ∈ (rectangleMesh Nx Ny Lx Ly).2, cell.length = 4 ∧ cell.Nodup ∧
      ∀ n ∈ cell, n < (rectangleMesh Nx Ny Lx Ly).1.length) ∧
    (0 < Nx → 0 < Ny → ∀ n < (rectangleMesh Nx Ny Lx Ly).1.length,
      ∃ cell ∈ (rectangleMesh Nx Ny Lx Ly).2, n ∈ cell) := by
  have hlen := (C41_points Nx Ny Lx Ly).1
  constructor
  · intro cell h
    obtain ⟨i, j, hi, hj, rfl⟩ := rect_cell_mem Nx Ny Lx Ly cell h
    rw [hlen]
    have e : ∀ a b a' b', b < Ny + 1 → b' < Ny + 1 → a * (Ny + 1) + b = a' * (Ny + 1) + b' →
        a = a' ∧ b = b' := fun a b a' b' h1 h2 h => gridNode_inj h1 h2 h
    refine ⟨rfl, ?_, ?_⟩
    · simp only [List.nodup_cons, List.mem_cons, List.not_mem_nil, or_false, not_or,
        List.nodup_nil, and_true, not_false_eq_true]
      refine ⟨⟨?_, ?_, ?_⟩, ⟨?_, ?_⟩, ?_⟩ <;> intro hh <;>
        obtain ⟨h1, h2⟩ := e _ _ _ _ (by omega) (by omega) hh <;> omega
    · intro n hn
      simp only [List.mem_cons, List.not_mem_nil, or_false] at hn
      rcases hn with rfl | rfl | rfl | rfl <;> exact gridNode_lt (by omega) (by omega)
  · intro hNx hNy n hn
    rw [hlen] at hn
    have h1 := Nat.div_lt_of_lt_mul (m := n) (n := Ny + 1) (k := Nx + 1) (by rw [mul_comm]; exact hn)
    have h2 := Nat.mod_lt n (y := Ny + 1) (by omega)
    have h3 : n / (Ny + 1) * (Ny + 1) + n % (Ny + 1) = n := by
      rw [mul_comm]; exact Nat.div_add_mod n (Ny + 1)
    generalize n / (Ny + 1) = a at *
    generalize n % (Ny + 1) = b at *
    have mem : ∀ i j, i < Nx → j < Ny → [i * (Ny + 1) + j, (i + 1) * (Ny + 1) + j,
        (i + 1) * (Ny + 1) + (j + 1), i * (Ny + 1) + (j + 1)]
        ∈ (rectangleMesh Nx Ny Lx Ly).2 := fun i j hi hj =>
      List.mem_of_getElem? (rect_cell Nx Ny Lx Ly i j hi hj)
    by_cases ha : a < Nx <;> by_cases hb : b < Ny
    · exact ⟨_, mem a b ha hb, by rw [← h3]; simp⟩
    · obtain ⟨b', rfl⟩ : ∃ b', b = b' + 1 := ⟨b - 1, by omega⟩
      exact ⟨_, mem a b' ha (by omega), by rw [← h3]; simp⟩
    · obtain ⟨a', rfl⟩ : ∃ a', a = a' + 1 := ⟨a - 1, by omega⟩
      exact ⟨_, mem a' b (by omega) hb, by rw [← h3]; simp⟩
    · obtain ⟨b', rfl⟩ : ∃ b', b = b' + 1 := ⟨b - 1, by omega⟩
      obtain ⟨a', rfl⟩ : ∃ a', a = a' + 1 := ⟨a - 1, by omega⟩
      exact ⟨_, mem a' b' (by omega) (by omega), by rw [← h3]; simp⟩

/-- **C41 (conformity).** Two different cells have two common nodes (an edge) if and only if their
grid squares are neighbours. -/
theorem C41_conforming (Nx Ny : Nat) (Lx Ly : K) (i j i' j' : Nat) (hi : i < Nx) (hj : j < Ny)
    (hi' : i' < Nx) (hj' : j' < Ny) (hne : (i, j) ≠ (i', j')) (c c' : List Nat)
    (hc : (rectangleMesh Nx Ny Lx Ly).2[i * Ny + j]? = some c)
    (hc' : (rectangleMesh Nx Ny Lx Ly).2[i' * Ny + j']? = some c') :
    (∃ n m, n ≠ m ∧ n ∈ c ∧ n ∈ c' ∧ m ∈ c ∧ m ∈ c') ↔
      (i = i' ∧ (j = j' + 1 ∨ j' = j + 1)) ∨ (j = j' ∧ (i = i' + 1 ∨ i' = i + 1)) := by
  rw [rect_cell Nx Ny Lx Ly i j hi hj] at hc
  rw [rect_cell Nx Ny Lx Ly i' j' hi' hj'] at hc'
  obtain rfl := Option.some.inj hc
  obtain rfl := Option.some.inj hc'
  -- membership in grid coordinates
  have mem : ∀ (i j n : Nat), n ∈ [i * (Ny + 1) + j, (i + 1) * (Ny + 1) + j,
      (i + 1) * (Ny + 1) + (j + 1), i * (Ny + 1) + (j + 1)] ↔
      ∃ a b, (a = i ∨ a = i + 1) ∧ (b = j ∨ b = j + 1) ∧ n = a * (Ny + 1) + b := by
    intro i j n
    simp only [List.mem_cons, List.not_mem_nil, or_false]
    constructor
    · rintro (h | h | h | h)
      · exact ⟨i, j, by simp, by simp, h⟩
      · exact ⟨i + 1, j, by simp, by simp, h⟩
      · exact ⟨i + 1, j + 1, by simp, by simp, h⟩
      · exact ⟨i, j + 1, by simp, by simp, h⟩
    · rintro ⟨a, b, rfl | rfl, rfl | rfl, h⟩ <;> simp [h]
  simp only [mem]
  constructor
  · rintro ⟨n, m, hnm, ⟨a, b, ha, hb, e1⟩, ⟨a', b', ha', hb', e2⟩, ⟨u, v, hu, hv, e3⟩,
      ⟨u', v', hu', hv', e4⟩⟩
    have hne' : ¬(i = i' ∧ j = j') := by
      rintro ⟨rfl, rfl⟩; exact hne rfl
    obtain ⟨rfl, rfl⟩ := gridNode_inj (W := Ny + 1) (by omega) (by omega) (e1.symm.trans e2)
    obtain ⟨rfl, rfl⟩ := gridNode_inj (W := Ny + 1) (by omega) (by omega) (e3.symm.trans e4)
    have : ¬(a = u ∧ b = v) := by
      rintro ⟨rfl, rfl⟩; exact hnm (e1.trans e3.symm)
    omega
  · have inj : ∀ a b a' b', b < Ny + 1 → b' < Ny + 1 → ¬(a = a' ∧ b = b') →
        a * (Ny + 1) + b ≠ a' * (Ny + 1) + b' := fun a b a' b' h1 h2 h3 h4 =>
      h3 (gridNode_inj h1 h2 h4)
    rintro (⟨rfl, rfl | rfl⟩ | ⟨rfl, rfl | rfl⟩)
    · exact ⟨_, _, inj i (j' + 1) (i + 1) (j' + 1) (by omega) (by omega) (by omega),
        ⟨i, j' + 1, by simp, by simp, rfl⟩, ⟨i, j' + 1, by simp, by simp, rfl⟩,
        ⟨i + 1, j' + 1, by simp, by simp, rfl⟩, ⟨i + 1, j' + 1, by simp, by simp, rfl⟩⟩
    · exact ⟨_, _, inj i (j + 1) (i + 1) (j + 1) (by omega) (by omega) (by omega),
        ⟨i, j + 1, by simp, by simp, rfl⟩, ⟨i, j + 1, by simp, by simp, rfl⟩,
        ⟨i + 1, j + 1, by simp, by simp, rfl⟩, ⟨i + 1, j + 1, by simp, by simp, rfl⟩⟩
    · exact ⟨_, _, inj (i' + 1) j (i' + 1) (j + 1) (by omega) (by omega) (by omega),
        ⟨i' + 1, j, by simp, by simp, rfl⟩, ⟨i' + 1, j, by simp, by simp, rfl⟩,
        ⟨i' + 1, j + 1, by simp, by simp, rfl⟩, ⟨i' + 1, j + 1, by simp, by simp, rfl⟩⟩
    · exact ⟨_, _, inj (i + 1) j (i + 1) (j + 1) (by omega) (by omega) (by omega),
        ⟨i + 1, j, by simp, by simp, rfl⟩, ⟨i + 1, j, by simp, by simp, rfl⟩,
        ⟨i + 1, j + 1, by simp, by simp, rfl⟩, ⟨i + 1, j + 1, by simp, by simp, rfl⟩⟩

/-- Twice the signed area of the quadrilateral with the given corners (shoelace formula). -/
def shoelace2 (p : Fin 4 → Fin 2 → K) : K :=
  (p 0 0 * p 1 1 - p 1 0 * p 0 1) + (p 1 0 * p 2 1 - p 2 0 * p 1 1)
    + (p 2 0 * p 3 1 - p 3 0 * p 2 1) + (p 3 0 * p 0 1 - p 0 0 * p 3 1)

/-- **C41 (orientation).** Every cell is listed counterclockwise: its signed area is that of the grid
square, which is positive for positive side lengths. -/
theorem C41_counterclockwise [LinearOrder K] [IsStrictOrderedRing K] (Nx Ny : Nat) (Lx Ly : K)
    (hx : 0 < Lx) (hy : 0 < Ly) (cell : List Nat) (h : cell ∈ (rectangleMesh Nx Ny Lx Ly).2)
    (p : Fin 4 → Fin 2 → K)
    (hp : ∀ a : Fin 4, (rectangleMesh Nx Ny Lx Ly).1[cell.getD a 0]? = some (p a)) :
    shoelace2 p = 2 * (Lx / Nx * (Ly / Ny)) ∧ 0 < shoelace2 p := by
  obtain ⟨i, j, hi, hj, rfl⟩ := rect_cell_mem Nx Ny Lx Ly cell h
  have p0 := hp 0
  have p1 := hp 1
  have p2 := hp 2
  have p3 := hp 3
  simp only [List.getD_cons_zero, List.getD_cons_succ, Fin.val_zero, Fin.val_one, Fin.val_two,
    show ((3 : Fin 4) : Nat) = 3 from rfl] at p0 p1 p2 p3
  rw [rect_point Nx Ny Lx Ly i j (by omega) (by omega)] at p0
  rw [rect_point Nx Ny Lx Ly (i + 1) j (by omega) (by omega)] at p1
  rw [rect_point Nx Ny Lx Ly (i + 1) (j + 1) (by omega) (by omega)] at p2
  rw [rect_point Nx Ny Lx Ly i (j + 1) (by omega) (by omega)] at p3
  have q0 := Option.some.inj p0
  have q1 := Option.some.inj p1
  have q2 := Option.some.inj p2
  have q3 := Option.some.inj p3
  have key : shoelace2 p = 2 * (Lx / Nx * (Ly / Ny)) := by
    simp only [shoelace2, ← q0, ← q1, ← q2, ← q3, Matrix.cons_val_zero, Matrix.cons_val_one]
    push_cast
    ring
  refine ⟨key, ?_⟩
  rw [key]
  have : (0 : K) < Nx := Nat.cast_pos.2 (by omega)
  have : (0 : K) < Ny := Nat.cast_pos.2 (by omega)
  positivity

/-! Concrete case: 3 × 2 cells on a 6 × 2 rectangle. -/

example : (rectangleMesh 3 2 (6 : Rat) 2).2
    = [[0, 3, 4, 1], [1, 4, 5, 2], [3, 6, 7, 4], [4, 7, 8, 5], [6, 9, 10, 7], [7, 10, 11, 8]] := by
  decide +kernel

example : (rectangleMesh 3 2 (6 : Rat) 2).1[4]? = some ![2, 1] := by decide +kernel

end JaxFem
