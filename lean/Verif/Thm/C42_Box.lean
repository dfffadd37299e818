import Verif.Thm.C41_Rectangle

/-!
# C42: the structured box mesh
-/

namespace JaxFem

variable {K : Type} [Field K]

/-! ### Helper lemmas -/

theorem flatMap3_length {α : Type} (a b c : Nat) (f : Nat → Nat → Nat → α) :
    ((List.range a).flatMap fun i => (List.range b).flatMap fun j =>
      (List.range c).map (f i j)).length = a * (b * c) := by
  rw [flatMap3_eq, flatMap_map_length]

theorem flatMap3_getElem? {α : Type} (a b c : Nat) (f : Nat → Nat → Nat → α) (i j k : Nat)
    (hi : i < a) (hj : j < b) (hk : k < c) :
    ((List.range a).flatMap fun i => (List.range b).flatMap fun j =>
      (List.range c).map (f i j))[(i * b + j) * c + k]? = some (f i j k) := by
  have hm : j * c + k < b * c := gridNode_lt hj hk
  have e : (i * b + j) * c + k = i * (b * c) + (j * c + k) := by ring
  have hlt : i * (b * c) + (j * c + k) < a * (b * c) := gridNode_lt hi hm
  rw [flatMap3_eq, e, List.getElem?_eq_getElem (by rw [flatMap_map_length]; exact hlt),
    flatMap_map_getElem a (b * c) (fun i m => f i (m / c) (m % c)) i (j * c + k) hi hm]
  have hc : 0 < c := by omega
  rw [mul_comm j c, Nat.mul_add_div hc, Nat.div_eq_of_lt hk, add_zero, Nat.mul_add_mod,
    Nat.mod_eq_of_lt hk]

theorem boxNode_inj {Ny Nz i j k i' j' k' : Nat} (hj : j ≤ Ny) (hj' : j' ≤ Ny) (hk : k ≤ Nz)
    (hk' : k' ≤ Nz) (h : boxNode Ny Nz i j k = boxNode Ny Nz i' j' k') :
    i = i' ∧ j = j' ∧ k = k' := by
  obtain ⟨h1, h2⟩ := gridNode_inj (W := Nz + 1) (by omega) (by omega) h
  obtain ⟨h3, h4⟩ := gridNode_inj (W := Ny + 1) (by omega) (by omega) h1
  exact ⟨h3, h4, h2⟩

theorem boxNode_lt {Nx Ny Nz i j k : Nat} (hi : i ≤ Nx) (hj : j ≤ Ny) (hk : k ≤ Nz) :
    boxNode Ny Nz i j k < (Nx + 1) * (Ny + 1) * (Nz + 1) :=
  gridNode_lt (gridNode_lt (by omega) (by omega)) (by omega)

theorem exists_boxNode {Nx Ny Nz n : Nat} (h : n < (Nx + 1) * (Ny + 1) * (Nz + 1)) :
    ∃ i j k, i ≤ Nx ∧ j ≤ Ny ∧ k ≤ Nz ∧ n = boxNode Ny Nz i j k := by
  have h1 := Nat.div_lt_of_lt_mul (m := n) (n := Nz + 1) (k := (Nx + 1) * (Ny + 1))
    (by rw [mul_comm]; exact h)
  have h2 := Nat.mod_lt n (y := Nz + 1) (by omega)
  have h3 := Nat.div_lt_of_lt_mul (m := n / (Nz + 1)) (n := Ny + 1) (k := Nx + 1)
    (by rw [mul_comm]; exact h1)
  have h4 := Nat.mod_lt (n / (Nz + 1)) (y := Ny + 1) (by omega)
  refine ⟨n / (Nz + 1) / (Ny + 1), n / (Nz + 1) % (Ny + 1), n % (Nz + 1), Nat.le_of_lt_succ h3,
    Nat.le_of_lt_succ h4, Nat.le_of_lt_succ h2, ?_⟩
  rw [boxNode, mul_comm (n / (Nz + 1) / (Ny + 1)), Nat.div_add_mod, mul_comm, Nat.div_add_mod]

theorem box_point (Nx Ny Nz : Nat) (Lx Ly Lz : K) (i j k : Nat) (hi : i ≤ Nx) (hj : j ≤ Ny)
    (hk : k ≤ Nz) : (boxMesh Nx Ny Nz Lx Ly Lz).1[boxNode Ny Nz i j k]?
      = some ![(i : K) * (Lx / Nx), (j : K) * (Ly / Ny), (k : K) * (Lz / Nz)] := by
  rw [boxMesh_eq]
  exact flatMap3_getElem? (Nx + 1) (Ny + 1) (Nz + 1) (fun i j k =>
    ![(i : K) * (Lx / Nx), (j : K) * (Ly / Ny), (k : K) * (Lz / Nz)]) i j k (by omega) (by omega)
    (by omega)

/-- The corners of a grid cube in the order of the code. -/
def boxCorners (Ny Nz i j k : Nat) : List Nat :=
  [boxNode Ny Nz i j k, boxNode Ny Nz (i + 1) j k, boxNode Ny Nz (i + 1) (j + 1) k,
   boxNode Ny Nz i (j + 1) k, boxNode Ny Nz i j (k + 1), boxNode Ny Nz (i + 1) j (k + 1),
   boxNode Ny Nz (i + 1) (j + 1) (k + 1), boxNode Ny Nz i (j + 1) (k + 1)]

theorem box_cell (Nx Ny Nz : Nat) (Lx Ly Lz : K) (i j k : Nat) (hi : i < Nx) (hj : j < Ny)
    (hk : k < Nz) : (boxMesh Nx Ny Nz Lx Ly Lz).2[(i * Ny + j) * Nz + k]?
      = some (boxCorners Ny Nz i j k) := by
  rw [boxMesh_eq]
  exact flatMap3_getElem? Nx Ny Nz (fun i j k => boxCorners Ny Nz i j k) i j k hi hj hk

theorem box_cell_mem (Nx Ny Nz : Nat) (Lx Ly Lz : K) (cell : List Nat)
    (h : cell ∈ (boxMesh Nx Ny Nz Lx Ly Lz).2) : ∃ i j k, i < Nx ∧ j < Ny ∧ k < Nz ∧
      cell = boxCorners Ny Nz i j k := by
  rw [boxMesh_eq] at h
  simp only [List.mem_flatMap, List.mem_range, List.mem_map] at h
  obtain ⟨i, hi, j, hj, k, hk, rfl⟩ := h
  exact ⟨i, j, k, hi, hj, hk, rfl⟩

theorem mem_boxCorners (Ny Nz i j k n : Nat) : n ∈ boxCorners Ny Nz i j k ↔
    ∃ a b c, (a = i ∨ a = i + 1) ∧ (b = j ∨ b = j + 1) ∧ (c = k ∨ c = k + 1) ∧
      n = boxNode Ny Nz a b c := by
  simp only [boxCorners, List.mem_cons, List.not_mem_nil, or_false]
  constructor
  · rintro (h | h | h | h | h | h | h | h) <;> exact ⟨_, _, _, by simp, by simp, by simp, h⟩
  · rintro ⟨a, b, c, rfl | rfl, rfl | rfl, rfl | rfl, h⟩ <;> simp [h]

theorem mem_two_boxes {Ny Nz i j k i' j' k' n : Nat} (hj : j < Ny) (hk : k < Nz) (hj' : j' < Ny)
    (hk' : k' < Nz) (h1 : n ∈ boxCorners Ny Nz i j k) (h2 : n ∈ boxCorners Ny Nz i' j' k') :
    ∃ a b c, (a = i ∨ a = i + 1) ∧ (a = i' ∨ a = i' + 1) ∧ (b = j ∨ b = j + 1) ∧
      (b = j' ∨ b = j' + 1) ∧ (c = k ∨ c = k + 1) ∧ (c = k' ∨ c = k' + 1) ∧
      n = boxNode Ny Nz a b c := by
  obtain ⟨a, b, c, ha, hb, hc, rfl⟩ := (mem_boxCorners _ _ _ _ _ _).1 h1
  obtain ⟨a2, b2, c2, ha2, hb2, hc2, e2⟩ := (mem_boxCorners _ _ _ _ _ _).1 h2
  obtain ⟨rfl, rfl, rfl⟩ := boxNode_inj (by omega) (by omega) (by omega) (by omega) e2
  exact ⟨a, b, c, ha, ha2, hb, hb2, hc, hc2, rfl⟩

theorem boxNode_ne {Ny Nz a b c a' b' c' : Nat} (h1 : b ≤ Ny) (h2 : b' ≤ Ny) (h3 : c ≤ Nz)
    (h4 : c' ≤ Nz) (h : ¬(a = a' ∧ b = b' ∧ c = c')) :
    boxNode Ny Nz a b c ≠ boxNode Ny Nz a' b' c' :=
  fun h6 => h (boxNode_inj h1 h2 h3 h4 h6)

theorem three_common {Ny Nz i j k i' j' k' : Nat} (hj : j < Ny) (hk : k < Nz) (_hj' : j' < Ny)
    (_hk' : k' < Nz) (a b c a2 b2 c2 a3 b3 c3 : Nat)
    (p : ((a = i ∨ a = i + 1) ∧ (b = j ∨ b = j + 1) ∧ (c = k ∨ c = k + 1)) ∧
      (a = i' ∨ a = i' + 1) ∧ (b = j' ∨ b = j' + 1) ∧ (c = k' ∨ c = k' + 1))
    (q : ((a2 = i ∨ a2 = i + 1) ∧ (b2 = j ∨ b2 = j + 1) ∧ (c2 = k ∨ c2 = k + 1)) ∧
      (a2 = i' ∨ a2 = i' + 1) ∧ (b2 = j' ∨ b2 = j' + 1) ∧ (c2 = k' ∨ c2 = k' + 1))
    (r : ((a3 = i ∨ a3 = i + 1) ∧ (b3 = j ∨ b3 = j + 1) ∧ (c3 = k ∨ c3 = k + 1)) ∧
      (a3 = i' ∨ a3 = i' + 1) ∧ (b3 = j' ∨ b3 = j' + 1) ∧ (c3 = k' ∨ c3 = k' + 1))
    (d1 : ¬(a = a2 ∧ b = b2 ∧ c = c2)) (d2 : ¬(a2 = a3 ∧ b2 = b3 ∧ c2 = c3))
    (d3 : ¬(a = a3 ∧ b = b3 ∧ c = c3)) :
    ∃ n m l, n ≠ m ∧ m ≠ l ∧ n ≠ l ∧ n ∈ boxCorners Ny Nz i j k ∧
      n ∈ boxCorners Ny Nz i' j' k' ∧ m ∈ boxCorners Ny Nz i j k ∧
      m ∈ boxCorners Ny Nz i' j' k' ∧ l ∈ boxCorners Ny Nz i j k ∧
      l ∈ boxCorners Ny Nz i' j' k' := by
  obtain ⟨⟨p1, p2, p3⟩, p4, p5, p6⟩ := p
  obtain ⟨⟨q1, q2, q3⟩, q4, q5, q6⟩ := q
  obtain ⟨⟨r1, r2, r3⟩, r4, r5, r6⟩ := r
  have bp : b ≤ Ny := by clear * - p2 hj; omega
  have bq : b2 ≤ Ny := by clear * - q2 hj; omega
  have br : b3 ≤ Ny := by clear * - r2 hj; omega
  have cp : c ≤ Nz := by clear * - p3 hk; omega
  have cq : c2 ≤ Nz := by clear * - q3 hk; omega
  have cr : c3 ≤ Nz := by clear * - r3 hk; omega
  refine ⟨boxNode Ny Nz a b c, boxNode Ny Nz a2 b2 c2, boxNode Ny Nz a3 b3 c3,
    boxNode_ne bp bq cp cq d1, boxNode_ne bq br cq cr d2, boxNode_ne bp br cp cr d3, ?_⟩
  simp only [mem_boxCorners]
  exact ⟨⟨a, b, c, p1, p2, p3, rfl⟩, ⟨a, b, c, p4, p5, p6, rfl⟩, ⟨a2, b2, c2, q1, q2, q3, rfl⟩,
    ⟨a2, b2, c2, q4, q5, q6, rfl⟩, ⟨a3, b3, c3, r1, r2, r3, rfl⟩,
    ⟨a3, b3, c3, r4, r5, r6, rfl⟩⟩

theorem shared_coord {i i' a : Nat} (h : i ≠ i') (h1 : a = i ∨ a = i + 1)
    (h2 : a = i' ∨ a = i' + 1) : a = max i i' ∧ (i = i' + 1 ∨ i' = i + 1) := by omega

theorem three_of_two {i a b c : Nat} (h1 : a = i ∨ a = i + 1) (h2 : b = i ∨ b = i + 1)
    (h3 : c = i ∨ c = i + 1) (d1 : a ≠ b) (d2 : b ≠ c) (d3 : a ≠ c) : False := by omega

/-! ### Property theorems -/

/-- **C42 (points).** There are `(Nx+1)(Ny+1)(Nz+1)` points; point number
`(i (Ny+1) + j)(Nz+1) + k` is the grid point `(i Lx/Nx, j Ly/Ny, k Lz/Nz)`. -/
theorem C42_points (Nx Ny Nz : Nat) (Lx Ly Lz : K) :
    (boxMesh Nx Ny Nz Lx Ly Lz).1.length = (Nx + 1) * (Ny + 1) * (Nz + 1) ∧
    ∀ i j k, i ≤ Nx → j ≤ Ny → k ≤ Nz →
      (boxMesh Nx Ny Nz Lx Ly Lz).1[(i * (Ny + 1) + j) * (Nz + 1) + k]?
        = some ![(i : K) * (Lx / Nx), (j : K) * (Ly / Ny), (k : K) * (Lz / Nz)] :=
  ⟨by rw [boxMesh_eq, flatMap3_length, mul_assoc], fun i j k => box_point Nx Ny Nz Lx Ly Lz i j k⟩

/-- **C42 (distinct points).** No two points coincide. -/
theorem C42_points_distinct [CharZero K] (Nx Ny Nz : Nat) (Lx Ly Lz : K) (hx : Lx ≠ 0)
    (hy : Ly ≠ 0) (hz : Lz ≠ 0) (hNx : 0 < Nx) (hNy : 0 < Ny) (hNz : 0 < Nz) :
    (boxMesh Nx Ny Nz Lx Ly Lz).1.Nodup := by
  rw [List.nodup_iff_injective_getElem]
  intro ⟨p, hp⟩ ⟨q, hq⟩ h
  simp only at h
  have hlen := (C42_points Nx Ny Nz Lx Ly Lz).1
  obtain ⟨i, j, k, hi, hj, hk, rfl⟩ := exists_boxNode (by rw [← hlen]; exact hp)
  obtain ⟨i', j', k', hi', hj', hk', rfl⟩ := exists_boxNode (by rw [← hlen]; exact hq)
  have e1 := box_point Nx Ny Nz Lx Ly Lz i j k hi hj hk
  have e2 := box_point Nx Ny Nz Lx Ly Lz i' j' k' hi' hj' hk'
  rw [List.getElem?_eq_getElem hp] at e1
  rw [List.getElem?_eq_getElem hq, ← h, e1] at e2
  have e3 := Option.some.inj e2
  have f0 := congrFun e3 0
  have f1 := congrFun e3 1
  have f2 := congrFun e3 2
  have hx' : Lx / Nx ≠ 0 := div_ne_zero hx (Nat.cast_ne_zero.2 hNx.ne')
  have hy' : Ly / Ny ≠ 0 := div_ne_zero hy (Nat.cast_ne_zero.2 hNy.ne')
  have hz' : Lz / Nz ≠ 0 := div_ne_zero hz (Nat.cast_ne_zero.2 hNz.ne')
  simp only [Matrix.cons_val_zero, Matrix.cons_val_one, Matrix.cons_val] at f0 f1 f2
  have g0 := Nat.cast_injective (mul_right_cancel₀ hx' f0)
  have g1 := Nat.cast_injective (mul_right_cancel₀ hy' f1)
  have g2 := Nat.cast_injective (mul_right_cancel₀ hz' f2)
  subst g0 g1 g2
  rfl

/-- **C42 (cells).** There are `Nx Ny Nz` cells; cell number `(i Ny + j) Nz + k` lists the corners of
grid cube `(i, j, k)` in HEX8 order: bottom face counterclockwise, then top face. -/
theorem C42_cells (Nx Ny Nz : Nat) (Lx Ly Lz : K) :
    (boxMesh Nx Ny Nz Lx Ly Lz).2.length = Nx * Ny * Nz ∧
    ∀ i j k, i < Nx → j < Ny → k < Nz → ∃ cell,
      (boxMesh Nx Ny Nz Lx Ly Lz).2[(i * Ny + j) * Nz + k]? = some cell ∧
      cell.map (fun n => (boxMesh Nx Ny Nz Lx Ly Lz).1[n]?)
        = [(0, 0, 0), (1, 0, 0), (1, 1, 0), (0, 1, 0), (0, 0, 1), (1, 0, 1), (1, 1, 1),
            (0, 1, 1)].map fun (o : Nat × Nat × Nat) =>
          some ![((i + o.1 : Nat) : K) * (Lx / Nx), ((j + o.2.1 : Nat) : K) * (Ly / Ny),
            ((k + o.2.2 : Nat) : K) * (Lz / Nz)] := by
  refine ⟨by rw [boxMesh_eq, flatMap3_length, mul_assoc], fun i j k hi hj hk =>
    ⟨_, box_cell Nx Ny Nz Lx Ly Lz i j k hi hj hk, ?_⟩⟩
  have hp := fun a b c ha hb hc => box_point Nx Ny Nz Lx Ly Lz a b c ha hb hc
  simp only [List.map_cons, List.map_nil, boxCorners, Nat.add_zero]
  rw [hp i j k (by omega) (by omega) (by omega), hp (i + 1) j k (by omega) (by omega) (by omega),
    hp (i + 1) (j + 1) k (by omega) (by omega) (by omega),
    hp i (j + 1) k (by omega) (by omega) (by omega),
    hp i j (k + 1) (by omega) (by omega) (by omega),
    hp (i + 1) j (k + 1) (by omega) (by omega) (by omega),
    hp (i + 1) (j + 1) (k + 1) (by omega) (by omega) (by omega),
    hp i (j + 1) (k + 1) (by omega) (by omega) (by omega)]

/-- **C42 (valid indices, no unused node).** Every cell lists eight existing, pairwise distinct
nodes; with at least one cell in each direction every node belongs to a cell. -/
theorem C42_indices (Nx Ny Nz : Nat) (Lx Ly Lz : K) :
    (∀ cell ∈ (boxMesh Nx Ny Nz Lx Ly Lz).2, cell.length = 8 ∧ cell.Nodup ∧
      ∀ n ∈ cell, n < (boxMesh Nx Ny Nz Lx Ly Lz).1.length) ∧
    (0 < Nx → 0 < Ny → 0 < Nz → ∀ n < (boxMesh Nx Ny Nz Lx Ly Lz).1.length,
      ∃ cell ∈ (boxMesh Nx Ny Nz Lx Ly Lz).2, n ∈ cell) := by
  have hlen := (C42_points Nx Ny Nz Lx Ly Lz).1
  constructor
  · intro cell h
    obtain ⟨i, j, k, hi, hj, hk, rfl⟩ := box_cell_mem Nx Ny Nz Lx Ly Lz cell h
    rw [hlen]
    refine ⟨rfl, ?_, ?_⟩
    · simp only [boxCorners, List.nodup_cons, List.mem_cons, List.not_mem_nil, or_false, not_or,
        List.nodup_nil, and_true, not_false_eq_true]
      refine ⟨⟨?_, ?_, ?_, ?_, ?_, ?_, ?_⟩, ⟨?_, ?_, ?_, ?_, ?_, ?_⟩, ⟨?_, ?_, ?_, ?_, ?_⟩,
        ⟨?_, ?_, ?_, ?_⟩, ⟨?_, ?_, ?_⟩, ⟨?_, ?_⟩, ?_⟩ <;> intro hh <;>
        obtain ⟨h1, h2, h3⟩ := boxNode_inj (by omega) (by omega) (by omega) (by omega) hh <;> omega
    · intro n hn
      obtain ⟨a, b, c, ha, hb, hc, rfl⟩ := (mem_boxCorners Ny Nz i j k n).1 hn
      exact boxNode_lt (by omega) (by omega) (by omega)
  · intro hNx hNy hNz n hn
    rw [hlen] at hn
    obtain ⟨a, b, c, ha, hb, hc, rfl⟩ := exists_boxNode hn
    refine ⟨_, List.mem_of_getElem? (box_cell Nx Ny Nz Lx Ly Lz (a - (if a = Nx then 1 else 0))
      (b - (if b = Ny then 1 else 0)) (c - (if c = Nz then 1 else 0)) ?_ ?_ ?_), ?_⟩
    · split <;> omega
    · split <;> omega
    · split <;> omega
    · rw [mem_boxCorners]
      refine ⟨a, b, c, ?_, ?_, ?_, rfl⟩ <;> split <;> omega

/-- **C42 (conformity).** Two different cells have at least three common nodes if and only if
their grid cubes are face neighbours; so no cell touches another one in a part of a face. -/
theorem C42_conforming (Nx Ny Nz : Nat) (Lx Ly Lz : K) (i j k i' j' k' : Nat) (hi : i < Nx)
    (hj : j < Ny) (hk : k < Nz) (hi' : i' < Nx) (hj' : j' < Ny) (hk' : k' < Nz)
    (hne : (i, j, k) ≠ (i', j', k')) (c c' : List Nat)
    (hc : (boxMesh Nx Ny Nz Lx Ly Lz).2[(i * Ny + j) * Nz + k]? = some c)
    (hc' : (boxMesh Nx Ny Nz Lx Ly Lz).2[(i' * Ny + j') * Nz + k']? = some c') :
    (∃ n m l, n ≠ m ∧ m ≠ l ∧ n ≠ l ∧ n ∈ c ∧ n ∈ c' ∧ m ∈ c ∧ m ∈ c' ∧ l ∈ c ∧ l ∈ c') ↔
      (i = i' ∧ j = j' ∧ (k = k' + 1 ∨ k' = k + 1)) ∨
      (i = i' ∧ k = k' ∧ (j = j' + 1 ∨ j' = j + 1)) ∨
      (j = j' ∧ k = k' ∧ (i = i' + 1 ∨ i' = i + 1)) := by
  rw [box_cell Nx Ny Nz Lx Ly Lz i j k hi hj hk] at hc
  rw [box_cell Nx Ny Nz Lx Ly Lz i' j' k' hi' hj' hk'] at hc'
  obtain rfl := Option.some.inj hc
  obtain rfl := Option.some.inj hc'
  have hne' : ¬(i = i' ∧ j = j' ∧ k = k') := by
    rintro ⟨rfl, rfl, rfl⟩; exact hne rfl
  constructor
  · rintro ⟨n, m, l, hnm, hml, hnl, n1, n2, m1, m2, l1, l2⟩
    obtain ⟨a1, b1, c1, ha1, ha2, hb1, hb2, hc1, hc2, rfl⟩ := mem_two_boxes hj hk hj' hk' n1 n2
    obtain ⟨a3, b3, c3, ha3, ha4, hb3, hb4, hc3, hc4, rfl⟩ := mem_two_boxes hj hk hj' hk' m1 m2
    obtain ⟨a5, b5, c5, ha5, ha6, hb5, hb6, hc5, hc6, rfl⟩ := mem_two_boxes hj hk hj' hk' l1 l2
    have d1 : ¬(a1 = a3 ∧ b1 = b3 ∧ c1 = c3) := by rintro ⟨rfl, rfl, rfl⟩; exact hnm rfl
    have d2 : ¬(a3 = a5 ∧ b3 = b5 ∧ c3 = c5) := by rintro ⟨rfl, rfl, rfl⟩; exact hml rfl
    have d3 : ¬(a1 = a5 ∧ b1 = b5 ∧ c1 = c5) := by rintro ⟨rfl, rfl, rfl⟩; exact hnl rfl
    have co := @shared_coord
    have tw := @three_of_two
    by_cases ei : i = i'
    · by_cases ej : j = j'
      · exact Or.inl ⟨ei, ej, (co (fun ek => hne' ⟨ei, ej, ek⟩) hc1 hc2).2⟩
      · by_cases ek : k = k'
        · exact Or.inr (Or.inl ⟨ei, ek, (co ej hb1 hb2).2⟩)
        · obtain ⟨rfl, -⟩ := co ej hb1 hb2
          obtain ⟨rfl, -⟩ := co ej hb3 hb4
          obtain ⟨rfl, -⟩ := co ej hb5 hb6
          obtain ⟨rfl, -⟩ := co ek hc1 hc2
          obtain ⟨rfl, -⟩ := co ek hc3 hc4
          obtain ⟨rfl, -⟩ := co ek hc5 hc6
          exact (tw ha1 ha3 ha5 (fun h => d1 ⟨h, rfl, rfl⟩) (fun h => d2 ⟨h, rfl, rfl⟩)
            (fun h => d3 ⟨h, rfl, rfl⟩)).elim
    · obtain ⟨rfl, hii⟩ := co ei ha1 ha2
      obtain ⟨rfl, -⟩ := co ei ha3 ha4
      obtain ⟨rfl, -⟩ := co ei ha5 ha6
      by_cases ej : j = j'
      · by_cases ek : k = k'
        · exact Or.inr (Or.inr ⟨ej, ek, hii⟩)
        · obtain ⟨rfl, -⟩ := co ek hc1 hc2
          obtain ⟨rfl, -⟩ := co ek hc3 hc4
          obtain ⟨rfl, -⟩ := co ek hc5 hc6
          exact (tw hb1 hb3 hb5 (fun h => d1 ⟨rfl, h, rfl⟩) (fun h => d2 ⟨rfl, h, rfl⟩)
            (fun h => d3 ⟨rfl, h, rfl⟩)).elim
      · obtain ⟨rfl, -⟩ := co ej hb1 hb2
        obtain ⟨rfl, -⟩ := co ej hb3 hb4
        obtain ⟨rfl, -⟩ := co ej hb5 hb6
        exact (tw hc1 hc3 hc5 (fun h => d1 ⟨rfl, rfl, h⟩) (fun h => d2 ⟨rfl, rfl, h⟩)
          (fun h => d3 ⟨rfl, rfl, h⟩)).elim
  · rintro (⟨rfl, rfl, rfl | rfl⟩ | ⟨rfl, rfl, rfl | rfl⟩ | ⟨rfl, rfl, rfl | rfl⟩)
    · exact three_common hj hk hj' hk' i j (k' + 1) (i + 1) j (k' + 1) i (j + 1) (k' + 1)
        (by simp) (by simp) (by simp) (by simp) (by simp) (by simp)
    · exact three_common hj hk hj' hk' i j (k + 1) (i + 1) j (k + 1) i (j + 1) (k + 1)
        (by simp) (by simp) (by simp) (by simp) (by simp) (by simp)
    · exact three_common hj hk hj' hk' i (j' + 1) k (i + 1) (j' + 1) k i (j' + 1) (k + 1)
        (by simp) (by simp) (by simp) (by simp) (by simp) (by simp)
    · exact three_common hj hk hj' hk' i (j + 1) k (i + 1) (j + 1) k i (j + 1) (k + 1)
        (by simp) (by simp) (by simp) (by simp) (by simp) (by simp)
    · exact three_common hj hk hj' hk' (i' + 1) j k (i' + 1) (j + 1) k (i' + 1) j (k + 1)
        (by simp) (by simp) (by simp) (by simp) (by simp) (by simp)
    · exact three_common hj hk hj' hk' (i + 1) j k (i + 1) (j + 1) k (i + 1) j (k + 1)
        (by simp) (by simp) (by simp) (by simp) (by simp) (by simp)

/-! Concrete case: 2 × 1 × 1 cells. -/

example : (boxMesh 2 1 1 (2 : Rat) 3 4).2
    = [[0, 4, 6, 2, 1, 5, 7, 3], [4, 8, 10, 6, 5, 9, 11, 7]] := by
  decide +kernel

example : (boxMesh 2 1 1 (2 : Rat) 3 4).1[7]? = some ![1, 3, 4] := by decide +kernel

end JaxFem
