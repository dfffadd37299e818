import Verif.Thm.C41_Rectangle
import Verif.Thm.C57_Parallel
import Mathlib.Algebra.Order.Floor.Semiring
import Mathlib.Data.List.GetD

/-!
# C71: the triangle mesh of the parallel example
-/

namespace JaxFem
namespace Parallel

variable {K : Type} [Field K] [LinearOrder K] [IsStrictOrderedRing K]

/-! ### Helper lemmas -/

/-- Number of the grid node `(i, j)`. -/
def gnode (ny i j : Nat) : Nat := i * (ny + 1) + j

/-- The grid point `(i, j)`. -/
def gpoint (nx ny : Nat) (lower upper : Fin 2 → K) (i j : Nat) : Fin 2 → K :=
  ![lower 0 + (upper 0 - lower 0) * ((i : K) / nx), lower 1 + (upper 1 - lower 1) * ((j : K) / ny)]

theorem gnode_inj {ny i j i' j' : Nat} (hj : j ≤ ny) (hj' : j' ≤ ny) (h : gnode ny i j = gnode ny i' j') :
    i = i' ∧ j = j' := gridNode_inj (by omega) (by omega) h

theorem squareCoords_length (nx ny : Nat) (lower upper : Fin 2 → K) :
    (squareCoords nx ny lower upper).length = (nx + 1) * (ny + 1) := by
  unfold squareCoords
  rw [flatMap_map_length]

theorem squareCoords_get (nx ny : Nat) (lower upper : Fin 2 → K) (i j : Nat) (hi : i ≤ nx) (hj : j ≤ ny) :
    (squareCoords nx ny lower upper).getD (gnode ny i j) 0 = gpoint nx ny lower upper i j := by
  have hlt : gnode ny i j < (squareCoords nx ny lower upper).length := by
    rw [squareCoords_length]
    exact gridNode_lt (by omega) (by omega)
  rw [List.getD_eq_getElem _ _ hlt]
  exact flatMap_map_getElem (nx + 1) (ny + 1) (fun i j =>
    ![lower 0 + (upper 0 - lower 0) * ((i : K) / nx), lower 1 + (upper 1 - lower 1) * ((j : K) / ny)]) i j
    (by omega) (by omega) hlt

/-- The two cells in the grid square `(i, j)`. -/
def gcell (ny : Nat) (up : Bool) (i j : Nat) : List Nat :=
  if up then [gnode ny i j, gnode ny (i + 1) (j + 1), gnode ny i (j + 1)]
  else [gnode ny i j, gnode ny (i + 1) j, gnode ny (i + 1) (j + 1)]

theorem mem_squareCells (nx ny : Nat) (cell : List Nat) :
    cell ∈ squareCells nx ny ↔ ∃ up i j, i < nx ∧ j < ny ∧ cell = gcell ny up i j := by
  unfold squareCells
  simp only [List.mem_flatMap, List.mem_range, List.mem_cons, List.not_mem_nil, or_false]
  constructor
  · rintro ⟨i, hi, j, hj, h | h⟩
    · exact ⟨false, i, j, hi, hj, h⟩
    · exact ⟨true, i, j, hi, hj, h⟩
  · rintro ⟨up, i, j, hi, hj, h⟩
    refine ⟨i, hi, j, hj, ?_⟩
    cases up
    · exact Or.inl h
    · exact Or.inr h

theorem dirEdge_iff (x y z a b : Nat) :
    DirEdge [x, y, z] a b ↔ (a = x ∧ b = y) ∨ (a = y ∧ b = z) ∨ (a = z ∧ b = x) := by
  unfold DirEdge
  constructor
  · rintro ⟨c, h | h | h⟩ <;> simp only [List.cons.injEq, and_true] at h <;> obtain ⟨rfl, rfl, rfl⟩ := h <;> simp
  · rintro (⟨rfl, rfl⟩ | ⟨rfl, rfl⟩ | ⟨rfl, rfl⟩)
    · exact ⟨z, Or.inl rfl⟩
    · exact ⟨x, Or.inr (Or.inl rfl)⟩
    · exact ⟨y, Or.inr (Or.inr rfl)⟩

theorem gcell_inj (ny : Nat) (up up' : Bool) (i j i' j' : Nat) (hj : j < ny) (hj' : j' < ny)
    (h : gcell ny up i j = gcell ny up' i' j') : up = up' ∧ i = i' ∧ j = j' := by
  cases up <;> cases up' <;> simp only [gcell, if_true, Bool.false_eq_true, if_false, List.cons.injEq, and_true] at h <;>
    obtain ⟨h1, h2, h3⟩ := h <;>
    have e1 := gnode_inj (by omega) (by omega) h1 <;>
    have e2 := gnode_inj (by omega) (by omega) h2 <;>
    have e3 := gnode_inj (by omega) (by omega) h3 <;>
    first | exact ⟨rfl, e1⟩ | (exfalso; omega)

/-! ### Property theorems -/

/-- **C71 (points).** `(nx+1)(ny+1)` vertices; vertex `i (ny+1) + j` is the grid point. -/
theorem C71_points (nx ny : Nat) (lower upper : Fin 2 → K) :
    (squareCoords nx ny lower upper).length = (nx + 1) * (ny + 1) ∧
    ∀ i j, i ≤ nx → j ≤ ny → (squareCoords nx ny lower upper)[i * (ny + 1) + j]? =
      some ![lower 0 + (upper 0 - lower 0) * i / nx, lower 1 + (upper 1 - lower 1) * j / ny] := by
  refine ⟨squareCoords_length _ _ _ _, fun i j hi hj => ?_⟩
  have hlt : gnode ny i j < (squareCoords nx ny lower upper).length := by
    rw [squareCoords_length]
    exact gridNode_lt (by omega) (by omega)
  have h := squareCoords_get nx ny lower upper i j hi hj
  rw [List.getD_eq_getElem _ _ hlt] at h
  rw [show i * (ny + 1) + j = gnode ny i j from rfl, List.getElem?_eq_getElem hlt, h, gpoint, mul_div_assoc,
    mul_div_assoc]

/-- **C71 (cells).** `2 nx ny` pairwise different cells with three different valid vertices each. -/
theorem C71_cells (nx ny : Nat) :
    (squareCells nx ny).length = 2 * nx * ny ∧ (squareCells nx ny).Nodup ∧
    ∀ cell ∈ squareCells nx ny, cell.length = 3 ∧ cell.Nodup ∧ ∀ v ∈ cell, v < (nx + 1) * (ny + 1) := by
  refine ⟨?_, ?_, ?_⟩
  · unfold squareCells
    simp only [List.length_flatMap, List.length_cons, List.length_nil, List.map_const', List.length_range,
      List.sum_replicate, smul_eq_mul]
    ring
  · unfold squareCells
    rw [List.nodup_flatMap]
    constructor
    · intro i _
      rw [List.nodup_flatMap]
      constructor
      · intro j _
        have h : ¬gcell ny false i j = gcell ny true i j := by
          intro h
          simp only [gcell, if_true, Bool.false_eq_true, if_false, List.cons.injEq, and_true] at h
          have h2 := h.2.1
          unfold gnode at h2
          omega
        simp only [List.nodup_cons, List.mem_singleton, List.not_mem_nil, not_false_eq_true, List.nodup_nil, and_true]
        exact h
      · refine List.Pairwise.imp_of_mem ?_ (List.nodup_range (n := ny))
        intro j j' hj hj' hne x hx hx'
        have hj := List.mem_range.1 hj
        have hj' := List.mem_range.1 hj'
        have h1 : ∃ up, x = gcell ny up i j := by
          rcases List.mem_cons.1 hx with rfl | hx
          · exact ⟨false, rfl⟩
          · exact ⟨true, List.mem_singleton.1 hx⟩
        have h2 : ∃ up, x = gcell ny up i j' := by
          rcases List.mem_cons.1 hx' with rfl | hx'
          · exact ⟨false, rfl⟩
          · exact ⟨true, List.mem_singleton.1 hx'⟩
        obtain ⟨up, rfl⟩ := h1
        obtain ⟨up', h2⟩ := h2
        exact hne (gcell_inj ny _ _ _ _ _ _ hj hj' h2).2.2
    · refine List.Pairwise.imp_of_mem ?_ (List.nodup_range (n := nx))
      intro i i' hi hi' hne x hx hx'
      have aux : ∀ i, (x ∈ (List.range ny).flatMap fun j =>
          [[i * (ny + 1) + j, (i + 1) * (ny + 1) + j, (i + 1) * (ny + 1) + (j + 1)],
            [i * (ny + 1) + j, (i + 1) * (ny + 1) + (j + 1), i * (ny + 1) + (j + 1)]]) →
          ∃ up j, j < ny ∧ x = gcell ny up i j := by
        intro i h
        obtain ⟨j, hj, h⟩ := List.mem_flatMap.1 h
        rcases List.mem_cons.1 h with h | h
        · exact ⟨false, j, List.mem_range.1 hj, h⟩
        · exact ⟨true, j, List.mem_range.1 hj, List.mem_singleton.1 h⟩
      obtain ⟨up, j, hj, h1⟩ := aux i hx
      obtain ⟨up', j', hj', h2⟩ := aux i' hx'
      rw [h1] at h2
      exact hne (gcell_inj ny _ _ _ _ _ _ hj hj' h2).2.1
  · intro cell h
    obtain ⟨up, i, j, hi, hj, rfl⟩ := (mem_squareCells nx ny cell).1 h
    have hlt : ∀ a b, a ≤ nx → b ≤ ny → gnode ny a b < (nx + 1) * (ny + 1) := fun a b ha hb =>
      gridNode_lt (by omega) (by omega)
    have hne : ∀ a b a' b', b ≤ ny → b' ≤ ny → ¬(a = a' ∧ b = b') → gnode ny a b ≠ gnode ny a' b' :=
      fun a b a' b' h1 h2 h3 h4 => h3 (gnode_inj h1 h2 h4)
    cases up
    · refine ⟨rfl, ?_, ?_⟩
      · simp only [gcell, Bool.false_eq_true, if_false, List.nodup_cons, List.mem_cons, List.not_mem_nil, or_false,
          not_or, not_false_eq_true, List.nodup_nil, and_true]
        exact ⟨⟨hne _ _ _ _ (by omega) (by omega) (by omega), hne _ _ _ _ (by omega) (by omega) (by omega)⟩,
          hne _ _ _ _ (by omega) (by omega) (by omega)⟩
      · intro v hv
        simp only [gcell, Bool.false_eq_true, if_false, List.mem_cons, List.not_mem_nil, or_false] at hv
        rcases hv with rfl | rfl | rfl <;> exact hlt _ _ (by omega) (by omega)
    · refine ⟨rfl, ?_, ?_⟩
      · simp only [gcell, if_true, List.nodup_cons, List.mem_cons, List.not_mem_nil, or_false,
          not_or, not_false_eq_true, List.nodup_nil, and_true]
        exact ⟨⟨hne _ _ _ _ (by omega) (by omega) (by omega), hne _ _ _ _ (by omega) (by omega) (by omega)⟩,
          hne _ _ _ _ (by omega) (by omega) (by omega)⟩
      · intro v hv
        simp only [gcell, if_true, List.mem_cons, List.not_mem_nil, or_false] at hv
        rcases hv with rfl | rfl | rfl <;> exact hlt _ _ (by omega) (by omega)

theorem cellPts_gcell (nx ny : Nat) (lower upper : Fin 2 → K) (up : Bool) (i j : Nat) (hi : i < nx) (hj : j < ny) :
    cellPts (squareCoords nx ny lower upper) (gcell ny up i j) =
      if up then ![gpoint nx ny lower upper i j, gpoint nx ny lower upper (i + 1) (j + 1),
        gpoint nx ny lower upper i (j + 1)]
      else ![gpoint nx ny lower upper i j, gpoint nx ny lower upper (i + 1) j,
        gpoint nx ny lower upper (i + 1) (j + 1)] := by
  have h : ∀ a b, a ≤ nx → b ≤ ny → (squareCoords nx ny lower upper).getD (gnode ny a b) 0 =
      gpoint nx ny lower upper a b := fun a b ha hb => squareCoords_get nx ny lower upper a b ha hb
  funext a
  unfold cellPts
  cases up
  · fin_cases a
    · exact h _ _ (by omega) (by omega)
    · exact h _ _ (by omega) (by omega)
    · exact h _ _ (by omega) (by omega)
  · fin_cases a
    · exact h _ _ (by omega) (by omega)
    · exact h _ _ (by omega) (by omega)
    · exact h _ _ (by omega) (by omega)

/-- **C71 (orientation).** Every triangle is counterclockwise and has half the area of a grid square. -/
theorem C71_orientation (nx ny : Nat) (lower upper : Fin 2 → K) (h : ∀ d, lower d < upper d) (cell : List Nat)
    (hc : cell ∈ squareCells nx ny) :
    signedArea2 (cellPts (squareCoords nx ny lower upper) cell) =
      (upper 0 - lower 0) / nx * ((upper 1 - lower 1) / ny) ∧
    0 < signedArea2 (cellPts (squareCoords nx ny lower upper) cell) := by
  obtain ⟨up, i, j, hi, hj, rfl⟩ := (mem_squareCells nx ny cell).1 hc
  have hX : (0 : K) < nx := Nat.cast_pos.2 (by omega)
  have hY : (0 : K) < ny := Nat.cast_pos.2 (by omega)
  have h0 := sub_pos.2 (h 0)
  have h1 := sub_pos.2 (h 1)
  have e : signedArea2 (cellPts (squareCoords nx ny lower upper) (gcell ny up i j)) =
      (upper 0 - lower 0) / nx * ((upper 1 - lower 1) / ny) := by
    rw [cellPts_gcell nx ny lower upper up i j hi hj]
    cases up <;> simp [signedArea2, gpoint] <;> field_simp <;> ring
  rw [e]
  exact ⟨rfl, by positivity⟩

/-- Position of a point of the triangle in grid units. -/
theorem tri_coords (nx ny : Nat) (lower upper : Fin 2 → K) (h : ∀ d, lower d < upper d) (up : Bool) (i j : Nat)
    (hi : i < nx) (hj : j < ny) (p : Fin 2 → K) (w : Fin 3 → K) (hw : ∑ a, w a = 1) :
    (∀ d, ∑ a, w a * cellPts (squareCoords nx ny lower upper) (gcell ny up i j) a d = p d) ↔
    (p 0 - lower 0) / (upper 0 - lower 0) * nx = i + (if up then w 1 else w 1 + w 2) ∧
    (p 1 - lower 1) / (upper 1 - lower 1) * ny = j + (if up then w 1 + w 2 else w 2) := by
  have hX : (nx : K) ≠ 0 := (Nat.cast_pos.2 (by omega)).ne'
  have hY : (ny : K) ≠ 0 := (Nat.cast_pos.2 (by omega)).ne'
  have h0 := (sub_pos.2 (h 0)).ne'
  have h1 := (sub_pos.2 (h 1)).ne'
  rw [Fin.sum_univ_three] at hw
  have hw0 : w 0 = 1 - w 1 - w 2 := by linear_combination hw
  rw [cellPts_gcell nx ny lower upper up i j hi hj, Fin.forall_fin_two]
  simp only [Fin.sum_univ_three]
  refine and_congr ?_ ?_
  · rw [div_mul_eq_mul_div, div_eq_iff h0]
    cases up <;> simp [gpoint, hw0] <;> constructor <;> intro e
    · rw [← e]; field_simp; ring
    · field_simp; linear_combination -e
    · rw [← e]; field_simp; ring
    · field_simp; linear_combination -e
  · rw [div_mul_eq_mul_div, div_eq_iff h1]
    cases up <;> simp [gpoint, hw0] <;> constructor <;> intro e
    · rw [← e]; field_simp; ring
    · field_simp; linear_combination -e
    · rw [← e]; field_simp; ring
    · field_simp; linear_combination -e

/-- **C71 (no overlap).** The interiors of different triangles are disjoint. -/
theorem C71_disjoint (nx ny : Nat) (lower upper : Fin 2 → K) (h : ∀ d, lower d < upper d) (c c' : List Nat)
    (hc : c ∈ squareCells nx ny) (hc' : c' ∈ squareCells nx ny) (p : Fin 2 → K)
    (hp : InsideTriangle (cellPts (squareCoords nx ny lower upper) c) p)
    (hp' : InsideTriangle (cellPts (squareCoords nx ny lower upper) c') p) : c = c' := by
  obtain ⟨up, i, j, hi, hj, rfl⟩ := (mem_squareCells nx ny c).1 hc
  obtain ⟨up', i', j', hi', hj', rfl⟩ := (mem_squareCells nx ny c').1 hc'
  obtain ⟨w, w0, w1, w2⟩ := hp
  obtain ⟨v, v0, v1, v2⟩ := hp'
  obtain ⟨a1, a2⟩ := (tri_coords nx ny lower upper h up i j hi hj p w w1).1 w2
  obtain ⟨b1, b2⟩ := (tri_coords nx ny lower upper h up' i' j' hi' hj' p v v1).1 v2
  rw [a1] at b1
  rw [a2] at b2
  rw [Fin.sum_univ_three] at w1 v1
  have p0 := w0 0
  have p1 := w0 1
  have p2 := w0 2
  have q0 := v0 0
  have q1 := v0 1
  have q2 := v0 2
  have key : ∀ (a b : Nat) (x y : K), 0 < x → x < 1 → 0 < y → y < 1 → (a : K) + x = b + y → a = b := by
    intro a b x y hx hx' hy hy' e
    rcases lt_trichotomy a b with hl | hl | hl
    · have : (a : K) + 1 ≤ b := by exact_mod_cast hl
      linarith
    · exact hl
    · have : (b : K) + 1 ≤ a := by exact_mod_cast hl
      linarith
  have ei : i = i' := by
    refine key _ _ _ _ ?_ ?_ ?_ ?_ b1 <;> cases up <;> cases up' <;> simp <;> linarith
  have ej : j = j' := by
    refine key _ _ _ _ ?_ ?_ ?_ ?_ b2 <;> cases up <;> cases up' <;> simp <;> linarith
  subst ei ej
  have c1 := add_left_cancel b1
  have c2 := add_left_cancel b2
  cases up <;> cases up' <;> simp only [Bool.false_eq_true, if_false, if_true] at c1 c2
  · rfl
  · linarith
  · linarith
  · rfl

/-- **C71 (cover).** Every point of the rectangle lies in a triangle. -/
theorem C71_cover [FloorSemiring K] (nx ny : Nat) (hnx : 0 < nx) (hny : 0 < ny) (lower upper : Fin 2 → K)
    (h : ∀ d, lower d < upper d) (p : Fin 2 → K) (hp : ∀ d, lower d ≤ p d ∧ p d ≤ upper d) :
    ∃ cell ∈ squareCells nx ny, InTriangle (cellPts (squareCoords nx ny lower upper) cell) p := by
  have cell1 : ∀ (n : Nat) (_ : 0 < n) (s : K), 0 ≤ s → s ≤ n → ∃ i < n, (i : K) ≤ s ∧ s ≤ i + 1 := by
    intro n hn s h0 h1
    by_cases hs : s < n
    · refine ⟨⌊s⌋₊, ?_, Nat.floor_le h0, (Nat.lt_floor_add_one s).le⟩
      exact (Nat.floor_lt h0).2 hs
    · have e : s = n := le_antisymm h1 (not_lt.1 hs)
      refine ⟨n - 1, by omega, ?_, ?_⟩
      · rw [e]; exact_mod_cast Nat.sub_le n 1
      · rw [e]; exact_mod_cast (by omega : n ≤ n - 1 + 1)
  have range : ∀ d (n : Nat), 0 ≤ (p d - lower d) / (upper d - lower d) * n ∧
      (p d - lower d) / (upper d - lower d) * n ≤ n := by
    intro d n
    have h0 := sub_pos.2 (h d)
    have h1 : 0 ≤ (p d - lower d) / (upper d - lower d) := div_nonneg (by linarith [(hp d).1]) h0.le
    have h2 : (p d - lower d) / (upper d - lower d) ≤ 1 := (div_le_one h0).2 (by linarith [(hp d).2])
    have h3 : (0 : K) ≤ n := Nat.cast_nonneg n
    exact ⟨mul_nonneg h1 h3, mul_le_of_le_one_left h3 h2⟩
  obtain ⟨i, hi, i1, i2⟩ := cell1 nx hnx _ (range 0 nx).1 (range 0 nx).2
  obtain ⟨j, hj, j1, j2⟩ := cell1 ny hny _ (range 1 ny).1 (range 1 ny).2
  generalize hs : (p 0 - lower 0) / (upper 0 - lower 0) * nx = s at i1 i2
  generalize ht : (p 1 - lower 1) / (upper 1 - lower 1) * ny = t at j1 j2
  by_cases hst : t - j ≤ s - i
  · refine ⟨gcell ny false i j, (mem_squareCells _ _ _).2 ⟨false, i, j, hi, hj, rfl⟩,
      ![1 - (s - i), s - i - (t - j), t - j], ?_, ?_, ?_⟩
    · intro a; fin_cases a <;> simp <;> linarith
    · simp [Fin.sum_univ_three]
    · rw [tri_coords nx ny lower upper h false i j hi hj p _ (by simp [Fin.sum_univ_three]), hs, ht]
      simp
  · refine ⟨gcell ny true i j, (mem_squareCells _ _ _).2 ⟨true, i, j, hi, hj, rfl⟩,
      ![1 - (t - j), s - i, t - j - (s - i)], ?_, ?_, ?_⟩
    · intro a; fin_cases a <;> simp <;> linarith
    · simp [Fin.sum_univ_three]
    · rw [tri_coords nx ny lower upper h true i j hi hj p _ (by simp [Fin.sum_univ_three]), hs, ht]
      simp

/-- **C71 (conforming).** No two triangles share an edge in the same direction; every edge is shared with a
triangle on its other side or lies on a side of the rectangle. -/
theorem C71_conforming (nx ny : Nat) (lower upper : Fin 2 → K) (c : List Nat) (hc : c ∈ squareCells nx ny)
    (a b : Nat) (he : DirEdge c a b) :
    (∀ c' ∈ squareCells nx ny, DirEdge c' a b → c' = c) ∧
    ((∃ c' ∈ squareCells nx ny, DirEdge c' b a) ∨
      ∃ d, ((squareCoords nx ny lower upper).getD a 0 d = lower d ∧ (squareCoords nx ny lower upper).getD b 0 d = lower d) ∨
        ((squareCoords nx ny lower upper).getD a 0 d = upper d ∧
          (squareCoords nx ny lower upper).getD b 0 d = upper d)) := by
  obtain ⟨up, i, j, hi, hj, rfl⟩ := (mem_squareCells nx ny c).1 hc
  constructor
  · intro c' hc' he'
    obtain ⟨up', i', j', hi', hj', rfl⟩ := (mem_squareCells nx ny c').1 hc'
    cases up <;> cases up' <;> simp only [gcell, if_true, Bool.false_eq_true, if_false, dirEdge_iff] at he he' <;>
      rcases he with ⟨rfl, rfl⟩ | ⟨rfl, rfl⟩ | ⟨rfl, rfl⟩ <;>
      rcases he' with ⟨h1, h2⟩ | ⟨h1, h2⟩ | ⟨h1, h2⟩ <;>
      have e1 := gnode_inj (by omega) (by omega) h1 <;>
      have e2 := gnode_inj (by omega) (by omega) h2 <;>
      first
      | (exfalso; omega)
      | (have ei : i' = i := by omega
         have ej : j' = j := by omega
         rw [ei, ej])
  · have hX : (nx : K) ≠ 0 := (Nat.cast_pos.2 (by omega)).ne'
    have hY : (ny : K) ≠ 0 := (Nat.cast_pos.2 (by omega)).ne'
    have hg := squareCoords_get nx ny lower upper
    have cell : ∀ up i j, i < nx → j < ny → gcell ny up i j ∈ squareCells nx ny := fun up i j h1 h2 =>
      (mem_squareCells _ _ _).2 ⟨up, i, j, h1, h2, rfl⟩
    cases up <;> simp only [gcell, if_true, Bool.false_eq_true, if_false, dirEdge_iff] at he <;>
      rcases he with ⟨rfl, rfl⟩ | ⟨rfl, rfl⟩ | ⟨rfl, rfl⟩
    · rcases Nat.eq_zero_or_pos j with rfl | hp
      · right; refine ⟨1, Or.inl ?_⟩
        rw [hg i 0 (by omega) (by omega), hg (i + 1) 0 (by omega) (by omega)]
        simp [gpoint]
      · left
        obtain ⟨j, rfl⟩ : ∃ k, j = k + 1 := ⟨j - 1, by omega⟩
        exact ⟨_, cell true i j hi (by omega), (dirEdge_iff _ _ _ _ _).2 (Or.inr (Or.inl ⟨rfl, rfl⟩))⟩
    · by_cases hp : i + 1 = nx
      · right; refine ⟨0, Or.inr ?_⟩
        rw [hg (i + 1) j (by omega) (by omega), hg (i + 1) (j + 1) (by omega) (by omega), hp]
        simp [gpoint, hX]
      · left
        exact ⟨_, cell true (i + 1) j (by omega) hj, (dirEdge_iff _ _ _ _ _).2 (Or.inr (Or.inr ⟨rfl, rfl⟩))⟩
    · left
      exact ⟨_, cell true i j hi hj, (dirEdge_iff _ _ _ _ _).2 (Or.inl ⟨rfl, rfl⟩)⟩
    · left
      exact ⟨_, cell false i j hi hj, (dirEdge_iff _ _ _ _ _).2 (Or.inr (Or.inr ⟨rfl, rfl⟩))⟩
    · by_cases hp : j + 1 = ny
      · right; refine ⟨1, Or.inr ?_⟩
        rw [hg (i + 1) (j + 1) (by omega) (by omega), hg i (j + 1) (by omega) (by omega), hp]
        simp [gpoint, hY]
      · left
        exact ⟨_, cell false i (j + 1) hi (by omega), (dirEdge_iff _ _ _ _ _).2 (Or.inl ⟨rfl, rfl⟩)⟩
    · rcases Nat.eq_zero_or_pos i with rfl | hp
      · right; refine ⟨0, Or.inl ?_⟩
        rw [hg 0 (j + 1) (by omega) (by omega), hg 0 j (by omega) (by omega)]
        simp [gpoint]
      · left
        obtain ⟨i, rfl⟩ : ∃ k, i = k + 1 := ⟨i - 1, by omega⟩
        exact ⟨_, cell false i j (by omega) hj, (dirEdge_iff _ _ _ _ _).2 (Or.inr (Or.inl ⟨rfl, rfl⟩))⟩

/-- **C71 (boundary test).** On the unit square the coordinate test selects exactly the vertices on the boundary,
provided the tolerance is positive and not larger than the grid spacing. -/
theorem C71_boundary (nx ny : Nat) (hnx : 0 < nx) (hny : 0 < ny) (tol : K) (h0 : 0 < tol) (hx : tol ≤ 1 / nx)
    (hy : tol ≤ 1 / ny) (i j : Nat) (hi : i ≤ nx) (hj : j ≤ ny) :
    onBoundary tol ((squareCoords nx ny (fun _ => 0) (fun _ => 1)).getD (i * (ny + 1) + j) 0) = true ↔
      i = 0 ∨ i = nx ∨ j = 0 ∨ j = ny := by
  have hg := squareCoords_get nx ny (fun _ => (0 : K)) (fun _ => 1) i j hi hj
  unfold gnode at hg
  rw [onBoundary_iff, hg, NearSide, Fin.exists_fin_two]
  have one : ∀ (n k : Nat), 0 < n → k ≤ n → tol ≤ 1 / n →
      ((|((0 : K) + (1 - 0) * ((k : K) / n))| < tol ∨ |((0 : K) + (1 - 0) * ((k : K) / n)) - 1| < tol) ↔ k = 0 ∨ k = n) := by
    intro n k hn hk ht
    have hN : (0 : K) < n := Nat.cast_pos.2 hn
    have e : (0 : K) + (1 - 0) * ((k : K) / n) = k / n := by ring
    rw [e]
    constructor
    · rintro (h | h)
      · left
        by_contra hc
        have h1 : (1 : K) ≤ k := by exact_mod_cast Nat.one_le_iff_ne_zero.2 hc
        have h2 : (1 : K) / n ≤ k / n := by gcongr
        rw [abs_of_nonneg (by positivity)] at h
        linarith
      · right
        by_contra hc
        have h1 : (k : K) + 1 ≤ n := by exact_mod_cast (by omega : k + 1 ≤ n)
        have h2 : ((k : K) + 1) / n ≤ 1 := (div_le_one hN).2 h1
        rw [add_div] at h2
        have h3 := neg_abs_le ((k : K) / n - 1)
        linarith
    · rintro (rfl | rfl)
      · left; simpa using h0
      · right
        rw [div_self hN.ne', sub_self, abs_zero]
        exact h0
  have o1 := one nx i hnx hi hx
  have o2 := one ny j hny hj hy
  have c0 : gpoint nx ny (fun _ => (0 : K)) (fun _ => 1) i j 0 = 0 + (1 - 0) * ((i : K) / nx) := rfl
  have c1 : gpoint nx ny (fun _ => (0 : K)) (fun _ => 1) i j 1 = 0 + (1 - 0) * ((j : K) / ny) := rfl
  rw [c0, c1, o1, o2, or_assoc]

example : squareCells 2 1 = [[0, 2, 3], [0, 3, 1], [2, 4, 5], [2, 5, 3]] := rfl

/-- The default tolerance and a fine mesh meet the hypotheses of the boundary test. -/
example : (0 : ℚ) < 1 / 10 ^ 8 ∧ (1 : ℚ) / 10 ^ 8 ≤ 1 / (100 : Nat) := by norm_num

end Parallel
end JaxFem
