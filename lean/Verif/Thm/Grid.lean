import Mathlib.Tactic.Ring
import Verif.Model.StructMesh
import Verif.Thm.Lists

/-! Helper lemmas about row-major grids. -/

namespace JaxFem

variable {K : Type} [Field K]

/-- Row-major double list. -/
theorem flatMap_map_length {α : Type} (a b : Nat) (f : Nat → Nat → α) :
    ((List.range a).flatMap fun i => (List.range b).map (f i)).length = a * b := by
  simp [List.length_flatMap]

theorem flatMap_map_getElem {α : Type} (a b : Nat) (f : Nat → Nat → α) (i j : Nat) (hi : i < a)
    (hj : j < b) (h) :
    ((List.range a).flatMap fun i => (List.range b).map (f i))[i * b + j]'h = f i j := by
  have hrow : ∀ r ∈ (List.range a).map (fun i => (List.range b).map (f i)), r.length = b := by
    intro r hr
    obtain ⟨k, _, rfl⟩ := List.mem_map.1 hr
    simp
  have := flatten_getD b ((List.range a).map fun i => (List.range b).map (f i)) hrow i j (f i j)
    (by simpa using hi) hj
  rw [← List.flatMap_def] at this
  rw [← List.getD_eq_getElem _ (f i j) h, mul_comm, this]
  rw [List.getD_eq_getElem (List.map _ (List.range a)) [] (by simpa using hi), List.getElem_map,
    List.getElem_range, List.getD_eq_getElem _ _ (by simpa using hj)]
  simp

theorem flatMap_range_ext {α : Type} (a b : Nat) (f : Nat → Nat → α) (l : List α)
    (hl : l.length = a * b)
    (h : ∀ i j, i < a → j < b → ∀ hh, l[i * b + j]'hh = f i j) :
    l = (List.range a).flatMap fun i => (List.range b).map (f i) := by
  refine List.ext_getElem (by rw [flatMap_map_length, hl]) fun k h1 h2 => ?_
  have hk : k < a * b := by rw [← hl]; exact h1
  have hb : 0 < b := Nat.pos_of_mul_pos_left (lt_of_le_of_lt (Nat.zero_le _) hk)
  have hi : k / b < a := Nat.div_lt_of_lt_mul (by rw [mul_comm]; exact hk)
  have hj : k % b < b := Nat.mod_lt _ hb
  have hkk : k / b * b + k % b = k := by rw [mul_comm]; exact Nat.div_add_mod k b
  have e1 := h (k / b) (k % b) hi hj (by rw [hkk]; exact h1)
  have e2 := flatMap_map_getElem a b f (k / b) (k % b) hi hj (by rw [hkk]; exact h2)
  simp only [hkk] at e1 e2
  rw [e1, e2]

theorem chunks_range (v n : Nat) (s : Nat) (len : Nat) (h : len = n * v) :
    chunks v n ((List.range len).map (s + ·)) =
      (List.range n).map fun i => (List.range v).map fun j => s + (i * v + j) := by
  refine List.ext_getElem (by rw [chunks_length]; simp) fun i h1 h2 => ?_
  have hi : i < n := by simpa using h2
  have hlen : ((List.range len).map (s + ·)).length = n * v := by simp [h]
  have hrl : ((chunks v n ((List.range len).map (s + ·)))[i]).length = v :=
    chunks_row_length v n _ hlen _ (List.getElem_mem h1)
  refine List.ext_getElem (by rw [hrl]; simp) fun j k1 k2 => ?_
  have hj : j < v := by rw [← hrl]; exact k1
  have := chunks_getD v n ((List.range len).map (s + ·)) i j 0 hi hj
  rw [List.getD_eq_getElem _ _ h1, List.getD_eq_getElem _ _ k1] at this
  rw [this]
  have hlt : v * i + j < n * v := by
    calc v * i + j < v * i + v := by omega
      _ = v * (i + 1) := by ring
      _ ≤ v * n := Nat.mul_le_mul_left _ hi
      _ = n * v := by ring
  rw [List.getD_eq_getElem _ _ (by rw [hlen]; exact hlt)]
  simp only [List.getElem_map, List.getElem_range]
  ring

theorem map_range_dropLast {α : Type} (n : Nat) (f : Nat → α) :
    ((List.range (n + 1)).map f).dropLast = (List.range n).map f := by
  rw [List.range_succ, List.map_append, List.map_singleton, List.dropLast_concat]

theorem map_range_tail {α : Type} (n : Nat) (f : Nat → α) :
    ((List.range (n + 1)).map f).tail = (List.range n).map fun i => f (i + 1) := by
  rw [List.range_succ_eq_map, List.map_cons, List.tail_cons, List.map_map]
  rfl

/-- Slicing a grid axis shifts its index. -/
def b2n (b : Bool) : Nat := if b then 1 else 0

theorem map_range_cut {α : Type} (hi : Bool) (n : Nat) (f : Nat → α) :
    cut hi ((List.range (n + 1)).map f) = (List.range n).map fun i => f (i + b2n hi) := by
  cases hi with
  | false => simp [cut, b2n, map_range_dropLast]
  | true => simp only [cut, b2n, if_true, map_range_tail]

theorem stackLast_grid (a b : Nat) (f0 : Nat → Nat → Nat) (fs : List (Nat → Nat → Nat)) :
    stackLast ((f0 :: fs).map fun f => (List.range a).flatMap fun i => (List.range b).map (f i))
      = (List.range a).flatMap fun i => (List.range b).map fun j =>
          (f0 :: fs).map fun f => f i j := by
  refine flatMap_range_ext a b _ _ (by simp [stackLast, List.length_flatMap]) fun i j hi hj hh => ?_
  simp only [stackLast, List.getElem_map, List.getElem_range, List.map_map]
  refine List.map_congr_left fun f _ => ?_
  have hlt : i * b + j < ((List.range a).flatMap fun i => (List.range b).map (f i)).length := by
    rw [flatMap_map_length]
    simpa [stackLast, List.length_flatMap] using hh
  simp only [Function.comp_apply]
  rw [List.getD_eq_getElem _ _ hlt, flatMap_map_getElem a b f i j hi hj]

/-! ### Rectangle -/

theorem gridPoints2_eq (Nx Ny : Nat) (Lx Ly : K) :
    gridPoints2 (linspace Lx Nx) (linspace Ly Ny) = (List.range (Nx + 1)).flatMap fun i : Nat =>
      (List.range (Ny + 1)).map fun j : Nat => ![(i : K) * (Lx / Nx), (j : K) * (Ly / Ny)] := by
  simp [gridPoints2, linspace, List.flatMap_map, List.map_map, Function.comp_def]

theorem gridInds2_eq (Nx Ny : Nat) :
    gridInds2 Nx Ny ((Nx + 1) * (Ny + 1)) = (List.range (Nx + 1)).map fun i =>
      (List.range (Ny + 1)).map fun j => i * (Ny + 1) + j := by
  have := chunks_range (Ny + 1) (Nx + 1) 0 ((Nx + 1) * (Ny + 1)) rfl
  simpa [gridInds2] using this

theorem rectCells_eq (Nx Ny : Nat) :
    rectCells Nx Ny ((Nx + 1) * (Ny + 1)) = (List.range Nx).flatMap fun i =>
      (List.range Ny).map fun j => [i * (Ny + 1) + j, (i + 1) * (Ny + 1) + j,
        (i + 1) * (Ny + 1) + (j + 1), i * (Ny + 1) + (j + 1)] := by
  have := stackLast_grid Nx Ny (fun i j => i * (Ny + 1) + j)
    [fun i j => (i + 1) * (Ny + 1) + j, fun i j => (i + 1) * (Ny + 1) + (j + 1),
      fun i j => i * (Ny + 1) + (j + 1)]
  simp only [List.map_cons, List.map_nil] at this
  rw [← this, rectCells, gridInds2_eq]
  simp only [map_range_dropLast, map_range_tail, List.map_map, Function.comp_def,
    List.flatMap_def]

theorem rectangleMesh_eq (Nx Ny : Nat) (Lx Ly : K) :
    rectangleMesh Nx Ny Lx Ly = ((List.range (Nx + 1)).flatMap fun i : Nat =>
      (List.range (Ny + 1)).map fun j : Nat => ![(i : K) * (Lx / Nx), (j : K) * (Ly / Ny)],
      (List.range Nx).flatMap fun i =>
      (List.range Ny).map fun j => [i * (Ny + 1) + j, (i + 1) * (Ny + 1) + j,
        (i + 1) * (Ny + 1) + (j + 1), i * (Ny + 1) + (j + 1)]) := by
  rw [rectangleMesh, gridPoints2_eq, flatMap_map_length, rectCells_eq]

/-! ### Box -/

theorem flatMap3_eq {α : Type} (a b c : Nat) (f : Nat → Nat → Nat → α) :
    ((List.range a).flatMap fun i => (List.range b).flatMap fun j => (List.range c).map (f i j))
      = (List.range a).flatMap fun i => (List.range (b * c)).map fun m => f i (m / c) (m % c) := by
  refine List.flatMap_congr fun i _ => ?_
  symm
  refine flatMap_range_ext b c _ _ (by simp) fun j k hj hk hh => ?_
  simp only [List.getElem_map, List.getElem_range]
  have hc : 0 < c := by omega
  rw [mul_comm j c, Nat.mul_add_div hc, Nat.div_eq_of_lt hk, add_zero, Nat.mul_add_mod,
    Nat.mod_eq_of_lt hk]

theorem gridPoints3_eq (Nx Ny Nz : Nat) (Lx Ly Lz : K) :
    gridPoints3 (linspace Lx Nx) (linspace Ly Ny) (linspace Lz Nz)
      = (List.range (Nx + 1)).flatMap fun i : Nat => (List.range (Ny + 1)).flatMap fun j : Nat =>
          (List.range (Nz + 1)).map fun k : Nat =>
            ![(i : K) * (Lx / Nx), (j : K) * (Ly / Ny), (k : K) * (Lz / Nz)] := by
  simp [gridPoints3, linspace, List.flatMap_map, List.map_map, Function.comp_def]

theorem gridInds3_eq (Nx Ny Nz : Nat) :
    gridInds3 Nx Ny Nz ((Nx + 1) * ((Ny + 1) * (Nz + 1))) = (List.range (Nx + 1)).map fun i =>
      (List.range (Ny + 1)).map fun j => (List.range (Nz + 1)).map fun k : Nat =>
        (i * (Ny + 1) + j) * (Nz + 1) + k := by
  have := chunks_range ((Ny + 1) * (Nz + 1)) (Nx + 1) 0 ((Nx + 1) * ((Ny + 1) * (Nz + 1))) rfl
  simp only [zero_add] at this
  rw [gridInds3]
  have e : List.range ((Nx + 1) * ((Ny + 1) * (Nz + 1)))
      = (List.range ((Nx + 1) * ((Ny + 1) * (Nz + 1)))).map fun x => x := by simp
  rw [e, this, List.map_map]
  refine List.map_congr_left fun i _ => ?_
  simp only [Function.comp_apply]
  have h2 := chunks_range (Nz + 1) (Ny + 1) (i * ((Ny + 1) * (Nz + 1))) ((Ny + 1) * (Nz + 1)) rfl
  rw [h2]
  refine List.map_congr_left fun j _ => List.map_congr_left fun k _ => ?_
  ring

theorem subGrid3_eq (Nx Ny Nz : Nat) (sx sy sz : Bool) :
    subGrid3 (gridInds3 Nx Ny Nz ((Nx + 1) * ((Ny + 1) * (Nz + 1)))) sx sy sz
      = (List.range Nx).flatMap fun i => (List.range (Ny * Nz)).map fun m =>
          ((i + b2n sx) * (Ny + 1) + (m / Nz + b2n sy)) * (Nz + 1) + (m % Nz + b2n sz) := by
  rw [← flatMap3_eq Nx Ny Nz (fun i j k =>
    ((i + b2n sx) * (Ny + 1) + (j + b2n sy)) * (Nz + 1) + (k + b2n sz)), gridInds3_eq, subGrid3]
  simp only [map_range_cut, List.map_map, Function.comp_def, List.flatMap_def]

/-- Node number of a grid point. -/
def boxNode (Ny Nz i j k : Nat) : Nat := (i * (Ny + 1) + j) * (Nz + 1) + k

theorem boxCells_eq (Nx Ny Nz : Nat) :
    boxCells Nx Ny Nz ((Nx + 1) * ((Ny + 1) * (Nz + 1))) = (List.range Nx).flatMap fun i =>
      (List.range Ny).flatMap fun j => (List.range Nz).map fun k =>
        [boxNode Ny Nz i j k, boxNode Ny Nz (i + 1) j k, boxNode Ny Nz (i + 1) (j + 1) k,
         boxNode Ny Nz i (j + 1) k, boxNode Ny Nz i j (k + 1), boxNode Ny Nz (i + 1) j (k + 1),
         boxNode Ny Nz (i + 1) (j + 1) (k + 1), boxNode Ny Nz i (j + 1) (k + 1)] := by
  rw [flatMap3_eq, boxCells]
  simp only [subGrid3_eq]
  have := stackLast_grid Nx (Ny * Nz)
    (fun i m => boxNode Ny Nz i (m / Nz) (m % Nz))
    [fun i m => boxNode Ny Nz (i + 1) (m / Nz) (m % Nz),
     fun i m => boxNode Ny Nz (i + 1) (m / Nz + 1) (m % Nz),
     fun i m => boxNode Ny Nz i (m / Nz + 1) (m % Nz),
     fun i m => boxNode Ny Nz i (m / Nz) (m % Nz + 1),
     fun i m => boxNode Ny Nz (i + 1) (m / Nz) (m % Nz + 1),
     fun i m => boxNode Ny Nz (i + 1) (m / Nz + 1) (m % Nz + 1),
     fun i m => boxNode Ny Nz i (m / Nz + 1) (m % Nz + 1)]
  simp only [List.map_cons, List.map_nil] at this
  rw [← this]
  rfl

theorem boxMesh_eq (Nx Ny Nz : Nat) (Lx Ly Lz : K) :
    boxMesh Nx Ny Nz Lx Ly Lz =
      ((List.range (Nx + 1)).flatMap fun i : Nat => (List.range (Ny + 1)).flatMap fun j : Nat =>
          (List.range (Nz + 1)).map fun k : Nat =>
            ![(i : K) * (Lx / Nx), (j : K) * (Ly / Ny), (k : K) * (Lz / Nz)],
       (List.range Nx).flatMap fun i =>
      (List.range Ny).flatMap fun j => (List.range Nz).map fun k =>
        [boxNode Ny Nz i j k, boxNode Ny Nz (i + 1) j k, boxNode Ny Nz (i + 1) (j + 1) k,
         boxNode Ny Nz i (j + 1) k, boxNode Ny Nz i j (k + 1), boxNode Ny Nz (i + 1) j (k + 1),
         boxNode Ny Nz (i + 1) (j + 1) (k + 1), boxNode Ny Nz i (j + 1) (k + 1)]) := by
  rw [boxMesh, gridPoints3_eq, ← boxCells_eq]
  congr 2
  rw [flatMap3_eq, flatMap_map_length]

end JaxFem
