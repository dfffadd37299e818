import Verif.Spec.Mpi
import Verif.Thm.C57_Parallel

/-!
# C95: the mesh of a rank, gathering values and scattering the matrix
-/

namespace JaxFem
namespace Mpi

open Parallel (globalDof)

/-! ### `build_local_mesh_from_dm` -/

/-- The state after the vertices `pt` have been inserted. -/
def stateOf (coord : Nat → Fin 2 → ℝ) (pt : List Nat) : Build := ⟨pt.zipIdx, pt.map coord⟩

theorem lookup_zipIdx (pt : List Nat) (k v : Nat) :
    (pt.zipIdx k).lookup v = if v ∈ pt then some (k + pt.idxOf v) else none := by
  induction pt generalizing k with
  | nil => simp
  | cons a l ih =>
    rw [List.zipIdx_cons, List.lookup_cons, ih]
    by_cases h : v = a
    · subst h
      simp
    · have h1 : (v == a) = false := by simpa using h
      rw [h1]
      simp only [List.mem_cons, h, false_or]
      split
      · rw [List.idxOf_cons_ne _ (Ne.symm h)]
        simp only [Option.some.injEq]
        omega
      · rfl

theorem addVertex_stateOf (coord : Nat → Fin 2 → ℝ) (pt : List Nat) (v : Nat) :
    addVertex coord (stateOf coord pt) v = stateOf coord (if v ∈ pt then pt else pt ++ [v]) := by
  unfold addVertex
  rw [stateOf, lookup_zipIdx]
  by_cases h : v ∈ pt
  · simp [h, stateOf]
  · simp [h, stateOf, List.zipIdx_append]

/-- The list of inserted vertices after more have been seen. -/
def insertAll (pt : List Nat) : List Nat → List Nat
  | [] => pt
  | v :: l => insertAll (if v ∈ pt then pt else pt ++ [v]) l

theorem insertAll_prefix (pt l : List Nat) : ∃ r, insertAll pt l = pt ++ r := by
  induction l generalizing pt with
  | nil => exact ⟨[], by simp [insertAll]⟩
  | cons v l ih =>
    obtain ⟨r, hr⟩ := ih (if v ∈ pt then pt else pt ++ [v])
    rw [insertAll, hr]
    by_cases h : v ∈ pt
    · exact ⟨r, by simp [h]⟩
    · exact ⟨v :: r, by simp [h]⟩

theorem mem_insertAll (pt l : List Nat) (v : Nat) : v ∈ insertAll pt l ↔ v ∈ pt ∨ v ∈ l := by
  induction l generalizing pt with
  | nil => simp [insertAll]
  | cons w l ih =>
    rw [insertAll, ih, List.mem_cons]
    by_cases h : w ∈ pt
    · simp only [h, if_true]
      constructor
      · rintro (h1 | h1)
        · exact .inl h1
        · exact .inr (.inr h1)
      · rintro (h1 | rfl | h1)
        · exact .inl h1
        · exact .inl h
        · exact .inr h1
    · simp only [h, if_false, List.mem_append, List.mem_singleton]
      tauto

theorem nodup_insertAll (pt l : List Nat) (h : pt.Nodup) : (insertAll pt l).Nodup := by
  induction l generalizing pt with
  | nil => exact h
  | cons w l ih =>
    rw [insertAll]
    refine ih _ ?_
    by_cases hw : w ∈ pt
    · simpa [hw] using h
    · simp only [hw, if_false]
      exact List.nodup_append.2 ⟨h, List.nodup_singleton _, by
        intro a ha b hb
        rw [List.mem_singleton] at hb
        subst hb
        exact fun e => hw (e ▸ ha)⟩

theorem insertAll_append (pt l m : List Nat) : insertAll pt (l ++ m) = insertAll (insertAll pt l) m := by
  induction l generalizing pt with
  | nil => rfl
  | cons v l ih => rw [List.cons_append, insertAll, insertAll, ih]

theorem idxOf_append_mem {pt r : List Nat} {v : Nat} (h : v ∈ pt) : (pt ++ r).idxOf v = pt.idxOf v :=
  List.idxOf_append_of_mem h

theorem addCell_from (coord : Nat → Fin 2 → ℝ) (pt l lid : List Nat) :
    l.foldl (fun (st : Build × List Nat) v =>
      let s' := addVertex coord st.1 v
      (s', st.2 ++ [(s'.dict.lookup v).getD 0])) (stateOf coord pt, lid)
    = (stateOf coord (insertAll pt l), lid ++ l.map (insertAll pt l).idxOf) := by
  induction l generalizing pt lid with
  | nil => simp [insertAll]
  | cons v l ih =>
    rw [List.foldl_cons]
    simp only [addVertex_stateOf]
    rw [ih, insertAll]
    have hv : v ∈ (if v ∈ pt then pt else pt ++ [v]) := by
      split
      · assumption
      · simp
    have e1 : (List.lookup v (stateOf coord (if v ∈ pt then pt else pt ++ [v])).dict).getD 0
        = (if v ∈ pt then pt else pt ++ [v]).idxOf v := by
      rw [stateOf, lookup_zipIdx, if_pos hv]
      simp
    rw [e1]
    obtain ⟨r, hr⟩ := insertAll_prefix (if v ∈ pt then pt else pt ++ [v]) l
    have e2 : (insertAll (if v ∈ pt then pt else pt ++ [v]) l).idxOf v = (if v ∈ pt then pt else pt ++ [v]).idxOf v := by
      rw [hr, idxOf_append_mem hv]
    rw [List.map_cons, e2, List.append_assoc, List.singleton_append]

theorem addCell_stateOf (coord : Nat → Fin 2 → ℝ) (pt l : List Nat) :
    addCell coord (stateOf coord pt) l = (stateOf coord (insertAll pt l), l.map (insertAll pt l).idxOf) := by
  rw [addCell, addCell_from, List.nil_append]

theorem build_from (coord : Nat → Fin 2 → ℝ) (cells : List (List Nat)) (pt : List Nat) (acc : List (List Nat)) :
    cells.foldl (fun (st : Build × List (List Nat)) verts =>
      let r := addCell coord st.1 verts
      (r.1, st.2 ++ [r.2])) (stateOf coord pt, acc)
    = (stateOf coord (insertAll pt cells.flatten), acc ++ cells.map fun l => l.map (insertAll pt cells.flatten).idxOf) := by
  induction cells generalizing pt acc with
  | nil => simp [insertAll]
  | cons c cells ih =>
    rw [List.foldl_cons]
    simp only [addCell_stateOf]
    rw [ih, List.flatten_cons, insertAll_append, List.map_cons, List.append_assoc, List.singleton_append]
    congr 2
    congr 1
    obtain ⟨r, hr⟩ := insertAll_prefix (insertAll pt c) cells.flatten
    refine List.map_congr_left fun v hv => ?_
    rw [hr, idxOf_append_mem ((mem_insertAll _ _ _).2 (.inr hv))]

theorem foldl_set_zipIdx (pt pre : List Nat) (n : Nat) :
    (pt.zipIdx pre.length).foldl (fun (a : List Nat) e => a.set e.2 e.1) (pre ++ List.replicate (pt.length + n) 0)
      = pre ++ pt ++ List.replicate n 0 := by
  induction pt generalizing pre with
  | nil => simp
  | cons v l ih =>
    rw [List.zipIdx_cons, List.foldl_cons]
    have e : (pre ++ List.replicate ((v :: l).length + n) 0).set pre.length v
        = (pre ++ [v]) ++ List.replicate (l.length + n) 0 := by
      rw [List.set_append_right _ _ (le_refl _), Nat.sub_self]
      have : (v :: l).length + n = (l.length + n) + 1 := by simp; omega
      rw [this, List.replicate_succ]
      simp
    rw [e]
    have := ih (pre ++ [v])
    rw [List.length_append, List.length_singleton] at this
    rw [this]
    simp

/-- **C95 (local mesh).** `build_local_mesh_from_dm` numbers every vertex of the rank's cells once (in order of first occurrence): `pt` lists
the points of the mesh by local number. Coordinates and global numbers belong to these points, and the local cells are the cells. -/
theorem C95_local_mesh (p : Part) :
    ∃ pt : List Nat, pt.Nodup ∧ (∀ v, v ∈ pt ↔ ∃ cell ∈ p.cells, v ∈ cell) ∧
      (buildLocalMesh p).points = pt.map p.coord ∧
      (buildLocalMesh p).gdofs = pt.map (fun v => globalDof (p.off v)) ∧
      (buildLocalMesh p).cells.length = p.cells.length ∧
      ∀ (i : Nat) cell, p.cells[i]? = some cell → ∃ lid, (buildLocalMesh p).cells[i]? = some lid ∧
        lid.map (fun k => pt[k]?) = cell.map some := by
  refine ⟨insertAll [] p.cells.flatten, nodup_insertAll _ _ List.nodup_nil, ?_, ?_⟩
  · intro v
    rw [mem_insertAll, List.mem_flatten]
    simp
  have hb := build_from p.coord p.cells [] []
  have h0 : stateOf p.coord [] = ⟨[], []⟩ := rfl
  rw [h0] at hb
  unfold buildLocalMesh
  rw [hb]
  simp only []
  refine ⟨rfl, ?_, by simp, ?_⟩
  · have hf := foldl_set_zipIdx (insertAll [] p.cells.flatten) [] 0
    simp only [List.length_nil, List.nil_append, Nat.add_zero, List.replicate_zero, List.append_nil] at hf
    have hl : (stateOf p.coord (insertAll [] p.cells.flatten)).pts.length = (insertAll [] p.cells.flatten).length := by
      simp [stateOf]
    have hd : (stateOf p.coord (insertAll [] p.cells.flatten)).dict = (insertAll [] p.cells.flatten).zipIdx 0 := rfl
    rw [hl, hd, hf]
    refine List.ext_getElem (by simp) fun i h1 h2 => ?_
    have hi : i < (insertAll [] p.cells.flatten).length := by simpa using h1
    simp only [List.getElem_map, List.getElem_range, List.getD_eq_getElem _ _ hi]
  · intro i cell hi
    refine ⟨cell.map (insertAll [] p.cells.flatten).idxOf, by simp [hi], ?_⟩
    rw [List.map_map]
    refine List.map_congr_left fun v hv => ?_
    have hm : v ∈ insertAll [] p.cells.flatten :=
      (mem_insertAll _ _ _).2 (.inr (List.mem_flatten.2 ⟨cell, List.mem_of_getElem? hi, hv⟩))
    have hlt := List.idxOf_lt_length_iff.2 hm
    rw [Function.comp_apply, List.getElem?_eq_getElem hlt, List.getElem_idxOf hlt]

end Mpi
end JaxFem
