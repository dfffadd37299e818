import Verif.Model.Elements
import Verif.Spec.Elements
import Verif.Thm.Lists
import Mathlib.Data.List.Nodup
import Mathlib.Data.List.Perm.Basic
import Mathlib.Tactic.Common

/-!
# C40: element node reordering
-/

namespace JaxFem

/-! ### Helper lemmas -/

theorem mem_positions (re : List Nat) (x i : Nat) :
    i ∈ positions re x ↔ re[i]? = some x := by
  rw [positions, List.mem_filter, List.mem_range]
  constructor
  · rintro ⟨h, e⟩
    rw [List.getD_eq_getElem _ _ h] at e
    rw [List.getElem?_eq_getElem h, beq_iff_eq.1 e]
  · intro h
    obtain ⟨hl, e⟩ := List.getElem?_eq_some_iff.1 h
    exact ⟨hl, by rw [List.getD_eq_getElem _ _ hl, e, beq_self_eq_true]⟩

theorem positions_nodup_eq (re : List Nat) (hn : re.Nodup) (x i : Nat) (h : re[i]? = some x) :
    positions re x = [i] := by
  have hnd : (positions re x).Nodup := List.nodup_range.filter _
  have hall : ∀ j ∈ positions re x, j = i := by
    intro j hj
    rw [mem_positions] at hj
    obtain ⟨h1, e1⟩ := List.getElem?_eq_some_iff.1 hj
    obtain ⟨h2, e2⟩ := List.getElem?_eq_some_iff.1 h
    exact (hn.getElem_inj_iff).1 (e1.trans e2.symm)
  have hi : i ∈ positions re x := (mem_positions re x i).2 h
  rcases hp : positions re x with _ | ⟨a, _ | ⟨b, l⟩⟩
  · rw [hp] at hi; cases hi
  · rw [hp] at hall; rw [hall a (List.mem_cons_self ..)]
  · rw [hp] at hall hnd
    have ha := hall a (List.mem_cons_self ..)
    have hb := hall b (List.mem_cons_of_mem _ (List.mem_cons_self ..))
    rw [ha, hb, List.nodup_cons] at hnd
    exact absurd (List.mem_cons_self ..) hnd.1

theorem flatten_singletons (l : List Nat) (f : Nat → Nat) : (l.map fun x => [f x]).flatten = l.map f := by
  induction l with
  | nil => rfl
  | cons a l ih => simp [ih]

theorem chunks_map_flatten (m : Nat) (f : Nat → Nat) (ls : List (List Nat)) (h : ∀ l ∈ ls, l.length = m) :
    chunks m ls.length (ls.flatten.map f) = ls.map (List.map f) := by
  induction ls with
  | nil => rfl
  | cons l ls ih =>
    have hl := h l (List.mem_cons_self ..)
    rw [List.length_cons, List.flatten_cons, List.map_append, chunks, List.map_cons]
    have hlen : (l.map f).length = m := by rw [List.length_map, hl]
    rw [List.take_left' hlen, List.drop_left' hlen, ih fun l hl => h l (List.mem_cons_of_mem _ hl)]

/-! ### Property theorems -/

/-- **C40 (`reorder_inds`).** For every table without repetitions and every index array of shape
`(n, m)` whose entries occur in the table, the result has the same shape and each entry is the position
at which the table holds the given index. -/
theorem C40_reorder (re : List Nat) (hn : re.Nodup) (inds : List (List Nat)) (m : Nat)
    (hm : ∀ l ∈ inds, l.length = m) (hmem : ∀ l ∈ inds, ∀ x ∈ l, x ∈ re) :
    ∃ out, reorderInds inds m re = .ok out ∧ out.length = inds.length ∧
      ∀ (a b x : Nat) (l : List Nat), inds[a]? = some l → l[b]? = some x →
        ∃ (l' : List Nat) (y : Nat), out[a]? = some l' ∧ l'.length = m ∧ l'[b]? = some y ∧ re[y]? = some x := by
  have hpos : ∀ x ∈ inds.flatten, positions re x = [re.idxOf x] := by
    intro x hx
    obtain ⟨l, hl, hxl⟩ := List.mem_flatten.1 hx
    have hxr := hmem l hl x hxl
    apply positions_nodup_eq re hn
    rw [List.getElem?_eq_getElem (List.idxOf_lt_length_of_mem hxr), List.getElem_idxOf]
  have hnew : inds.flatten.map (positions re) = inds.flatten.map fun x => [re.idxOf x] :=
    List.map_congr_left hpos
  refine ⟨inds.map (List.map re.idxOf), ?_, by simp, ?_⟩
  · unfold reorderInds
    extract_lets newInds flat
    have e1 : newInds = inds.flatten.map fun x => [re.idxOf x] := hnew
    have hall : (newInds.all fun l => l.length == (newInds.headD []).length) = true := by
      rw [List.all_eq_true]
      intro l hl
      have h1 : ∀ l ∈ newInds, l.length = 1 := by
        rw [e1]
        intro l hl
        obtain ⟨x, -, rfl⟩ := List.mem_map.1 hl
        rfl
      have h2 : (newInds.headD []).length = 1 := by
        cases hh : newInds with
        | nil => rw [hh] at hl; cases hl
        | cons a t => exact h1 a (hh ▸ List.mem_cons_self ..)
      rw [h1 l hl, h2]; rfl
    rw [if_pos hall]
    have hflat : flat = inds.flatten.map re.idxOf := by
      show newInds.flatten = _
      rw [e1, flatten_singletons]
    have hlen : flat.length = inds.length * m := by
      rw [hflat, List.length_map]
      clear * - hm
      induction inds with
      | nil => simp
      | cons l ls ih =>
        rw [List.flatten_cons, List.length_append, hm l (List.mem_cons_self ..),
          ih fun l hl => hm l (List.mem_cons_of_mem _ hl), List.length_cons, Nat.succ_mul, Nat.add_comm]
    rw [if_pos hlen, hflat, chunks_map_flatten m _ _ hm]
  · intro a b x l ha hb
    have hl := List.mem_of_getElem? ha
    have hxr := hmem l hl x (List.mem_of_getElem? hb)
    refine ⟨l.map re.idxOf, re.idxOf x, ?_, ?_, ?_, ?_⟩
    · rw [List.getElem?_map, ha]; rfl
    · rw [List.length_map, hm l hl]
    · rw [List.getElem?_map, hb]; rfl
    · rw [List.getElem?_eq_getElem (List.idxOf_lt_length_of_mem hxr), List.getElem_idxOf]

/-- **C40 (supported types).** `get_elements` accepts exactly the nine types of the mesh formats, and
`get_meshio_cell_type` accepts the same and names the cell type of the format. -/
theorem C40_supported (t : String) :
    ((∃ info, getElements t = .ok info) ↔ t ∈ meshNodes.map Prod.fst) ∧
    (t ∉ meshNodes.map Prod.fst → getElements t = .error .notImplemented ∧
      getMeshioCellType t = .error .notImplemented) ∧
    ∀ c, getMeshioCellType t = .ok c ↔ (t, c) ∈ meshNodes.map fun e => (e.1, e.2.1) := by
  have hk : meshNodes.map Prod.fst =
      ["TRI3", "TRI6", "QUAD4", "QUAD8", "TET4", "TET10", "HEX8", "HEX20", "HEX27"] := rfl
  by_cases ht : t ∈ meshNodes.map Prod.fst
  · refine ⟨⟨fun _ => ht, fun _ => ?_⟩, fun h => absurd ht h, ?_⟩
    · rw [hk] at ht
      simp only [List.mem_cons, List.not_mem_nil, or_false] at ht
      rcases ht with rfl | rfl | rfl | rfl | rfl | rfl | rfl | rfl | rfl <;> exact ⟨_, rfl⟩
    · intro c
      have key : ∀ e ∈ meshNodes, getMeshioCellType e.1 = .ok e.2.1 := by decide +kernel
      have uniq : ∀ e ∈ meshNodes, ∀ e' ∈ meshNodes, e.1 = e'.1 → e.2.1 = e'.2.1 := by decide +kernel
      constructor
      · intro h
        obtain ⟨e, he, rfl⟩ := List.mem_map.1 ht
        rw [key e he] at h
        cases h
        exact List.mem_map.2 ⟨e, he, rfl⟩
      · intro h
        obtain ⟨e, he, h2⟩ := List.mem_map.1 h
        cases h2
        exact key e he
  · have hn : ∀ s ∈ ["TRI3", "TRI6", "QUAD4", "QUAD8", "TET4", "TET10", "HEX8", "HEX20", "HEX27"], t ≠ s := by
      intro s hs e
      exact ht (hk ▸ e ▸ hs)
    simp only [List.mem_cons, List.not_mem_nil, or_false, forall_eq_or_imp, forall_eq] at hn
    obtain ⟨h1, h2, h3, h4, h5, h6, h7, h8, h9⟩ := hn
    have e1 : getElements t = .error .notImplemented := by
      simp [getElements, h1, h2, h3, h4, h5, h6, h7, h8, h9]
    have e2 : getMeshioCellType t = .error .notImplemented := by
      simp [getMeshioCellType, h1, h2, h3, h4, h5, h6, h7, h8, h9]
    refine ⟨⟨?_, fun h => absurd h ht⟩, fun _ => ⟨e1, e2⟩, ?_⟩
    · rintro ⟨info, h⟩
      rw [e1] at h; cases h
    · intro c
      rw [e2]
      refine ⟨fun h => (by cases h), fun h => ?_⟩
      obtain ⟨e, he, h2⟩ := List.mem_map.1 h
      cases h2
      exact absurd (List.mem_map_of_mem he) ht

/-- **C40 (tables).** For every supported type the table is a permutation of the node numbers, and node
`i` of the mesh numbering gets the basix function located at the node's own reference position. -/
theorem C40_tables : ∀ e ∈ meshNodes, ∃ info, getElements e.1 = .ok info ∧
    info.reOrder.Perm (List.range e.2.2.length) ∧
    info.reOrder.map (fun k => (basixPoints info)[k]?) = e.2.2.map some := by
  have h : ∀ e ∈ meshNodes, ∀ info, getElements e.1 = .ok info →
      info.reOrder.isPerm (List.range e.2.2.length) = true ∧
      info.reOrder.map (fun k => (basixPoints info)[k]?) = e.2.2.map some := by
    have : ∀ e ∈ meshNodes, (match getElements e.1 with
      | .ok info => info.reOrder.isPerm (List.range e.2.2.length) &&
          (info.reOrder.map (fun k => (basixPoints info)[k]?) == e.2.2.map some)
      | .error _ => false) = true := by decide +kernel
    intro e he info hi
    have := this e he
    rw [hi] at this
    simpa using this
  intro e he
  have hs := (C40_supported e.1).1
  obtain ⟨info, hi⟩ := hs.2 (List.mem_map_of_mem he)
  exact ⟨info, hi, List.isPerm_iff.1 (h e he info hi).1, (h e he info hi).2⟩

/-- **C40 (faces).** For every supported type the facet lists are converted without error, and the
`b`-th vertex of facet `a` in mesh numbering is at the same reference position as the `b`-th vertex of
facet `a` in basix. -/
theorem C40_faces : ∀ e ∈ meshNodes, ∃ info fs, getElements e.1 = .ok info ∧ elementFaceInds info = .ok fs ∧
    fs.map (fun f => f.map fun i => e.2.2[i]?) =
      (basixFacets info.ele).map fun f => f.map fun i => (basixVertices info.ele)[i]? := by
  have h : ∀ e ∈ meshNodes, (match getElements e.1 with
      | .ok info => (match elementFaceInds info with
        | .ok fs => fs.map (fun f => f.map fun i => e.2.2[i]?) ==
            (basixFacets info.ele).map fun f => f.map fun i => (basixVertices info.ele)[i]?
        | .error _ => false)
      | .error _ => false) = true := by decide +kernel
  intro e he
  have := h e he
  rcases h1 : getElements e.1 with _ | info
  · rw [h1] at this; cases this
  rw [h1] at this
  dsimp only at this
  rcases h2 : elementFaceInds info with _ | fs
  · rw [h2] at this; cases this
  rw [h2] at this
  exact ⟨info, fs, rfl, h2, beq_iff_eq.1 this⟩

/-- **C40 (nodal basis).** For every table that is a permutation and every basis that is nodal at points
`X` (`phi k` is 1 at `X k` and 0 at the other points), the reordered functions are nodal at the
reordered points. -/
theorem C40_nodal {K : Type} [Zero K] [One K] {Pt : Type} (re : List Nat) (n : Nat)
    (hp : re.Perm (List.range n)) (phi : Nat → Pt → K) (X : Nat → Pt)
    (hX : ∀ k l, k < n → l < n → phi k (X l) = if k = l then 1 else 0) (i j : Nat) (hi : i < n) (hj : j < n) :
    reorderedShape phi re i (X (re.getD j 0)) = if i = j then 1 else 0 := by
  have hlen : re.length = n := by rw [hp.length_eq, List.length_range]
  have hnd : re.Nodup := hp.nodup_iff.2 List.nodup_range
  have hlt : ∀ i, i < n → re.getD i 0 < n := by
    intro i hi
    rw [List.getD_eq_getElem _ _ (hlen.symm ▸ hi)]
    exact List.mem_range.1 (hp.subset (List.getElem_mem _))
  rw [reorderedShape, hX _ _ (hlt i hi) (hlt j hj)]
  rw [List.getD_eq_getElem _ _ (hlen.symm ▸ hi), List.getD_eq_getElem _ _ (hlen.symm ▸ hj)]
  exact if_congr hnd.getElem_inj_iff rfl rfl

/-- `reorder_inds` raises for an index that is not in the table. -/
example : reorderInds [[0, 7]] 2 [0, 1, 2] = .error .value := by decide +kernel

/-- The faces of HEX8. -/
example : (do elementFaceInds (← getElements "HEX8")) =
    .ok [[0, 1, 3, 2], [0, 1, 4, 5], [0, 3, 4, 7], [1, 2, 5, 6], [3, 2, 7, 6], [4, 5, 7, 6]] := by
  decide +kernel

end JaxFem
