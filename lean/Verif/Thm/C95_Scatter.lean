import Verif.Thm.C95_LocalMesh

/-!
# C95: gathering the values and scattering the matrix
-/

namespace JaxFem
namespace Mpi

open Parallel (globalDof)

variable {coords : Nat → Fin 2 → ℝ} {N : Nat} {cells : List (Fin 3 → Nat)} {num : Nat → Nat}
  {glob : Part → Nat → Nat} {parts : List Part}

/-! ### Gathering -/

theorem point_dof (hD : IsPartition coords N cells num glob parts) {p : Part} (hp : p ∈ parts) {v : Nat} (h1 : p.vStart ≤ v)
    (h2 : v < p.vEnd) : globalDof (p.off v) = (num (glob p v) : Int) := by
  obtain ⟨-, -, ho⟩ := hD.verts p hp v h1 h2
  rw [ho]
  split
  · exact (Parallel.C57_global_dof _ (by omega)).1
  · exact (Parallel.C57_global_dof _ (by omega)).2

theorem owned_fold (p : Part) (xloc : List ℝ) (k : Nat) (vs : List Nat) (uv : List ℝ) (hk : k < uv.length) :
    (vs.foldl (fun uv v =>
      let gd := globalDof (p.off v)
      if (p.rstart : Int) ≤ gd ∧ gd < p.rend then uv.set gd.toNat (xloc.getD (gd.toNat - p.rstart) 0) else uv) uv).getD k 0
    = if ∃ v ∈ vs, globalDof (p.off v) = (k : Int) ∧ p.rstart ≤ k ∧ k < p.rend then xloc.getD (k - p.rstart) 0
      else uv.getD k 0 := by
  induction vs generalizing uv with
  | nil => simp
  | cons v l ih =>
    rw [List.foldl_cons]
    simp only []
    by_cases hc : (p.rstart : Int) ≤ globalDof (p.off v) ∧ globalDof (p.off v) < p.rend
    · rw [if_pos hc, ih _ (by simpa using hk)]
      by_cases hl : ∃ v ∈ l, globalDof (p.off v) = (k : Int) ∧ p.rstart ≤ k ∧ k < p.rend
      · rw [if_pos hl, if_pos]
        obtain ⟨w, hw, h⟩ := hl
        exact ⟨w, List.mem_cons_of_mem _ hw, h⟩
      · rw [if_neg hl]
        by_cases hv : globalDof (p.off v) = (k : Int)
        · have h1 : p.rstart ≤ k ∧ k < p.rend := by omega
          rw [if_pos ⟨v, List.mem_cons_self .., hv, h1⟩, hv, Int.toNat_natCast,
            List.getD_eq_getElem _ _ (by simpa using hk), List.getElem_set_self]
        · have h2 : ¬∃ w ∈ v :: l, globalDof (p.off w) = (k : Int) ∧ p.rstart ≤ k ∧ k < p.rend := by
            rintro ⟨w, hw, h⟩
            rcases List.mem_cons.1 hw with rfl | hw
            · exact hv h.1
            · exact hl ⟨w, hw, h⟩
          rw [if_neg h2, List.getD_eq_getElem _ _ (by simpa using hk), List.getD_eq_getElem _ _ hk,
            List.getElem_set_of_ne (by omega)]
    · rw [if_neg hc, ih _ hk]
      congr 1
      rw [eq_iff_iff]
      constructor
      · rintro ⟨w, hw, h⟩
        exact ⟨w, List.mem_cons_of_mem _ hw, h⟩
      · rintro ⟨w, hw, h⟩
        rcases List.mem_cons.1 hw with rfl | hw
        · exact absurd (by omega) hc
        · exact ⟨w, hw, h⟩

theorem num_surj (hD : IsPartition coords N cells num glob parts) (k : Nat) (hk : k < N) : ∃ v < N, num v = k := by
  have hinj : Function.Injective fun v : Fin N => (⟨num v, hD.num_lt v v.2⟩ : Fin N) := by
    intro v w h
    exact Fin.ext (hD.num_inj v v.2 w w.2 (by simpa using h))
  obtain ⟨v, hv⟩ := (Finite.injective_iff_surjective.1 hinj) ⟨k, hk⟩
  exact ⟨v, v.2, by simpa using hv⟩

theorem localArray_getD (p : Part) (x : Fin N → ℝ) (k : Nat) (h1 : p.rstart ≤ k) (h2 : k < p.rend) (hN : k < N) :
    (localArray p x).getD (k - p.rstart) 0 = x ⟨k, hN⟩ := by
  unfold localArray slice
  have hl : k - p.rstart < ((List.take p.rend (List.ofFn x)).drop p.rstart).length := by
    simp
    omega
  rw [List.getD_eq_getElem _ _ hl, List.getElem_drop, List.getElem_take, List.getElem_ofFn]
  congr 1
  ext
  simp
  omega

theorem sum_single {α : Type} (f : α → ℝ) (l1 l2 : List α) (a : α) (h1 : ∀ b ∈ l1, f b = 0) (h2 : ∀ b ∈ l2, f b = 0) :
    ((l1 ++ a :: l2).map f).sum = f a := by
  have z : ∀ l : List α, (∀ b ∈ l, f b = 0) → (l.map f).sum = 0 := by
    intro l h
    rw [List.map_congr_left h]
    simp
  rw [List.map_append, List.sum_append, List.map_cons, List.sum_cons, z l1 h1, z l2 h2, zero_add, add_zero]

/-- The parts other than the owner of a row do not own it. -/
theorem split_owner (hD : IsPartition coords N cells num glob parts) (k : Nat) (hk : k < N) :
    ∃ l1 p l2, parts = l1 ++ p :: l2 ∧ p.rstart ≤ k ∧ k < p.rend ∧
      (∃ v, p.vStart ≤ v ∧ v < p.vEnd ∧ num (glob p v) = k) ∧ ∀ q ∈ l1 ++ l2, ¬(q.rstart ≤ k ∧ k < q.rend) := by
  obtain ⟨v, hv, rfl⟩ := num_surj hD k hk
  obtain ⟨p, hp, h1, h2, l, hl1, hl2, rfl⟩ := hD.owner v hv
  obtain ⟨l1, l2, rfl⟩ := List.append_of_mem hp
  refine ⟨l1, p, l2, rfl, h1, h2, ⟨l, hl1, hl2, rfl⟩, fun q hq => ?_⟩
  have hd := hD.disjoint
  rw [List.pairwise_append, List.pairwise_cons] at hd
  rcases List.mem_append.1 hq with hq | hq
  · have := hd.2.2 q hq p (List.mem_cons_self ..)
    omega
  · have := hd.2.1.1 q hq
    omega

/-- **C95 (gather).** Every rank obtains the whole vector. -/
theorem C95_gather (hD : IsPartition coords N cells num glob parts) (x : Fin N → ℝ) : gather parts x = List.ofFn x := by
  refine List.ext_getElem (by simp [gather]) fun k h1 h2 => ?_
  have hk : k < N := by simpa using h2
  simp only [gather, List.getElem_map, List.getElem_range, List.getElem_ofFn]
  obtain ⟨l1, p, l2, hpl, hr1, hr2, ⟨v, hv1, hv2, hv⟩, hq⟩ := split_owner hD k hk
  have hall : ∀ q, (ownedValues q (localArray q x) N).getD k 0
      = if ∃ v ∈ List.range' q.vStart (q.vEnd - q.vStart), globalDof (q.off v) = (k : Int) ∧ q.rstart ≤ k ∧ k < q.rend
        then (localArray q x).getD (k - q.rstart) 0 else 0 := by
    intro q
    have := owned_fold q (localArray q x) k (List.range' q.vStart (q.vEnd - q.vStart)) (List.replicate N 0) (by simpa using hk)
    rw [List.getD_replicate _ hk] at this
    exact this
  have hz : ∀ q ∈ l1 ++ l2, (ownedValues q (localArray q x) N).getD k 0 = 0 := by
    intro q hq'
    rw [hall, if_neg]
    rintro ⟨w, -, -, h⟩
    exact hq q hq' h
  have hpp : p ∈ parts := by rw [hpl]; simp
  conv_lhs => rw [hpl]
  rw [sum_single _ l1 l2 p (fun b hb => hz b (List.mem_append_left _ hb)) fun b hb => hz b (List.mem_append_right _ hb), hall,
    if_pos, localArray_getD p x k hr1 hr2 hk]
  refine ⟨v, ?_, ?_, hr1, hr2⟩
  · rw [List.mem_range'_1]
    omega
  · rw [point_dof hD hpp hv1 hv2, hv]

/-! ### Scattering -/

/-- The value of a matrix entry described by a list of entries: duplicates are added. -/
noncomputable def entrySum (l : List Entry) (i j : Int) : ℝ := (l.map fun e => if e.1 = (i, j) then e.2 else 0).sum

theorem entrySum_append (l m : List Entry) (i j : Int) : entrySum (l ++ m) i j = entrySum l i j + entrySum m i j := by
  simp [entrySum]

theorem entrySum_cons (e : Entry) (l : List Entry) (i j : Int) :
    entrySum (e :: l) i j = (if e.1 = (i, j) then e.2 else 0) + entrySum l i j := by
  simp [entrySum]

theorem entrySum_filter (l : List Entry) (q : Entry → Bool) (i j : Int) :
    entrySum (l.filter fun e => !q e) i j + entrySum (l.filter q) i j = entrySum l i j := by
  induction l with
  | nil => simp [entrySum]
  | cons e l ih =>
    by_cases h : q e
    · rw [List.filter_cons_of_neg (by simp [h]), List.filter_cons_of_pos h, entrySum_cons, entrySum_cons, ← ih]
      ring
    · rw [List.filter_cons_of_pos (by simp [h]), List.filter_cons_of_neg h, entrySum_cons, entrySum_cons, ← ih]
      ring

theorem filter_key_sum (l : List Entry) (i j : Int) :
    ((l.filter fun e => e.1 = (i, j)).map Prod.snd).sum = entrySum l i j := by
  induction l with
  | nil => simp [entrySum]
  | cons e l ih =>
    by_cases h : e.1 = (i, j)
    · rw [List.filter_cons_of_pos (by simpa using h), entrySum_cons, if_pos h, ← ih]
      simp
    · rw [List.filter_cons_of_neg (by simpa using h), entrySum_cons, if_neg h, ← ih, zero_add]

theorem nodup_single_sum (ks : List (Int × Int)) (h : ks.Nodup) (f : Int × Int → ℝ) (k : Int × Int) :
    (ks.map fun k' => if k' = k then f k' else 0).sum = if k ∈ ks then f k else 0 := by
  induction ks with
  | nil => simp
  | cons a l ih =>
    rw [List.nodup_cons] at h
    rw [List.map_cons, List.sum_cons, ih h.2]
    by_cases ha : a = k
    · subst ha
      simp [h.1]
    · simp [ha, Ne.symm ha, eq_comm]

theorem entrySum_sumDuplicates (l : List Entry) (i j : Int) : entrySum (sumDuplicates l) i j = entrySum l i j := by
  have h := nodup_single_sum (l.map Prod.fst).dedup (List.nodup_dedup _)
    (fun k => ((l.filter fun e => e.1 = k).map Prod.snd).sum) (i, j)
  have e1 : entrySum (sumDuplicates l) i j = ((l.map Prod.fst).dedup.map fun k' => if k' = (i, j) then
      ((l.filter fun e => e.1 = k').map Prod.snd).sum else 0).sum := by
    simp [entrySum, sumDuplicates, List.map_map, Function.comp_def]
  rw [e1, h, filter_key_sum]
  split
  · rfl
  · rename_i hn
    rw [List.mem_dedup] at hn
    symm
    rw [entrySum, List.map_congr_left (g := fun _ => 0)]
    · simp
    · intro e he
      rw [if_neg]
      intro hk
      exact hn (List.mem_map.2 ⟨e, he, hk⟩)

theorem entrySum_eliminateZeros (l : List Entry) (i j : Int) : entrySum (eliminateZeros l) i j = entrySum l i j := by
  unfold eliminateZeros
  induction l with
  | nil => rfl
  | cons e l ih =>
    by_cases h : e.2 = 0
    · rw [List.filter_cons_of_neg (by simpa using h), ih, entrySum_cons, h]
      simp
    · rw [List.filter_cons_of_pos (by simpa using h), entrySum_cons, entrySum_cons, ih]

theorem sumDuplicates_keys (l : List Entry) : ∀ e ∈ sumDuplicates l, ∃ e' ∈ l, e'.1 = e.1 := by
  intro e he
  obtain ⟨k, hk, rfl⟩ := List.mem_map.1 he
  rw [List.mem_dedup] at hk
  obtain ⟨e', he', rfl⟩ := List.mem_map.1 hk
  exact ⟨e', he', rfl⟩

theorem csrEntries_toCsr (rstart nlocal : Nat) (l : List Entry) :
    csrEntries rstart (toCsr nlocal l) = (List.range nlocal).flatMap fun r : Nat =>
      (l.filter fun e => e.1.1 = (r : Int)).map fun e => (((rstart : Int) + r, e.1.2), e.2) := by
  unfold csrEntries toCsr
  rw [List.flatMap_def]
  congr 1
  refine List.ext_getElem (by simp) fun k h1 h2 => ?_
  simp [List.map_map, Function.comp_def]

theorem entrySum_csr (rstart nlocal : Nat) (l : List Entry) (hl : ∀ e ∈ l, 0 ≤ e.1.1 ∧ e.1.1 < nlocal) (i j : Int) :
    entrySum (csrEntries rstart (toCsr nlocal l)) i j = entrySum (l.map fun e => ((e.1.1 + rstart, e.1.2), e.2)) i j := by
  rw [csrEntries_toCsr]
  induction l with
  | nil =>
    rw [List.flatMap_eq_nil_iff.2 (by simp)]
    rfl
  | cons e l ih =>
    have ih' := ih fun e' he' => hl e' (List.mem_cons_of_mem _ he')
    obtain ⟨h1, h2⟩ := hl e (List.mem_cons_self ..)
    rw [List.map_cons, entrySum_cons, ← ih']
    have key : ∀ m : Nat, entrySum ((List.range m).flatMap fun r : Nat => ((e :: l).filter fun e => e.1.1 = (r : Int)).map fun e =>
          (((rstart : Int) + r, e.1.2), e.2)) i j
        = (if e.1.1 < m then (if (e.1.1 + rstart, e.1.2) = (i, j) then e.2 else 0) else 0) +
          entrySum ((List.range m).flatMap fun r : Nat => (l.filter fun e => e.1.1 = (r : Int)).map fun e =>
          (((rstart : Int) + r, e.1.2), e.2)) i j := by
      intro m
      induction m with
      | zero =>
        rw [if_neg (by simpa using h1)]
        simp [entrySum]
      | succ m ihm =>
        rw [List.range_succ, List.flatMap_append, List.flatMap_append, entrySum_append, entrySum_append, ihm,
          List.flatMap_singleton, List.flatMap_singleton]
        by_cases hm : e.1.1 = (m : Int)
        · have a1 : ¬e.1.1 < (m : Int) := by omega
          have a2 : e.1.1 < ((m + 1 : Nat) : Int) := by omega
          rw [List.filter_cons_of_pos (by simpa using hm), List.map_cons, entrySum_cons, if_neg a1, if_pos a2]
          have e3 : (e.1.1 + (rstart : Int), e.1.2) = ((rstart : Int) + (m : Int), e.1.2) := by rw [hm, add_comm]
          rw [e3]
          simp only []
          ring
        · rw [List.filter_cons_of_neg (by simpa using hm)]
          have : (e.1.1 < ((m + 1 : Nat) : Int)) ↔ e.1.1 < (m : Int) := by omega
          simp only [this]
          ring
    rw [key nlocal, if_pos h2]

/-- **C95 (scatter).** If the rank owns a row, `scatter_global_coo` adds exactly its triplets to the distributed matrix, duplicates being
added, whoever owns the rows. -/
theorem C95_scatter (rstart rend : Nat) (h : rstart < rend) (l : List Entry) (i j : Int) :
    ((scatterGlobalCoo rstart rend l).map fun e => if e.1 = (i, j) then e.2 else 0).sum
      = (l.map fun e => if e.1 = (i, j) then e.2 else 0).sum := by
  change entrySum _ i j = entrySum l i j
  unfold scatterGlobalCoo
  by_cases hl : l.length = 0
  · rw [if_pos hl]
    rw [List.length_eq_zero_iff] at hl
    rw [hl]
  rw [if_neg hl]
  simp only []
  rw [if_neg (by omega)]
  set own := fun e : Entry => decide ((rstart : Int) ≤ e.1.1) && decide (e.1.1 < rend) with hown
  rw [entrySum_append]
  have h1 : entrySum (if (l.any fun e => !own e) then eliminateZeros (sumDuplicates (l.filter fun e => !own e)) else []) i j
      = entrySum (l.filter fun e => !own e) i j := by
    split
    · rw [entrySum_eliminateZeros, entrySum_sumDuplicates]
    · rename_i hn
      have : (l.filter fun e => !own e) = [] := by
        rw [List.filter_eq_nil_iff]
        intro e he hc
        exact hn (List.any_eq_true.2 ⟨e, he, hc⟩)
      rw [this]
  have h2 : entrySum (if l.any own then
          csrEntries rstart (toCsr (rend - rstart) (eliminateZeros (sumDuplicates
            ((l.filter own).map fun e => ((e.1.1 - rstart, e.1.2), e.2)))))
        else []) i j = entrySum (l.filter own) i j := by
    split
    · rw [entrySum_csr]
      · have shift : ∀ m : List Entry, entrySum (m.map fun e => ((e.1.1 + rstart, e.1.2), e.2)) i j = entrySum m (i - rstart) j := by
          intro m
          rw [entrySum, entrySum, List.map_map]
          congr 1
          refine List.map_congr_left fun e _ => ?_
          rw [Function.comp_apply]
          refine if_congr ?_ rfl rfl
          rw [Prod.ext_iff, Prod.ext_iff]
          simp only []
          constructor <;> rintro ⟨a, b⟩ <;> exact ⟨by omega, b⟩
        rw [shift, entrySum_eliminateZeros, entrySum_sumDuplicates, entrySum, entrySum, List.map_map]
        congr 1
        refine List.map_congr_left fun e _ => ?_
        rw [Function.comp_apply]
        refine if_congr ?_ rfl rfl
        rw [Prod.ext_iff, Prod.ext_iff]
        simp only []
        constructor <;> rintro ⟨a, b⟩ <;> exact ⟨by omega, b⟩
      · intro e he
        have he1 : e ∈ sumDuplicates ((l.filter own).map fun e => ((e.1.1 - rstart, e.1.2), e.2)) := (List.mem_filter.1 he).1
        obtain ⟨e', he', hk⟩ := sumDuplicates_keys _ e he1
        obtain ⟨e2, he2, rfl⟩ := List.mem_map.1 he'
        have := (List.mem_filter.1 he2).2
        simp only [hown, Bool.and_eq_true, decide_eq_true_eq] at this
        rw [← hk]
        simp only []
        omega
    · rename_i hn
      have : l.filter own = [] := by
        rw [List.filter_eq_nil_iff]
        intro e he hc
        exact hn (List.any_eq_true.2 ⟨e, he, hc⟩)
      rw [this]
  rw [h1, h2, entrySum_filter]

/-- **C95 (finding).** A rank which owns no row adds nothing: the contributions of its cells are lost. -/
theorem C95_scatter_lost (rstart : Nat) (l : List Entry) : scatterGlobalCoo rstart rstart l = [] := by
  unfold scatterGlobalCoo
  split
  · rfl
  · simp

end Mpi
end JaxFem
