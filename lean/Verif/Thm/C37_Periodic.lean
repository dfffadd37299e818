import Verif.Model.Periodic
import Mathlib.Tactic.Common
import Mathlib.Data.List.Nodup

/-!
# C37: the periodic projection matrix
-/

namespace JaxFem

/-! ### Helper lemmas -/

theorem foldl_set_length (ps : List (Nat × Nat)) (m : List Int) :
    (ps.foldl (fun m p => m.set p.2 (-((p.1 : Int) + 1))) m).length = m.length := by
  induction ps generalizing m with
  | nil => rfl
  | cons p ps ih => rw [List.foldl_cons, ih, List.length_set]

theorem foldl_set_not_mem (ps : List (Nat × Nat)) (m : List Int) (i : Nat)
    (h : i ∉ ps.map Prod.snd) :
    (ps.foldl (fun m p => m.set p.2 (-((p.1 : Int) + 1))) m)[i]? = m[i]? := by
  induction ps generalizing m with
  | nil => rfl
  | cons p ps ih =>
    rw [List.map_cons, List.mem_cons, not_or] at h
    rw [List.foldl_cons, ih _ h.2, List.getElem?_set_ne (Ne.symm h.1)]

theorem foldl_set_mem (ps : List (Nat × Nat)) (m : List Int) (hn : (ps.map Prod.snd).Nodup)
    (p : Nat × Nat) (hp : p ∈ ps) (hl : p.2 < m.length) :
    (ps.foldl (fun m p => m.set p.2 (-((p.1 : Int) + 1))) m)[p.2]? = some (-((p.1 : Int) + 1)) := by
  induction ps generalizing m with
  | nil => cases hp
  | cons q ps ih =>
    rw [List.map_cons, List.nodup_cons] at hn
    rw [List.foldl_cons]
    rcases List.mem_cons.1 hp with rfl | hp
    · rw [foldl_set_not_mem _ _ _ hn.1, List.getElem?_set_self hl]
    · exact ih _ hn.2 hp (by rw [List.length_set]; exact hl)

theorem foldl_set_count (ps : List (Nat × Nat)) (m : List Int) (hn : (ps.map Prod.snd).Nodup)
    (h1 : ∀ p ∈ ps, m[p.2]? = some 1) :
    (ps.foldl (fun m p => m.set p.2 (-((p.1 : Int) + 1))) m).count 1 + ps.length = m.count 1 := by
  induction ps generalizing m with
  | nil => rfl
  | cons q ps ih =>
    rw [List.map_cons, List.nodup_cons] at hn
    have hq := h1 q (List.mem_cons_self ..)
    obtain ⟨hlt, hq1⟩ := List.getElem?_eq_some_iff.1 hq
    have hne : ¬ (-((q.1 : Int) + 1)) = 1 := by omega
    have hc : (m.set q.2 (-((q.1 : Int) + 1))).count 1 + 1 = m.count 1 := by
      have hpos : 0 < m.count 1 := List.count_pos_iff.2 (hq1 ▸ List.getElem_mem hlt)
      rw [List.count_set hlt, hq1]
      have e1 : ((1 : Int) == 1) = true := rfl
      have e2 : ((-((q.1 : Int) + 1)) == 1) = false := by simpa using hne
      rw [e1, e2]
      simp only [if_true, Bool.false_eq_true, if_false]
      omega
    rw [List.foldl_cons, List.length_cons, ← hc, ← ih (m.set q.2 _) hn.2 ?_, Nat.add_assoc]
    intro p hp
    have hpq : q.2 ≠ p.2 := fun e => hn.1 (e ▸ List.mem_map_of_mem hp)
    rw [List.getElem?_set_ne hpq]
    exact h1 p (List.mem_cons_of_mem _ hp)

theorem fillOnes_get (f : Nat → Int) (m : List Int) (j i : Nat) :
    (fillOnes f m j)[i]? =
      m[i]?.map fun x => if x = 1 then f (j + (m.take i).count 1) else x := by
  induction m generalizing j i with
  | nil => rfl
  | cons x xs ih =>
    rw [fillOnes]
    by_cases hx : x = 1
    · rw [if_pos hx]
      cases i with
      | zero => simp [hx]
      | succ i =>
        simp only [List.getElem?_cons_succ, ih, List.take_succ_cons, hx, List.count_cons_self]
        congr 1; funext y
        rw [Nat.add_assoc, Nat.add_comm 1]
    · rw [if_neg hx]
      cases i with
      | zero => simp [hx]
      | succ i =>
        simp only [List.getElem?_cons_succ, ih, List.take_succ_cons]
        rw [List.count_cons_of_ne hx]

theorem fillOnes_length (f : Nat → Int) (m : List Int) (j : Nat) : (fillOnes f m j).length = m.length := by
  induction m generalizing j with
  | nil => rfl
  | cons x xs ih => rw [fillOnes]; split <;> simp [ih]

theorem count_take_lt (m : List Int) (i : Nat) (h : m[i]? = some 1) : (m.take i).count 1 < m.count 1 := by
  obtain ⟨hl, h1⟩ := List.getElem?_eq_some_iff.1 h
  conv_rhs => rw [← List.take_append_drop i m, List.count_append]
  rw [List.drop_eq_getElem_cons hl, h1, List.count_cons_self]
  omega

theorem count_take_strict (m : List Int) (i i' : Nat) (h : m[i]? = some 1) (hi : i < i') :
    (m.take i).count 1 < (m.take i').count 1 := by
  have := count_take_lt (m.take i') i (by rw [List.getElem?_take_of_lt hi]; exact h)
  rwa [List.take_take, Nat.min_eq_left (by omega)] at this

theorem count_take_surj (m : List Int) (c : Nat) (h : c < m.count 1) :
    ∃ i : Nat, m[i]? = some 1 ∧ (m.take i).count 1 = c := by
  induction m generalizing c with
  | nil => exact absurd h (by simp)
  | cons x xs ih =>
    by_cases hx : x = 1
    · subst hx
      rw [List.count_cons_self] at h
      cases c with
      | zero => exact ⟨0, rfl, rfl⟩
      | succ c =>
        obtain ⟨i, h1, h2⟩ := ih c (by omega)
        exact ⟨i + 1, h1, by rw [List.take_succ_cons, List.count_cons_self, h2]⟩
    · rw [List.count_cons_of_ne hx] at h
      obtain ⟨i, h1, h2⟩ := ih c h
      exact ⟨i + 1, h1, by rw [List.take_succ_cons, List.count_cons_of_ne hx, h2]⟩

theorem mapM_ok_of_forall {α β : Type} (f : α → Except Err β) (g : α → β) (l : List α)
    (h : ∀ a ∈ l, f a = .ok (g a)) : l.mapM f = .ok (l.map g) := by
  induction l with
  | nil => rfl
  | cons a l ih =>
    rw [List.mapM_cons, h a (List.mem_cons_self ..), ih fun b hb => h b (List.mem_cons_of_mem _ hb)]
    rfl

/-! ### Property theorems -/

/-- **C37 (pairing).** If the pairing of one condition succeeds, the masters are exactly the selected
nodes, and the `k`-th slave is the one and only candidate near the image of the `k`-th master. -/
theorem C37_pairing (n : Nat) (locA locB : Nat → Bool) (near : Nat → Nat → Bool) (A B : List Nat)
    (h : pairNodes n locA locB near = .ok (A, B)) :
    A.length = B.length ∧ A.Nodup ∧ (∀ a, a ∈ A ↔ a < n ∧ locA a = true) ∧
    ∀ (k a b : Nat), A[k]? = some a → B[k]? = some b →
      ∀ b' : Nat, (b' < n ∧ locB b' = true ∧ near a b' = true) ↔ b' = b := by
  unfold pairNodes at h
  extract_lets nA nB ord flat at h
  split at h
  · rename_i hall
    split at h
    · rename_i hlen
      obtain ⟨rfl, rfl⟩ := Prod.mk.inj (Except.ok.inj h)
      refine ⟨hlen, List.nodup_range.filter _, fun a => by simp [nA], ?_⟩
      rw [List.all_eq_true] at hall
      -- all groups have the same length `L`, and `#A * L = #A`
      generalize hL : (ord.headD []).length = L at hall
      have hall' : ∀ l ∈ ord, l.length = L := fun l hl => by simpa using hall l hl
      have hflat : flat.length = nA.length * L := by
        have : ∀ (o : List (List Nat)), (∀ l ∈ o, l.length = L) → o.flatten.length = o.length * L := by
          intro o ho
          induction o with
          | nil => simp
          | cons x xs ih =>
            rw [List.flatten_cons, List.length_append, ho x (List.mem_cons_self ..),
              ih fun l hl => ho l (List.mem_cons_of_mem _ hl), List.length_cons, Nat.succ_mul, Nat.add_comm]
        rw [show flat = ord.flatten from rfl, this ord hall', show ord.length = nA.length from List.length_map ..]
      intro k a b ha hb b'
      have hk : k < nA.length := (List.getElem?_eq_some_iff.1 ha).1
      have hL1 : L = 1 := by
        rw [hflat] at hlen
        exact Nat.eq_of_mul_eq_mul_left (Nat.zero_lt_of_lt hk) (by omega)
      subst hL1
      have hb1 : ∀ (o : List (List Nat)), (∀ l ∈ o, l.length = 1) → ∀ k : Nat,
          (o.flatten)[k]? = o[k]?.bind List.head? := by
        intro o ho
        induction o with
        | nil => intro k; simp
        | cons x xs ih =>
          intro k
          obtain ⟨y, rfl⟩ := List.length_eq_one_iff.1 (ho x (List.mem_cons_self ..))
          cases k with
          | zero => simp
          | succ k => simpa using ih (fun l hl => ho l (List.mem_cons_of_mem _ hl)) k
      rw [show flat = ord.flatten from rfl, hb1 ord hall' k,
        show ord[k]? = nA[k]?.map (fun a => nB.filter (near a)) from List.getElem?_map .., ha] at hb
      have hl1 : (nB.filter (near a)).length = 1 := by
        refine hall' _ (List.mem_map.2 ⟨a, ?_, rfl⟩)
        obtain ⟨h1, h2⟩ := List.getElem?_eq_some_iff.1 ha
        exact h2 ▸ List.getElem_mem h1
      obtain ⟨y, hy⟩ := List.length_eq_one_iff.1 hl1
      have hmem : b' ∈ nB.filter (near a) ↔ b' < n ∧ locB b' = true ∧ near a b' = true := by
        simp [nB, and_comm, and_left_comm]
      rw [Option.map_some, Option.bind_some, hy, List.head?_cons] at hb
      rw [← hmem, hy, List.mem_singleton, Option.some.inj hb]
    · cases h
  · cases h

/-- **C37 (matrix).** If every index is in range, no slave is listed twice and no master is a slave,
the matrix is built; it has `N` rows and `N - #slaves` columns, one 1 per row; a slave's row equals
its master's; rows of different independent degrees of freedom have different columns, and every
column is used by an independent degree of freedom. -/
theorem C37_matrix (N : Nat) (A B : List Nat) (hlen : A.length = B.length) (hA : ∀ a ∈ A, a < N)
    (hB : ∀ b ∈ B, b < N) (hnd : B.Nodup) (hdis : ∀ a ∈ A, a ∉ B) :
    ∃ cols : List Nat, periodicMatrix N A B = .ok (cols, N, N - B.length) ∧ B.length ≤ N ∧
      cols.length = N ∧ (∀ c ∈ cols, c < N - B.length) ∧
      (∀ (k a b : Nat), A[k]? = some a → B[k]? = some b → cols[b]? = cols[a]?) ∧
      (∀ i i' : Nat, i < N → i' < N → i ∉ B → i' ∉ B → cols[i]? = cols[i']? → i = i') ∧
      (∀ c, c < N - B.length → ∃ i, i < N ∧ i ∉ B ∧ cols[i]? = some c) := by
  have hsnd : (A.zip B).map Prod.snd = B := by
    rw [List.map_snd_zip]; omega
  set m1 : List Int := (A.zip B).foldl (fun m p => m.set p.2 (-((p.1 : Int) + 1))) (List.replicate N 1)
    with hm1
  have hm1len : m1.length = N := by rw [hm1, foldl_set_length, List.length_replicate]
  have hfree : ∀ i : Nat, i < N → i ∉ B → m1[i]? = some 1 := by
    intro i hi hiB
    rw [hm1, foldl_set_not_mem _ _ _ (by rw [hsnd]; exact hiB), List.getElem?_replicate_of_lt hi]
  have hslave : ∀ (k a b : Nat), A[k]? = some a → B[k]? = some b → m1[b]? = some (-((a : Int) + 1)) := by
    intro k a b ha hb
    have hmem : (a, b) ∈ A.zip B := by
      refine List.mem_of_getElem? (i := k) ?_
      rw [List.getElem?_zip_eq_some]
      exact ⟨ha, hb⟩
    have hbN := hB b (List.mem_of_getElem? hb)
    exact foldl_set_mem _ _ (by rw [hsnd]; exact hnd) (a, b) hmem (by rw [List.length_replicate]; exact hbN)
  have hcount : m1.count 1 + B.length = N := by
    have := foldl_set_count (A.zip B) (List.replicate N 1) (by rw [hsnd]; exact hnd) (by
      intro p hp
      have : p.2 ∈ B := hsnd ▸ List.mem_map_of_mem hp
      rw [List.getElem?_replicate_of_lt (hB _ this)])
    rw [List.length_zip, hlen, Nat.min_self, List.count_replicate_self] at this
    exact this
  have hone : ∀ i : Nat, m1[i]? = some 1 → i < N ∧ i ∉ B := by
    intro i hi
    refine ⟨hm1len ▸ (List.getElem?_eq_some_iff.1 hi).1, fun hiB => ?_⟩
    obtain ⟨k, hk, hkb⟩ := List.getElem_of_mem hiB
    have := hslave k (A[k]'(by omega)) i (List.getElem?_eq_getElem _)
      (by rw [List.getElem?_eq_getElem hk, hkb])
    rw [hi] at this
    have := Option.some.inj this
    omega
  have hcase : ∀ i, i < N → i ∉ B ∨ ∃ k a : Nat, A[k]? = some a ∧ B[k]? = some i := by
    intro i _
    by_cases hiB : i ∈ B
    · obtain ⟨k, hk, hkb⟩ := List.getElem_of_mem hiB
      exact Or.inr ⟨k, A[k]'(by omega), List.getElem?_eq_getElem _,
        by rw [List.getElem?_eq_getElem hk, hkb]⟩
    · exact Or.inl hiB
  have hle : B.length ≤ N := by omega
  have hM : ((N : Int) - B.length).toNat = N - B.length := by omega
  have hmap : reducedIndsMap N A B = .ok (fillOnes (fun j => j) m1 0) := by
    unfold reducedIndsMap
    rw [if_pos (List.all_eq_true.2 fun b hb => decide_eq_true (hB b hb))]
    extract_lets map0 map1 count M size
    have : count = size := by
      show m1.count 1 = ((N : Int) - B.length).toNat
      omega
    rw [if_pos this]
  -- the columns
  set rep : Nat → Nat := fun i => match m1[i]? with
    | some r => if r < 0 then (-r - 1).toNat else i
    | none => i with hrep
  set col : Nat → Nat := fun i => (m1.take (rep i)).count 1 with hcol
  have hrepfree : ∀ i, i < N → i ∉ B → rep i = i := by
    intro i hi hiB
    rw [hrep]; dsimp only
    rw [hfree i hi hiB]; rfl
  have hrepslave : ∀ (k a b : Nat), A[k]? = some a → B[k]? = some b → rep b = a := by
    intro k a b ha hb
    rw [hrep]; dsimp only
    rw [hslave k a b ha hb]
    have : (-((a : Int) + 1)) < 0 := by omega
    dsimp only
    rw [if_pos this]
    omega
  have hfreeM : ∀ a ∈ A, m1[a]? = some 1 := fun a ha => hfree a (hA a ha) (hdis a ha)
  have hrep1 : ∀ i, i < N → m1[rep i]? = some 1 := by
    intro i hi
    rcases hcase i hi with h | ⟨k, a, ha, hb⟩
    · rw [hrepfree i hi h]; exact hfree i hi h
    · rw [hrepslave k a i ha hb]; exact hfreeM a (List.mem_of_getElem? ha)
  have hcollt : ∀ i, i < N → col i < N - B.length := by
    intro i hi
    have := count_take_lt m1 (rep i) (hrep1 i hi)
    rw [hcol]; dsimp only
    omega
  have hcolumn : ∀ i ∈ List.range N, columnOf (fillOnes (fun j => j) m1 0) i = .ok (col i : Int) := by
    intro i hi
    rw [List.mem_range] at hi
    rcases hcase i hi with h | ⟨k, a, ha, hb⟩
    · rw [columnOf, fillOnes_get, hfree i hi h]
      simp [hcol, hrepfree i hi h]
    · have ham := List.mem_of_getElem? ha
      rw [columnOf, fillOnes_get, hslave k a i ha hb]
      have hne : ¬ (-((a : Int) + 1)) = 1 := by omega
      have hneg : (-((a : Int) + 1)) < 0 := by omega
      have hto : (-(-((a : Int) + 1)) - 1).toNat = a := by omega
      rw [Option.map_some, if_neg hne]
      dsimp only
      rw [if_pos hneg, hto, fillOnes_get, hfreeM a ham]
      simp [hcol, hrepslave k a i ha hb]
  have hcols : ((List.range N).map fun i => (col i : Int)).map Int.toNat = (List.range N).map col := by
    rw [List.map_map]
    exact List.map_congr_left fun i _ => rfl
  have hget : ∀ i, i < N → ((List.range N).map col)[i]? = some (col i) := by
    intro i hi
    rw [List.getElem?_map, List.getElem?_range hi]; rfl
  refine ⟨(List.range N).map col, ?_, hle, by simp, ?_, ?_, ?_, ?_⟩
  · rw [periodicMatrix, hmap]
    show (do
      let cols ← (List.range N).mapM (columnOf (fillOnes (fun j => (j : Int)) m1 0))
      _ : Except Err _) = _
    rw [mapM_ok_of_forall _ _ _ hcolumn]
    have hok : 0 ≤ (N : Int) - B.length ∧
        ∀ c ∈ (List.range N).map (fun i => (col i : Int)), 0 ≤ c ∧ c < (N : Int) - B.length := by
      refine ⟨by omega, fun c hc => ?_⟩
      obtain ⟨i, hi, rfl⟩ := List.mem_map.1 hc
      have := hcollt i (List.mem_range.1 hi)
      exact ⟨Int.natCast_nonneg _, by omega⟩
    refine (if_pos hok).trans ?_
    rw [hcols, hM]
  · intro c hc
    obtain ⟨i, hi, rfl⟩ := List.mem_map.1 hc
    exact hcollt i (List.mem_range.1 hi)
  · intro k a b ha hb
    have ham := List.mem_of_getElem? ha
    rw [hget b (hB b (List.mem_of_getElem? hb)), hget a (hA a ham)]
    rw [hcol]; dsimp only
    rw [hrepslave k a b ha hb, hrepfree a (hA a ham) (hdis a ham)]
  · intro i i' hi hi' hiB hiB' hc
    rw [hget i hi, hget i' hi'] at hc
    have hc := Option.some.inj hc
    rw [hcol] at hc
    dsimp only at hc
    rw [hrepfree i hi hiB, hrepfree i' hi' hiB'] at hc
    rcases Nat.lt_trichotomy i i' with h | h | h
    · have := count_take_strict m1 i i' (hfree i hi hiB) h
      omega
    · exact h
    · have := count_take_strict m1 i' i (hfree i' hi' hiB') h
      omega
  · intro c hc
    obtain ⟨i, h1, h2⟩ := count_take_surj m1 c (by omega)
    obtain ⟨hi, hiB⟩ := hone i h1
    refine ⟨i, hi, hiB, ?_⟩
    rw [hget i hi, hcol]
    dsimp only
    rw [hrepfree i hi hiB, h2]

/-- **C37 (index lists).** Whenever the pairing of all conditions succeeds (with components below
`vec`), the two index lists have the same length and are in range. -/
theorem C37_inds (n vec : Nat) (conds : List PeriodicCond) (hc : ∀ c ∈ conds, c.comp < vec)
    (A B : List Nat) (h : periodicInds n vec conds = .ok (A, B)) :
    A.length = B.length ∧ (∀ a ∈ A, a < n * vec) ∧ ∀ b ∈ B, b < n * vec := by
  have hidx : ∀ m c : Nat, m < n → c < vec → m * vec + c < n * vec := by
    intro m c hm hcv
    calc m * vec + c < m * vec + vec := by omega
      _ = (m + 1) * vec := by rw [Nat.succ_mul]
      _ ≤ n * vec := Nat.mul_le_mul_right _ hm
  rw [periodicInds] at h
  rcases hp : conds.mapM (fun c => pairNodes n c.locA c.locB c.near) with e | pairs
  · rw [hp] at h; cases h
  rw [hp] at h
  change (if conds.isEmpty then Except.error Err.value else Except.ok _) = _ at h
  split at h
  · cases h
  · obtain ⟨rfl, rfl⟩ := Prod.mk.inj (Except.ok.inj h)
    clear h
    rename_i hemp
    clear hemp
    induction conds generalizing pairs with
    | nil => cases hp; simp
    | cons c cs ih =>
      rw [List.mapM_cons] at hp
      rcases h1 : pairNodes n c.locA c.locB c.near with e | ⟨A1, B1⟩
      · rw [h1] at hp; cases hp
      rw [h1] at hp
      rcases h2 : cs.mapM (fun c => pairNodes n c.locA c.locB c.near) with e | ps
      · rw [h2] at hp; cases hp
      rw [h2] at hp
      cases hp
      obtain ⟨i1, i2, i3⟩ := ih (fun c hcs => hc c (List.mem_cons_of_mem _ hcs)) ps h2
      obtain ⟨p1, -, p3, p4⟩ := C37_pairing n _ _ _ A1 B1 h1
      have hcv := hc c (List.mem_cons_self ..)
      simp only [List.zip_cons_cons, List.map_cons, List.flatten_cons]
      refine ⟨by rw [List.length_append, List.length_append, List.length_map, List.length_map, p1, i1],
        ?_, ?_⟩
      · intro a ha
        rcases List.mem_append.1 ha with ha | ha
        · obtain ⟨m, hm, rfl⟩ := List.mem_map.1 ha
          exact hidx m _ ((p3 m).1 hm).1 hcv
        · exact i2 a ha
      · intro b hb
        rcases List.mem_append.1 hb with hb | hb
        · obtain ⟨m, hm, rfl⟩ := List.mem_map.1 hb
          obtain ⟨k, hk, rfl⟩ := List.getElem_of_mem hm
          have := (p4 k (A1[k]'(by omega)) (B1[k]) (List.getElem?_eq_getElem _)
            (List.getElem?_eq_getElem _) (B1[k])).2 rfl
          exact hidx _ _ this.1 hcv
        · exact i3 b hb

/-- **C37 (whole function).** Every successful pairing without repeated slaves and without masters that
are slaves yields a matrix of shape `(num_nodes·vec, num_nodes·vec - #slaves)` in which each slave has
its master's row. -/
theorem C37_run (n vec : Nat) (conds : List PeriodicCond) (hc : ∀ c ∈ conds, c.comp < vec)
    (A B : List Nat) (h : periodicInds n vec conds = .ok (A, B)) (hnd : B.Nodup)
    (hdis : ∀ a ∈ A, a ∉ B) :
    ∃ cols : List Nat, periodicBoundaryConditions n vec conds = .ok (cols, n * vec, n * vec - B.length) ∧
      cols.length = n * vec ∧ (∀ c ∈ cols, c < n * vec - B.length) ∧
      ∀ (k a b : Nat), A[k]? = some a → B[k]? = some b → ∀ j, pEntry cols b j = pEntry cols a j := by
  obtain ⟨h1, h2, h3⟩ := C37_inds n vec conds hc A B h
  obtain ⟨cols, e, -, e1, e2, e3, -⟩ := C37_matrix _ A B h1 h2 h3 hnd hdis
  refine ⟨cols, ?_, e1, e2, fun k a b ha hb j => by rw [pEntry, pEntry, e3 k a b ha hb]⟩
  rw [periodicBoundaryConditions, h]
  exact e

/-- **C37 (one 1 per row).** For every column list: row `i` of the sparse matrix has exactly one
nonzero entry, which is 1. -/
theorem C37_row (cols : List Nat) (i : Nat) (hi : i < cols.length) :
    ∃! j, pEntry cols i j ≠ 0 ∧ pEntry cols i j = 1 := by
  refine ⟨cols[i], ?_, ?_⟩
  · simp [pEntry, List.getElem?_eq_getElem hi]
  · rintro j ⟨h, -⟩
    by_contra hne
    apply h
    rw [pEntry, if_neg]
    rw [List.getElem?_eq_getElem hi]
    exact fun e => hne (Option.some.inj e).symm

/-- **C37 (chained masters).** The disjointness condition is necessary: a chain `0 → 1 → 2` raises. -/
theorem C37_chain : periodicMatrix 3 [0, 1] [1, 2] = .error .value := by decide +kernel

/-- **C37 (repeated slave).** The other condition is necessary: a slave listed twice raises, except
that with one column left all degrees of freedom are silently identified. -/
theorem C37_repeated : periodicMatrix 4 [0, 1] [3, 3] = .error .value ∧
    periodicMatrix 3 [0, 1] [2, 2] = .ok ([0, 0, 0], 3, 1) := by decide +kernel

/-- A case meeting the hypotheses of `C37_matrix`: nodes 0, 1 are masters of 4, 3. -/
example : periodicMatrix 5 [0, 1] [4, 3] = .ok ([0, 1, 2, 1, 0], 5, 3) := by decide +kernel

/-- A whole run: three nodes in a row, the last is the image of the first, two components. -/
example : periodicBoundaryConditions 3 2
    [⟨fun n => n == 0, fun n => n == 2, fun a b => b == a + 2, 0⟩,
     ⟨fun n => n == 0, fun n => n == 2, fun a b => b == a + 2, 1⟩] =
    .ok ([0, 1, 2, 3, 0, 1], 6, 4) := by decide +kernel

/-- Errors: a master without image, a master with two images. -/
example : periodicBoundaryConditions 3 1 [⟨fun n => n == 0, fun n => n == 2, fun _ _ => false, 0⟩] =
      .error .assertion ∧
    periodicBoundaryConditions 3 1 [⟨fun n => n ≤ 1, fun n => n == 2, fun a _ => a == 0, 0⟩] =
      .error .value := by decide +kernel

end JaxFem
