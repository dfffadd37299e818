import Verif.Spec.Cache
import Verif.Thm.C17_Tangent

/-!
# C23: the cached tangent
-/

namespace JaxFem

universe u
variable {K : Type u}

/-! ### Helper lemmas -/

theorem entryOf_cons_zero {a : List (Nat × Nat)} {g} {p : Nat × Nat} : EntryOf (a :: g) 0 p ↔ p ∈ a := by
  constructor
  · rintro ⟨es, h, hp⟩; cases h; exact hp
  · intro h; exact ⟨a, rfl, h⟩

theorem entryOf_cons_succ {a : List (Nat × Nat)} {g} {i : Nat} {p : Nat × Nat} :
    EntryOf (a :: g) (i + 1) p ↔ EntryOf g i p := by
  simp [EntryOf]

theorem mem_flatten_entryOf {g : List (List (Nat × Nat))} {p : Nat × Nat} (h : p ∈ g.flatten) :
    ∃ i, EntryOf g i p := by
  obtain ⟨es, h1, h2⟩ := List.mem_flatten.1 h
  obtain ⟨i, hi⟩ := List.getElem?_of_mem h1
  exact ⟨i, es, hi, h2⟩

theorem entryOf_mem_flatten {g : List (List (Nat × Nat))} {i : Nat} {p : Nat × Nat}
    (h : EntryOf g i p) : p ∈ g.flatten := by
  obtain ⟨es, h1, h2⟩ := h
  exact List.mem_flatten.2 ⟨es, List.mem_of_getElem? h1, h2⟩

/-- Lists with the same concatenation and no element in blocks of different number are equal. -/
theorem regroup (g b : List (List (Nat × Nat))) (hl : g.length = b.length)
    (hf : g.flatten = b.flatten) (hd : ∀ i j p, EntryOf b i p → EntryOf g j p → i = j) : g = b := by
  induction g generalizing b with
  | nil =>
    cases b with
    | nil => rfl
    | cons _ _ => simp at hl
  | cons x g ih =>
    cases b with
    | nil => simp at hl
    | cons y b =>
      simp only [List.flatten_cons] at hf
      have hxy : x = y := by
        rcases List.append_eq_append_iff.1 hf with ⟨z, h1, h2⟩ | ⟨z, h1, h2⟩
        · cases z with
          | nil => simpa using h1.symm
          | cons p z =>
            have hp : p ∈ g.flatten := by rw [h2]; simp
            obtain ⟨i, hi⟩ := mem_flatten_entryOf hp
            have := hd 0 (i + 1) p (entryOf_cons_zero.2 (by rw [h1]; simp)) (entryOf_cons_succ.2 hi)
            omega
        · cases z with
          | nil => simpa using h1
          | cons p z =>
            have hp : p ∈ b.flatten := by rw [h2]; simp
            obtain ⟨i, hi⟩ := mem_flatten_entryOf hp
            have := hd (i + 1) 0 p (entryOf_cons_succ.2 hi) (entryOf_cons_zero.2 (by rw [h1]; simp))
            omega
      subst hxy
      rw [ih b (by simpa using hl) (by simpa using hf)]
      intro i j p h1 h2
      have := hd (i + 1) (j + 1) p (entryOf_cons_succ.2 h1) (entryOf_cons_succ.2 h2)
      omega

theorem sources_eq (a b : List (Nat × Nat)) (h : (a.length == b.length &&
    (a.zip b).all fun p => p.1.1 == p.2.1 && p.1.2 == p.2.2) = true) : a = b := by
  induction a generalizing b with
  | nil => cases b with
    | nil => rfl
    | cons _ _ => simp at h
  | cons x a ih => cases b with
    | nil => simp at h
    | cons y b =>
      simp only [List.length_cons, List.zip_cons_cons, List.all_cons, Bool.and_eq_true, beq_iff_eq]
        at h
      obtain ⟨h1, ⟨h2, h3⟩, h4⟩ := h
      rw [Prod.ext h2 h3, ih b]
      simp only [Bool.and_eq_true, beq_iff_eq]
      exact ⟨by omega, h4⟩

theorem sources_refl (a : List (Nat × Nat)) : (a.length == a.length &&
    (a.zip a).all fun p => p.1.1 == p.2.1 && p.1.2 == p.2.2) = true := by
  induction a with
  | nil => rfl
  | cons x a ih =>
    simp only [List.zip_cons_cons, List.all_cons, Bool.and_eq_true, beq_iff_eq] at ih ⊢
    simp [ih.2]

/-- The cached rows belong to `origin` and the current heap. -/
def CacheInv (fes : List FE) (s : CacheState K) (c : TangentCache) : Prop :=
  c.sources = c.origin.flatten ∧ c.rows = currentRows fes s.heap c.origin ∧
  c.origin.length = s.bcs.length ∧ ∀ i j p, EntryOf s.bcs i p → EntryOf c.origin j p → i = j

theorem currentRows_congr (fes : List FE) (h h' : Nat → List Nat) (bcs : List (List (Nat × Nat)))
    (hh : ∀ p ∈ bcs.flatten, h p.1 = h' p.1 ∧ h p.2 = h' p.2) :
    currentRows fes h bcs = currentRows fes h' bcs := by
  rw [currentRows, currentRows]
  congr 1
  refine List.map_congr_left fun es hes => List.map_congr_left fun p hp => ?_
  obtain ⟨h1, h2⟩ := hh p (List.mem_flatten.2 ⟨es, hes, hp⟩)
  rw [h1, h2]

theorem refresh_inv (fes : List FE) (s : CacheState K) (c : TangentCache) (hc : CacheInv fes s c)
    (hs : ∀ i j p, EntryOf s.bcs i p → EntryOf s.bcs j p → i = j) :
    CacheInv fes s (refreshRows fes s c) ∧
      (refreshRows fes s c).rows = currentRows fes s.heap s.bcs := by
  rw [refreshRows]
  split
  · rename_i h
    have e := sources_eq _ _ h
    refine ⟨hc, ?_⟩
    rw [hc.2.1, regroup c.origin s.bcs hc.2.2.1 (hc.1 ▸ e.symm) hc.2.2.2]
  · exact ⟨⟨rfl, rfl, rfl, hs⟩, rfl⟩

theorem empty_inv (fes : List FE) (s : CacheState K) :
    CacheInv fes s { rows := [], sources := [], origin := s.bcs.map fun _ => [] } := by
  refine ⟨?_, ?_, by simp, ?_⟩
  · symm
    rw [List.flatten_eq_nil_iff]
    intro l hl
    obtain ⟨_, _, rfl⟩ := List.mem_map.1 hl
    rfl
  · symm
    rw [currentRows, bcRowLists, List.flatMap_eq_nil_iff]
    intro i _
    rw [List.map_eq_nil_iff, List.map_map]
    by_cases hi : i < s.bcs.length
    · rw [List.getD_eq_getElem _ _ (by simpa using hi)]; simp
    · rw [List.getD_eq_default _ _ (by simpa using hi)]
  · rintro i j p - ⟨es, h1, h2⟩
    rw [List.getElem?_map] at h1
    cases h : s.bcs[j]? with
    | none => rw [h] at h1; cases h1
    | some x => rw [h] at h1; cases h1; cases h2

theorem getA_inv [Zero K] [One K] [Add K] (N : Nat) (fes : List FE) (bs : List BoundaryInds)
    (s : CacheState K) (hc : ∀ c, s.cache = some c → CacheInv fes s c)
    (hs : ∀ i j p, EntryOf s.bcs i p → EntryOf s.bcs j p → i = j) :
    (∃ c, (getA N fes bs s).2 = { s with cache := some c } ∧ CacheInv fes s c) ∧
    (getA N fes bs s).1 = (currentRows fes s.heap s.bcs).foldl zeroRows
      (Matrix.of fun r k => cooEntry (cooI fes bs) (cooJ fes bs) s.V r k) := by
  rw [getA]
  dsimp only
  cases h : s.cache with
  | none =>
    have h1 := refresh_inv fes s _ (empty_inv fes s) hs
    have h2 := refresh_inv fes s _ h1.1 hs
    exact ⟨⟨_, rfl, h2.1⟩, by dsimp only; rw [newCache, h2.2]⟩
  | some c =>
    have h1 := refresh_inv fes s c (hc c h) hs
    exact ⟨⟨_, rfl, h1.1⟩, by dsimp only; rw [h1.2]⟩

theorem history_inv [Zero K] [One K] [Add K] (N : Nat) (fes : List FE) (bs : List BoundaryInds)
    (s : CacheState K) (h : CacheHistory N fes bs s) :
    (∀ c, s.cache = some c → CacheInv fes s c) ∧
    ∀ i j p, EntryOf s.bcs i p → EntryOf s.bcs j p → i = j := by
  induction h with
  | new s h0 hs => exact ⟨fun c hc => (by rw [h0] at hc; cases hc), hs⟩
  | step s t _ hstep hs ih =>
    refine ⟨?_, hs⟩
    obtain ⟨i1, i2⟩ := ih
    cases hstep with
    | replace heap bcs h1 h2 h3 h4 =>
      intro c hc
      have hc : s.cache = some c := hc
      obtain ⟨a, b, d, e⟩ := i1 c hc
      refine ⟨a, ?_, d.trans h1.symm, h4 c hc⟩
      rw [b]
      refine currentRows_congr _ _ _ _ fun p hp => ?_
      constructor
      · exact (h2 p.1 (Or.inr ⟨c, hc, p, a ▸ hp, Or.inl rfl⟩)).symm
      · exact (h2 p.2 (Or.inr ⟨c, hc, p, a ▸ hp, Or.inr rfl⟩)).symm
    | values V => exact i1
    | use =>
      intro c hc
      obtain ⟨⟨c', h1, h2⟩, -⟩ := getA_inv N fes bs s i1 i2
      rw [h1] at hc ⊢
      cases hc
      exact h2

theorem foldl_zeroRows_apply [Zero K] [One K] {N : Nat} (L : List (List Nat))
    (A : Matrix (Fin N) (Fin N) K) (r c : Fin N) :
    L.foldl zeroRows A r c = if (∃ rows ∈ L, (r : Nat) ∈ rows) then
      (if r = c then 1 else 0) else A r c := by
  induction L generalizing A with
  | nil => simp
  | cons rows L ih =>
    rw [List.foldl_cons, ih]
    by_cases h1 : ∃ rows ∈ L, (r : Nat) ∈ rows
    · obtain ⟨rows', h2, h3⟩ := h1
      have a1 : ∃ rows ∈ L, (r : Nat) ∈ rows := ⟨rows', h2, h3⟩
      have a2 : ∃ rows' ∈ rows :: L, (r : Nat) ∈ rows' := ⟨rows', by simp [h2], h3⟩
      rw [if_pos a1, if_pos a2]
    · rw [if_neg h1]
      simp only [zeroRows, Matrix.of_apply]
      by_cases h2 : (r : Nat) ∈ rows
      · have a2 : ∃ rows' ∈ rows :: L, (r : Nat) ∈ rows' := ⟨rows, by simp, h2⟩
        rw [if_pos h2, if_pos a2]
      · rw [if_neg h2, if_neg]
        rintro ⟨rows', h3, h4⟩
        rcases List.mem_cons.1 h3 with rfl | h3
        · exact h2 h4
        · exact h1 ⟨rows', h3, h4⟩

theorem mem_currentRows (fes : List FE) (heap : Nat → List Nat) (bcs : List (List (Nat × Nat)))
    (r : Nat) : (∃ rows ∈ currentRows fes heap bcs, r ∈ rows) ↔
      ∃ i p, EntryOf bcs i p ∧ i < fes.length ∧ ∃ k n v : Nat, (heap p.1)[k]? = some n ∧
        (heap p.2)[k]? = some v ∧ r = dofNum fes i n v := by
  constructor
  · rintro ⟨rows, hr, hk⟩
    simp only [currentRows, bcRowLists, List.mem_flatMap, List.mem_range, List.mem_map] at hr
    obtain ⟨i, hi, e, he, rfl⟩ := hr
    obtain ⟨q, hq, rfl⟩ := List.mem_map.1 hk
    have hib : i < bcs.length := by
      by_contra hc
      rw [List.getD_eq_default _ _ (by simpa using hc)] at he
      cases he
    rw [List.getD_eq_getElem _ _ (by simpa using hib)] at he
    simp only [List.getElem_map, List.mem_map] at he
    obtain ⟨p, hp, rfl⟩ := he
    obtain ⟨k, hk1⟩ := List.getElem?_of_mem hq
    rw [List.getElem?_zip_eq_some] at hk1
    refine ⟨i, p, ⟨bcs[i], List.getElem?_eq_getElem hib, hp⟩, hi, k, q.1, q.2, hk1.1, hk1.2, ?_⟩
    have := (C01_row_number fes i q.1 q.2 hi).1
    rw [bcRow] at this
    exact this
  · rintro ⟨i, p, ⟨es, h1, h2⟩, hi, k, n, v, h3, h4, rfl⟩
    refine ⟨((heap p.1).zip (heap p.2)).map fun q =>
      q.1 * ((fes.map FE.vec).getD i 0) + q.2 + (offsets fes).getD i 0, ?_, ?_⟩
    · simp only [currentRows, bcRowLists, List.mem_flatMap, List.mem_range, List.mem_map]
      have hib := (List.getElem?_eq_some_iff.1 h1).1
      refine ⟨i, hi, ⟨heap p.1, heap p.2, []⟩, ?_, rfl⟩
      rw [List.getD_eq_getElem _ _ (by simpa using hib)]
      simp only [List.getElem_map, List.mem_map]
      refine ⟨p, ?_, rfl⟩
      rw [(List.getElem?_eq_some_iff.1 h1).2]; exact h2
    · rw [List.mem_map]
      refine ⟨(n, v), ?_, ?_⟩
      · exact List.mem_of_getElem? (i := k) (by rw [List.getElem?_zip_eq_some]; exact ⟨h3, h4⟩)
      · have := (C01_row_number fes i n v hi).1
        rw [bcRow] at this
        exact this

theorem entryOf_set {g : List (List (Nat × Nat))} {i j : Nat} {es : List (Nat × Nat)} {p : Nat × Nat}
    (h : EntryOf (g.set i es) j p) : j = i ∧ p ∈ es ∨ j ≠ i ∧ EntryOf g j p := by
  obtain ⟨x, h1, h2⟩ := h
  by_cases hij : j = i
  · subst hij
    rw [List.getElem?_set] at h1
    split at h1
    · split at h1
      · cases h1; exact Or.inl ⟨rfl, h2⟩
      · cases h1
    · rename_i hc; exact absurd rfl hc
  · rw [List.getElem?_set_ne (Ne.symm hij)] at h1
    exact Or.inr ⟨hij, x, h1, h2⟩

/-- Histories of library updates are histories in the sense of `C23_never_stale`. -/
theorem api_history [Zero K] [One K] [Add K] (N : Nat) (fes : List FE) (bs : List BoundaryInds)
    (s : CacheState K) (h : ApiHistory N fes bs s) : CacheHistory N fes bs s := by
  induction h with
  | new s h0 hs => exact .new s h0 hs
  | step s t _ hstep ih =>
    obtain ⟨i1, i2⟩ := history_inv N fes bs s ih
    cases hstep with
    | update i es heap h1 h2 =>
      refine .step _ _ ih (.replace s heap (s.bcs.set i es) (by simp) h1 ?_ ?_) ?_
      · intro a b p ha hb
        rcases entryOf_set ha with ⟨-, hp⟩ | ⟨-, ha⟩
        · exact absurd (Or.inl ⟨b, p, hb, Or.inl rfl⟩) (h2 p hp).1
        · exact i2 a b p ha hb
      · intro c hc a b p ha hb
        obtain ⟨j1, j2, j3, j4⟩ := i1 c hc
        rcases entryOf_set ha with ⟨-, hp⟩ | ⟨-, ha⟩
        · exact absurd (Or.inr ⟨c, hc, p, j1 ▸ entryOf_mem_flatten hb, Or.inl rfl⟩) (h2 p hp).1
        · exact j4 a b p ha hb
      · intro a b p ha hb
        rcases entryOf_set ha with ⟨e1, hp⟩ | ⟨-, ha⟩
        · rcases entryOf_set hb with ⟨e2, -⟩ | ⟨-, hb⟩
          · rw [e1, e2]
          · exact absurd (Or.inl ⟨b, p, hb, Or.inl rfl⟩) (h2 p hp).1
        · rcases entryOf_set hb with ⟨-, hp⟩ | ⟨-, hb⟩
          · exact absurd (Or.inl ⟨a, p, ha, Or.inl rfl⟩) (h2 p hp).1
          · exact i2 a b p ha hb
    | values V => exact .step _ _ ih (.values s V) i2
    | use =>
      refine .step _ _ ih (.use s) ?_
      obtain ⟨⟨c', h1, -⟩, -⟩ := getA_inv N fes bs s i1 i2
      rw [h1]; exact i2

/-! ### Property theorems -/

/-- **C23.** After any history of replacements of boundary arrays, value updates and uses, `get_A`
returns the matrix of the current arrays and values (and so does a freshly built cache), provided
arrays are replaced, not written to, and not moved from one variable to another. -/
theorem C23_never_stale [Zero K] [One K] [Add K] (N : Nat) (fes : List FE) (bs : List BoundaryInds)
    (s : CacheState K) (h : CacheHistory N fes bs s) :
    CurrentTangent N fes bs s (getA N fes bs s).1 ∧
    (getA N fes bs s).1 = (getA N fes bs { s with cache := none }).1 := by
  obtain ⟨h1, h2⟩ := history_inv N fes bs s h
  have e1 := (getA_inv N fes bs s h1 h2).2
  have e2 := (getA_inv N fes bs { s with cache := none } (fun c hc => by cases hc) h2).2
  refine ⟨?_, e1.trans e2.symm⟩
  intro r c
  rw [e1, foldl_zeroRows_apply]
  constructor
  · intro hp
    rw [if_pos ((mem_currentRows fes s.heap s.bcs r).2 hp)]
  · intro hp
    rw [if_neg (fun hc => hp ((mem_currentRows fes s.heap s.bcs r).1 hc))]
    rfl

/-- **C23 (library updates).** With `update_Dirichlet_boundary_conditions`, value updates and uses in
any order and number the cached tangent is never stale. -/
theorem C23_api_never_stale [Zero K] [One K] [Add K] (N : Nat) (fes : List FE)
    (bs : List BoundaryInds) (s : CacheState K) (h : ApiHistory N fes bs s) :
    CurrentTangent N fes bs s (getA N fes bs s).1 ∧
    (getA N fes bs s).1 = (getA N fes bs { s with cache := none }).1 :=
  C23_never_stale N fes bs s (api_history N fes bs s h)

/-! ### Counterexamples and concrete cases -/

/-- Two scalar variables on two nodes, no cells: 4 degrees of freedom. -/
def exCacheFes : List FE := [⟨2, 1, 0, []⟩, ⟨2, 1, 0, []⟩]

/-- Node array `[0]` at address 0, component array `[0]` at address 1. -/
def exCacheHeap : Nat → List Nat := fun _ => [0]

/-- The first variable is fixed at node 0. -/
def exCacheState : CacheState Int := ⟨exCacheHeap, [[(0, 1)], []], [], none⟩

/-- **C23 (in-place mutation).** After a use, writing node 1 into the index array in place leaves the
old row eliminated: the result differs from that of a new cache. -/
theorem C23_inplace_stale : ∃ (s : CacheState Int) (heap : Nat → List Nat),
    CacheHistory 4 exCacheFes [] s ∧
    (getA 4 exCacheFes [] { s with heap := heap }).1 ≠
      (getA 4 exCacheFes [] { s with heap := heap, cache := none }).1 := by
  have h0 : ∀ i j p, EntryOf exCacheState.bcs i p → EntryOf exCacheState.bcs j p → i = j := by
    rintro i j p ⟨es, h1, h2⟩ ⟨es', h1', h2'⟩
    have : ∀ i es, exCacheState.bcs[i]? = some es → p ∈ es → i = 0 := by
      intro i es h1 h2
      match i, h1 with
      | 0, _ => rfl
      | 1, h1 => cases h1; cases h2
    rw [this i es h1 h2, this j es' h1' h2']
  refine ⟨(getA 4 exCacheFes [] exCacheState).2, fun a => if a = 0 then [1] else [0],
    .step _ _ (.new exCacheState rfl h0) (.use _) h0, ?_⟩
  intro hc
  exact absurd (congrFun (congrFun hc 0) 0) (by decide)

/-- **C23 (moved arrays).** Moving the same array objects from the first to the second variable is not
noticed either, because the recorded sources are one flat tuple: the first variable's row stays
eliminated. The last condition of `CacheStep.replace` excludes this. -/
theorem C23_moved_stale : ∃ s : CacheState Int, CacheHistory 4 exCacheFes [] s ∧
    s.bcs = [[(0, 1)], []] ∧
    (getA 4 exCacheFes [] { s with bcs := [[], [(0, 1)]] }).1 ≠
      (getA 4 exCacheFes [] { s with bcs := [[], [(0, 1)]], cache := none }).1 := by
  have h0 : ∀ i j p, EntryOf exCacheState.bcs i p → EntryOf exCacheState.bcs j p → i = j := by
    rintro i j p ⟨es, h1, h2⟩ ⟨es', h1', h2'⟩
    have : ∀ i es, exCacheState.bcs[i]? = some es → p ∈ es → i = 0 := by
      intro i es h1 h2
      match i, h1 with
      | 0, _ => rfl
      | 1, h1 => cases h1; cases h2
    rw [this i es h1 h2, this j es' h1' h2']
  refine ⟨(getA 4 exCacheFes [] exCacheState).2, .step _ _ (.new exCacheState rfl h0) (.use _) h0,
    rfl, ?_⟩
  intro hc
  exact absurd (congrFun (congrFun hc 0) 0) (by decide)

/-- A replacement that reuses no array is a step: after a use, the second variable gets a new entry. -/
example : CacheStep 4 exCacheFes [] (getA 4 exCacheFes [] exCacheState).2
    { (getA 4 exCacheFes [] exCacheState).2 with
      heap := fun a => if a = 2 then [1] else [0], bcs := [[(0, 1)], [(2, 3)]] } := by
  refine .replace _ _ _ rfl ?_ ?_ ?_
  · rintro a (⟨i, p, ⟨es, h1, h2⟩, h3⟩ | ⟨c, hc, p, hp, h3⟩)
    · match i, h1 with
      | 0, h1 =>
        cases h1
        simp only [List.mem_cons, List.not_mem_nil, or_false] at h2
        subst h2
        rcases h3 with rfl | rfl <;> rfl
      | 1, h1 => cases h1; cases h2
    · cases hc
      have hp : p ∈ [(0, 1)] := hp
      simp only [List.mem_cons, List.not_mem_nil, or_false] at hp
      subst hp
      rcases h3 with rfl | rfl <;> rfl
  · rintro i j p ⟨es, h1, h2⟩ ⟨es', h1', h2'⟩
    match j, h1' with
    | 1, h => cases h; cases h2'
    | 0, h =>
      cases h
      simp only [List.mem_cons, List.not_mem_nil, or_false] at h2'
      subst h2'
      match i, h1 with
      | 0, _ => rfl
      | 1, h => cases h; simp at h2
  · intro c hc i j p ⟨es, h1, h2⟩ ⟨es', h1', h2'⟩
    cases hc
    have h1' : [[(0, 1)], []][j]? = some es' := h1'
    match j, h1' with
    | 1, h => cases h; cases h2'
    | 0, h =>
      cases h
      simp only [List.mem_cons, List.not_mem_nil, or_false] at h2'
      subst h2'
      match i, h1 with
      | 0, _ => rfl
      | 1, h => cases h; simp at h2

end JaxFem
