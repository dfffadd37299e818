import Verif.Model.Quiet
import Verif.Spec.Quiet
import Verif.Thm.C14_Boundary

/-!
# C52: tracking of the boundary of the active region
-/

namespace JaxFem
namespace Quiet

/-! ### Helper lemmas -/

/-- What the tables say after the faces `P` have been processed. -/
structure Inv (key : Nat × Nat → List Nat) (P : List (Nat × Nat)) (t : Tables) : Prop where
  all : t.all = P
  look : ∀ k, t.look k = P.find? (fun x => key x == k)
  inner : ∀ x, x ∈ t.inner ↔ x ∈ P ∧ ∃ y ∈ P, y ≠ x ∧ key y = key x

theorem stepFace_inv (key : Nat × Nat → List Nat) (P : List (Nat × Nat)) (t : Tables) (cf : Nat × Nat)
    (h : Inv key P t) (hn : cf ∉ P) : Inv key (P ++ [cf]) (stepFace t cf (key cf)) := by
  have hl := h.look (key cf)
  unfold stepFace
  rcases hf : t.look (key cf) with _ | first
  · rw [hf] at hl
    have hno : ∀ x ∈ P, key x ≠ key cf := by
      intro x hx he
      have := (List.find?_eq_none.1 hl.symm) x hx
      simp [he] at this
    refine ⟨?_, fun k => ?_, fun x => ?_⟩
    · dsimp only
      rw [h.all]
    · have h' := h.look k
      unfold Tables.look at h' ⊢
      dsimp only
      rw [List.find?_append, List.find?_append, ← h']
      cases hx : t.hash.find? (·.1 == k) with
      | some p => rfl
      | none =>
        rw [Option.none_or, Option.map_none, Option.none_or]
        by_cases hk : key cf = k
        · simp [hk]
        · have : (key cf == k) = false := by simpa using hk
          simp [this]
    · dsimp only
      rw [h.inner]
      constructor
      · rintro ⟨hx, y, hy, hne, he⟩
        exact ⟨List.mem_append_left _ hx, y, List.mem_append_left _ hy, hne, he⟩
      · rintro ⟨hx, y, hy, hne, he⟩
        rcases List.mem_append.1 hx with hx | hx
        · rcases List.mem_append.1 hy with hy | hy
          · exact ⟨hx, y, hy, hne, he⟩
          · rw [List.mem_singleton.1 hy] at he
            exact absurd he.symm (hno x hx)
        · rcases List.mem_append.1 hy with hy | hy
          · rw [List.mem_singleton.1 hx] at he
            exact absurd he (hno y hy)
          · exact absurd ((List.mem_singleton.1 hy).trans (List.mem_singleton.1 hx).symm) hne
  · rw [hf] at hl
    have hmem := List.mem_of_find?_eq_some hl.symm
    have hkey : key first = key cf := by
      have := List.find?_some hl.symm
      simpa using this
    refine ⟨?_, fun k => ?_, fun x => ?_⟩
    · dsimp only
      rw [h.all]
    · have h' := h.look k
      unfold Tables.look at h' ⊢
      dsimp only
      rw [List.find?_append, ← h', h']
      cases hx : P.find? (fun x => key x == k) with
      | some p => rfl
      | none =>
        rw [Option.none_or]
        have : ¬key cf = k := by
          intro e
          have := List.find?_eq_none.1 hx first hmem
          simp [hkey, e] at this
        have : (key cf == k) = false := by simpa using this
        simp [this]
    · dsimp only
      rw [List.mem_append, List.mem_append, h.inner, List.mem_singleton, List.mem_singleton]
      constructor
      · rintro ((⟨hx, y, hy, hne, he⟩ | rfl) | rfl)
        · exact ⟨List.mem_append_left _ hx, y, List.mem_append_left _ hy, hne, he⟩
        · exact ⟨List.mem_append_left _ hmem, cf, by simp, fun e => hn (e ▸ hmem), hkey.symm⟩
        · exact ⟨by simp, first, List.mem_append_left _ hmem, fun e => hn (e ▸ hmem), hkey⟩
      · rintro ⟨hx, y, hy, hne, he⟩
        rcases List.mem_append.1 hx with hx | hx
        · by_cases hxf : x = first
          · exact Or.inl (Or.inr hxf)
          refine Or.inl (Or.inl ⟨hx, ?_⟩)
          rcases List.mem_append.1 hy with hy | hy
          · exact ⟨y, hy, hne, he⟩
          · rw [List.mem_singleton.1 hy] at he
            exact ⟨first, hmem, fun e => hxf e.symm, hkey.trans he⟩
        · exact Or.inr (List.mem_singleton.1 hx)

theorem foldl_inv (key : Nat × Nat → List Nat) (L P : List (Nat × Nat)) (t : Tables) (h : Inv key P t)
    (hn : (P ++ L).Nodup) : Inv key (P ++ L) (L.foldl (fun t cf => stepFace t cf (key cf)) t) := by
  induction L generalizing P t with
  | nil => simpa using h
  | cons x L ih =>
    rw [List.foldl_cons]
    have hx : x ∉ P := by
      intro hx
      exact (List.nodup_append.1 hn).2.2 x hx x (List.mem_cons_self ..) rfl
    have := ih (P ++ [x]) _ (stepFace_inv key P t x h hx) (by simpa using hn)
    simpa using this

/-- Key of a face in the table. -/
def keyOf (cf : List (List (List Nat))) (x : Nat × Nat) : List Nat := (cf.getD x.1 []).getD x.2 []

/-- Faces of a cell. -/
def facesOf (cf : List (List (List Nat))) (c : Nat) : List (Nat × Nat) :=
  (List.range (cf.getD c []).length).map fun f => (c, f)

theorem stepCell_eq (cf : List (List (List Nat))) (t : Tables) (c : Nat) :
    stepCell cf t c = (facesOf cf c).foldl (fun t x => stepFace t x (keyOf cf x)) t := by
  have hz : (cf.getD c []).zipIdx = (List.range (cf.getD c []).length).map
      fun f => ((cf.getD c []).getD f [], f) := by
    apply List.ext_getElem
    · simp
    · intro i h1 h2
      rw [List.length_zipIdx] at h1
      rw [List.getElem_zipIdx, List.getElem_map, List.getElem_range, Nat.zero_add, List.getD_eq_getElem _ _ h1]
  unfold stepCell facesOf
  rw [hz, List.foldl_map, List.foldl_map]
  rfl

theorem stepCells_eq (active : List Bool) (cf : List (List (List Nat))) (t : Tables) (inds : List Nat) :
    stepCells active cf t inds =
      ((inds.filter (active.getD · false)).flatMap (facesOf cf)).foldl (fun t x => stepFace t x (keyOf cf x)) t := by
  unfold stepCells
  induction inds generalizing t with
  | nil => rfl
  | cons c inds ih =>
    rw [List.foldl_cons, ih, List.filter_cons]
    by_cases ha : active.getD c false = true
    · rw [if_pos ha, if_pos ha, List.flatMap_cons, List.foldl_append, stepCell_eq]
    · rw [if_neg ha, if_neg ha]

theorem mem_facesOf (cf : List (List (List Nat))) (c : Nat) (x : Nat × Nat) :
    x ∈ facesOf cf c ↔ x.1 = c ∧ x.2 < (cf.getD c []).length := by
  obtain ⟨a, b⟩ := x
  simp only [facesOf, List.mem_map, List.mem_range, Prod.mk.injEq]
  constructor
  · rintro ⟨f, hf, rfl, rfl⟩
    exact ⟨rfl, hf⟩
  · rintro ⟨rfl, hb⟩
    exact ⟨b, hb, rfl, rfl⟩

theorem facesOf_nodup (cf : List (List (List Nat))) (l : List Nat) (h : l.Nodup) :
    (l.flatMap (facesOf cf)).Nodup := by
  rw [List.nodup_flatMap]
  constructor
  · intro c _
    refine List.Nodup.map ?_ List.nodup_range
    intro a b e
    exact (Prod.mk.inj e).2
  · refine h.imp ?_
    intro a b hab x hx hy
    exact hab (((mem_facesOf cf a x).1 hx).1.symm.trans ((mem_facesOf cf b x).1 hy).1)

theorem getD_true (active : List Bool) (c : Nat) : active.getD c false = true ↔ active[c]? = some true := by
  rw [List.getD_eq_getElem?_getD]
  cases h : active[c]? with
  | none => simp
  | some b => simp

theorem cellsFaceOf_length (cells faceInds : List (List Nat)) (c : Nat) (hc : c < cells.length) :
    ((cellsFaceOf cells faceInds).getD c []).length = faceInds.length := by
  unfold cellsFaceOf
  rw [List.getD_eq_getElem _ _ (by simpa using hc)]
  simp

theorem keyOf_cellsFaceOf (cells faceInds : List (List Nat)) (x : Nat × Nat) (h1 : x.1 < cells.length)
    (h2 : x.2 < faceInds.length) :
    keyOf (cellsFaceOf cells faceInds) x = (FaceNodes cells faceInds x.1 x.2).insertionSort (· ≤ ·) := by
  unfold keyOf cellsFaceOf FaceNodes
  have e1 : (cells.map fun cell => faceInds.map fun f => (f.map (cell.getD · 0)).insertionSort (· ≤ ·)).getD x.1 [] =
      faceInds.map fun f => (f.map ((cells[x.1]).getD · 0)).insertionSort (· ≤ ·) := by
    rw [List.getD_eq_getElem _ _ (by rw [List.length_map]; exact h1), List.getElem_map]
  rw [e1, List.getD_eq_getElem _ _ (by rw [List.length_map]; exact h2), List.getElem_map,
    List.getD_eq_getElem _ _ h2, List.getD_eq_getElem _ _ h1]

theorem sort_eq_iff (a b : List Nat) : a.insertionSort (· ≤ ·) = b.insertionSort (· ≤ ·) ↔ a.Perm b := by
  constructor
  · intro h
    exact ((List.perm_insertionSort (· ≤ ·) a).symm.trans (h ▸ List.Perm.refl _)).trans
      (List.perm_insertionSort (· ≤ ·) b)
  · intro h
    refine List.Perm.eq_of_pairwise (le := fun x y => x ≤ y) ?_ (List.pairwise_insertionSort _ a)
      (List.pairwise_insertionSort _ b) ?_
    · intro x y _ _ h1 h2
      omega
    · exact ((List.perm_insertionSort (· ≤ ·) a).trans h).trans (List.perm_insertionSort (· ≤ ·) b).symm

/-- The tables describe the active cells. -/
def Tracks (cells faceInds : List (List Nat)) (active : List Bool) (t : Tables) : Prop :=
  ∃ P : List (Nat × Nat), P.Nodup ∧ (∀ x, x ∈ P ↔ ActiveFace cells faceInds active x) ∧
    Inv (keyOf (cellsFaceOf cells faceInds)) P t

theorem Tracks.external {cells faceInds : List (List Nat)} {active : List Bool} {t : Tables}
    (h : Tracks cells faceInds active t) (x : Nat × Nat) : x ∈ t.external ↔ External cells faceInds active x := by
  obtain ⟨P, hn, hP, inv⟩ := h
  unfold Tables.external
  rw [List.mem_dedup, List.mem_filter, inv.all, hP]
  have hc : ((!t.inner.contains x) = true) ↔ x ∉ t.inner := by simp
  rw [hc, inv.inner, hP]
  have hk : ∀ y, ActiveFace cells faceInds active y → ActiveFace cells faceInds active x →
      (keyOf (cellsFaceOf cells faceInds) y = keyOf (cellsFaceOf cells faceInds) x ↔
        (FaceNodes cells faceInds y.1 y.2).Perm (FaceNodes cells faceInds x.1 x.2)) := by
    intro y hy hx
    rw [keyOf_cellsFaceOf _ _ _ hy.1 hy.2.1, keyOf_cellsFaceOf _ _ _ hx.1 hx.2.1, sort_eq_iff]
  constructor
  · rintro ⟨hx, hno⟩
    refine ⟨hx, fun y hy hp => ?_⟩
    by_contra hne
    exact hno ⟨hx, y, (hP y).2 hy, hne, (hk y hy hx).2 hp⟩
  · rintro ⟨hx, hu⟩
    refine ⟨hx, ?_⟩
    rintro ⟨_, y, hy, hne, he⟩
    have hy' := (hP y).1 hy
    exact hne (hu y hy' ((hk y hy' hx).1 he))

theorem initTables_tracks (cells faceInds : List (List Nat)) (active : List Bool) :
    Tracks cells faceInds active (initTables cells faceInds active) := by
  unfold initTables
  dsimp only
  rw [stepCells_eq]
  have hnd : (((List.range (cellsFaceOf cells faceInds).length).filter (active.getD · false)).flatMap
      (facesOf (cellsFaceOf cells faceInds))).Nodup := facesOf_nodup _ _ (List.nodup_range.filter _)
  refine ⟨_, hnd, fun x => ?_, ?_⟩
  · rw [List.mem_flatMap]
    constructor
    · rintro ⟨c, hc, hx⟩
      obtain ⟨hc1, hc2⟩ := List.mem_filter.1 hc
      obtain ⟨rfl, hx2⟩ := (mem_facesOf _ _ _).1 hx
      have hlt : x.1 < cells.length := by simpa [cellsFaceOf] using hc1
      rw [cellsFaceOf_length _ _ _ hlt] at hx2
      exact ⟨hlt, hx2, (getD_true _ _).1 hc2⟩
    · rintro ⟨h1, h2, h3⟩
      refine ⟨x.1, List.mem_filter.2 ⟨by simpa [cellsFaceOf] using h1, (getD_true _ _).2 h3⟩, ?_⟩
      exact (mem_facesOf _ _ _).2 ⟨rfl, by rw [cellsFaceOf_length _ _ _ h1]; exact h2⟩
  · have h0 : Inv (keyOf (cellsFaceOf cells faceInds)) [] ⟨[], [], []⟩ :=
      ⟨rfl, fun k => rfl, fun x => by simp⟩
    have := foldl_inv _ _ [] _ h0 (by rw [List.nil_append]; exact hnd)
    rwa [List.nil_append] at this

/-- Cells stay active. -/
def Mono (old new : List Bool) : Prop := old.length = new.length ∧ ∀ c : Nat, old[c]? = some true → new[c]? = some true

theorem count_mono {old new : List Bool} (h : Mono old new) : old.count true ≤ new.count true := by
  obtain ⟨hl, hm⟩ := h
  induction old generalizing new with
  | nil => simp
  | cons a old ih =>
    cases new with
    | nil => simp at hl
    | cons b new =>
      have h1 := ih (new := new) (by simpa using hl) (fun c hc => by simpa using hm (c + 1) (by simpa using hc))
      have h0 : a = true → b = true := fun e => by simpa using hm 0 (by simp [e])
      rw [List.count_cons, List.count_cons]
      cases a
      · cases b <;> simp <;> omega
      · rw [h0 rfl]; simp; omega

theorem updateTables_tracks (cells faceInds : List (List Nat)) (old new : List Bool) (t : Tables)
    (hlen : old.length = cells.length) (hm : Mono old new) (h : Tracks cells faceInds old t) :
    ∃ t', updateTables (cellsFaceOf cells faceInds) old new t = .ok t' ∧ Tracks cells faceInds new t' := by
  unfold updateTables
  rw [if_pos (count_mono hm)]
  refine ⟨_, rfl, ?_⟩
  rw [stepCells_eq]
  obtain ⟨P, hn, hP, inv⟩ := h
  set inds := ((List.range old.length).filter fun c => old.getD c false != new.getD c false).filter
    (new.getD · false) with hinds
  have hmem : ∀ c, c ∈ inds ↔ c < cells.length ∧ old[c]? ≠ some true ∧ new[c]? = some true := by
    intro c
    rw [hinds, List.mem_filter, List.mem_filter, List.mem_range, hlen, getD_true]
    constructor
    · rintro ⟨⟨h1, h2⟩, h3⟩
      refine ⟨h1, fun h4 => ?_, h3⟩
      rw [(getD_true _ _).2 h4, (getD_true _ _).2 h3] at h2
      simp at h2
    · rintro ⟨h1, h2, h3⟩
      refine ⟨⟨h1, ?_⟩, h3⟩
      have h4 : old.getD c false = false := by
        cases h5 : old.getD c false
        · rfl
        · exact absurd ((getD_true _ _).1 h5) h2
      rw [h4, (getD_true _ _).2 h3]
      rfl
  have hL : ∀ x, x ∈ inds.flatMap (facesOf (cellsFaceOf cells faceInds)) ↔
      x.1 ∈ inds ∧ x.2 < faceInds.length := by
    intro x
    rw [List.mem_flatMap]
    constructor
    · rintro ⟨c, hc, hx⟩
      obtain ⟨rfl, hx2⟩ := (mem_facesOf _ _ _).1 hx
      rw [cellsFaceOf_length _ _ _ ((hmem _).1 hc).1] at hx2
      exact ⟨hc, hx2⟩
    · rintro ⟨hc, hx⟩
      refine ⟨x.1, hc, (mem_facesOf _ _ _).2 ⟨rfl, ?_⟩⟩
      rw [cellsFaceOf_length _ _ _ ((hmem _).1 hc).1]
      exact hx
  have hnd : (P ++ inds.flatMap (facesOf (cellsFaceOf cells faceInds))).Nodup := by
    rw [List.nodup_append]
    refine ⟨hn, facesOf_nodup _ _ ((List.nodup_range.filter _).filter _), ?_⟩
    intro a ha b hb e
    subst e
    exact ((hmem _).1 ((hL a).1 hb).1).2.1 ((hP a).1 ha).2.2
  refine ⟨_, hnd, fun x => ?_, foldl_inv _ _ P t inv hnd⟩
  rw [List.mem_append, hP, hL, hmem]
  constructor
  · rintro (⟨h1, h2, h3⟩ | ⟨⟨h1, h2, h3⟩, h4⟩)
    · exact ⟨h1, h2, hm.2 _ h3⟩
    · exact ⟨h1, h4, h3⟩
  · rintro ⟨h1, h2, h3⟩
    by_cases h4 : old[x.1]? = some true
    · exact Or.inl ⟨h1, h2, h4⟩
    · exact Or.inr ⟨⟨h1, h4, h3⟩, h2⟩

theorem orTab_get (a fl : List Bool) (hl : fl.length = a.length) (c : Nat) :
    (orTab a fl)[c]? = some true ↔ a[c]? = some true ∨ fl[c]? = some true := by
  unfold orTab
  rw [List.getElem?_zipWith]
  by_cases hc : c < a.length
  · rw [List.getElem?_eq_getElem hc, List.getElem?_eq_getElem (by omega : c < fl.length)]
    simp
  · rw [List.getElem?_eq_none (by omega), List.getElem?_eq_none (by omega : fl.length ≤ c)]
    simp

theorem orTab_mono (a fl : List Bool) (hl : fl.length = a.length) : Mono a (orTab a fl) := by
  refine ⟨?_, fun c hc => (orTab_get a fl hl c).2 (Or.inl hc)⟩
  unfold orTab
  rw [List.length_zipWith, hl, Nat.min_self]

/-! ### Property theorems -/

/-- **C52 (one update).** From tables that describe the old activation, an update that only activates cells
succeeds and the reported external faces are those of the new activation. (The tables are those of
`initialize_hash_map` or of an earlier such update.) -/
theorem C52_update (cells faceInds : List (List Nat)) (tabs : List (List Bool)) (tab0 : List Bool)
    (hlen : tab0.length = cells.length) (hm : List.IsChain Mono (tab0 :: tabs)) :
    ∃ t, ((tab0 :: tabs).zip tabs).foldlM
        (fun t p => updateTables (cellsFaceOf cells faceInds) p.1 p.2 t) (initTables cells faceInds tab0) = .ok t ∧
      (∀ x, x ∈ t.external ↔ External cells faceInds ((tab0 :: tabs).getLast (by simp)) x) ∧
      ∀ x, x ∈ t.external ↔
        x ∈ (initTables cells faceInds ((tab0 :: tabs).getLast (by simp))).external := by
  suffices H : ∀ (tabs : List (List Bool)) (tab0 : List Bool) (t0 : Tables), tab0.length = cells.length →
      List.IsChain Mono (tab0 :: tabs) → Tracks cells faceInds tab0 t0 →
      ∃ t, ((tab0 :: tabs).zip tabs).foldlM
        (fun t p => updateTables (cellsFaceOf cells faceInds) p.1 p.2 t) t0 = .ok t ∧
        Tracks cells faceInds ((tab0 :: tabs).getLast (by simp)) t by
    obtain ⟨t, ht, htr⟩ := H tabs tab0 _ hlen hm (initTables_tracks cells faceInds tab0)
    exact ⟨t, ht, htr.external, fun x => (htr.external x).trans ((initTables_tracks _ _ _).external x).symm⟩
  intro tabs
  induction tabs with
  | nil => exact fun tab0 t0 _ _ h => ⟨t0, rfl, h⟩
  | cons tab1 tabs ih =>
    intro tab0 t0 hl hc h
    obtain ⟨h1, h2⟩ := List.isChain_cons_cons.1 hc
    obtain ⟨t', ht', htr⟩ := updateTables_tracks cells faceInds tab0 tab1 t0 hl h1 h
    obtain ⟨t, ht, htr'⟩ := ih tab1 t' (h1.1 ▸ hl) h2 htr
    refine ⟨t, ?_, ?_⟩
    · rw [List.zip_cons_cons, List.foldlM_cons]
      dsimp only
      rw [ht']
      exact ht
    · rw [List.getLast_cons_cons]
      exact htr'

/-- **C52 (truth table).** For distinct boundary faces that contain all external ones, in whatever order the
set difference is enumerated, the table is built without an exception; the first flag of a row says whether
the face is external, the second whether it is external and passes the height test. An external face
outside the list raises `ValueError`. -/
theorem C52_face_table (bnd external : List (Nat × Nat)) (top : Nat × Nat → Bool) (hb : bnd.Nodup) :
    ((∀ x ∈ external, x ∈ bnd) → ∃ tab, faceTruthTab bnd top external = .ok tab ∧ tab.length = bnd.length ∧
      ∀ (i : Nat) x, bnd[i]? = some x → ∃ a b, tab[i]? = some (a, b) ∧ (a = true ↔ x ∈ external) ∧
        (b = true ↔ x ∈ external ∧ top x = true)) ∧
    ((∃ x ∈ external, x ∉ bnd) → faceTruthTab bnd top external = .error .value) := by
  have hlook : ∀ face, (face ∉ bnd → (bnd.zipIdx.filter (·.1 == face)).getLast? = none) ∧
      (face ∈ bnd → ∃ i, (bnd.zipIdx.filter (·.1 == face)).getLast? = some (face, i) ∧ bnd[i]? = some face) := by
    intro face
    constructor
    · intro hf
      rw [List.getLast?_eq_none_iff, List.filter_eq_nil_iff]
      rintro ⟨x, i⟩ hx he
      have := List.mem_zipIdx_iff_getElem?.1 hx
      have he' : x = face := by simpa using he
      exact hf (he' ▸ List.mem_of_getElem? this)
    · intro hf
      cases hg : (bnd.zipIdx.filter (·.1 == face)).getLast? with
      | none =>
        rw [List.getLast?_eq_none_iff, List.filter_eq_nil_iff] at hg
        obtain ⟨i, hi⟩ := List.mem_iff_getElem?.1 hf
        exact absurd (by simp) (hg (face, i) (List.mem_zipIdx_iff_getElem?.2 hi))
      | some p =>
        obtain ⟨x, i⟩ := p
        obtain ⟨h1, h2⟩ := List.mem_filter.1 (List.mem_of_getLast? hg)
        have he' : x = face := by simpa using h2
        subst he'
        exact ⟨i, rfl, List.mem_zipIdx_iff_getElem?.1 h1⟩
  constructor
  · suffices H : ∀ (ext S : List (Nat × Nat)) (tab : List (Bool × Bool)), (∀ x ∈ ext, x ∈ bnd) →
        tab.length = bnd.length → (∀ (i : Nat) x, bnd[i]? = some x → ∃ a b, tab[i]? = some (a, b) ∧
          (a = true ↔ x ∈ S) ∧ (b = true ↔ x ∈ S ∧ top x = true)) →
        ∃ tab', ext.foldlM (fun tab face =>
          match (bnd.zipIdx.filter (·.1 == face)).getLast? with
          | none => (.error .value : Except Err (List (Bool × Bool)))
          | some (_, i) => .ok (tab.set i (true, (tab.getD i (false, false)).2 || top face))) tab = .ok tab' ∧
        tab'.length = bnd.length ∧ (∀ (i : Nat) x, bnd[i]? = some x → ∃ a b, tab'[i]? = some (a, b) ∧
          (a = true ↔ x ∈ S ++ ext) ∧ (b = true ↔ x ∈ S ++ ext ∧ top x = true)) by
      intro hx
      refine H external [] _ hx (by simp) ?_
      intro i x hi
      exact ⟨false, false, by rw [List.getElem?_map, hi]; rfl, by simp, by simp⟩
    intro ext
    induction ext with
    | nil =>
      intro S tab _ hl ht
      exact ⟨tab, rfl, hl, by simpa using ht⟩
    | cons face ext ih =>
      intro S tab hx hl ht
      obtain ⟨i, hi1, hi2⟩ := (hlook face).2 (hx face (List.mem_cons_self ..))
      rw [List.foldlM_cons, hi1]
      dsimp only
      obtain ⟨a0, b0, h0, ha0, hb0⟩ := ht i face hi2
      have hg : tab.getD i (false, false) = (a0, b0) := by rw [List.getD_eq_getElem?_getD, h0]; rfl
      obtain ⟨tab', e1, e2, e3⟩ := ih (S ++ [face]) (tab.set i (true, (tab.getD i (false, false)).2 || top face))
        (fun x h => hx x (List.mem_cons_of_mem _ h)) (by simpa using hl) (by
          intro j x hj
          by_cases hij : i = j
          · subst hij
            rw [hi2] at hj
            cases hj
            have hlt : i < tab.length := by
              rw [hl]; exact (List.getElem?_eq_some_iff.1 hi2).1
            refine ⟨_, _, List.getElem?_set_self hlt, by simp, ?_⟩
            rw [hg, Bool.or_eq_true, hb0]
            constructor
            · rintro (h | h)
              · exact ⟨by simp, h.2⟩
              · exact ⟨by simp, h⟩
            · exact fun h => Or.inr h.2
          · obtain ⟨a, b, h1, h2, h3⟩ := ht j x hj
            have hne : x ≠ face := by
              rintro rfl
              have hlt := (List.getElem?_eq_some_iff.1 hi2).1
              exact hij ((List.getElem?_inj hlt hb).1 (hi2.trans hj.symm))
            refine ⟨a, b, by rw [List.getElem?_set_ne hij]; exact h1, ?_, ?_⟩
            · rw [h2, List.mem_append]; simp [hne]
            · rw [h3, List.mem_append]; simp [hne])
      refine ⟨tab', e1, e2, fun j x hj => ?_⟩
      obtain ⟨a, b, h1, h2, h3⟩ := e3 j x hj
      refine ⟨a, b, h1, ?_, ?_⟩
      · rw [h2]; simp
      · rw [h3]; simp
  · rintro ⟨x, hx, hxb⟩
    unfold faceTruthTab
    generalize (bnd.map fun _ => (false, false)) = tab
    induction external generalizing tab with
    | nil => cases hx
    | cons face ext ih =>
      rw [List.foldlM_cons]
      by_cases hf : face ∈ bnd
      · obtain ⟨i, hi1, hi2⟩ := (hlook face).2 hf
        rw [hi1]
        dsimp only
        have hx' : x ∈ ext := by
          rcases List.mem_cons.1 hx with rfl | h
          · exact absurd hf hxb
          · exact h
        exact ih hx' _
      · rw [(hlook face).1 hf]
        rfl

/-- **C52 (quiet points).** The quiet points are the points that belong to no active cell. -/
theorem C52_quiet_points (numPoints : Nat) (cells : List (List Nat)) (active : List Bool)
    (p : Nat) :
    p ∈ quietPoints numPoints cells active ↔
      p < numPoints ∧ ∀ (c : Nat) cell, cells[c]? = some cell → active[c]? = some true → p ∉ cell := by
  unfold quietPoints
  dsimp only
  rw [List.mem_filter, List.mem_range]
  refine and_congr_right fun _ => ?_
  have hc : ∀ l : List Nat, ((!l.contains p) = true) ↔ p ∉ l := by intro l; simp
  rw [hc, List.mem_flatMap]
  constructor
  · intro h c cell h1 h2 hp
    refine h ⟨(cell, true), List.mem_filter.2 ⟨?_, rfl⟩, hp⟩
    exact List.mem_of_getElem? (i := c) (by rw [List.getElem?_zip_eq_some]; exact ⟨h1, h2⟩)
  · rintro h ⟨⟨cell, b⟩, hx, hp⟩
    obtain ⟨hx1, hx2⟩ := List.mem_filter.1 hx
    obtain ⟨c, hc⟩ := List.mem_iff_getElem?.1 hx1
    obtain ⟨h1, h2⟩ := List.getElem?_zip_eq_some.1 hc
    dsimp only at hx2
    subst hx2
    exact h c cell h1 h2 hp

/-- What the variables of the time loop must be. -/
structure SimOk (points : Nat) (cells faceInds : List (List Nat)) (bnd : List (Nat × Nat)) (tab0 : List Bool)
    (flags : List (List Bool)) (s : Sim) : Prop where
  len : s.active.length = cells.length
  active : ∀ c, s.active[c]? = some true ↔ ActivatedBy tab0 flags c
  external : ∀ x, x ∈ s.external ↔ External cells faceInds s.active x
  table : ∀ tab, s.faceTab = some tab → tab.length = bnd.length ∧
    ∀ (i : Nat) x, bnd[i]? = some x → ∃ a b, tab[i]? = some (a, b) ∧
      (a = true ↔ External cells faceInds s.active x) ∧ (b = true → a = true)
  quiet : ∀ q, s.quiet = some q → ∀ p, p ∈ q ↔
    p < points ∧ ∀ (c : Nat) cell, cells[c]? = some cell → s.active[c]? = some true → p ∉ cell

/-- **C52.** For every mesh and every history of flagged cells, with the boundary subset of the example
(every face): no step raises except for the use of unbound variables, which happens exactly when the first
step activates no cell; and otherwise after the whole history the active cells are those ever flagged, the
external faces are those of the active region, and the face table and the quiet points agree with it. -/
theorem C52_history {P : Type} (points : List P) (cells faceInds : List (List Nat)) (bnds : List (List (Nat × Nat)))
    (bnd : List (Nat × Nat)) (tab0 : List Bool) (hist : List (List Bool × (Nat × Nat → Bool)))
    (hv : ValidFaces points cells faceInds) (hlen : tab0.length = cells.length)
    (hflags : ∀ p ∈ hist, p.1.length = cells.length)
    (hbnd : boundaryInds points cells faceInds (some [.one fun _ => true]) = .ok bnds) (hb0 : bnds[0]? = some bnd) :
    (laserSteps points.length cells faceInds bnd (simInit cells faceInds tab0) hist = .error .runtime ∧
      ∃ p rest, hist = p :: rest ∧ ∀ c : Nat, p.1[c]? = some true → tab0[c]? = some true) ∨
    ((∀ p rest, hist = p :: rest → ∃ c : Nat, p.1[c]? = some true ∧ tab0[c]? ≠ some true) ∧
      ∃ s, laserSteps points.length cells faceInds bnd (simInit cells faceInds tab0) hist = .ok s ∧
        SimOk points.length cells faceInds bnd tab0 (hist.map Prod.fst) s ∧
        (hist ≠ [] → s.faceTab.isSome ∧ s.quiet.isSome)) := by
  obtain ⟨bs, hbs, _, hk⟩ := C15_faces points cells faceInds [.one fun _ => true] hv (by simp [LocFn.supported])
  rw [hbnd] at hbs
  cases hbs
  obtain ⟨hpw, hmem⟩ := hk 0 _ bnd rfl hb0
  have hnd : bnd.Nodup := hpw.imp (by
    rintro x y (h | h) e
    · rw [e] at h; exact absurd h (lt_irrefl _)
    · rw [e] at h; exact absurd h.2 (lt_irrefl _))
  have hall : ∀ x : Nat × Nat, x.1 < cells.length → x.2 < faceInds.length → x ∈ bnd := by
    rintro ⟨c, f⟩ h1 h2
    rw [hmem]
    refine ⟨cells[c], faceInds[f], List.getElem?_eq_getElem h1, List.getElem?_eq_getElem h2, ?_⟩
    intro a ha
    obtain ⟨n, p, h3, h4⟩ := hv _ (List.getElem_mem h1) _ (List.getElem_mem h2) a ha
    exact ⟨n, p, h3, h4, rfl⟩
  -- one step that activates something
  have hbirth : ∀ (s : Sim) (fl : List Bool) (top : Nat × Nat → Bool) (fs : List (List Bool)),
      SimOk points.length cells faceInds bnd tab0 fs s → Tracks cells faceInds s.active s.tables →
      fl.length = cells.length → orTab s.active fl ≠ s.active →
      ∃ s', laserOn points.length cells faceInds bnd s fl top = .ok s' ∧
        SimOk points.length cells faceInds bnd tab0 (fs ++ [fl]) s' ∧ Tracks cells faceInds s'.active s'.tables ∧
        s'.faceTab.isSome ∧ s'.quiet.isSome := by
    intro s fl top fs hs htr hfl hne
    have hfl' : fl.length = s.active.length := hfl.trans hs.len.symm
    have hmono := orTab_mono s.active fl hfl'
    obtain ⟨t', ht', htr'⟩ := updateTables_tracks cells faceInds s.active (orTab s.active fl) s.tables hs.len hmono htr
    obtain ⟨tab, htab, htl, htt⟩ := (C52_face_table bnd t'.external top hnd).1 (by
      intro x hx
      have := ((htr'.external x).1 hx).1
      exact hall x this.1 this.2.1)
    have hlen' : (orTab s.active fl).length = cells.length := hmono.1.symm.trans hs.len
    refine ⟨⟨orTab s.active fl, t', t'.external, some tab, some (quietPoints points.length cells (orTab s.active fl))⟩,
      ?_, ⟨?_, ?_, ?_, ?_, ?_⟩, ?_, ?_, ?_⟩
    · unfold laserOn
      dsimp only
      rw [if_neg hne, ht']
      simp only [bind, Except.bind]
      rw [htab]
    · exact hlen'
    · intro c
      dsimp only
      rw [orTab_get _ _ hfl', hs.active]
      unfold ActivatedBy
      simp only [List.mem_append, List.mem_singleton]
      constructor
      · rintro ((h | ⟨g, h1, h2⟩) | h)
        · exact Or.inl h
        · exact Or.inr ⟨g, Or.inl h1, h2⟩
        · exact Or.inr ⟨fl, Or.inr rfl, h⟩
      · rintro (h | ⟨g, h1 | rfl, h2⟩)
        · exact Or.inl (Or.inl h)
        · exact Or.inl (Or.inr ⟨g, h1, h2⟩)
        · exact Or.inr h2
    · exact htr'.external
    · intro tb htb
      cases htb
      refine ⟨htl, fun i x hi => ?_⟩
      obtain ⟨a, b, h1, h2, h3⟩ := htt i x hi
      exact ⟨a, b, h1, h2.trans (htr'.external x), fun h => h2.2 (h3.1 h).1⟩
    · intro q hq
      cases hq
      exact C52_quiet_points points.length cells _
    · exact htr'
    · rfl
    · rfl
  -- one step that activates nothing
  have hsame : ∀ (s : Sim) (fl : List Bool) (top : Nat × Nat → Bool) (fs : List (List Bool)),
      SimOk points.length cells faceInds bnd tab0 fs s → fl.length = cells.length → orTab s.active fl = s.active →
      SimOk points.length cells faceInds bnd tab0 (fs ++ [fl]) s ∧
      (s.faceTab.isSome → s.quiet.isSome → laserOn points.length cells faceInds bnd s fl top = .ok s) ∧
      (s.faceTab = none → laserOn points.length cells faceInds bnd s fl top = .error .runtime) := by
    intro s fl top fs hs hfl he
    have hfl' : fl.length = s.active.length := hfl.trans hs.len.symm
    refine ⟨⟨hs.len, ?_, hs.external, hs.table, hs.quiet⟩, ?_, ?_⟩
    · intro c
      have h1 := orTab_get s.active fl hfl' c
      rw [he] at h1
      rw [h1, hs.active]
      unfold ActivatedBy
      simp only [List.mem_append, List.mem_singleton]
      constructor
      · rintro ((h | ⟨g, h1, h2⟩) | h)
        · exact Or.inl h
        · exact Or.inr ⟨g, Or.inl h1, h2⟩
        · exact Or.inr ⟨fl, Or.inr rfl, h⟩
      · rintro (h | ⟨g, h1 | rfl, h2⟩)
        · exact Or.inl (Or.inl h)
        · exact Or.inl (Or.inr ⟨g, h1, h2⟩)
        · exact Or.inr h2
    · intro h1 h2
      obtain ⟨a, ha⟩ := Option.isSome_iff_exists.1 h1
      obtain ⟨b, hb⟩ := Option.isSome_iff_exists.1 h2
      unfold laserOn
      dsimp only
      rw [if_pos he]
      simp only [bind, Except.bind]
      rw [ha, hb]
    · intro h1
      unfold laserOn
      dsimp only
      rw [if_pos he]
      simp only [bind, Except.bind]
      rw [h1]
  -- the rest of the history, after a birth
  have hrest : ∀ (l : List (List Bool × (Nat × Nat → Bool))) (s : Sim) (fs : List (List Bool)),
      (∀ p ∈ l, p.1.length = cells.length) → SimOk points.length cells faceInds bnd tab0 fs s →
      Tracks cells faceInds s.active s.tables → s.faceTab.isSome → s.quiet.isSome →
      ∃ s', laserSteps points.length cells faceInds bnd s l = .ok s' ∧
        SimOk points.length cells faceInds bnd tab0 (fs ++ l.map Prod.fst) s' ∧ s'.faceTab.isSome ∧ s'.quiet.isSome := by
    intro l
    induction l with
    | nil => exact fun s fs _ hs _ h1 h2 => ⟨s, rfl, by simpa using hs, h1, h2⟩
    | cons p l ih =>
      intro s fs hf hs htr h1 h2
      obtain ⟨fl, top⟩ := p
      have hfl := hf (fl, top) (List.mem_cons_self ..)
      have hstep : ∃ s', laserOn points.length cells faceInds bnd s fl top = .ok s' ∧
          SimOk points.length cells faceInds bnd tab0 (fs ++ [fl]) s' ∧ Tracks cells faceInds s'.active s'.tables ∧
          s'.faceTab.isSome ∧ s'.quiet.isSome := by
        by_cases he : orTab s.active fl = s.active
        · obtain ⟨g1, g2, _⟩ := hsame s fl top fs hs hfl he
          exact ⟨s, g2 h1 h2, g1, htr, h1, h2⟩
        · exact hbirth s fl top fs hs htr hfl he
      obtain ⟨s', e1, e2, e3, e4, e5⟩ := hstep
      obtain ⟨s'', d1, d2, d3, d4⟩ := ih s' (fs ++ [fl]) (fun q hq => hf q (List.mem_cons_of_mem _ hq)) e2 e3 e4 e5
      refine ⟨s'', ?_, ?_, d3, d4⟩
      · unfold laserSteps
        rw [e1]
        exact d1
      · rw [List.map_cons]
        simpa using d2
  have htr0 := initTables_tracks cells faceInds tab0
  have hs0 : SimOk points.length cells faceInds bnd tab0 [] (simInit cells faceInds tab0) :=
    ⟨hlen, fun c => by simp [simInit, ActivatedBy], htr0.external, fun tab h => (by cases h), fun q h => (by cases h)⟩
  cases hist with
  | nil =>
    exact Or.inr ⟨fun p rest h => (by cases h), _, rfl, hs0, fun h => absurd rfl h⟩
  | cons p rest =>
    obtain ⟨fl, top⟩ := p
    have hfl := hflags (fl, top) (List.mem_cons_self ..)
    have hfl' : fl.length = tab0.length := hfl.trans hlen.symm
    by_cases he : orTab tab0 fl = tab0
    · left
      refine ⟨?_, _, _, rfl, fun c hc => ?_⟩
      · unfold laserSteps
        rw [(hsame _ fl top [] hs0 hfl he).2.2 rfl]
        rfl
      · have := (orTab_get tab0 fl hfl' c).2 (Or.inr hc)
        rwa [he] at this
    · right
      constructor
      · rintro p' rest' h'
        cases h'
        by_contra hno
        push Not at hno
        apply he
        apply List.ext_getElem?
        intro c
        have h1 := orTab_get tab0 fl hfl' c
        have h2 : (orTab tab0 fl)[c]? = some true ↔ tab0[c]? = some true :=
          h1.trans ⟨fun h => h.elim id (hno c), Or.inl⟩
        have hl : (orTab tab0 fl).length = tab0.length := (orTab_mono tab0 fl hfl').1.symm
        by_cases hc : c < tab0.length
        · rw [List.getElem?_eq_getElem (by omega), List.getElem?_eq_getElem hc] at h2 ⊢
          simp only [Option.some.injEq] at h2 ⊢
          exact Bool.eq_iff_iff.2 h2
        · rw [List.getElem?_eq_none (by omega), List.getElem?_eq_none (by omega)]
      · obtain ⟨s', e1, e2, e3, e4, e5⟩ := hbirth _ fl top [] hs0 htr0 hfl he
        obtain ⟨s'', d1, d2, d3, d4⟩ := hrest rest s' ([] ++ [fl]) (fun q hq => hflags q (List.mem_cons_of_mem _ hq))
          e2 e3 e4 e5
        refine ⟨s'', ?_, by simpa using d2, fun _ => ⟨d3, d4⟩⟩
        unfold laserSteps
        rw [e1]
        exact d1

/-- **C52 (limits of the assertion).** `update_hash_map` only checks the number of active cells: exchanging an
active cell for another one passes the check and leaves the faces of the deactivated cell in the result. -/
theorem C52_exchange_undetected : ∃ (cells faceInds : List (List Nat)) (old new : List Bool) (t : Tables),
    updateTables (cellsFaceOf cells faceInds) old new (initTables cells faceInds old) = .ok t ∧
    ∃ x, x ∈ t.external ∧ ¬External cells faceInds new x := by
  refine ⟨[[0, 1], [2, 3]], [[0], [1]], [true, false], [false, true], _, rfl, (0, 0), by decide +kernel, ?_⟩
  rintro ⟨⟨_, _, h⟩, _⟩
  cases h

/-- Three cells in a row, activated one after the other: two external faces remain at every stage. -/
example : let cells := [[0, 1], [1, 2], [2, 3]]
    let fi := [[0], [1]]
    let bnd := [(0, 0), (0, 1), (1, 0), (1, 1), (2, 0), (2, 1)]
    (laserSteps 4 cells fi bnd (simInit cells fi [true, false, false])
      [([false, true, false], fun _ => false), ([false, false, false], fun _ => false)]).toOption.map
      (fun s => (s.external, s.quiet)) = some ([(0, 0), (1, 1)], some [3]) ∧
    (laserSteps 4 cells fi bnd (simInit cells fi [true, false, false]) [([true, false, false], fun _ => false)]).isOk
      = false := by
  decide +kernel

end Quiet
end JaxFem
