import Verif.Spec.DebugInfo
import Verif.Thm.C14_Boundary
import Verif.Thm.C107_Rows
import Mathlib.Algebra.CharZero.Defs
import Mathlib.Data.Nat.Cast.Basic
import Mathlib.Data.List.Forall2

/-!
# C115: the debugging report
-/

namespace JaxFem.Debug

open UserBC

variable {P K : Type}

/-! ### Helper lemmas -/

theorem bcArray_shows [NatCast K] [Zero K] {pts : List P} {it : Cond P K} {e : BCEntry K} (h : Fits pts it e) :
    ∃ rows, bcArray e = .ok rows ∧ Shows pts it rows := by
  obtain ⟨h1, h2, h3, h4, h5⟩ := h
  have hc : e.comps.length = e.nodes.length := by rw [h3, List.length_replicate]
  by_cases h0 : e.nodes.length = 0
  · refine ⟨[], by rw [bcArray, if_pos h0], e.nodes, h1, h2, by simp [h0], fun k n p hk _ => ?_⟩
    rw [List.length_eq_zero_iff.1 h0] at hk
    simp at hk
  · refine ⟨_, by rw [bcArray, if_neg h0, if_pos ⟨hc, h4⟩], e.nodes, h1, h2, by simp, fun k n p hk hp => ?_⟩
    have hlt : k < e.nodes.length := (List.getElem?_eq_some_iff.1 hk).1
    have hv := h5 k n p hk hp
    have hcc : e.comps.getD k 0 = it.2.1 := by
      rw [h3, List.getD_eq_getElem?_getD, List.getElem?_replicate, if_pos hlt]
      rfl
    rw [List.getElem?_map, List.getElem?_range hlt, Option.map_some, hcc, List.getD_eq_getElem?_getD, hk,
      List.getD_eq_getElem?_getD, hv]
    rfl

theorem partLines_shows [NatCast K] [Zero K] {pts : List P} {its : List (Cond P K)} {es : List (BCEntry K)}
    (h : List.Forall₂ (Fits pts) its es) (i : Nat) :
    ∃ tables : List (List (List K)),
      partLines i es = .ok (tables.mapIdx fun k rows => .part (i + k + 1) rows (rows.length, 3)) ∧
      List.Forall₂ (Shows pts) its tables := by
  induction h generalizing i with
  | nil => exact ⟨[], rfl, .nil⟩
  | cons hd _ ih =>
    obtain ⟨rows, hr, hs⟩ := bcArray_shows hd
    obtain ⟨tables, ht, hf⟩ := ih (i + 1)
    refine ⟨rows :: tables, ?_, .cons hs hf⟩
    simp only [partLines, hr, ht, bind, Except.bind, pure, Except.pure, List.mapIdx_cons, Nat.add_zero]
    congr 3
    funext k rows'
    rw [show i + 1 + k + 1 = i + (k + 1) + 1 from by omega]

theorem varLines_describes [NatCast K] [Zero K] {pts : List P} {its : List (Cond P K)} {es : List (BCEntry K)}
    (h : List.Forall₂ (Fits pts) its es) (m i : Nat) :
    ∃ block, varLines m i es = .ok block ∧ Describes pts its (if m > 1 then some i else none) block := by
  by_cases h0 : es = []
  · subst h0
    cases h
    exact ⟨_, rfl, fun _ => rfl, fun h => absurd rfl h⟩
  · obtain ⟨tables, ht, hf⟩ := partLines_shows h 0
    have hl : es.length ≠ 0 := fun e => h0 (List.length_eq_zero_iff.1 e)
    refine ⟨_, by rw [varLines, if_pos hl, ht]; rfl, fun e => ?_, fun _ => ⟨tables, ?_, hf⟩⟩
    · subst e
      cases h
      exact absurd rfl h0
    · simp only [Nat.zero_add]
      rfl

theorem varsLines_blocks [NatCast K] [Zero K] (m : Nat) (bcs : List (List (BCEntry K))) (i : Nat)
    (Q : Nat → List (Line K) → Prop)
    (h : ∀ (k : Nat) es, bcs[k]? = some es → ∃ block, varLines m (i + k) es = .ok block ∧ Q (i + k) block) :
    ∃ blocks : List (List (Line K)), varsLines m i bcs = .ok blocks.flatten ∧ blocks.length = bcs.length ∧
      ∀ (k : Nat) block, blocks[k]? = some block → Q (i + k) block := by
  induction bcs generalizing i with
  | nil => exact ⟨[], rfl, rfl, by simp⟩
  | cons es rest ih =>
    obtain ⟨b, hb, hq⟩ := h 0 es rfl
    obtain ⟨bl, h1, h2, h3⟩ := ih (i + 1) fun k es' hk => by
      have := h (k + 1) es' (by simpa using hk)
      rwa [show i + (k + 1) = i + 1 + k from by omega] at this
    refine ⟨b :: bl, ?_, by simp [h2], fun k block hk => ?_⟩
    · rw [Nat.add_zero] at hb
      simp only [varsLines, hb, h1, bind, Except.bind, pure, Except.pure, List.flatten_cons]
    · cases k with
      | zero =>
        simp only [List.getElem?_cons_zero, Option.some.injEq] at hk
        exact hk ▸ hq
      | succ k =>
        have := h3 k block (by simpa using hk)
        rwa [show i + 1 + k = i + (k + 1) from by omega] at this

theorem range_mapIdx {α β : Type} (l : List α) (d : α) (f : Nat → α → β) :
    ((List.range l.length).map fun i => f i (l.getD i d)) = l.mapIdx f := by
  apply List.ext_getElem (by simp)
  intro i h1 h2
  have : i < l.length := by simpa using h1
  simp [List.getD_eq_getElem?_getD, List.getElem?_eq_getElem this]

theorem surfaceLines_describes (points : List P) (cells faceInds : List (List Nat)) (locs : Option (List (LocFn P)))
    (bs : List (List (Nat × Nat))) (hv : ValidFaces points cells faceInds)
    (h : boundaryInds points cells faceInds locs = .ok bs) :
    DescribesSurfaces (K := K) points cells faceInds (locs.getD []) (surfaceLines bs) := by
  match locs with
  | none =>
    simp only [boundaryInds, Except.ok.injEq] at h
    subst h
    exact ⟨fun _ => rfl, fun h => absurd rfl h⟩
  | some locs =>
    have hs : ∀ loc ∈ locs, loc.supported := by
      intro loc hl
      by_contra hn
      rw [(C15_errors points cells faceInds locs ⟨loc, hl, hn⟩).1] at h
      cases h
    obtain ⟨bs', h1, h2, h3⟩ := C15_faces points cells faceInds locs hv hs
    rw [h] at h1
    cases h1
    refine ⟨fun e => ?_, fun e => ⟨bs, ?_, ?_⟩⟩
    · simp only [Option.getD_some] at e
      subst e
      rw [List.length_eq_zero_iff.1 h2]
      rfl
    · have : bs.length ≠ 0 := by
        rw [h2]
        exact fun e' => e (List.length_eq_zero_iff.1 e')
      rw [surfaceLines, if_pos this, range_mapIdx bs [] fun i rows => Line.surfaceSet (i + 1) rows (rows.length, 2)]
    · rw [Option.getD_some, List.forall₂_iff_get]
      refine ⟨h2.symm, fun i hi hi' => ?_⟩
      exact h3 i _ _ (List.getElem?_eq_getElem hi) (List.getElem?_eq_getElem hi')

theorem shows_mem [NatCast K] {pts : List P} {it : Cond P K} {rows : List (List K)} (h : Shows pts it rows) (x : List K) :
    x ∈ rows ↔ ∃ (n : Nat) (p : P), pts[n]? = some p ∧ it.1.holds p n ∧ x = [(n : K), (it.2.1 : K), it.2.2 p] := by
  obtain ⟨nodes, -, h2, h3, h4⟩ := h
  constructor
  · intro hx
    obtain ⟨k, hk⟩ := List.mem_iff_getElem?.1 hx
    have hlt : k < nodes.length := h3 ▸ (List.getElem?_eq_some_iff.1 hk).1
    obtain ⟨p, hp, ho⟩ := (h2 nodes[k]).1 (List.getElem_mem hlt)
    refine ⟨nodes[k], p, hp, ho, ?_⟩
    have := h4 k _ p (List.getElem?_eq_getElem hlt) hp
    exact Option.some.inj (hk.symm.trans this)
  · rintro ⟨n, p, hp, ho, rfl⟩
    obtain ⟨k, hk⟩ := List.mem_iff_getElem?.1 ((h2 n).2 ⟨p, hp, ho⟩)
    exact List.mem_of_getElem? (h4 k n p hk hp)

theorem shows_mem_row [AddMonoidWithOne K] [CharZero K] {pts : List P} {it : Cond P K} {rows : List (List K)}
    (h : Shows pts it rows) (n c : Nat) (v : K) :
    [(n : K), (c : K), v] ∈ rows ↔ it.2.1 = c ∧ ∃ p, pts[n]? = some p ∧ it.1.holds p n ∧ v = it.2.2 p := by
  rw [shows_mem h]
  constructor
  · rintro ⟨m, p, hp, ho, he⟩
    simp only [List.cons.injEq, Nat.cast_inj, and_true] at he
    obtain ⟨rfl, rfl, rfl⟩ := he
    exact ⟨rfl, p, hp, ho, rfl⟩
  · rintro ⟨rfl, p, hp, ho, rfl⟩
    exact ⟨n, p, hp, ho, rfl⟩

theorem forall₂_split_right {α β : Type} {R : α → β → Prop} (as : List β) (b : β) (ds : List β) (l : List α)
    (h : List.Forall₂ R l (as ++ b :: ds)) :
    ∃ pre x post, l = pre ++ x :: post ∧ R x b ∧ List.Forall₂ R post ds := by
  induction as generalizing l with
  | nil =>
    cases h with
    | cons h1 h2 => exact ⟨[], _, _, rfl, h1, h2⟩
  | cons a as ih =>
    cases h with
    | cons h1 h2 =>
      obtain ⟨pre, x, post, rfl, h3, h4⟩ := ih _ h2
      exact ⟨_ :: pre, x, post, rfl, h3, h4⟩

theorem forall₂_split_left {α β : Type} {R : α → β → Prop} (as : List α) (a : α) (ds : List α) (l : List β)
    (h : List.Forall₂ R (as ++ a :: ds) l) :
    ∃ pre x post, l = pre ++ x :: post ∧ R a x ∧ List.Forall₂ R ds post := by
  obtain ⟨pre, x, post, h1, h2, h3⟩ := forall₂_split_right (R := flip R) as a ds l h.flip
  exact ⟨pre, x, post, h1, h2, h3.flip⟩

theorem none_iff [AddMonoidWithOne K] [CharZero K] {pts : List P} {its : List (Cond P K)} {tables : List (List (List K))}
    (h : List.Forall₂ (Shows pts) its tables) (n c : Nat) :
    (∀ w, [(n : K), (c : K), w] ∉ tables.flatten) ↔ ∀ it ∈ its, ¬Concerns pts it n c := by
  induction h with
  | nil => simp
  | @cons it rows its tables hd _ ih =>
    have h1 : (∀ w, [(n : K), (c : K), w] ∉ rows) ↔ ¬Concerns pts it n c := by
      constructor
      · rintro hw ⟨hc, p, hp, ho⟩
        exact hw _ ((shows_mem_row hd n c _).2 ⟨hc, p, hp, ho, rfl⟩)
      · intro hn w hw
        obtain ⟨hc, p, hp, ho, -⟩ := (shows_mem_row hd n c w).1 hw
        exact hn ⟨hc, p, hp, ho⟩
    rw [List.forall_mem_cons, ← h1, ← ih, ← forall_and]
    simp only [List.flatten_cons, List.mem_append, not_or]

theorem ok_then {α β : Type} (x : α) (f : α → Except Err β) : (Except.ok x >>= f) = f x := rfl

theorem flatten_split {α : Type} (l : List (List α)) (pre : List α) (y : α) (post : List α) (h : l.flatten = pre ++ y :: post) :
    ∃ as bs cs ds, l = as ++ (bs ++ y :: cs) :: ds ∧ pre = as.flatten ++ bs ∧ post = cs ++ ds.flatten := by
  induction l generalizing pre with
  | nil => simp at h
  | cons a l ih =>
    rw [List.flatten_cons] at h
    rcases List.append_eq_append_iff.1 h with ⟨t, h1, h2⟩ | ⟨t, h1, h2⟩
    · obtain ⟨as, bs, cs, ds, rfl, rfl, rfl⟩ := ih t h2
      exact ⟨a :: as, bs, cs, ds, rfl, by simp [h1], rfl⟩
    · cases t with
      | nil =>
        obtain ⟨as, bs, cs, ds, rfl, h3, rfl⟩ := ih [] (by simpa using h2.symm)
        refine ⟨a :: as, bs, cs, ds, rfl, ?_, rfl⟩
        simp only [List.append_nil] at h1
        rw [List.flatten_cons, List.append_assoc, ← h3, List.append_nil, h1]
      | cons t ts =>
        simp only [List.cons_append, List.cons.injEq] at h2
        obtain ⟨rfl, rfl⟩ := h2
        exact ⟨[], pre, ts, l, by simp [h1], by simp, rfl⟩

theorem exists_last {α : Type} (l : List α) (a : α) (h : a ∈ l) : ∃ pre post, l = pre ++ a :: post ∧ a ∉ post := by
  induction l with
  | nil => simp at h
  | cons x l ih =>
    by_cases hl : a ∈ l
    · obtain ⟨pre, post, rfl, h2⟩ := ih hl
      exact ⟨x :: pre, post, rfl, h2⟩
    · rcases List.mem_cons.1 h with rfl | h'
      · exact ⟨[], l, rfl, hl⟩
      · exact absurd h' hl

theorem readsOff_iff [AddMonoidWithOne K] [CharZero K] {pts : List P} {its : List (Cond P K)}
    {tables : List (List (List K))} (h : List.Forall₂ (Shows pts) its tables) (n c : Nat) (o : Option K) :
    ReadsOff tables.flatten n c o ↔ Demands pts its n c o := by
  match o with
  | none =>
    rw [ReadsOff, none_iff h]
    exact ⟨.free, fun hd => by cases hd; assumption⟩
  | some v =>
    constructor
    · rintro ⟨pre, post, he, hp⟩
      obtain ⟨as, bs, cs, ds, rfl, -, rfl⟩ := flatten_split _ _ _ _ he
      obtain ⟨pi, it, po, rfl, h1, h2⟩ := forall₂_split_right _ _ _ _ h
      obtain ⟨hc, p, hpp, ho, rfl⟩ := (shows_mem_row h1 n c v).1 (by simp)
      exact .value pi it po p rfl hc hpp ho ((none_iff h2 n c).1 fun w hw => hp w (by simp [List.mem_append, hw]))
    · rintro (_ | ⟨pre, it, post, p, he, hc, hpp, ho, hl⟩)
      subst he
      obtain ⟨as, rows, ds, rfl, h1, h2⟩ := forall₂_split_left _ _ _ _ h
      obtain ⟨l1, l2, rfl, h4⟩ := exists_last rows _ ((shows_mem_row h1 n c _).2 ⟨hc, p, hpp, ho, rfl⟩)
      refine ⟨as.flatten ++ l1, l2 ++ ds.flatten, by simp, fun w hw => ?_⟩
      rcases List.mem_append.1 hw with hw | hw
      · obtain ⟨-, p', hp', -, rfl⟩ := (shows_mem_row h1 n c w).1 (by simp [hw])
        rw [hpp] at hp'
        cases hp'
        exact h4 hw
      · exact (none_iff h2 n c).2 hl w hw

theorem tableRows_parts (name : Option Nat) (tables : List (List (List K))) :
    tableRows (.dirichlet name :: tables.mapIdx (fun k rows => Line.part (k + 1) rows (rows.length, 3))) = tables.flatten := by
  suffices ∀ (i : Nat), tableRows (tables.mapIdx (fun k rows => Line.part (i + k + 1) rows (rows.length, 3))) = tables.flatten by
    simpa [tableRows] using this 0
  intro i
  induction tables generalizing i with
  | nil => rfl
  | cons t ts ih =>
    have := ih (i + 1)
    simp only [tableRows, List.mapIdx_cons, List.flatMap_cons, List.flatten_cons] at this ⊢
    rw [← this]
    simp only [show ∀ k, i + 1 + k + 1 = i + (k + 1) + 1 from fun k => by omega]

/-! ### Theorems -/

/-- **C115 (report).** For a problem that could be built the report never fails. It first lists the faces of every surface
integral, those on which the user's location function holds at all vertices and no others, and then for every variable in
turn and every condition of the user in the order given the nodes that the condition selects, with the component and the value
of the user's function at the node; variables without conditions are named as such, and variables have numbers only if there
are several. -/
theorem C115_report [NatCast K] [Zero K] (a : Args P K) (bcs : List (List (BCEntry K))) (h : problemBCs a = .ok bcs)
    (points : List P) (cells faceInds : List (List Nat)) (locs : Option (List (LocFn P))) (bs : List (List (Nat × Nat)))
    (hv : ValidFaces points cells faceInds) (hb : boundaryInds points cells faceInds locs = .ok bs) :
    ∃ (surf : List (Line K)) (blocks : List (List (Line K))), printBCInfo bs bcs = .ok (surf ++ blocks.flatten) ∧
      DescribesSurfaces points cells faceInds (locs.getD []) surf ∧ blocks.length = a.meshes.length ∧
      ∀ (i : Nat) pts block, a.meshes[i]? = some pts → blocks[i]? = some block →
        ∃ info, a.given i = some info ∧ Describes pts (conds info) (if a.meshes.length > 1 then some i else none) block := by
  obtain ⟨hl, hk⟩ := infoOf_given a bcs h
  obtain ⟨blocks, h1, h2, h3⟩ := varsLines_blocks (K := K) bcs.length bcs 0
    (fun i block => ∀ pts, a.meshes[i]? = some pts → ∃ info, a.given i = some info ∧
      Describes pts (conds info) (if bcs.length > 1 then some i else none) block) fun k es hes => by
    rw [Nat.zero_add]
    have hi : k < a.meshes.length := hl ▸ (List.getElem?_eq_some_iff.1 hes).1
    obtain ⟨info, g1, -, g2⟩ := hk k _ es (List.getElem?_eq_getElem hi) hes
    obtain ⟨block, b1, b2⟩ := varLines_describes g2 bcs.length k
    refine ⟨block, b1, fun pts hp => ⟨info, g1, ?_⟩⟩
    rw [List.getElem?_eq_getElem hi] at hp
    cases hp
    exact b2
  refine ⟨surfaceLines bs, blocks, by simp [printBCInfo, h1, bind, Except.bind, pure, Except.pure],
    surfaceLines_describes points cells faceInds locs bs hv hb, by rw [h2, hl], fun i pts block hp hbl => ?_⟩
  have := h3 i block hbl
  rw [Nat.zero_add, hl] at this
  exact this pts hp

/-- **C115 (overlaps).** Where conditions overlap the report shows a row for each of them; a reader who takes the last row that
begins with the node and the component finds exactly what the user's conditions demand. -/
theorem C115_reading [AddMonoidWithOne K] [CharZero K] (pts : List P) (its : List (Cond P K)) (name : Option Nat)
    (block : List (Line K)) (h : Describes pts its name block) (n c : Nat) (o : Option K) :
    (ReadsOff (tableRows block) n c o ↔ Demands pts its n c o) ∧
    ∀ v, [(n : K), (c : K), v] ∈ tableRows block ↔
      ∃ it ∈ its, it.2.1 = c ∧ ∃ p, pts[n]? = some p ∧ it.1.holds p n ∧ v = it.2.2 p := by
  by_cases h0 : its = []
  · rw [h.1 h0, h0]
    refine ⟨?_, by simp [tableRows]⟩
    exact readsOff_iff (tables := []) .nil n c o
  · obtain ⟨tables, rfl, hf⟩ := h.2 h0
    rw [tableRows_parts]
    refine ⟨readsOff_iff hf n c o, fun v => ?_⟩
    clear h h0
    induction hf with
    | nil => simp
    | cons hd _ ih => rw [List.flatten_cons, List.mem_append, shows_mem_row hd, ih, List.exists_mem_cons_iff]

/-- **C115 (solver).** What the last row of the report says is what the solver does: the residual of the component is its
difference from the printed value and its row of the matrix is a unit row; without a printed row residual and matrix row are
those of the assembly. -/
theorem C115_solver [Ring K] [CharZero K] (fes : List FE) (a : Args P K) (hs : Suits fes a)
    (bcs : List (List (BCEntry K))) (h : problemBCs a = .ok bcs) (i n c : Nat) (fe : FE) (pts : List P) (info : Info P K)
    (hfe : fes[i]? = some fe) (hpts : a.meshes[i]? = some pts) (hinfo : a.given i = some info)
    (hn : n < fe.numTotalNodes) (hc : c < fe.vec) (name : Option Nat) (block : List (Line K))
    (hd : Describes pts (conds info) name block)
    (k : Fin (totalDofs fes)) (hk : (k : Nat) = dofNum fes i n c) (scale : K) (r u : Fin (totalDofs fes) → K)
    (A : Matrix (Fin (totalDofs fes)) (Fin (totalDofs fes)) K) :
    (∀ v, ReadsOff (tableRows block) n c (some v) →
      applyBcV fes bcs scale r u k = u k - v * scale ∧ ∀ l, elimRows fes bcs A k l = if k = l then 1 else 0) ∧
    (ReadsOff (tableRows block) n c none → applyBcV fes bcs scale r u k = r k ∧ ∀ l, elimRows fes bcs A k l = A k l) := by
  obtain ⟨h1, h2⟩ := C107_rows fes a hs bcs h i n c fe pts info hfe hpts hinfo hn hc k hk scale r u A
  refine ⟨fun v hv => ?_, fun hv => ?_⟩
  · obtain ⟨g1, -, -, -, g5⟩ := h1 v (((C115_reading pts _ name block hd n c _).1).1 hv)
    exact ⟨g1, g5⟩
  · obtain ⟨g1, -, -, -, g5⟩ := h2 (((C115_reading pts _ name block hd n c _).1).1 hv)
    exact ⟨g1, g5⟩

/-- **C115 (failure).** The report raises `ValueError` exactly if in some part that has nodes the three arrays differ in
length. -/
theorem C115_raises [NatCast K] [Zero K] (bs : List (List (Nat × Nat))) (bcs : List (List (BCEntry K))) :
    (printBCInfo bs bcs = .error .value ↔ ∃ es ∈ bcs, ∃ e ∈ es, e.nodes ≠ [] ∧
      ¬(e.comps.length = e.nodes.length ∧ e.vals.length = e.nodes.length)) ∧
    ∀ x, printBCInfo bs bcs = .error x → x = .value := by
  have h1 : ∀ e : BCEntry K, (e.nodes ≠ [] ∧ ¬(e.comps.length = e.nodes.length ∧ e.vals.length = e.nodes.length) ∧
      bcArray e = .error .value) ∨ (¬(e.nodes ≠ [] ∧ ¬(e.comps.length = e.nodes.length ∧ e.vals.length = e.nodes.length)) ∧
      ∃ r, bcArray e = .ok r) := by
    intro e
    by_cases h0 : e.nodes.length = 0
    · exact Or.inr ⟨fun h => h.1 (List.length_eq_zero_iff.1 h0), _, by rw [bcArray, if_pos h0]⟩
    · by_cases hc : e.comps.length = e.nodes.length ∧ e.vals.length = e.nodes.length
      · exact Or.inr ⟨fun h => h.2 hc, _, by rw [bcArray, if_neg h0, if_pos hc]⟩
      · exact Or.inl ⟨fun h => h0 (List.length_eq_zero_iff.2 h), hc, by rw [bcArray, if_neg h0, if_neg hc]⟩
  have h2 : ∀ (es : List (BCEntry K)) (i : Nat), ((∃ e ∈ es, e.nodes ≠ [] ∧
      ¬(e.comps.length = e.nodes.length ∧ e.vals.length = e.nodes.length)) ∧ partLines i es = .error .value) ∨
      (¬(∃ e ∈ es, e.nodes ≠ [] ∧ ¬(e.comps.length = e.nodes.length ∧ e.vals.length = e.nodes.length)) ∧
      ∃ r, partLines i es = .ok r) := by
    intro es
    induction es with
    | nil => exact fun i => Or.inr ⟨by simp, [], rfl⟩
    | cons e es ih =>
      intro i
      rcases h1 e with ⟨g1, g2, g3⟩ | ⟨g1, r, g2⟩
      · exact Or.inl ⟨⟨e, by simp, g1, g2⟩, by simp [partLines, g3, bind, Except.bind]⟩
      · rcases ih (i + 1) with ⟨⟨e', k1, k2⟩, k3⟩ | ⟨k1, r', k2⟩
        · exact Or.inl ⟨⟨e', by simp [k1], k2⟩, by simp [partLines, g2, k3, bind, Except.bind]⟩
        · refine Or.inr ⟨?_, _, by rw [partLines, g2, ok_then, k2]; rfl⟩
          rintro ⟨e', he', hb⟩
          rcases List.mem_cons.1 he' with rfl | he'
          · exact g1 hb
          · exact k1 ⟨e', he', hb⟩
  have h3 : ∀ (m i : Nat) (es : List (BCEntry K)), ((∃ e ∈ es, e.nodes ≠ [] ∧
      ¬(e.comps.length = e.nodes.length ∧ e.vals.length = e.nodes.length)) ∧ varLines m i es = .error .value) ∨
      (¬(∃ e ∈ es, e.nodes ≠ [] ∧ ¬(e.comps.length = e.nodes.length ∧ e.vals.length = e.nodes.length)) ∧
      ∃ r, varLines m i es = .ok r) := by
    intro m i es
    by_cases h0 : es.length ≠ 0
    · rcases h2 es 0 with ⟨g1, g2⟩ | ⟨g1, r, g2⟩
      · exact Or.inl ⟨g1, by rw [varLines, if_pos h0, g2]; rfl⟩
      · exact Or.inr ⟨g1, _, by rw [varLines, if_pos h0, g2]; rfl⟩
    · refine Or.inr ⟨?_, _, by rw [varLines, if_neg h0]⟩
      rw [not_not, List.length_eq_zero_iff] at h0
      simp [h0]
  have h4 : ∀ (m i : Nat), ((∃ es ∈ bcs, ∃ e ∈ es, e.nodes ≠ [] ∧
      ¬(e.comps.length = e.nodes.length ∧ e.vals.length = e.nodes.length)) ∧ varsLines m i bcs = .error .value) ∨
      (¬(∃ es ∈ bcs, ∃ e ∈ es, e.nodes ≠ [] ∧ ¬(e.comps.length = e.nodes.length ∧ e.vals.length = e.nodes.length)) ∧
      ∃ r, varsLines m i bcs = .ok r) := by
    intro m
    induction bcs with
    | nil => exact fun i => Or.inr ⟨by simp, [], rfl⟩
    | cons es rest ih =>
      intro i
      rcases h3 m i es with ⟨g1, g2⟩ | ⟨g1, r, g2⟩
      · exact Or.inl ⟨⟨es, by simp, g1⟩, by simp [varsLines, g2, bind, Except.bind]⟩
      · rcases ih (i + 1) with ⟨⟨e', k1, k2⟩, k3⟩ | ⟨k1, r', k2⟩
        · exact Or.inl ⟨⟨e', by simp [k1], k2⟩, by simp [varsLines, g2, k3, bind, Except.bind]⟩
        · refine Or.inr ⟨?_, _, by rw [varsLines, g2, ok_then, k2]; rfl⟩
          rintro ⟨e', he', hb⟩
          rcases List.mem_cons.1 he' with rfl | he'
          · exact g1 hb
          · exact k1 ⟨e', he', hb⟩
  rcases h4 bcs.length 0 with ⟨g1, g2⟩ | ⟨g1, r, g2⟩
  · have : printBCInfo bs bcs = .error .value := by simp [printBCInfo, g2, bind, Except.bind]
    exact ⟨⟨fun _ => g1, fun _ => this⟩, fun x hx => by rw [this] at hx; cases hx; rfl⟩
  · have : printBCInfo bs bcs = .ok (surfaceLines bs ++ r) := by simp [printBCInfo, g2, bind, Except.bind, pure, Except.pure]
    refine ⟨⟨fun hx => ?_, fun hx => absurd hx g1⟩, fun x hx => ?_⟩ <;> (rw [this] at hx; cases hx)

/-! ### Instances -/

/-- Two variables on two points: the first has two overlapping conditions (the second wins at point 1), the second has
none; no surface integral. -/
def exReport : Args Nat Rat := .multi [[5, 7], [5, 7]]
  (some [some ([.one fun _ => true, .one fun p => p == 7], [0, 0], [fun p => p, fun _ => 1]), none])

deriving instance DecidableEq for Line

example : (problemBCs exReport >>= fun bcs => printBCInfo [] bcs) = .ok
    [.noSurfaces, .dirichlet (some 0), .part 1 [[0, 0, 5], [1, 0, 7]] (2, 3), .part 2 [[1, 0, 1]] (1, 3),
      .noDirichlet (some 1)] := by decide +kernel

example : printBCInfo (K := Rat) [[(0, 3), (2, 1)], []] [[⟨[], [0], []⟩, ⟨[4], [2], [1/2]⟩]] = .ok
    [.surfaces, .surfaceSet 1 [(0, 3), (2, 1)] (2, 2), .surfaceSet 2 [] (0, 2), .dirichlet none, .part 1 [] (0, 3),
      .part 2 [[4, 2, 1/2]] (1, 3)] := by decide +kernel

example : printBCInfo (K := Rat) [] [[⟨[1, 2], [0], [1, 1]⟩]] = .error .value := by decide +kernel

example : ReadsOff (K := Rat) [[0, 0, 5], [1, 0, 7], [1, 0, 1]] 1 0 (some 1) :=
  ⟨[[0, 0, 5], [1, 0, 7]], [], by simp, by simp⟩

end JaxFem.Debug
