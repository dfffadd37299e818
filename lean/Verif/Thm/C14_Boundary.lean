import Verif.Spec.Boundary
import Verif.Thm.Lists

/-!
# C14, C15: Dirichlet node selection and face selection
-/

namespace JaxFem

/-! ### Helper lemmas -/

theorem mem_argwhere (flags : List Bool) (i : Nat) : i ∈ argwhere flags ↔ flags[i]? = some true := by
  simp only [argwhere, List.mem_filter, List.mem_range, List.getD_eq_getElem?_getD]
  constructor
  · rintro ⟨h, h2⟩
    rw [List.getElem?_eq_getElem h] at h2 ⊢
    simpa using h2
  · intro h
    have := (List.getElem?_eq_some_iff.1 h).1
    refine ⟨this, ?_⟩
    rw [h]
    rfl

theorem argwhere_pairwise (flags : List Bool) : (argwhere flags).Pairwise (· < ·) :=
  List.Pairwise.filter _ List.pairwise_lt_range

theorem mem_argwhere2 (flags : List (List Bool)) (c f : Nat) :
    (c, f) ∈ argwhere2 flags ↔ ∃ row, flags[c]? = some row ∧ row[f]? = some true := by
  simp only [argwhere2, List.mem_flatMap, List.mem_range, List.mem_map, mem_argwhere,
    Prod.mk.injEq]
  constructor
  · rintro ⟨i, hi, j, hj, rfl, rfl⟩
    refine ⟨flags[i], List.getElem?_eq_getElem hi, ?_⟩
    rw [List.getD_eq_getElem _ _ hi] at hj
    exact hj
  · rintro ⟨row, h1, h2⟩
    obtain ⟨hc, rfl⟩ := List.getElem?_eq_some_iff.1 h1
    refine ⟨c, hc, f, ?_, rfl, rfl⟩
    rw [List.getD_eq_getElem _ _ hc]
    exact h2

/-- Lexicographic order on (cell, face) pairs. -/
def lexLt (x y : Nat × Nat) : Prop := x.1 < y.1 ∨ (x.1 = y.1 ∧ x.2 < y.2)

theorem argwhere2_pairwise (flags : List (List Bool)) : (argwhere2 flags).Pairwise lexLt := by
  rw [argwhere2, List.pairwise_flatMap]
  constructor
  · intro i _
    rw [List.pairwise_map]
    exact (argwhere_pairwise _).imp fun h => Or.inr ⟨rfl, h⟩
  · refine List.pairwise_lt_range.imp ?_
    intro a b hab x hx y hy
    simp only [List.mem_map] at hx hy
    obtain ⟨_, _, rfl⟩ := hx
    obtain ⟨_, _, rfl⟩ := hy
    exact Or.inl hab

theorem resolve_ok {P : Type} (loc : LocFn P) (f : P → Nat → Bool) (h : loc.resolve = .ok f) :
    loc.supported ∧ ∀ p n, f p n = true ↔ loc.holds p n := by
  cases loc <;> simp only [LocFn.resolve, Except.ok.injEq, reduceCtorEq] at h <;> subst h <;>
    simp [LocFn.supported, LocFn.holds]

theorem resolve_cases {P : Type} (loc : LocFn P) :
    (loc.supported ∧ ∃ f, loc.resolve = .ok f) ∨ (¬loc.supported ∧ loc.resolve = .error .value) := by
  cases loc <;> simp [LocFn.supported, LocFn.resolve]

theorem filterMap_getElem?_of_all {α β : Type} (l : List α) (g : α → Option β)
    (h : ∀ a ∈ l, (g a).isSome) :
    (l.filterMap g).length = l.length ∧ ∀ k : Nat, (l.filterMap g)[k]? = (l[k]?).bind g := by
  induction l with
  | nil => simp
  | cons a l ih =>
    obtain ⟨b, hb⟩ := Option.isSome_iff_exists.1 (h a (by simp))
    obtain ⟨h1, h2⟩ := ih fun x hx => h x (by simp [hx])
    rw [List.filterMap_cons_some hb]
    refine ⟨by simp [h1], ?_⟩
    intro k
    cases k with
    | zero => simp [hb]
    | succ k => simpa using h2 k

theorem dirichletEntry_spec {P K : Type} (points : List P) (loc : LocFn P) (vec : Nat) (val : P → K)
    (e : List Nat × List Nat × List K) (h : dirichletEntry points loc vec val = .ok e) :
    loc.supported ∧ EntrySpec points loc vec val e.1 e.2.1 e.2.2 := by
  rcases hf : loc.resolve with x | f
  · simp [dirichletEntry, hf, bind, Except.bind] at h
  · obtain ⟨hs, hh⟩ := resolve_ok loc f hf
    simp only [dirichletEntry, hf, bind, Except.bind, pure, Except.pure, Except.ok.injEq] at h
    subst h
    have mem : ∀ n, n ∈ argwhere (points.mapIdx fun i p => f p i) ↔ OnDirichlet points loc n := by
      intro n
      rw [mem_argwhere, List.getElem?_mapIdx, OnDirichlet]
      simp only [Option.map_eq_some_iff, hh]
    obtain ⟨h1, h2⟩ := filterMap_getElem?_of_all
      (argwhere (points.mapIdx fun i p => f p i)) (fun n => points[n]?) (by
        intro n hn
        obtain ⟨p, hp, _⟩ := (mem n).1 hn
        rw [hp]; rfl)
    refine ⟨hs, argwhere_pairwise _, mem, ?_, ?_, ?_⟩
    · rw [List.map_const', one_mul]
    · rw [List.length_map, h1]
    · intro k n p hk hp
      simp only at hk
      rw [List.getElem?_map, h2, hk]
      simp [hp]

theorem dirichletLoop_spec {P K : Type} (points : List P) (locs : List (LocFn P)) (vecs : List Nat)
    (vals : List (P → K)) (h1 : locs.length = vals.length) (h2 : vals.length = vecs.length) :
    ((∀ loc ∈ locs, loc.supported) → ∃ ns vs us, dirichletLoop points locs vecs vals = .ok (ns, vs, us)
      ∧ ns.length = locs.length ∧ vs.length = locs.length ∧ us.length = locs.length ∧
      ∀ (k : Nat) loc vec val n v u, locs[k]? = some loc → vecs[k]? = some vec → vals[k]? = some val →
        ns[k]? = some n → vs[k]? = some v → us[k]? = some u →
        EntrySpec points loc vec val n v u) ∧
    ((∃ loc ∈ locs, ¬loc.supported) → dirichletLoop points locs vecs vals = .error .value) := by
  induction locs generalizing vecs vals with
  | nil =>
    simp only [dirichletLoop]
    exact ⟨fun _ => ⟨[], [], [], rfl, rfl, rfl, rfl, by simp⟩, by simp⟩
  | cons loc locs ih =>
    cases vals with
    | nil => simp at h1
    | cons val vals =>
      cases vecs with
      | nil => simp at h2
      | cons vec vecs =>
        simp only [List.length_cons, add_left_inj] at h1 h2
        obtain ⟨ih1, ih2⟩ := ih vecs vals h1 h2
        rcases resolve_cases loc with ⟨hs, f, hf⟩ | ⟨hs, hf⟩
        · have he : ∃ e, dirichletEntry points loc vec val = .ok e := by
            simp [dirichletEntry, hf, bind, Except.bind, pure, Except.pure]
          obtain ⟨e, he⟩ := he
          obtain ⟨_, hspec⟩ := dirichletEntry_spec points loc vec val e he
          constructor
          · intro hall
            obtain ⟨ns, vs, us, hr, l1, l2, l3, hk⟩ := ih1 fun x hx => hall x (by simp [hx])
            refine ⟨e.1 :: ns, e.2.1 :: vs, e.2.2 :: us, ?_, by simp [l1], by simp [l2],
              by simp [l3], ?_⟩
            · simp [dirichletLoop, he, hr, bind, Except.bind, pure, Except.pure]
            · intro k
              cases k with
              | zero =>
                intro loc' vec' val' n v u a1 a2 a3 a4 a5 a6
                simp only [List.getElem?_cons_zero, Option.some.injEq] at a1 a2 a3 a4 a5 a6
                subst a1 a2 a3 a4 a5 a6
                exact hspec
              | succ k =>
                intro loc' vec' val' n v u a1 a2 a3 a4 a5 a6
                exact hk k loc' vec' val' n v u (by simpa using a1) (by simpa using a2)
                  (by simpa using a3) (by simpa using a4) (by simpa using a5) (by simpa using a6)
          · rintro ⟨x, hx, hxs⟩
            have hx' : x ∈ locs := by
              rcases List.mem_cons.1 hx with rfl | h
              · exact absurd hs hxs
              · exact h
            simp [dirichletLoop, he, ih2 ⟨x, hx', hxs⟩, bind, Except.bind]
        · constructor
          · intro hall
            exact absurd (hall loc (by simp)) hs
          · intro _
            simp [dirichletLoop, dirichletEntry, hf, bind, Except.bind]

theorem boundaryFlags_row {P : Type} (points : List P) (cells faceInds : List (List Nat))
    (f : P → Nat → Bool) (loc : LocFn P) (hh : ∀ p n, f p n = true ↔ loc.holds p n)
    (hv : ValidFaces points cells faceInds) (c i : Nat) :
    (∃ row, (boundaryFlags points cells faceInds f)[c]? = some row ∧ row[i]? = some true) ↔
      FaceOn points cells faceInds loc c i := by
  simp only [boundaryFlags, List.getElem?_map, Option.map_eq_some_iff, FaceOn]
  constructor
  · rintro ⟨row, ⟨cell, hc, rfl⟩, h⟩
    simp only [List.getElem?_map, Option.map_eq_some_iff] at h
    obtain ⟨face, hf, hall⟩ := h
    refine ⟨cell, face, hc, hf, fun a ha => ?_⟩
    obtain ⟨n, p, hn, hp⟩ := hv cell (List.mem_of_getElem? hc) face (List.mem_of_getElem? hf) a ha
    refine ⟨n, p, hn, hp, ?_⟩
    rw [← hh]
    rw [List.all_eq_true] at hall
    refine hall (p, n) ?_
    simp only [facePoints, List.mem_filterMap]
    exact ⟨a, ha, by simp [hn, hp]⟩
  · rintro ⟨cell, face, hc, hf, hall⟩
    refine ⟨_, ⟨cell, hc, rfl⟩, ?_⟩
    simp only [List.getElem?_map, Option.map_eq_some_iff]
    refine ⟨face, hf, ?_⟩
    rw [List.all_eq_true]
    intro x hx
    simp only [facePoints, List.mem_filterMap] at hx
    obtain ⟨a, ha, hx⟩ := hx
    obtain ⟨n, p, hn, hp, hl⟩ := hall a ha
    simp only [hn, Option.bind_some, hp, Option.map_some, Option.some.injEq] at hx
    subst hx
    rw [hh]
    exact hl

/-! ### Property theorems -/

/-- **C14.** With supported location functions and equal list lengths,
`Dirichlet_boundary_conditions` returns one entry per location function, each meeting `EntrySpec`. -/
theorem C14_selection {P K : Type} (points : List P) (locs : List (LocFn P)) (vecs : List Nat)
    (vals : List (P → K)) (h1 : locs.length = vals.length) (h2 : vals.length = vecs.length)
    (hs : ∀ loc ∈ locs, loc.supported) :
    ∃ ns vs us, dirichletBC points (some (locs, vecs, vals)) = .ok (ns, vs, us) ∧
      ns.length = locs.length ∧ vs.length = locs.length ∧ us.length = locs.length ∧
      ∀ (k : Nat) loc vec val n v u, locs[k]? = some loc → vecs[k]? = some vec → vals[k]? = some val →
        ns[k]? = some n → vs[k]? = some v → us[k]? = some u →
        EntrySpec points loc vec val n v u := by
  have hc : locs.length = vals.length ∧ vals.length = vecs.length := ⟨h1, h2⟩
  rw [dirichletBC]
  simp only [if_pos hc]
  exact (dirichletLoop_spec points locs vecs vals h1 h2).1 hs

/-- **C14 (errors).** Unequal list lengths raise `AssertionError`; equal lengths with an unsupported
argument count raise `ValueError`; `None` gives empty lists. -/
theorem C14_errors {P K : Type} (points : List P) (locs : List (LocFn P)) (vecs : List Nat)
    (vals : List (P → K)) :
    (¬(locs.length = vals.length ∧ vals.length = vecs.length) →
      dirichletBC points (some (locs, vecs, vals)) = .error .assertion) ∧
    (locs.length = vals.length → vals.length = vecs.length → (∃ loc ∈ locs, ¬loc.supported) →
      dirichletBC points (some (locs, vecs, vals)) = .error .value) ∧
    dirichletBC (K := K) points none = .ok ([], [], []) := by
  refine ⟨fun h => by simp only [dirichletBC, h, if_false], fun h1 h2 h3 => ?_, rfl⟩
  simp only [dirichletBC, h1, h2, and_self, if_true]
  exact (dirichletLoop_spec points locs vecs vals h1 h2).2 h3

/-- `EntrySpec` determines the entry: two results for the same input are equal. -/
theorem C14_unique {P K : Type} (points : List P) (loc : LocFn P) (vec : Nat) (val : P → K)
    (n n' v v' : List Nat) (u u' : List K) (h : EntrySpec points loc vec val n v u)
    (h' : EntrySpec points loc vec val n' v' u') : n = n' ∧ v = v' ∧ u = u' := by
  obtain ⟨s1, m1, c1, l1, k1⟩ := h
  obtain ⟨s2, m2, c2, l2, k2⟩ := h'
  have hn : n = n' := by
    refine List.Perm.eq_of_pairwise (le := fun a b => a < b) ?_ s1 s2 ?_
    · intro a b _ _ h1 h2
      omega
    · rw [List.perm_ext_iff_of_nodup (s1.imp fun h => Nat.ne_of_lt h)
        (s2.imp fun h => Nat.ne_of_lt h)]
      intro a
      rw [m1, m2]
  subst hn
  refine ⟨rfl, by rw [c1, c2], ?_⟩
  apply List.ext_getElem?
  intro k
  by_cases hk : k < n.length
  · obtain ⟨p, hp, _⟩ := (m1 n[k]).1 (List.getElem_mem hk)
    rw [k1 k n[k] p (List.getElem?_eq_getElem hk) hp, k2 k n[k] p (List.getElem?_eq_getElem hk) hp]
  · rw [List.getElem?_eq_none (by omega), List.getElem?_eq_none (by omega)]

/-- **C15.** With supported location functions and valid connectivity,
`get_boundary_conditions_inds` returns for boundary subset `k` exactly the pairs (cell, face) all of
whose vertices satisfy location function `k`, each once, in increasing order. -/
theorem C15_faces {P : Type} (points : List P) (cells faceInds : List (List Nat))
    (locs : List (LocFn P)) (hv : ValidFaces points cells faceInds)
    (hs : ∀ loc ∈ locs, loc.supported) :
    ∃ bs, boundaryInds points cells faceInds (some locs) = .ok bs ∧ bs.length = locs.length ∧
      ∀ (k : Nat) loc b, locs[k]? = some loc → bs[k]? = some b →
        b.Pairwise (fun x y => x.1 < y.1 ∨ (x.1 = y.1 ∧ x.2 < y.2)) ∧
        ∀ c f, (c, f) ∈ b ↔ FaceOn points cells faceInds loc c f := by
  simp only [boundaryInds]
  induction locs with
  | nil => exact ⟨[], rfl, rfl, by simp⟩
  | cons loc locs ih =>
    obtain ⟨bs, hb, hl, hk⟩ := ih fun x hx => hs x (by simp [hx])
    rcases resolve_cases loc with ⟨h1, f, hf⟩ | ⟨h1, _⟩
    · refine ⟨argwhere2 (boundaryFlags points cells faceInds f) :: bs, ?_, by simp [hl], ?_⟩
      · simp [boundaryLoop, hf, hb, bind, Except.bind, pure, Except.pure]
      · intro k loc' b a1 a2
        cases k with
        | zero =>
          simp only [List.getElem?_cons_zero, Option.some.injEq] at a1 a2
          subst a1 a2
          refine ⟨argwhere2_pairwise _, fun c i => ?_⟩
          rw [mem_argwhere2, boundaryFlags_row points cells faceInds f loc (resolve_ok loc f hf).2 hv]
        | succ k => exact hk k loc' b (by simpa using a1) (by simpa using a2)
    · exact absurd (hs loc (by simp)) h1

/-- **C15 (errors).** An unsupported argument count raises `ValueError`; no location functions give
no boundary subsets. -/
theorem C15_errors {P : Type} (points : List P) (cells faceInds : List (List Nat))
    (locs : List (LocFn P)) (h : ∃ loc ∈ locs, ¬loc.supported) :
    boundaryInds points cells faceInds (some locs) = .error .value ∧
    boundaryInds points cells faceInds none = .ok [] := by
  refine ⟨?_, rfl⟩
  simp only [boundaryInds]
  induction locs with
  | nil => simp at h
  | cons loc locs ih =>
    rcases resolve_cases loc with ⟨hs, f, hf⟩ | ⟨_, hf⟩
    · obtain ⟨x, hx, hxs⟩ := h
      have hx' : x ∈ locs := by
        rcases List.mem_cons.1 hx with rfl | h
        · exact absurd hs hxs
        · exact h
      simp [boundaryLoop, hf, ih ⟨x, hx', hxs⟩, bind, Except.bind]
    · simp [boundaryLoop, hf, bind, Except.bind]

/-- **C15 (counter).** For a function of one argument `count_selected_faces` returns the number of
(cell, face) pairs whose vertices all satisfy it: the length of any duplicate-free list of exactly
those pairs, in particular of the selection made by `get_boundary_conditions_inds`. -/
theorem C15_count {P : Type} (points : List P) (cells faceInds : List (List Nat)) (g : P → Bool)
    (hv : ValidFaces points cells faceInds) :
    ∃ n, countSelectedFaces points cells faceInds (.one g) = .ok n ∧
      ∀ b : List (Nat × Nat), b.Nodup → (∀ c f, (c, f) ∈ b ↔
        FaceOn points cells faceInds (.one g) c f) → b.length = n := by
  refine ⟨_, rfl, fun b hb hmem => ?_⟩
  have hflags : (cells.map fun cell => faceInds.map fun face =>
      (face.filterMap fun a => (cell[a]?).bind fun n => points[n]?).all g)
      = boundaryFlags points cells faceInds (fun p _ => g p) := by
    refine List.map_congr_left fun cell _ => List.map_congr_left fun face _ => ?_
    rw [Bool.eq_iff_iff, List.all_eq_true, List.all_eq_true]
    constructor
    · intro h x hx
      simp only [facePoints, List.mem_filterMap] at hx
      obtain ⟨a, ha, hx⟩ := hx
      rcases hn : cell[a]? with _ | n
      · simp [hn] at hx
      · rcases hp : points[n]? with _ | p
        · simp [hn, hp] at hx
        · simp only [hn, Option.bind_some, hp, Option.map_some, Option.some.injEq] at hx
          subst hx
          refine h p ?_
          rw [List.mem_filterMap]
          exact ⟨a, ha, by simp [hn, hp]⟩
    · intro h x hx
      rw [List.mem_filterMap] at hx
      obtain ⟨a, ha, hx⟩ := hx
      rcases hn : cell[a]? with _ | n
      · simp [hn] at hx
      · simp only [hn, Option.bind_some] at hx
        refine h (x, n) ?_
        simp only [facePoints, List.mem_filterMap]
        exact ⟨a, ha, by simp [hn, hx]⟩
  rw [hflags]
  apply List.Perm.length_eq
  rw [List.perm_ext_iff_of_nodup hb ((argwhere2_pairwise _).imp ?_)]
  · rintro ⟨c, i⟩
    rw [hmem, mem_argwhere2, boundaryFlags_row points cells faceInds (fun p _ => g p) (.one g)
      (fun _ _ => Iff.rfl) hv]
  · intro a b hab h
    subst h
    simp [lexLt] at hab

/-! Concrete cases. -/

example : dirichletBC [10, 20, 30, 40] (some ([.one fun p => p > 15, .two fun p n => p > 15 && n == 3],
    [0, 1], [fun p : Nat => p + 1, fun _ => 7]))
    = .ok ([[1, 2, 3], [3]], [[0, 0, 0], [1]], [[21, 31, 41], [7]]) := by decide

example : boundaryInds [10, 20, 30, 40] [[0, 1, 3], [1, 2, 3]] [[0, 1], [1, 2], [0, 2]]
    (some [.one fun p => p > 15, .two fun _ n => n == 1 || n == 2])
    = .ok [[(0, 1), (1, 0), (1, 1), (1, 2)], [(1, 0)]] := by decide

example : countSelectedFaces [10, 20, 30, 40] [[0, 1, 3], [1, 2, 3]] [[0, 1], [1, 2], [0, 2]]
    (.one fun p => p > 15) = .ok 4 := by decide

example : ValidFaces [10, 20, 30, 40] [[0, 1, 3], [1, 2, 3]] [[0, 1], [1, 2], [0, 2]] := by
  intro cell hc face hf a ha
  simp only [List.mem_cons, List.not_mem_nil, or_false] at hc hf
  rcases hc with rfl | rfl <;> rcases hf with rfl | rfl | rfl <;>
    simp only [List.mem_cons, List.not_mem_nil, or_false] at ha <;> rcases ha with rfl | rfl <;> simp

end JaxFem
