import Verif.Thm.Coupled

/-!
# C75: problems with several variables are put together correctly
-/

namespace JaxFem

/-! ### Helper lemmas -/

theorem getElements_known (t : String) : (∃ i, getElements t = .ok i) ↔ KnownElement t := by
  constructor
  · intro ⟨i, hi⟩
    by_contra hk
    simp only [KnownElement, List.mem_cons, List.not_mem_nil, or_false, not_or] at hk
    simp only [getElements, hk, if_false] at hi
    cases hi
  · intro hk
    simp only [KnownElement, List.mem_cons, List.not_mem_nil, or_false] at hk
    rcases hk with rfl | rfl | rfl | rfl | rfl | rfl | rfl | rfl | rfl <;>
      exact ⟨_, by simp only [getElements]; rfl⟩

theorem singleton_unknown (c : Char) : ¬ KnownElement (String.singleton c) := by
  intro h
  simp only [KnownElement, List.mem_cons, List.not_mem_nil, or_false] at h
  have hl : (String.singleton c).length = 1 := by simp
  rcases h with h | h | h | h | h | h | h | h | h <;> rw [h] at hl <;> revert hl <;> decide

theorem item_ok {α : Type} (a : Arg α) (i : Nat) (x : α) : a.item i = .ok x ↔ ListFor a i x := by
  cases a with
  | one a => simp [Arg.item, ListFor]
  | many l =>
    simp only [Arg.item, ListFor, Arg.many.injEq]
    constructor
    · intro h
      refine ⟨l, rfl, ?_⟩
      split at h <;> simp_all
    · rintro ⟨l', rfl, h⟩
      rw [h]

theorem shared_ok {α : Type} (a : Arg α) (i : Nat) (x : α) : a.shared i = .ok x ↔ SharedFor a i x := by
  cases a with
  | one a => simp [Arg.shared, SharedFor, ListFor]
  | many l =>
    simp only [Arg.shared, SharedFor]
    rw [item_ok]
    simp

theorem bind_ok {α β : Type} (x : Except Err α) (f : α → Except Err β) (b : β) :
    (x >>= f) = .ok b ↔ ∃ a, x = .ok a ∧ f a = .ok b := by
  cases x with
  | error e => simp [bind, Except.bind]
  | ok a => simp [bind, Except.bind]

theorem bc_ok {L V : Type} (a : BcArg L V) (i : Nat) (x : Option (BcInfo L V)) :
    (∃ r, a.item i = .ok r ∧ r = .ok x) ↔ BcFor a i x := by
  cases a with
  | none => simp [BcArg.item, BcFor, eq_comm]
  | info b =>
    simp only [BcArg.item, BcFor]
    constructor
    · rintro ⟨r, h, rfl⟩
      split at h
      · split at h <;> simp at h
      · split at h
        · split at h <;> simp at h
        · split at h
          · split at h <;> simp at h
          · simp at h
    · rintro (⟨h, -⟩ | ⟨l, h, -⟩) <;> cases h
  | perVar l =>
    simp only [BcArg.item, BcFor]
    constructor
    · rintro ⟨r, h, rfl⟩
      right
      refine ⟨l, rfl, ?_⟩
      split at h <;> simp_all
    · rintro (⟨h, -⟩ | ⟨l', h, h'⟩)
      · cases h
      · cases h
        exact ⟨.ok x, by rw [h'], rfl⟩

theorem feArg_ok {M Q L V : Type} (p : ProblemArgs M Q L V) (i : Nat) (f : FEArgs M Q L V) :
    feArg p i = .ok f ↔ ListFor p.mesh i f.mesh ∧ ListFor p.vec i f.vec ∧
      ListFor p.eleType i f.eleType ∧ KnownElement f.eleType ∧
      SharedFor p.quadratureRule i f.quadratureRule ∧ SharedFor p.quadratureOrder i f.quadratureOrder ∧
      BcFor p.dirichlet i f.dirichlet := by
  have hs : ∀ t, (p.eleType.strItem i = .ok t ∧ KnownElement t) ↔
      (ListFor p.eleType i t ∧ KnownElement t) := by
    intro t
    cases he : p.eleType with
    | one s =>
      simp only [Arg.strItem, ListFor]
      constructor
      · rintro ⟨h, hk⟩
        split at h
        · cases h
          exact absurd hk (singleton_unknown _)
        · cases h
      · rintro ⟨⟨l, h, -⟩, -⟩
        cases h
    | many l => rw [Arg.strItem, item_ok]
  simp only [feArg, bind_ok, item_ok, shared_ok]
  constructor
  · rintro ⟨m, hm, v, hv, t, ht, r, hr, o, ho, raw, hraw, inf, hinf, b, hb, h⟩
    cases h
    have hk := (getElements_known t).1 ⟨inf, hinf⟩
    exact ⟨hm, hv, ((hs t).1 ⟨ht, hk⟩).1, hk, hr, ho, (bc_ok _ _ _).1 ⟨raw, hraw, hb⟩⟩
  · rintro ⟨hm, hv, ht, hk, hr, ho, hb⟩
    obtain ⟨raw, hraw, hb⟩ := (bc_ok _ _ _).2 hb
    obtain ⟨inf, hinf⟩ := (getElements_known _).2 hk
    exact ⟨_, hm, _, hv, _, ((hs _).2 ⟨ht, hk⟩).1, _, hr, _, ho, raw, hraw, inf, hinf, _, hb, rfl⟩

theorem mapM_range_ok {β : Type} (f : Nat → Except Err β) (n : Nat) (l : List β) :
    (List.range n).mapM f = .ok l ↔ l.length = n ∧ ∀ (i : Nat) b, l[i]? = some b → f i = .ok b := by
  have gen : ∀ (ns : List Nat) (l : List β), ns.mapM f = .ok l ↔
      l.length = ns.length ∧ ∀ (i : Nat) b k, l[i]? = some b → ns[i]? = some k → f k = .ok b := by
    intro ns
    induction ns with
    | nil =>
      intro l
      simp only [List.mapM_nil, pure, Except.pure, Except.ok.injEq, List.length_nil, List.length_eq_zero_iff]
      constructor
      · rintro rfl
        simp
      · rintro ⟨rfl, -⟩
        rfl
    | cons n ns ih =>
      intro l
      rw [List.mapM_cons]
      simp only [bind_ok, ih, pure, Except.pure, Except.ok.injEq]
      constructor
      · rintro ⟨b, hb, t, ⟨ht, h⟩, rfl⟩
        refine ⟨by simp [ht], fun i b' k h1 h2 => ?_⟩
        cases i with
        | zero =>
          simp only [List.getElem?_cons_zero, Option.some.injEq] at h1 h2
          rw [← h1, ← h2, hb]
        | succ i =>
          simp only [List.getElem?_cons_succ] at h1 h2
          exact h i b' k h1 h2
      · rintro ⟨hl, h⟩
        cases l with
        | nil => simp at hl
        | cons b t =>
          exact ⟨b, h 0 b n rfl rfl, t, ⟨by simpa using hl, fun i b' k h1 h2 =>
            h (i + 1) b' k (by simpa using h1) (by simpa using h2)⟩, rfl⟩
  rw [gen]
  simp only [List.length_range]
  constructor
  · rintro ⟨hl, h⟩
    refine ⟨hl, fun i b hb => h i b i hb ?_⟩
    have : i < n := by rw [← hl]; exact (List.getElem?_eq_some_iff.1 hb).1
    simp [this]
  · rintro ⟨hl, h⟩
    refine ⟨hl, fun i b k hb hk => ?_⟩
    have := (List.getElem?_eq_some_iff.1 hk).2
    simp only [List.getElem_range] at this
    subst this
    exact h i b hb

theorem block_get {dim : Nat} {β : Type} (vars : List (CVar dim)) (f : CVar dim → List β)
    (h : ∀ v ∈ vars, (f v).length = v.nn) (i : Nat) (hi : i < vars.length) (a : Nat)
    (ha : a < vars[i].nn) :
    (vars.flatMap f)[((vars.take i).map CVar.nn).sum + a]? = (f vars[i])[a]? := by
  have hsl := slice_flatMap vars f CVar.nn h i hi
  rw [← hsl, slice, List.getElem?_drop, List.getElem?_take, if_pos]
  rw [List.take_succ_eq_append_getElem hi, List.map_append, List.sum_append]
  simp only [List.map_cons, List.map_nil, List.sum_cons, List.sum_nil, Nat.add_zero]
  omega

theorem physGrads_eq {dim : Nat} (v : CVar dim) (e : Nat) (g : Fin v.nn → Fin dim → ℝ) (a : Fin v.nn) :
    shapeGradsPhysical (v.coos e) g a = v.physGrads e (Matrix.of g) a := by
  funext j
  rw [shapeGradsPhysical, CVar.physGrads, Matrix.mul_apply]
  refine Finset.sum_congr rfl fun k _ => ?_
  have : jacobianDxDeta (v.coos e) g = (v.X e).transpose * Matrix.of g := by
    ext i j
    simp [jacobianDxDeta, Matrix.mul_apply, CVar.X, CVar.coos, physicalCoos, CVar.node]
  rw [this]
  rfl

/-! ### Property theorems -/

/-- **C75 (one mesh).** With a single mesh the constructor succeeds exactly when the other arguments
are single values too and the element type is known; it makes one variable from these values. -/
theorem C75_single {M Q L V : Type} (p : ProblemArgs M Q L V) (m : M) (hm : p.mesh = .one m)
    (fes : List (FEArgs M Q L V)) :
    feArgs p = .ok fes ↔ ∃ k t r o b, p.vec = .one k ∧ p.eleType = .one t ∧ KnownElement t ∧
      p.quadratureRule = .one r ∧ p.quadratureOrder = .one o ∧
      ((p.dirichlet = .none ∧ b = none) ∨ ∃ i, p.dirichlet = .info i ∧ b = some i) ∧
      fes = [⟨m, k, t, r, o, b⟩] := by
  have wrapOk : ∀ {α : Type} (a b : Arg α), a.wrap = .ok b ↔ ∃ x, a = .one x ∧ b = .many [x] := by
    intro α a b
    cases a with
    | one a => simp [Arg.wrap, eq_comm]
    | many l => simp [Arg.wrap]
  have bcOk : ∀ (b : BcArg L V), p.dirichlet.wrap = .ok b ↔ ∃ x, b = .perVar [x] ∧
      ((p.dirichlet = .none ∧ x = none) ∨ ∃ i, p.dirichlet = .info i ∧ x = some i) := by
    intro b
    cases hd : p.dirichlet with
    | none => simp [BcArg.wrap, eq_comm]
    | info i =>
      simp only [BcArg.wrap, Except.ok.injEq, reduceCtorEq, false_and, false_or, BcArg.info.injEq]
      constructor
      · rintro rfl
        exact ⟨_, rfl, i, rfl, rfl⟩
      · rintro ⟨x, rfl, j, rfl, rfl⟩
        rfl
    | perVar l =>
      simp only [BcArg.wrap, reduceCtorEq, false_and, exists_false, or_false, and_false, iff_false]
      split <;> simp
  have one : ∀ {α : Type} (x y : α), ListFor (.many [x]) 0 y ↔ x = y := by
    intro α x y
    simp [ListFor]
  have hw : ∀ q, wrapArgs p = .ok q ↔ ∃ k t r o b, p.vec = .one k ∧ p.eleType = .one t ∧
      p.quadratureRule = .one r ∧ p.quadratureOrder = .one o ∧
      ((p.dirichlet = .none ∧ b = none) ∨ ∃ i, p.dirichlet = .info i ∧ b = some i) ∧
      q = ⟨.many [m], .many [k], .many [t], .many [r], .many [o], .perVar [b]⟩ := by
    intro q
    rw [wrapArgs, hm]
    simp only [bind_ok, wrapOk, bcOk, Except.ok.injEq]
    constructor
    · rintro ⟨_, ⟨k, hk, rfl⟩, _, ⟨t, ht, rfl⟩, _, ⟨r, hr, rfl⟩, _, ⟨o, ho, rfl⟩, _, ⟨b, rfl, hb⟩, rfl⟩
      exact ⟨k, t, r, o, b, hk, ht, hr, ho, hb, rfl⟩
    · rintro ⟨k, t, r, o, b, hk, ht, hr, ho, hb, rfl⟩
      exact ⟨_, ⟨k, hk, rfl⟩, _, ⟨t, ht, rfl⟩, _, ⟨r, hr, rfl⟩, _, ⟨o, ho, rfl⟩, _, ⟨b, rfl, hb⟩, rfl⟩
  simp only [feArgs, bind_ok, hw]
  constructor
  · rintro ⟨q, ⟨k, t, r, o, b, hk, ht, hr, ho, hb, rfl⟩, l, hl, h⟩
    dsimp only at hl
    rw [mapM_range_ok] at hl
    obtain ⟨h1, h2⟩ := hl
    obtain ⟨f, rfl⟩ := List.length_eq_one_iff.1 h1
    have := (feArg_ok _ 0 f).1 (h2 0 f rfl)
    simp only [one, SharedFor, BcFor, reduceCtorEq, false_or, false_and, BcArg.perVar.injEq] at this
    obtain ⟨c1, c2, c3, c4, c5, c6, l, rfl, c7⟩ := this
    simp only [List.isEmpty_cons, Bool.false_eq_true, if_false, Except.ok.injEq] at h
    simp only [List.getElem?_cons_zero, Option.some.injEq] at c7
    subst h c1 c2 c3 c5 c6 c7
    exact ⟨_, _, _, _, _, hk, ht, c4, hr, ho, hb, rfl⟩
  · rintro ⟨k, t, r, o, b, hk, ht, hkn, hr, ho, hb, rfl⟩
    refine ⟨_, ⟨k, t, r, o, b, hk, ht, hr, ho, hb, rfl⟩, [⟨m, k, t, r, o, b⟩], ?_, by simp⟩
    rw [mapM_range_ok]
    refine ⟨rfl, fun i f hf => ?_⟩
    have hi : i = 0 := by
      have := (List.getElem?_eq_some_iff.1 hf).1
      simpa using this
    subst hi
    simp only [List.getElem?_cons_zero, Option.some.injEq] at hf
    subst hf
    rw [feArg_ok]
    simp only [one, SharedFor, BcFor, reduceCtorEq, false_or, false_and, BcArg.perVar.injEq]
    exact ⟨trivial, trivial, trivial, hkn, trivial, trivial, _, rfl, rfl⟩

/-- **C75 (list of meshes).** With a list of meshes the constructor succeeds exactly when the list is
not empty and, for every mesh, `vec` and `ele_type` are lists that have an entry at its position, with a
known element type, the quadrature arguments are single values or lists that have one, and the boundary
conditions are `None` or a list per variable that has one; variable `i` is made from these entries.
Surplus entries are ignored; one triple of boundary conditions for a list of meshes is never
accepted. -/
theorem C75_list {M Q L V : Type} (p : ProblemArgs M Q L V) (ms : List M) (hm : p.mesh = .many ms)
    (fes : List (FEArgs M Q L V)) :
    feArgs p = .ok fes ↔ ms ≠ [] ∧ fes.length = ms.length ∧ ∀ (i : Nat) f, fes[i]? = some f →
      ms[i]? = some f.mesh ∧ ListFor p.vec i f.vec ∧ ListFor p.eleType i f.eleType ∧
      KnownElement f.eleType ∧ SharedFor p.quadratureRule i f.quadratureRule ∧
      SharedFor p.quadratureOrder i f.quadratureOrder ∧ BcFor p.dirichlet i f.dirichlet := by
  have hw : wrapArgs p = .ok p := by rw [wrapArgs, hm]
  have hmesh : ∀ i x, ListFor p.mesh i x ↔ ms[i]? = some x := by
    intro i x
    rw [hm]
    simp [ListFor]
  rw [feArgs, hw]
  simp only [bind_ok, Except.ok.injEq, exists_eq_left', hm]
  constructor
  · rintro ⟨l, hl, h⟩
    rw [mapM_range_ok] at hl
    split at h
    · cases h
    · rename_i hne
      cases h
      refine ⟨?_, hl.1, fun i f hf => ?_⟩
      · rintro rfl
        have : fes = [] := by simpa using hl.1
        simp [this] at hne
      · have := (feArg_ok p i f).1 (hl.2 i f hf)
        rw [hmesh] at this
        exact this
  · rintro ⟨h0, h1, h2⟩
    refine ⟨fes, ?_, ?_⟩
    · rw [mapM_range_ok]
      refine ⟨h1, fun i f hf => (feArg_ok p i f).2 ?_⟩
      rw [hmesh]
      exact h2 i f hf
    · rw [if_neg]
      cases fes with
      | nil =>
        simp only [List.length_nil] at h1
        exact absurd (List.length_eq_zero_iff.1 h1.symm) h0
      | cons f fes => simp

/-- **C75 (a triple for a list of meshes).** The boundary conditions of one variable given for a list
of meshes are rejected, also when the list has one mesh; so is an element type given as a string. -/
theorem C75_rejected {M Q L V : Type} (p : ProblemArgs M Q L V) (ms : List M) (hm : p.mesh = .many ms)
    (h : (∃ b, p.dirichlet = .info b) ∨ ∃ t, p.eleType = .one t) :
    ∃ err, feArgs p = .error err := by
  cases hf : feArgs p with
  | error err => exact ⟨err, rfl⟩
  | ok fes =>
    exfalso
    obtain ⟨h0, h1, h2⟩ := (C75_list p ms hm fes).1 hf
    cases fes with
    | nil =>
      simp only [List.length_nil] at h1
      exact h0 (List.length_eq_zero_iff.1 h1.symm)
    | cons f fes =>
      obtain ⟨-, -, c3, -, -, -, c7⟩ := h2 0 f rfl
      rcases h with ⟨b, hb⟩ | ⟨t, ht⟩
      · rw [hb] at c7
        rcases c7 with ⟨c, -⟩ | ⟨l, c, -⟩ <;> cases c
      · rw [ht] at c3
        obtain ⟨l, c, -⟩ := c3
        cases c

variable {dim : Nat}

/-- **C75 (when the geometry can be packed).** Exactly when there is a variable, all variables have as
many cells and quadrature points as the first, and, if there are boundary subsets, as many face
points. -/
theorem C75_pack_iff (vars : List (CVar dim)) (bs : List BoundaryInds) :
    (∃ pk, pack vars bs = .ok pk) ↔ vars ≠ [] ∧
      (∀ v ∈ vars, ∀ w ∈ vars, v.cells.length = w.cells.length ∧ v.nq = w.nq) ∧
      (bs = [] ∨ ∀ v ∈ vars, ∀ w ∈ vars, v.nfq = w.nfq) := by
  cases vars with
  | nil => simp [pack]
  | cons v0 vars =>
    have all2 : ∀ (P : CVar dim → Nat), (∀ v ∈ v0 :: vars, P v = P v0) ↔
        ∀ v ∈ v0 :: vars, ∀ w ∈ v0 :: vars, P v = P w :=
      fun P => ⟨fun h v hv w hw => (h v hv).trans (h w hw).symm, fun h v hv => h v hv v0 (by simp)⟩
    have c1 : (v0 :: vars).all (fun v => v.cells.length == v0.cells.length && v.nq == v0.nq) = true ↔
        ∀ v ∈ v0 :: vars, ∀ w ∈ v0 :: vars, v.cells.length = w.cells.length ∧ v.nq = w.nq := by
      rw [List.all_eq_true]
      constructor
      · intro h v hv w hw
        have h1 := h v hv
        have h2 := h w hw
        simp only [Bool.and_eq_true, beq_iff_eq] at h1 h2
        exact ⟨h1.1.trans h2.1.symm, h1.2.trans h2.2.symm⟩
      · intro h v hv
        simp [h v hv v0 (by simp)]
    have c2 : (bs.isEmpty || (v0 :: vars).all fun v => v.nfq == v0.nfq) = true ↔
        (bs = [] ∨ ∀ v ∈ v0 :: vars, ∀ w ∈ v0 :: vars, v.nfq = w.nfq) := by
      rw [Bool.or_eq_true, List.isEmpty_iff, List.all_eq_true, ← all2 CVar.nfq]
      simp only [beq_iff_eq]
    rw [pack, ← c1, ← c2]
    constructor
    · rintro ⟨pk, h⟩
      split at h
      · rename_i h1
        split at h
        · rename_i h2
          exact ⟨by simp, h1, h2⟩
        · cases h
      · cases h
    · rintro ⟨-, h1, h2⟩
      rw [if_pos h1, if_pos h2]
      exact ⟨_, rfl⟩

/-- **C75 (cells).** In the packed arrays of cell `e`, the block of variable `i` holds the gradients of
its own shape functions in its own cell `e`, these gradients times its own measure, and row `i` of `JxW`
its own measure; the quadrature points are those of the first variable. -/
theorem C75_cells (vars : List (CVar dim)) (bs : List BoundaryInds) (pk : Packed dim)
    (h : pack vars bs = .ok pk) (h0 : 0 < vars.length) :
    pk.cells.length = vars[0].cells.length ∧
    ∀ e d, pk.cells[e]? = some d →
      d.numQuads = vars[0].nq ∧ (∀ q, d.quadPoints q = vars[0].posAt e q) ∧ d.JxW.length = vars.length ∧
      ∀ i (hi : i < vars.length) (q : Nat),
        BlockIs vars i (d.shapeGrads q) vars[i].nn (fun a => vars[i].physGrads e (vars[i].G q) a) ∧
        BlockIs vars i (d.vGradsJxW q) vars[i].nn
          (fun a j => vars[i].physGrads e (vars[i].G q) a j * vars[i].measure e q) ∧
        d.JxW.getD i 0 q = vars[i].measure e q := by
  cases vars with
  | nil => simp at h0
  | cons v0 vars =>
    rw [pack] at h
    split at h
    · split at h
      · cases h
        refine ⟨by simp, fun e d hd => ?_⟩
        simp only [List.getElem?_map, Option.map_eq_some_iff] at hd
        obtain ⟨e', he', rfl⟩ := hd
        have : e' = e := by
          have := (List.getElem?_eq_some_iff.1 he').2
          simpa using this.symm
        subst this
        refine ⟨rfl, fun q => ?_, by simp, fun i hi q => ⟨fun a => ?_, fun a => ?_, ?_⟩⟩
        · funext i
          simp only [List.getElem_cons_zero, CVar.quadPoint, physicalPoint, CVar.posAt]
          rfl
        · rw [block_get _ _ (fun v _ => by simp [CVar.shapeGrads]) i hi a a.2, CVar.shapeGrads,
            List.getElem?_ofFn, dif_pos a.2]
          exact congrArg some (physGrads_eq _ _ _ a)
        · rw [block_get _ _ (fun v _ => by simp [CVar.vGradsJxW, CVar.shapeGrads]) i hi a a.2,
            CVar.vGradsJxW, List.getElem?_map, CVar.shapeGrads, List.getElem?_ofFn, dif_pos a.2,
            Option.map_some, CVar.jxw_eq]
          exact congrArg some (by
            funext j
            exact congrArg (· * _) (congrFun (physGrads_eq _ _ _ a) j))
        · rw [List.getD_eq_getElem _ _ (by simpa using hi), List.getElem_map, CVar.jxw_eq]
      · cases h
    · cases h

/-- **C75 (faces).** The same for every selected face of every boundary subset. -/
theorem C75_faces (vars : List (CVar dim)) (bs : List BoundaryInds) (pk : Packed dim)
    (h : pack vars bs = .ok pk) (h0 : 0 < vars.length) :
    pk.faces.length = bs.length ∧ ∀ (s : Nat) b l, bs[s]? = some b → pk.faces[s]? = some l →
      l.length = b.length ∧ ∀ (k : Nat) p d, b[k]? = some p → l[k]? = some d →
        d.numQuads = vars[0].nfq ∧
        (∀ q i, d.quadPoints q i = ∑ a : Fin vars[0].nn, vars[0].faceShapeVals p.2 q a * vars[0].X p.1 a i) ∧
        d.nanson.length = vars.length ∧
        ∀ i (hi : i < vars.length) (q : Nat),
          BlockIs vars i (d.shapeVals q) vars[i].nn (fun a => vars[i].faceShapeVals p.2 q a) ∧
          BlockIs vars i (d.shapeGrads q) vars[i].nn
            (fun a => vars[i].physGrads p.1 (vars[i].faceG p.2 q) a) ∧
          d.nanson.getD i 0 q = nansonScale (vars[i].X p.1) (vars[i].faceG p.2 q) (vars[i].faceNormals p.2)
            (vars[i].faceQuadWeights p.2 q) := by
  cases vars with
  | nil => simp at h0
  | cons v0 vars =>
    rw [pack] at h
    split at h
    · split at h
      · cases h
        refine ⟨by simp, fun s b l hb hl => ?_⟩
        simp only [List.getElem?_map, hb, Option.map_some, Option.some.injEq] at hl
        subst hl
        refine ⟨by simp, fun k p d hp hd => ?_⟩
        simp only [List.getElem?_map, hp, Option.map_some, Option.some.injEq] at hd
        subst hd
        refine ⟨rfl, fun q i => rfl, by simp, fun i hi q => ⟨fun a => ?_, fun a => ?_, ?_⟩⟩
        · rw [block_get _ _ (fun v _ => by simp [CVar.faceVals]) i hi a a.2, CVar.faceVals,
            List.getElem?_map, List.getElem?_range a.2]
          rfl
        · rw [block_get _ _ (fun v _ => by simp [CVar.faceShapeGrads]) i hi a a.2, CVar.faceShapeGrads,
            List.getElem?_ofFn, dif_pos a.2]
          exact congrArg some (physGrads_eq _ _ _ a)
        · rw [List.getD_eq_getElem _ _ (by simpa using hi), List.getElem_map]
          rfl
      · cases h
    · cases h

/-- **C75 (slices).** The slice `[:, cumsum[i]:cumsum[i+1]]` of an array whose axis is the concatenation
over the variables is the part of variable `i`. -/
theorem C75_slice {α : Type} (vars : List (CVar dim)) (row : List α) (i : Nat) (hi : i < vars.length)
    (hrow : row.length = (vars.map CVar.nn).sum) (M : Fin vars[i].nn → α)
    (h : BlockIs vars i row vars[i].nn M) :
    sliceVar (numNodesCumsum vars) i row = List.ofFn M := by
  have e1 : ((vars.take (i + 1)).map CVar.nn).sum = ((vars.take i).map CVar.nn).sum + vars[i].nn := by
    rw [List.take_succ_eq_append_getElem hi, List.map_append, List.sum_append]
    simp
  have e2 : ((vars.take (i + 1)).map CVar.nn).sum ≤ row.length := by
    rw [hrow]
    conv_rhs => rw [← List.take_append_drop (i + 1) vars, List.map_append, List.sum_append]
    omega
  rw [sliceVar, numNodesCumsum, cumsum_getD _ _ _ (by simpa using hi.le),
    cumsum_getD _ _ _ (by simpa using hi), Nat.zero_add, Nat.zero_add, ← List.map_take, ← List.map_take]
  have hlen : (slice row ((vars.take i).map CVar.nn).sum ((vars.take (i + 1)).map CVar.nn).sum).length
      = vars[i].nn := by
    simp only [slice, List.length_drop, List.length_take]
    omega
  refine List.ext_getElem (by simpa using hlen) fun k h1 h2 => ?_
  have hk : k < vars[i].nn := by simpa using h2
  have := h ⟨k, hk⟩
  rw [List.getElem_ofFn]
  simp only [slice, List.getElem_drop, List.getElem_take]
  exact (List.getElem?_eq_some_iff.1 this).2

/-! ### Non-trivial cases -/

/-- Stokes: two meshes, one shared quadrature rule, boundary conditions for the velocity only. -/
def stokesArgs : ProblemArgs String (Option Nat) Nat Nat :=
  { mesh := .many ["fine", "coarse"], vec := .many [2, 1, 7], eleType := .many ["QUAD8", "QUAD4"],
    quadratureRule := .one none, quadratureOrder := .many [none, some 3],
    dirichlet := .perVar [some ⟨[1, 2], [0, 1], [5, 6]⟩, none] }

example : feArgs stokesArgs = .ok
    [⟨"fine", 2, "QUAD8", none, none, some ⟨[1, 2], [0, 1], [5, 6]⟩⟩,
     ⟨"coarse", 1, "QUAD4", none, some 3, none⟩] := by
  rw [C75_list _ _ rfl]
  refine ⟨by simp, rfl, fun i f hf => ?_⟩
  match i, hf with
  | 0, hf =>
    cases hf
    exact ⟨rfl, ⟨_, rfl, rfl⟩, ⟨_, rfl, rfl⟩, by simp [KnownElement], .inl rfl, .inr ⟨_, rfl, rfl⟩,
      .inr ⟨_, rfl, rfl⟩⟩
  | 1, hf =>
    cases hf
    exact ⟨rfl, ⟨_, rfl, rfl⟩, ⟨_, rfl, rfl⟩, by simp [KnownElement], .inl rfl, .inr ⟨_, rfl, rfl⟩,
      .inr ⟨_, rfl, rfl⟩⟩

/-- The same with the triple of the velocity instead of a list per variable. -/
example : ∃ err, feArgs { stokesArgs with dirichlet := .info ⟨[1, 2, 3], [0, 1, 0], [5, 6, 7]⟩ } =
    .error err := C75_rejected _ _ rfl (.inl ⟨_, rfl⟩)

/-- Two variables with different numbers of local nodes on one cell. -/
noncomputable def packVars : List (CVar 2) :=
  [{ numTotalNodes := 6, vec := 2, nn := 6, nq := 3, nfq := 2, points := [],
     cells := [[0, 1, 2, 3, 4, 5]], shapeVals := fun _ _ => 0, shapeGradsRef := fun _ _ _ => 0,
     quadWeights := fun _ => 0, faceShapeVals := fun _ _ _ => 0, faceShapeGradsRef := fun _ _ _ _ => 0,
     faceNormals := fun _ _ => 0, faceQuadWeights := fun _ _ => 0 },
   { numTotalNodes := 3, vec := 1, nn := 3, nq := 3, nfq := 2, points := [],
     cells := [[0, 1, 2]], shapeVals := fun _ _ => 0, shapeGradsRef := fun _ _ _ => 0,
     quadWeights := fun _ => 0, faceShapeVals := fun _ _ _ => 0, faceShapeGradsRef := fun _ _ _ _ => 0,
     faceNormals := fun _ _ => 0, faceQuadWeights := fun _ _ => 0 }]

example : ∃ pk, pack packVars [[(0, 1)]] = .ok pk := by
  rw [C75_pack_iff]
  refine ⟨by simp [packVars], ?_, .inr ?_⟩
  · intro v hv w hw
    simp only [packVars, List.mem_cons, List.not_mem_nil, or_false] at hv hw
    rcases hv with rfl | rfl <;> rcases hw with rfl | rfl <;> simp
  · intro v hv w hw
    simp only [packVars, List.mem_cons, List.not_mem_nil, or_false] at hv hw
    rcases hv with rfl | rfl <;> rcases hw with rfl | rfl <;> simp

end JaxFem
