import Verif.Spec.BC
import Verif.Thm.C01_Dofs

/-!
# Helper lemmas on boundary conditions
-/

namespace JaxFem

universe u
variable {K : Type u}

/-! ### 2-D arrays -/

/-- Entry of a 2-D array (0 outside). -/
def ent [Zero K] (a : List (List K)) (n c : Nat) : K := (a.getD n []).getD c 0

/-- `a` has `N` rows of length `V`. -/
def Shape (a : List (List K)) (N V : Nat) : Prop := a.length = N ∧ ∀ r ∈ a, r.length = V

theorem Shape.row {a : List (List K)} {N V : Nat} (h : Shape a N V) {n : Nat} (hn : n < N) :
    ∃ r, a[n]? = some r ∧ r.length = V := by
  have hn' : n < a.length := by rw [h.1]; exact hn
  exact ⟨a[n], List.getElem?_eq_getElem hn', h.2 _ (List.getElem_mem hn')⟩

theorem Shape.modify {a : List (List K)} {N V : Nat} (h : Shape a N V) (n : Nat)
    (f : List K → List K) (hf : ∀ r, r.length = V → (f r).length = V) : Shape (a.modify n f) N V := by
  refine ⟨by rw [List.length_modify]; exact h.1, fun r hr => ?_⟩
  obtain ⟨k, hk, rfl⟩ := List.mem_iff_getElem.1 hr
  rw [List.getElem_modify]
  split
  · exact hf _ (h.2 _ (List.getElem_mem _))
  · exact h.2 _ (List.getElem_mem _)

theorem ent_modify_set [Zero K] {a : List (List K)} {N V : Nat} (h : Shape a N V) (n' c' : Nat) (v : K)
    {n c : Nat} (hn : n < N) (hc : c < V) :
    ent (a.modify n' fun r => r.set c' v) n c = if (n', c') = (n, c) then v else ent a n c := by
  obtain ⟨r, hr, hl⟩ := h.row hn
  simp only [ent, List.getD_eq_getElem?_getD, List.getElem?_modify, hr, Prod.mk.injEq]
  by_cases e : n' = n
  · by_cases e2 : c' = c
    · subst e2; simp [e, List.getElem?_set, hl, hc]
    · simp [e, e2, List.getElem?_set]
  · simp [e]

theorem ent_modify_add [AddMonoid K] {a : List (List K)} {N V : Nat} (h : Shape a N V) (n' c' : Nat)
    (v : K) {n c : Nat} (hn : n < N) (hc : c < V) :
    ent (a.modify n' fun r => r.modify c' fun x => x + v) n c
      = if (n', c') = (n, c) then ent a n c + v else ent a n c := by
  obtain ⟨r, hr, hl⟩ := h.row hn
  simp only [ent, List.getD_eq_getElem?_getD, List.getElem?_modify, hr, Prod.mk.injEq]
  by_cases e : n' = n
  · have : r[c]? = some (r[c]'(by omega)) := List.getElem?_eq_getElem (by omega)
    by_cases e2 : c' = c
    · simp [e, e2, List.getElem?_modify, this]
    · simp [e, e2, List.getElem?_modify]
  · simp [e]

/-- A fold of point updates over distinct positions: `g v old` is the new value. -/
theorem fold_points [Zero K] {N V : Nat} (upd : List (List K) → (Nat × Nat) × K → List (List K))
    (g : K → K → K)
    (hs : ∀ a p, Shape a N V → Shape (upd a p) N V)
    (he : ∀ a p, Shape a N V → ∀ n c, n < N → c < V →
      ent (upd a p) n c = if p.1 = (n, c) then g p.2 (ent a n c) else ent a n c)
    (ps : List ((Nat × Nat) × K)) (hnd : (ps.map Prod.fst).Nodup) (a : List (List K))
    (ha : Shape a N V) :
    Shape (ps.foldl upd a) N V ∧ ∀ n c, n < N → c < V →
      (∀ v, ((n, c), v) ∈ ps → ent (ps.foldl upd a) n c = g v (ent a n c)) ∧
      ((n, c) ∉ ps.map Prod.fst → ent (ps.foldl upd a) n c = ent a n c) := by
  induction ps generalizing a with
  | nil => exact ⟨ha, fun n c _ _ => ⟨by simp, by simp⟩⟩
  | cons p ps ih =>
    simp only [List.map_cons, List.nodup_cons] at hnd
    obtain ⟨h1, h2⟩ := ih hnd.2 (upd a p) (hs a p ha)
    refine ⟨h1, fun n c hn hc => ?_⟩
    obtain ⟨h3, h4⟩ := h2 n c hn hc
    rw [he a p ha n c hn hc] at h3 h4
    simp only [List.foldl_cons]
    constructor
    · intro v hv
      rcases List.mem_cons.1 hv with rfl | hv
      · rw [h4 hnd.1]; simp
      · have : p.1 ≠ (n, c) := fun e => hnd.1 (by
          rw [e]; exact List.mem_map.2 ⟨_, hv, rfl⟩)
        rw [h3 v hv, if_neg this]
    · intro hnot
      simp only [List.map_cons, List.mem_cons, not_or] at hnot
      rw [h4 hnot.2, if_neg (Ne.symm hnot.1)]

theorem zip_fst_nodup {α β : Type*} (l : List α) (m : List β) (h : l.Nodup) :
    ((l.zip m).map Prod.fst).Nodup := by
  induction l generalizing m with
  | nil => simp
  | cons a l ih =>
    cases m with
    | nil => simp
    | cons b m =>
      simp only [List.zip_cons_cons, List.map_cons, List.nodup_cons] at h ⊢
      refine ⟨fun hm => ?_, ih m h.2⟩
      obtain ⟨p, hp, rfl⟩ := List.mem_map.1 hm
      exact h.1 (List.of_mem_zip hp).1

theorem at2Set_spec [Zero K] {N V : Nat} (nodes comps : List Nat) (vals : List K)
    (hnd : (nodes.zip comps).Nodup) (a : List (List K)) (ha : Shape a N V) :
    Shape (at2Set a nodes comps vals) N V ∧ ∀ n c, n < N → c < V →
      (∀ v, ((n, c), v) ∈ (nodes.zip comps).zip vals → ent (at2Set a nodes comps vals) n c = v) ∧
      ((n, c) ∉ ((nodes.zip comps).zip vals).map Prod.fst →
        ent (at2Set a nodes comps vals) n c = ent a n c) :=
  fold_points (fun a p => a.modify p.1.1 fun r => r.set p.1.2 p.2) (fun v _ => v)
    (fun a p h => h.modify _ _ fun r hr => by simpa using hr)
    (fun a p h n c hn hc => ent_modify_set h p.1.1 p.1.2 p.2 hn hc) _ (zip_fst_nodup _ _ hnd) a ha

theorem at2Add_spec [AddMonoid K] {N V : Nat} (nodes comps : List Nat) (vals : List K)
    (hnd : (nodes.zip comps).Nodup) (a : List (List K)) (ha : Shape a N V) :
    Shape (at2Add a nodes comps vals) N V ∧ ∀ n c, n < N → c < V →
      (∀ v, ((n, c), v) ∈ (nodes.zip comps).zip vals →
        ent (at2Add a nodes comps vals) n c = ent a n c + v) ∧
      ((n, c) ∉ ((nodes.zip comps).zip vals).map Prod.fst →
        ent (at2Add a nodes comps vals) n c = ent a n c) :=
  fold_points (fun a p => a.modify p.1.1 fun r => r.modify p.1.2 fun x => x + p.2) (fun v x => x + v)
    (fun a p h => h.modify _ _ fun r hr => by simpa using hr)
    (fun a p h n c hn hc => ent_modify_add h p.1.1 p.1.2 p.2 hn hc) _ (zip_fst_nodup _ _ hnd) a ha

/-! ### Entries -/

/-- Well-formedness of one entry. -/
def BCEntry.WF (e : BCEntry K) : Prop :=
  e.comps.length = e.nodes.length ∧ e.vals.length = e.nodes.length ∧ (e.nodes.zip e.comps).Nodup

theorem prescribes_iff (e : BCEntry K) (n c : Nat) (v : K) :
    e.Prescribes n c v ↔ ((n, c), v) ∈ (e.nodes.zip e.comps).zip e.vals := by
  rw [List.mem_iff_getElem?]
  constructor
  · rintro ⟨k, h1, h2, h3⟩
    exact ⟨k, by simp [List.getElem?_zip_eq_some, h1, h2, h3]⟩
  · rintro ⟨k, h⟩
    simp only [List.getElem?_zip_eq_some] at h
    exact ⟨k, h.1.1, h.1.2, h.2⟩

theorem prescribes_of_mem (e : BCEntry K) (h : e.WF) (n c : Nat) :
    (n, c) ∈ e.nodes.zip e.comps ↔ ∃ v, e.Prescribes n c v := by
  simp only [prescribes_iff]
  constructor
  · intro hm
    obtain ⟨k, hk⟩ := List.mem_iff_getElem?.1 hm
    have hlt := (List.getElem?_eq_some_iff.1 hk).1
    have hv : k < e.vals.length := by
      rw [h.2.1]
      rw [List.length_zip] at hlt
      omega
    exact ⟨e.vals[k], List.mem_iff_getElem?.2 ⟨k, by
      rw [List.getElem?_zip_eq_some]; exact ⟨hk, List.getElem?_eq_getElem hv⟩⟩⟩
  · rintro ⟨v, hv⟩
    exact (List.of_mem_zip hv).1

theorem prescribes_unique (e : BCEntry K) (h : e.WF) {n c : Nat} {v w : K}
    (hv : e.Prescribes n c v) (hw : e.Prescribes n c w) : v = w := by
  obtain ⟨k, h1, h2, h3⟩ := hv
  obtain ⟨l, g1, g2, g3⟩ := hw
  have e1 : (e.nodes.zip e.comps)[k]? = some (n, c) := by simp [List.getElem?_zip_eq_some, h1, h2]
  have e2 : (e.nodes.zip e.comps)[l]? = some (n, c) := by simp [List.getElem?_zip_eq_some, g1, g2]
  obtain ⟨hk, e1⟩ := List.getElem?_eq_some_iff.1 e1
  obtain ⟨hl, e2⟩ := List.getElem?_eq_some_iff.1 e2
  have : k = l := (List.Nodup.getElem_inj_iff h.2.2).1 (e1.trans e2.symm)
  subst this
  exact Option.some.inj (h3.symm.trans g3)

/-- A step that overwrites exactly the entry's positions by a function of position and value. -/
structure StepSpec [Zero K] (N V : Nat) (step : List (List K) → BCEntry K → List (List K))
    (f : Nat → Nat → K → K) (e : BCEntry K) : Prop where
  shape : ∀ a, Shape a N V → Shape (step a e) N V
  hit : ∀ a, Shape a N V → ∀ n c, n < N → c < V → ∀ v, e.Prescribes n c v →
    ent (step a e) n c = f n c v
  miss : ∀ a, Shape a N V → ∀ n c, n < N → c < V → (∀ v, ¬e.Prescribes n c v) →
    ent (step a e) n c = ent a n c

theorem fold_entries [Zero K] {N V : Nat} (step : List (List K) → BCEntry K → List (List K))
    (f : Nat → Nat → K → K) (es : List (BCEntry K)) (hs : ∀ e ∈ es, StepSpec N V step f e)
    (a : List (List K)) (ha : Shape a N V) :
    Shape (es.foldl step a) N V ∧ ∀ n c, n < N → c < V →
      (FreeDof es n c → ent (es.foldl step a) n c = ent a n c) ∧
      (∀ v, LastPrescribes es n c v → ent (es.foldl step a) n c = f n c v) := by
  have key : ∀ (es : List (BCEntry K)), (∀ e ∈ es, StepSpec N V step f e) →
      ∀ a : List (List K), Shape a N V → Shape (es.foldl step a) N V ∧ ∀ n c, n < N → c < V →
      (FreeDof es n c → ent (es.foldl step a) n c = ent a n c) := by
    intro es hs
    induction es with
    | nil => exact fun a ha => ⟨ha, fun n c _ _ _ => rfl⟩
    | cons e es ih =>
      intro a ha
      have hst := hs e (by simp)
      obtain ⟨h1, h2⟩ := ih (fun x hx => hs x (by simp [hx])) (step a e) (hst.shape a ha)
      refine ⟨h1, fun n c hn hc hf => ?_⟩
      rw [List.foldl_cons, h2 n c hn hc fun x hx => hf x (by simp [hx])]
      exact hst.miss a ha n c hn hc (hf e (by simp))
  refine ⟨(key es hs a ha).1, fun n c hn hc => ⟨(key es hs a ha).2 n c hn hc, ?_⟩⟩
  rintro v ⟨before, e, after, rfl, hp, hfree⟩
  have hb := (key before (fun x hx => hs x (by simp [hx])) a ha).1
  have hst := hs e (by simp)
  rw [List.foldl_append, List.foldl_cons, (key after (fun x hx => hs x (by simp [hx])) _
    (hst.shape _ hb)).2 n c hn hc hfree]
  exact hst.hit _ hb n c hn hc v hp

theorem free_or_last (es : List (BCEntry K)) (n c : Nat) :
    FreeDof es n c ∨ ∃ v, LastPrescribes es n c v := by
  induction es with
  | nil => exact Or.inl (by simp [FreeDof])
  | cons e es ih =>
    rcases ih with h | ⟨v, b, e', a, h1, h2, h3⟩
    · by_cases hp : ∃ v, e.Prescribes n c v
      · obtain ⟨v, hv⟩ := hp
        exact Or.inr ⟨v, [], e, es, rfl, hv, h⟩
      · refine Or.inl fun x hx v hv => ?_
        rcases List.mem_cons.1 hx with rfl | hx
        · exact hp ⟨v, hv⟩
        · exact h x hx v hv
    · exact Or.inr ⟨v, e :: b, e', a, by simp [h1], h2, h3⟩

theorem last_not_free {es : List (BCEntry K)} {n c : Nat} {v : K} (h : LastPrescribes es n c v) :
    ¬FreeDof es n c := by
  obtain ⟨b, e, a, rfl, hp, -⟩ := h
  exact fun hf => hf e (by simp) v hp

theorem last_unique {es : List (BCEntry K)} {n c : Nat} {v w : K} (hw : ∀ e ∈ es, e.WF)
    (h1 : LastPrescribes es n c v) (h2 : LastPrescribes es n c w) : v = w := by
  induction es with
  | nil => obtain ⟨b, e, a, h, -⟩ := h1; simp at h
  | cons x es ih =>
    obtain ⟨b, e, a, he, hp, hf⟩ := h1
    obtain ⟨b', e', a', he', hp', hf'⟩ := h2
    cases b with
    | nil =>
      cases b' with
      | nil =>
        simp only [List.nil_append, List.cons.injEq] at he he'
        obtain ⟨rfl, rfl⟩ := he
        obtain ⟨rfl, rfl⟩ := he'
        exact prescribes_unique x (hw x (by simp)) hp hp'
      | cons y b' =>
        simp only [List.nil_append, List.cons_append, List.cons.injEq] at he he'
        obtain ⟨rfl, rfl⟩ := he
        obtain ⟨rfl, rfl⟩ := he'
        exact absurd hp' (hf e' (by simp) w)
    | cons y b =>
      cases b' with
      | nil =>
        simp only [List.nil_append, List.cons_append, List.cons.injEq] at he he'
        obtain ⟨rfl, rfl⟩ := he'
        obtain ⟨rfl, rfl⟩ := he
        exact absurd hp (hf' e (by simp) v)
      | cons y' b' =>
        simp only [List.cons_append, List.cons.injEq] at he he'
        exact ih (fun e he => hw e (by simp [he])) ⟨b, e, a, he.2, hp, hf⟩ ⟨b', e', a', he'.2, hp', hf'⟩

/-! ### Flat vectors -/

theorem WFBC.entry {fes : List FE} {bcs : List (List (BCEntry K))} (h : WFBC fes bcs)
    {i : Nat} {es : List (BCEntry K)} (hes : bcs[i]? = some es) : ∀ e ∈ es, e.WF := fun e he =>
  ⟨h.comps es (List.mem_of_getElem? hes) e he, h.vals es (List.mem_of_getElem? hes) e he,
    h.nodup es (List.mem_of_getElem? hes) e he⟩

theorem totalSize_solShapes (fes : List FE) : totalSize (solShapes fes) = totalDofs fes := by
  simp [totalSize, solShapes, totalDofs, Function.comp_def]

theorem getD_some {α : Type*} {l : List α} {i : Nat} {x d : α} (h : l[i]? = some x) :
    l.getD i d = x := by
  simp [List.getD_eq_getElem?_getD, h]

/-- Position of an entry in a flattened list of arrays. -/
theorem ravel_at [Zero K] (fes : List FE) (A : List (List (List K)))
    (hA : HasShapes (solShapes fes) A) {i n c : Nat} {fe : FE} (hfe : fes[i]? = some fe)
    (hn : n < fe.numTotalNodes) (hc : c < fe.vec) :
    (ravelSol A).getD (dofNum fes i n c) 0 = ent (A.getD i []) n c := by
  obtain ⟨hi, rfl⟩ := List.getElem?_eq_some_iff.1 hfe
  have hsh := solShapes_getD fes i hi
  have := ravelSol_getD hA i n c 0 (by simpa [solShapes] using hi) (by rw [hsh]; exact hn)
    (by rw [hsh]; exact hc)
  rw [hsh] at this
  rw [dofNum_eq fes i n c hi]
  exact this

theorem exists_dof (fes : List FE) (k : Nat) (hk : k < totalDofs fes) : ∃ i n c fe,
    fes[i]? = some fe ∧ n < fe.numTotalNodes ∧ c < fe.vec ∧ k = dofNum fes i n c := by
  rw [← totalSize_solShapes] at hk
  obtain ⟨i, n, c, h1, h2, h3, h4⟩ := exists_block _ k hk
  have hi : i < fes.length := by simpa [solShapes] using h1
  rw [solShapes_getD fes i hi] at h2 h3 h4
  exact ⟨i, n, c, fes[i], List.getElem?_eq_getElem hi, h2, h3, by rw [dofNum_eq fes i n c hi]; exact h4⟩

theorem dof_unique (fes : List FE) {i n c i' n' c' : Nat} {fe fe' : FE} (hfe : fes[i]? = some fe)
    (hn : n < fe.numTotalNodes) (hc : c < fe.vec) (hfe' : fes[i']? = some fe')
    (hn' : n' < fe'.numTotalNodes) (hc' : c' < fe'.vec) (h : dofNum fes i n c = dofNum fes i' n' c') :
    i = i' ∧ n = n' ∧ c = c' := by
  obtain ⟨hi, rfl⟩ := List.getElem?_eq_some_iff.1 hfe
  obtain ⟨hi', rfl⟩ := List.getElem?_eq_some_iff.1 hfe'
  refine C01_injective fes hi hn hc hi' hn' hc' ?_
  rw [(C01_row_number fes i n c hi).1, (C01_row_number fes i' n' c' hi').1, h]

theorem dofNum_lt (fes : List FE) {i n c : Nat} {fe : FE} (hfe : fes[i]? = some fe)
    (hn : n < fe.numTotalNodes) (hc : c < fe.vec) : dofNum fes i n c < totalDofs fes := by
  obtain ⟨hi, rfl⟩ := List.getElem?_eq_some_iff.1 hfe
  have := C01_in_range fes hi hn hc
  rw [(C01_row_number fes i n c hi).1, (C01_row_number fes i n c hi).2] at this
  exact this

theorem prescribed_exists (fes : List FE) (bcs : List (List (BCEntry K))) (h : WFBC fes bcs) (k : Nat)
    (hk : k < totalDofs fes) : ∃ o, Prescribed fes bcs k o := by
  obtain ⟨i, n, c, fe, hfe, hn, hc, rfl⟩ := exists_dof fes k hk
  have hi := (List.getElem?_eq_some_iff.1 hfe).1
  have hes : bcs[i]? = some (bcs[i]'(by rw [h.len]; exact hi)) := List.getElem?_eq_getElem _
  rcases free_or_last (bcs[i]'(by rw [h.len]; exact hi)) n c with hf | ⟨v, hv⟩
  · exact ⟨none, .free i n c fe _ hfe hes hn hc rfl hf⟩
  · exact ⟨some v, .fixed i n c fe _ v hfe hes hn hc rfl hv⟩

theorem prescribed_unique (fes : List FE) (bcs : List (List (BCEntry K))) (h : WFBC fes bcs) (k : Nat)
    (o o' : Option K) (h1 : Prescribed fes bcs k o) (h2 : Prescribed fes bcs k o') : o = o' := by
  have hk : ∀ {i n c i' n' c' : Nat} {fe fe' : FE} {es es' : List (BCEntry K)}, fes[i]? = some fe →
      fes[i']? = some fe' → bcs[i]? = some es → bcs[i']? = some es' → n < fe.numTotalNodes →
      c < fe.vec → n' < fe'.numTotalNodes → c' < fe'.vec → k = dofNum fes i n c →
      k = dofNum fes i' n' c' → es = es' ∧ n = n' ∧ c = c' := by
    intro i n c i' n' c' fe fe' es es' a1 a2 a3 a4 a5 a6 a7 a8 a9 a10
    obtain ⟨rfl, rfl, rfl⟩ := dof_unique fes a1 a5 a6 a2 a7 a8 (a9.symm.trans a10)
    exact ⟨Option.some.inj (a3.symm.trans a4), rfl, rfl⟩
  cases h1 with
  | free i n c fe es a1 a2 a3 a4 a5 a6 =>
    cases h2 with
    | free => rfl
    | fixed i' n' c' fe' es' v b1 b2 b3 b4 b5 b6 =>
      obtain ⟨rfl, rfl, rfl⟩ := hk a1 b1 a2 b2 a3 a4 b3 b4 a5 b5
      exact absurd a6 (last_not_free b6)
  | fixed i n c fe es v a1 a2 a3 a4 a5 a6 =>
    cases h2 with
    | free i' n' c' fe' es' b1 b2 b3 b4 b5 b6 =>
      obtain ⟨rfl, rfl, rfl⟩ := hk a1 b1 a2 b2 a3 a4 b3 b4 a5 b5
      exact absurd b6 (last_not_free a6)
    | fixed i' n' c' fe' es' w b1 b2 b3 b4 b5 b6 =>
      obtain ⟨rfl, rfl, rfl⟩ := hk a1 b1 a2 b2 a3 a4 b3 b4 a5 b5
      rw [last_unique (h.entry a2) a6 b6]

theorem hasShapes_of_shape (fes : List FE) (A : List (List (List K))) (hl : A.length = fes.length)
    (h : ∀ (i : Nat) fe, fes[i]? = some fe → Shape (A.getD i []) fe.numTotalNodes fe.vec) :
    HasShapes (solShapes fes) A := by
  rw [hasShapes_iff]
  refine ⟨by simpa [solShapes] using hl, fun i hi => ?_⟩
  have hi' : i < fes.length := by simpa [solShapes] using hi
  rw [solShapes_getD fes i hi']
  exact h i fes[i] (List.getElem?_eq_getElem hi')

theorem shape_of_hasShapes (fes : List FE) (A : List (List (List K)))
    (h : HasShapes (solShapes fes) A) {i : Nat} {fe : FE} (hfe : fes[i]? = some fe) :
    Shape (A.getD i []) fe.numTotalNodes fe.vec := by
  obtain ⟨hi, rfl⟩ := List.getElem?_eq_some_iff.1 hfe
  have := ((hasShapes_iff _ _).1 h).2 i (by simpa [solShapes] using hi)
  rw [solShapes_getD fes i hi] at this
  exact this

/-- The common argument: run the entries of every variable over its array with a step of the
`StepSpec` kind, flatten. -/
theorem flat_entries [Zero K] (fes : List FE) (bcs : List (List (BCEntry K))) (h : WFBC fes bcs)
    (A R : List (List (List K))) (hA : HasShapes (solShapes fes) A)
    (step : Nat → List (List K) → BCEntry K → List (List K)) (hR : R.length = fes.length)
    (hRi : ∀ i < fes.length, R.getD i [] = (bcs.getD i []).foldl (step i) (A.getD i []))
    (f : Nat → K → K)
    (hst : ∀ (i : Nat) fe es, fes[i]? = some fe → bcs[i]? = some es → ∀ e ∈ es,
      StepSpec fe.numTotalNodes fe.vec (step i) (fun n c v => f (dofNum fes i n c) v) e) :
    (ravelSol R).length = totalDofs fes ∧ ∀ k, k < totalDofs fes →
      (Prescribed fes bcs k none → (ravelSol R).getD k 0 = (ravelSol A).getD k 0) ∧
      (∀ v, Prescribed fes bcs k (some v) → (ravelSol R).getD k 0 = f k v) := by
  have hes : ∀ i < fes.length, bcs[i]? = some (bcs.getD i []) := fun i hi => by
    rw [List.getD_eq_getElem _ _ (by rw [h.len]; exact hi)]
    exact List.getElem?_eq_getElem _
  have key : ∀ (i : Nat) fe, fes[i]? = some fe →
      Shape (R.getD i []) fe.numTotalNodes fe.vec ∧ ∀ n c, n < fe.numTotalNodes → c < fe.vec →
      (FreeDof (bcs.getD i []) n c → ent (R.getD i []) n c = ent (A.getD i []) n c) ∧
      (∀ v, LastPrescribes (bcs.getD i []) n c v →
        ent (R.getD i []) n c = f (dofNum fes i n c) v) := by
    intro i fe hfe
    have hi := (List.getElem?_eq_some_iff.1 hfe).1
    rw [hRi i hi]
    exact fold_entries (step i) _ _ (hst i fe _ hfe (hes i hi)) _ (shape_of_hasShapes fes A hA hfe)
  have hRs : HasShapes (solShapes fes) R := hasShapes_of_shape fes R hR fun i fe hfe => (key i fe hfe).1
  refine ⟨by rw [ravelSol_length hRs, totalSize_solShapes], fun k _ => ⟨fun hp => ?_, fun v hp => ?_⟩⟩
  · cases hp with
    | free i n c fe es a1 a2 a3 a4 a5 a6 =>
      rw [a5, ravel_at fes R hRs a1 a3 a4, ravel_at fes A hA a1 a3 a4]
      exact ((key i fe a1).2 n c a3 a4).1 (by rw [getD_some a2]; exact a6)
  · cases hp with
    | fixed i n c fe es v a1 a2 a3 a4 a5 a6 =>
      rw [a5, ravel_at fes R hRs a1 a3 a4]
      exact ((key i fe a1).2 n c a3 a4).2 v (by rw [getD_some a2]; exact a6)

theorem getD_zipWith {α β γ : Type*} (f : α → β → γ) (l : List α) (m : List β) (i : Nat) (da : α)
    (db : β) (dc : γ) (h1 : i < l.length) (h2 : i < m.length) :
    (List.zipWith f l m).getD i dc = f (l.getD i da) (m.getD i db) := by
  rw [List.getD_eq_getElem _ _ (by simp; omega), List.getD_eq_getElem _ _ h1,
    List.getD_eq_getElem _ _ h2, List.getElem_zipWith]

/-! Steps of the individual functions. -/

theorem zip_mem_map {α β γ : Type*} (l : List α) (m : List β) (f : β → γ) (x : α) (y : β)
    (h : (x, y) ∈ l.zip m) : (x, f y) ∈ l.zip (m.map f) := by
  obtain ⟨k, hk⟩ := List.mem_iff_getElem?.1 h
  rw [List.getElem?_zip_eq_some] at hk
  exact List.mem_iff_getElem?.2 ⟨k, by rw [List.getElem?_zip_eq_some]; simp [hk.1, hk.2]⟩

theorem not_mem_zip {α β : Type*} (l : List α) (m : List β) (x : α) (h : x ∉ l) :
    x ∉ (l.zip m).map Prod.fst := by
  intro hx
  obtain ⟨p, hp, rfl⟩ := List.mem_map.1 hx
  exact h (List.of_mem_zip hp).1

theorem step_assign [Zero K] (N V : Nat) (e : BCEntry K) (h : e.WF) :
    StepSpec N V (fun sol e => at2Set sol e.nodes e.comps e.vals) (fun _ _ v => v) e where
  shape a ha := (at2Set_spec _ _ _ h.2.2 a ha).1
  hit a ha n c hn hc v hv :=
    ((at2Set_spec _ _ _ h.2.2 a ha).2 n c hn hc).1 v ((prescribes_iff e n c v).1 hv)
  miss a ha n c hn hc hv := ((at2Set_spec _ _ _ h.2.2 a ha).2 n c hn hc).2 (not_mem_zip _ _ _ fun hm => by
    obtain ⟨v, hv'⟩ := (prescribes_of_mem e h n c).1 hm
    exact hv v hv')

theorem mem_zip_self_map {α γ : Type*} (l : List α) (g : α → γ) (x : α) (h : x ∈ l) :
    (x, g x) ∈ l.zip (l.map g) := by
  obtain ⟨k, hk⟩ := List.mem_iff_getElem?.1 h
  exact List.mem_iff_getElem?.2 ⟨k, by rw [List.getElem?_zip_eq_some]; simp [hk]⟩

theorem step_const [Zero K] (N V : Nat) (z : K) (e : BCEntry K) (h : e.WF) :
    StepSpec N V (fun sol e => at2Set sol e.nodes e.comps (e.nodes.map fun _ => z))
      (fun _ _ _ => z) e where
  shape a ha := (at2Set_spec _ _ _ h.2.2 a ha).1
  hit a ha n c hn hc v hv := by
    refine ((at2Set_spec _ _ _ h.2.2 a ha).2 n c hn hc).1 z ?_
    obtain ⟨k, h1, h2, -⟩ := hv
    exact List.mem_iff_getElem?.2 ⟨k, by
      rw [List.getElem?_zip_eq_some, List.getElem?_zip_eq_some, List.getElem?_map, h1]
      exact ⟨⟨rfl, h2⟩, rfl⟩⟩
  miss a ha n c hn hc hv := ((at2Set_spec _ _ _ h.2.2 a ha).2 n c hn hc).2 (not_mem_zip _ _ _ fun hm => by
    obtain ⟨v, hv'⟩ := (prescribes_of_mem e h n c).1 hm
    exact hv v hv')

theorem step_copy [Zero K] (N V : Nat) (sol : List (List K)) (e : BCEntry K) (h : e.WF) :
    StepSpec N V (fun new e => at2Set new e.nodes e.comps (at2Get sol e.nodes e.comps))
      (fun n c _ => ent sol n c) e where
  shape a ha := (at2Set_spec _ _ _ h.2.2 a ha).1
  hit a ha n c hn hc v hv := by
    refine ((at2Set_spec _ _ _ h.2.2 a ha).2 n c hn hc).1 _ ?_
    exact mem_zip_self_map (e.nodes.zip e.comps) (fun p => ent sol p.1 p.2) (n, c)
      ((prescribes_of_mem e h n c).2 ⟨v, hv⟩)
  miss a ha n c hn hc hv := ((at2Set_spec _ _ _ h.2.2 a ha).2 n c hn hc).2 (not_mem_zip _ _ _ fun hm => by
    obtain ⟨v, hv'⟩ := (prescribes_of_mem e h n c).1 hm
    exact hv v hv')

theorem step_residual [Ring K] (N V : Nat) (scale : K) (sol : List (List K)) (e : BCEntry K)
    (h : e.WF) :
    StepSpec N V (fun res e => at2Add (at2Set res e.nodes e.comps (at2Get sol e.nodes e.comps))
        e.nodes e.comps (e.vals.map fun v => -v * scale))
      (fun n c v => ent sol n c - v * scale) e where
  shape a ha := (at2Add_spec _ _ _ h.2.2 _ ((step_copy N V sol e h).shape a ha)).1
  hit a ha n c hn hc v hv := by
    have hs := (step_copy N V sol e h).shape a ha
    rw [((at2Add_spec _ _ _ h.2.2 _ hs).2 n c hn hc).1 (-v * scale)
      (zip_mem_map _ _ (fun v => -v * scale) _ _ ((prescribes_iff e n c v).1 hv)),
      (step_copy N V sol e h).hit a ha n c hn hc v hv]
    rw [neg_mul, sub_eq_add_neg]
  miss a ha n c hn hc hv := by
    have hs := (step_copy N V sol e h).shape a ha
    rw [((at2Add_spec _ _ _ h.2.2 _ hs).2 n c hn hc).2 (not_mem_zip _ _ _ fun hm => by
      obtain ⟨v, hv'⟩ := (prescribes_of_mem e h n c).1 hm
      exact hv v hv')]
    exact (step_copy N V sol e h).miss a ha n c hn hc hv

end JaxFem
