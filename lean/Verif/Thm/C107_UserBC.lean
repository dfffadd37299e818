import Verif.Model.UserBC
import Verif.Spec.UserBC
import Verif.Thm.C14_Boundary
import Verif.Thm.C17_Tangent

/-!
# C107: from the user's Dirichlet information to the equations that are solved
-/

namespace JaxFem.UserBC

variable {P K : Type}

/-! ### Helper lemmas -/

/-- Entry and condition agree. -/
def Fits (points : List P) (it : Cond P K) (e : BCEntry K) : Prop :=
  EntrySpec points it.1 it.2.1 it.2.2 e.nodes e.comps e.vals

theorem loop_fits (points : List P) (locs : List (LocFn P)) (vecs : List Nat) (vals : List (P → K)) b
    (h : dirichletLoop points locs vecs vals = .ok b) :
    List.Forall₂ (Fits points) (locs.zip (vecs.zip vals)) (entries b) := by
  induction locs generalizing vecs vals b with
  | nil =>
    simp only [dirichletLoop, pure, Except.pure, Except.ok.injEq] at h
    subst h
    exact .nil
  | cons loc locs ih =>
    cases vecs with
    | nil =>
      simp only [dirichletLoop, pure, Except.pure, Except.ok.injEq] at h
      subst h
      exact .nil
    | cons vec vecs =>
      cases vals with
      | nil =>
        simp only [dirichletLoop, pure, Except.pure, Except.ok.injEq] at h
        subst h
        exact .nil
      | cons val vals =>
        rw [dirichletLoop] at h
        cases he : dirichletEntry points loc vec val with
        | error x => simp [he, bind, Except.bind] at h
        | ok e =>
          cases hr : dirichletLoop points locs vecs vals with
          | error x => simp [he, hr, bind, Except.bind] at h
          | ok r =>
            simp only [he, hr, bind, Except.bind, pure, Except.pure, Except.ok.injEq] at h
            subst h
            exact .cons (dirichletEntry_spec points loc vec val e he).2 (ih vecs vals r hr)

theorem bc_fits (points : List P) (info : Info P K) b (h : dirichletBC points info = .ok b) :
    Readable info ∧ List.Forall₂ (Fits points) (conds info) (entries b) := by
  match info with
  | none =>
    simp only [dirichletBC, Except.ok.injEq] at h
    subst h
    exact ⟨trivial, .nil⟩
  | some (locs, vecs, vals) =>
    by_cases hc : locs.length = vals.length ∧ vals.length = vecs.length
    · have h0 := h
      simp only [dirichletBC, if_pos hc] at h
      refine ⟨⟨hc.1, hc.2, fun loc hl => ?_⟩, loop_fits points locs vecs vals b h⟩
      by_contra hn
      have := (C14_errors points locs vecs vals).2.1 hc.1 hc.2 ⟨loc, hl, hn⟩
      rw [h0] at this
      cases this
    · rw [(C14_errors points locs vecs vals).1 hc] at h
      cases h

theorem fits_prescribes {points : List P} {it : Cond P K} {e : BCEntry K} (h : Fits points it e) (n c : Nat) (v : K) :
    e.Prescribes n c v ↔ it.2.1 = c ∧ ∃ p, points[n]? = some p ∧ it.1.holds p n ∧ v = it.2.2 p := by
  obtain ⟨-, hmem, hc, hl, hv⟩ := h
  constructor
  · rintro ⟨k, h1, h2, h3⟩
    obtain ⟨p, hp, ho⟩ := (hmem n).1 (List.mem_of_getElem? h1)
    refine ⟨?_, p, hp, ho, ?_⟩
    · rw [hc] at h2
      exact (List.mem_replicate.1 (List.mem_of_getElem? h2)).2.symm
    · exact Option.some.inj (h3.symm.trans (hv k n p h1 hp))
  · rintro ⟨rfl, p, hp, ho, rfl⟩
    obtain ⟨k, hk⟩ := List.mem_iff_getElem?.1 ((hmem n).2 ⟨p, hp, ho⟩)
    refine ⟨k, hk, ?_, hv k n p hk hp⟩
    have hlt := (List.getElem?_eq_some_iff.1 hk).1
    rw [hc, List.getElem?_replicate, if_pos hlt]

theorem fits_concerns {points : List P} {it : Cond P K} {e : BCEntry K} (h : Fits points it e) (n c : Nat) :
    (∃ v, e.Prescribes n c v) ↔ Concerns points it n c := by
  simp only [fits_prescribes h]
  constructor
  · rintro ⟨v, h1, p, hp, ho, -⟩
    exact ⟨h1, p, hp, ho⟩
  · rintro ⟨h1, p, hp, ho⟩
    exact ⟨_, h1, p, hp, ho, rfl⟩

theorem free_iff {points : List P} {its : List (Cond P K)} {es : List (BCEntry K)}
    (h : List.Forall₂ (Fits points) its es) (n c : Nat) :
    FreeDof es n c ↔ ∀ it ∈ its, ¬Concerns points it n c := by
  induction h with
  | nil => simp [FreeDof]
  | cons hd _ ih =>
    have := fits_concerns hd n c
    simp only [FreeDof, List.forall_mem_cons] at ih ⊢
    rw [ih]
    refine and_congr_left fun _ => ?_
    rw [← this]
    simp

theorem forall₂_append {α β : Type} {R : α → β → Prop} {l l' : List α} {m : List β} (h : List.Forall₂ R (l ++ l') m) :
    ∃ m1 m2, List.Forall₂ R l' m2 ∧ m = m1 ++ m2 := by
  induction l generalizing m with
  | nil => exact ⟨[], m, h, rfl⟩
  | cons a l ih =>
    obtain ⟨b, m', -, h2, rfl⟩ := List.forall₂_cons_left_iff.1 h
    obtain ⟨m1, m2, h3, rfl⟩ := ih h2
    exact ⟨b :: m1, m2, h3, rfl⟩

theorem demands_prescribed {points : List P} {its : List (Cond P K)} {es : List (BCEntry K)}
    (h : List.Forall₂ (Fits points) its es) (n c : Nat) (v : K) (hd : Demands points its n c (some v)) :
    LastPrescribes es n c v := by
  obtain _ | ⟨pre, it, post, p, rfl, h1, h2, h3, h4⟩ := hd
  obtain ⟨es1, es2', f2, rfl⟩ := forall₂_append h
  obtain ⟨e, es2, f3, f4, rfl⟩ := List.forall₂_cons_left_iff.1 f2
  exact ⟨es1, e, es2, rfl, (fits_prescribes f3 n c _).2 ⟨h1, p, h2, h3, rfl⟩, (free_iff f4 n c).2 h4⟩

theorem demands_exists (points : List P) (its : List (Cond P K)) (n c : Nat) : ∃ o, Demands points its n c o := by
  induction its with
  | nil => exact ⟨none, .free (by simp)⟩
  | cons it its ih =>
    obtain ⟨o, ho⟩ := ih
    cases ho with
    | free hf =>
      by_cases hc : Concerns points it n c
      · obtain ⟨h1, p, hp, ho⟩ := hc
        exact ⟨_, .value [] it its p rfl h1 hp ho hf⟩
      · exact ⟨none, .free (List.forall_mem_cons.2 ⟨hc, hf⟩)⟩
    | value pre it' post p h0 h1 h2 h3 h4 =>
      exact ⟨_, .value (it :: pre) it' post p (by rw [h0]; rfl) h1 h2 h3 h4⟩

theorem entriesFrom_ok (arg : Option (List (Info P K))) (i : Nat) (pts : List (List P)) bcs (h : entriesFrom arg i pts = .ok bcs) :
    bcs.length = pts.length ∧ ∀ (k : Nat) p es, pts[k]? = some p → bcs[k]? = some es →
      ∃ info b, infoOf arg (i + k) = .ok info ∧ dirichletBC p info = .ok b ∧ es = entries b := by
  induction pts generalizing i bcs with
  | nil =>
    simp only [entriesFrom, Except.ok.injEq] at h
    subst h
    simp
  | cons p pts ih =>
    rw [entriesFrom] at h
    cases h1 : infoOf arg i with
    | error x => simp [h1, bind, Except.bind] at h
    | ok info =>
      cases h2 : dirichletBC p info with
      | error x => simp [h1, h2, bind, Except.bind] at h
      | ok b =>
        cases h3 : entriesFrom arg (i + 1) pts with
        | error x => simp [h1, h2, h3, bind, Except.bind] at h
        | ok es =>
          simp only [h1, h2, h3, bind, Except.bind, pure, Except.pure, Except.ok.injEq] at h
          subst h
          obtain ⟨hl, hk⟩ := ih (i + 1) es h3
          refine ⟨by simp [hl], fun k p' es' hp he => ?_⟩
          cases k with
          | zero =>
            simp only [List.getElem?_cons_zero, Option.some.injEq] at hp he
            subst hp he
            exact ⟨info, b, h1, h2, rfl⟩
          | succ k =>
            simp only [List.getElem?_cons_succ] at hp he
            rw [← Nat.succ_add_eq_add_succ]
            exact hk k p' es' hp he

theorem fits_valid {points : List P} {it : Cond P K} {e : BCEntry K} (h : Fits points it e) :
    e.comps.length = e.nodes.length ∧ e.vals.length = e.nodes.length ∧ (e.nodes.zip e.comps).Nodup ∧
    (∀ n ∈ e.nodes, n < points.length) ∧ ∀ c ∈ e.comps, c = it.2.1 := by
  obtain ⟨hp, hmem, hc, hl, -⟩ := h
  have hn : e.nodes.Nodup := hp.imp fun h => ne_of_lt h
  have h1 : e.comps.length = e.nodes.length := by rw [hc, List.length_replicate]
  refine ⟨h1, hl, ?_, ?_, ?_⟩
  · refine List.Nodup.of_map Prod.fst ?_
    rw [List.map_fst_zip (by rw [h1])]
    exact hn
  · intro n hn
    obtain ⟨p, hp, -⟩ := (hmem n).1 hn
    exact (List.getElem?_eq_some_iff.1 hp).1
  · intro c hcm
    rw [hc] at hcm
    exact (List.mem_replicate.1 hcm).2

theorem forall₂_mem {α β : Type} {R : α → β → Prop} {l : List α} {m : List β} (h : List.Forall₂ R l m) {b : β}
    (hb : b ∈ m) : ∃ a ∈ l, R a b := by
  induction h with
  | nil => simp at hb
  | cons h1 _ ih =>
    rcases List.mem_cons.1 hb with rfl | hb
    · exact ⟨_, by simp, h1⟩
    · obtain ⟨a, ha, hr⟩ := ih hb
      exact ⟨a, by simp [ha], hr⟩

theorem infoOf_given (a : Args P K) (bcs : List (List (BCEntry K))) (h : problemBCs a = .ok bcs) :
    bcs.length = a.meshes.length ∧ ∀ (i : Nat) pts es, a.meshes[i]? = some pts → bcs[i]? = some es →
      ∃ info, a.given i = some info ∧ Readable info ∧ List.Forall₂ (Fits pts) (conds info) es := by
  match a with
  | .single points info =>
    obtain ⟨hl, hk⟩ := entriesFrom_ok _ _ _ _ h
    refine ⟨hl, fun i pts es hp he => ?_⟩
    obtain ⟨info', b, h1, h2, rfl⟩ := hk i pts es hp he
    have hi : i = 0 := by
      have := (List.getElem?_eq_some_iff.1 hp).1
      simpa [Args.meshes] using this
    subst hi
    simp only [infoOf, Nat.add_zero, List.getElem?_cons_zero, Except.ok.injEq] at h1
    subst h1
    exact ⟨info, rfl, bc_fits pts info b h2⟩
  | .multi points none =>
    obtain ⟨hl, hk⟩ := entriesFrom_ok _ _ _ _ h
    refine ⟨hl, fun i pts es hp he => ?_⟩
    obtain ⟨info', b, h1, h2, rfl⟩ := hk i pts es hp he
    simp only [infoOf, Except.ok.injEq] at h1
    subst h1
    exact ⟨none, rfl, bc_fits pts none b h2⟩
  | .multi points (some infos) =>
    obtain ⟨hl, hk⟩ := entriesFrom_ok _ _ _ _ h
    refine ⟨hl, fun i pts es hp he => ?_⟩
    obtain ⟨info', b, h1, h2, rfl⟩ := hk i pts es hp he
    rw [Nat.zero_add] at h1
    cases hg : infos[i]? with
    | none => simp [infoOf, hg] at h1
    | some x =>
      simp only [infoOf, hg, Except.ok.injEq] at h1
      subst h1
      exact ⟨x, hg, bc_fits pts x b h2⟩

/-! ### Property theorems -/

/-- **C107 (conditions).** If the problem can be built, the boundary data are well formed and every degree of freedom is
constrained exactly as the user's list of conditions for its variable demands: by the last condition that speaks about it,
and not at all if there is none. -/
theorem C107_conditions (fes : List FE) (a : Args P K) (hs : Suits fes a) (bcs : List (List (BCEntry K)))
    (h : problemBCs a = .ok bcs) :
    WFBC fes bcs ∧ ∀ (i n c : Nat) fe pts info, fes[i]? = some fe → a.meshes[i]? = some pts → a.given i = some info →
      n < fe.numTotalNodes → c < fe.vec → ∀ o,
        Prescribed fes bcs (dofNum fes i n c) o ↔ Demands pts (conds info) n c o := by
  obtain ⟨hl, hk⟩ := infoOf_given a bcs h
  have hmesh : ∀ (i : Nat) fe es, fes[i]? = some fe → bcs[i]? = some es → ∃ pts info, a.meshes[i]? = some pts ∧
      a.given i = some info ∧ List.Forall₂ (Fits pts) (conds info) es := by
    intro i fe es hfe hes
    have hi : i < a.meshes.length := by
      rw [hs.len]
      exact (List.getElem?_eq_some_iff.1 hfe).1
    obtain ⟨info, h1, -, h2⟩ := hk i _ es (List.getElem?_eq_getElem hi) hes
    exact ⟨_, info, List.getElem?_eq_getElem hi, h1, h2⟩
  have hent : ∀ es ∈ bcs, ∀ e ∈ es, ∃ (pts : List P) (it : Cond P K), Fits pts it e := by
    intro es hes e he
    obtain ⟨i, hi⟩ := List.mem_iff_getElem?.1 hes
    have hlt : i < fes.length := by
      rw [← hs.len, ← hl]
      exact (List.getElem?_eq_some_iff.1 hi).1
    obtain ⟨pts, info, -, -, hf⟩ := hmesh i _ es (List.getElem?_eq_getElem hlt) hi
    obtain ⟨it, -, hit⟩ := forall₂_mem hf he
    exact ⟨pts, it, hit⟩
  have wf : WFBC fes bcs := by
    refine ⟨hl.trans hs.len, ?_, ?_, ?_, ?_⟩
    · intro es hes e he
      obtain ⟨pts, it, hf⟩ := hent es hes e he
      exact (fits_valid hf).1
    · intro es hes e he
      obtain ⟨pts, it, hf⟩ := hent es hes e he
      exact (fits_valid hf).2.1
    · intro es hes e he
      obtain ⟨pts, it, hf⟩ := hent es hes e he
      exact (fits_valid hf).2.2.1
    · intro i fe es hfe hes e he
      obtain ⟨pts, info, h1, h2, hf⟩ := hmesh i fe es hfe hes
      obtain ⟨it, hit, hfit⟩ := forall₂_mem hf he
      obtain ⟨-, -, -, h4, h5⟩ := fits_valid hfit
      rw [← hs.nodes i fe pts hfe h1]
      refine ⟨h4, fun c hc => ?_⟩
      rw [h5 c hc]
      exact hs.comps i fe info hfe h2 it hit
  refine ⟨wf, fun i n c fe pts info hfe hpts hinfo hn hc o => ?_⟩
  have hi : i < bcs.length := by
    rw [hl, hs.len]
    exact (List.getElem?_eq_some_iff.1 hfe).1
  have hes := List.getElem?_eq_getElem hi
  obtain ⟨pts', info', h1, h2, hf⟩ := hmesh i fe _ hfe hes
  rw [hpts] at h1
  rw [hinfo] at h2
  cases h1
  cases h2
  have hto : ∀ o, Demands pts (conds info) n c o → Prescribed fes bcs (dofNum fes i n c) o := by
    intro o ho
    cases o with
    | none =>
      cases ho with
      | free hfree => exact .free i n c fe _ hfe hes hn hc rfl ((free_iff hf n c).2 hfree)
    | some v => exact .fixed i n c fe _ v hfe hes hn hc rfl (demands_prescribed hf n c v ho)
  refine ⟨fun hp => ?_, hto o⟩
  obtain ⟨o', ho'⟩ := demands_exists pts (conds info) n c
  rw [prescribed_unique fes bcs wf _ o o' hp (hto o' ho')]
  exact ho'

end JaxFem.UserBC
