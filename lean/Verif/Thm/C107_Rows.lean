import Verif.Thm.C107_UserBC
import Mathlib.Tactic.Linarith
import Mathlib.Tactic.FinCases
import Mathlib.Tactic.NormNum
import Mathlib.Tactic.Ring
import Mathlib.Data.Rat.Defs
import Mathlib.LinearAlgebra.Matrix.Notation

/-!
# C107: the equations that result from the user's conditions
-/

namespace JaxFem.UserBC

variable {P K : Type}

/-! ### Helper lemmas -/

theorem exists_mesh (fes : List FE) (a : Args P K) (hs : Suits fes a) (bcs : List (List (BCEntry K)))
    (h : problemBCs a = .ok bcs) (i : Nat) (fe : FE) (hfe : fes[i]? = some fe) :
    ∃ pts info, a.meshes[i]? = some pts ∧ a.given i = some info := by
  obtain ⟨hl, hk⟩ := infoOf_given a bcs h
  have hi : i < a.meshes.length := by
    rw [hs.len]
    exact (List.getElem?_eq_some_iff.1 hfe).1
  obtain ⟨info, h1, -⟩ := hk i _ _ (List.getElem?_eq_getElem hi) (List.getElem?_eq_getElem (hl ▸ hi))
  exact ⟨_, info, List.getElem?_eq_getElem hi, h1⟩

theorem demands_some_iff (points : List P) (its : List (Cond P K)) (hc : Compatible points its) (n c : Nat) (v : K) :
    Demands points its n c (some v) ↔ ∃ it ∈ its, ∃ p, points[n]? = some p ∧ Concerns points it n c ∧ v = it.2.2 p := by
  constructor
  · intro h
    obtain _ | ⟨pre, it, post, p, rfl, h1, h2, h3, -⟩ := h
    exact ⟨it, by simp, p, h2, ⟨h1, p, h2, h3⟩, rfl⟩
  · rintro ⟨it, hit, p, hp, hcon, rfl⟩
    obtain ⟨o, ho⟩ := demands_exists points its n c
    cases ho with
    | free hf => exact absurd hcon (hf it hit)
    | value pre it' post p' h0 h1 h2 h3 h4 =>
      have hm : it' ∈ its := by simp [h0]
      rw [hp] at h2
      cases h2
      rw [hc it hit it' hm n c p hp hcon ⟨h1, p, hp, h3⟩]
      exact .value pre it' post p h0 h1 hp h3 h4

theorem demands_none_iff (points : List P) (its : List (Cond P K)) (n c : Nat) :
    Demands points its n c none ↔ ∀ it ∈ its, ¬Concerns points it n c :=
  ⟨fun h => by cases h; assumption, .free⟩

theorem demands_perm (points : List P) (its its' : List (Cond P K)) (hp : its.Perm its') (hc : Compatible points its)
    (n c : Nat) (o : Option K) : Demands points its n c o ↔ Demands points its' n c o := by
  have hc' : Compatible points its' := fun it h it' h' => hc it (hp.mem_iff.2 h) it' (hp.mem_iff.2 h')
  cases o with
  | none => simp only [demands_none_iff, hp.mem_iff]
  | some v => simp only [demands_some_iff points _ hc, demands_some_iff points _ hc', hp.mem_iff]

theorem entriesFrom_total (arg : Option (List (Info P K))) (i : Nat) (pts : List (List P))
    (h : ∀ k < pts.length, ∃ info, infoOf arg (i + k) = .ok info ∧ Readable info) :
    ∃ bcs, entriesFrom arg i pts = .ok bcs := by
  induction pts generalizing i with
  | nil => exact ⟨[], rfl⟩
  | cons p pts ih =>
    obtain ⟨info, h1, h2⟩ := h 0 (by simp)
    rw [Nat.add_zero] at h1
    obtain ⟨bcs, h3⟩ := ih (i + 1) fun k hk => by
      have := h (k + 1) (by simpa using hk)
      rwa [← Nat.succ_add_eq_add_succ] at this
    have h4 : ∃ b, dirichletBC p info = .ok b := by
      match info, h2 with
      | none, _ => exact ⟨_, rfl⟩
      | some (locs, vecs, vals), h2 =>
        obtain ⟨ns, vs, us, h5, -⟩ := C14_selection p locs vecs vals h2.1 h2.2.1 h2.2.2
        exact ⟨_, h5⟩
    obtain ⟨b, h4⟩ := h4
    refine ⟨entries b :: bcs, ?_⟩
    rw [entriesFrom]
    simp only [h1, h4, h3, bind, Except.bind, pure, Except.pure]

theorem infoOf_of_given (a : Args P K) (i : Nat) (hi : i < a.meshes.length) (info : Info P K) :
    a.given i = some info ↔
      infoOf (match a with | .single _ info => some [info] | .multi _ infos => infos) i = .ok info := by
  match a with
  | .single points info' =>
    have : i = 0 := by simpa [Args.meshes] using hi
    subst this
    simp [Args.given, infoOf]
  | .multi points none => simp [Args.given, infoOf]
  | .multi points (some infos) =>
    cases hg : infos[i]? with
    | none => simp [Args.given, infoOf, hg]
    | some x => simp [Args.given, infoOf, hg]

theorem at2Set_shape (a : List (List K)) (N V : Nat) (ha : Shape a N V) (nodes comps : List Nat) (vals : List K) :
    Shape (at2Set a nodes comps vals) N V := by
  rw [at2Set]
  generalize (nodes.zip comps).zip vals = l
  induction l generalizing a with
  | nil => exact ha
  | cons p l ih => exact ih _ (ha.modify _ _ fun r hr => by simpa using hr)

theorem at2Add_shape [Add K] (a : List (List K)) (N V : Nat) (ha : Shape a N V) (nodes comps : List Nat) (vals : List K) :
    Shape (at2Add a nodes comps vals) N V := by
  rw [at2Add]
  generalize (nodes.zip comps).zip vals = l
  induction l generalizing a with
  | nil => exact ha
  | cons p l ih => exact ih _ (ha.modify _ _ fun r hr => by simpa using hr)

theorem modify_same {a : List (List K)} {N V : Nat} (ha : Shape a N V) (n : Nat) (f : List K → List K)
    (hf : ∀ r, r.length = V → f r = r) : a.modify n f = a := by
  refine List.ext_getElem? fun k => ?_
  rw [List.getElem?_modify]
  cases hk : a[k]? with
  | none => rfl
  | some r =>
    have := hf r (ha.2 r (List.mem_of_getElem? hk))
    by_cases hn : n = k
    · simp [hn, this]
    · simp [hn]

theorem at2Set_high (a : List (List K)) (N V : Nat) (ha : Shape a N V) (nodes comps : List Nat) (vals : List K)
    (hc : ∀ c ∈ comps, V ≤ c) : at2Set a nodes comps vals = a := by
  rw [at2Set]
  have hz : ∀ p ∈ (nodes.zip comps).zip vals, V ≤ p.1.2 := fun p hp =>
    hc _ (List.of_mem_zip (a := p.1.1) (b := p.1.2) (List.of_mem_zip (a := p.1) (b := p.2) hp).1).2
  revert hz
  generalize (nodes.zip comps).zip vals = l
  intro hz
  induction l with
  | nil => rfl
  | cons p l ih =>
    rw [List.foldl_cons, modify_same ha p.1.1 _ fun r hr => List.set_eq_of_length_le (by rw [hr]; exact hz p (by simp))]
    exact ih fun q hq => hz q (by simp [hq])

theorem at2Add_high [Add K] (a : List (List K)) (N V : Nat) (ha : Shape a N V) (nodes comps : List Nat) (vals : List K)
    (hc : ∀ c ∈ comps, V ≤ c) : at2Add a nodes comps vals = a := by
  rw [at2Add]
  have hz : ∀ p ∈ (nodes.zip comps).zip vals, V ≤ p.1.2 := fun p hp =>
    hc _ (List.of_mem_zip (a := p.1.1) (b := p.1.2) (List.of_mem_zip (a := p.1) (b := p.2) hp).1).2
  revert hz
  generalize (nodes.zip comps).zip vals = l
  intro hz
  induction l with
  | nil => rfl
  | cons p l ih =>
    rw [List.foldl_cons, modify_same ha p.1.1 _ fun r hr => List.modify_eq_self (by rw [hr]; exact hz p (by simp))]
    exact ih fun q hq => hz q (by simp [hq])

/-! ### Property theorems -/

/-- **C107 (rows).** The row of a degree of freedom in residual, tangent, initial guess and the other vectors of the solver,
in terms of the user's conditions alone. -/
theorem C107_rows [Ring K] (fes : List FE) (a : Args P K) (hs : Suits fes a) (bcs : List (List (BCEntry K)))
    (h : problemBCs a = .ok bcs) (i n c : Nat) (fe : FE) (pts : List P) (info : Info P K) (hfe : fes[i]? = some fe)
    (hpts : a.meshes[i]? = some pts) (hinfo : a.given i = some info) (hn : n < fe.numTotalNodes) (hc : c < fe.vec)
    (k : Fin (totalDofs fes)) (hk : (k : Nat) = dofNum fes i n c) (scale : K) (r u : Fin (totalDofs fes) → K)
    (A : Matrix (Fin (totalDofs fes)) (Fin (totalDofs fes)) K) :
    (∀ v, Demands pts (conds info) n c (some v) →
      applyBcV fes bcs scale r u k = u k - v * scale ∧ assignBcV fes bcs u k = v ∧ assignZerosBcV fes bcs u k = 0 ∧
      copyBcV fes bcs u k = u k ∧ ∀ l, elimRows fes bcs A k l = if k = l then 1 else 0) ∧
    (Demands pts (conds info) n c none →
      applyBcV fes bcs scale r u k = r k ∧ assignBcV fes bcs u k = u k ∧ assignZerosBcV fes bcs u k = u k ∧
      copyBcV fes bcs u k = 0 ∧ ∀ l, elimRows fes bcs A k l = A k l) := by
  obtain ⟨wf, hiff⟩ := C107_conditions fes a hs bcs h
  have hi := hiff i n c fe pts info hfe hpts hinfo hn hc
  rw [← hk] at hi
  refine ⟨fun v hv => ?_, fun hv => ?_⟩
  · have hp := (hi _).2 hv
    exact ⟨(applyBcV_spec fes bcs wf scale r u k).2 v hp, (assignBcV_spec fes bcs wf u k).2 v hp,
      (assignZerosBcV_spec fes bcs wf u k).2 v hp, (copyBcV_spec fes bcs wf u k).2 v hp,
      fun l => (elimRows_spec fes bcs wf A k l).2 v hp⟩
  · have hp := (hi _).2 hv
    exact ⟨(applyBcV_spec fes bcs wf scale r u k).1 hp, (assignBcV_spec fes bcs wf u k).1 hp,
      (assignZerosBcV_spec fes bcs wf u k).1 hp, (copyBcV_spec fes bcs wf u k).1 hp,
      fun l => (elimRows_spec fes bcs wf A k l).1 hp⟩

/-- **C107 (solutions).** A vector is a root of the residual with boundary conditions exactly if at every node every component
has the value that the user's conditions demand, and the equation of every component about which they are silent holds. -/
theorem C107_solution [Ring K] (fes : List FE) (a : Args P K) (hs : Suits fes a) (bcs : List (List (BCEntry K)))
    (h : problemBCs a = .ok bcs) (r u : Fin (totalDofs fes) → K) :
    (∀ k, applyBcV fes bcs 1 r u k = 0) ↔
      ∀ (i n c : Nat) fe pts info, fes[i]? = some fe → a.meshes[i]? = some pts → a.given i = some info →
        n < fe.numTotalNodes → c < fe.vec → ∀ k : Fin (totalDofs fes), (k : Nat) = dofNum fes i n c →
          (∀ v, Demands pts (conds info) n c (some v) → u k = v) ∧ (Demands pts (conds info) n c none → r k = 0) := by
  constructor
  · intro h0 i n c fe pts info hfe hpts hinfo hn hc k hk
    obtain ⟨h1, h2⟩ := C107_rows fes a hs bcs h i n c fe pts info hfe hpts hinfo hn hc k hk 1 r u 0
    refine ⟨fun v hv => ?_, fun hv => ?_⟩
    · have := (h1 v hv).1
      rw [h0 k, mul_one] at this
      exact (sub_eq_zero.1 this.symm)
    · rw [← (h2 hv).1]
      exact h0 k
  · intro h0 k
    obtain ⟨i, n, c, fe, hfe, hn, hc, hk⟩ := exists_dof fes k k.2
    obtain ⟨pts, info, hpts, hinfo⟩ := exists_mesh fes a hs bcs h i fe hfe
    obtain ⟨h1, h2⟩ := C107_rows fes a hs bcs h i n c fe pts info hfe hpts hinfo hn hc k hk 1 r u 0
    obtain ⟨g1, g2⟩ := h0 i n c fe pts info hfe hpts hinfo hn hc k hk
    obtain ⟨o, ho⟩ := demands_exists pts (conds info) n c
    cases o with
    | none => rw [(h2 ho).1, g2 ho]
    | some v => rw [(h1 v ho).1, g1 v ho, mul_one, sub_self]

/-- **C107 (order).** If the conditions never contradict each other, their order does not matter: all vectors and the
eliminated tangent are the same. -/
theorem C107_order [Ring K] (fes : List FE) (a a' : Args P K) (hs : Suits fes a) (hs' : Suits fes a')
    (bcs bcs' : List (List (BCEntry K))) (h : problemBCs a = .ok bcs) (h' : problemBCs a' = .ok bcs')
    (hm : a.meshes = a'.meshes)
    (hp : ∀ (i : Nat) pts info info', a.meshes[i]? = some pts → a.given i = some info → a'.given i = some info' →
      (conds info).Perm (conds info') ∧ Compatible pts (conds info))
    (scale : K) (r u : Fin (totalDofs fes) → K) (A : Matrix (Fin (totalDofs fes)) (Fin (totalDofs fes)) K) :
    applyBcV fes bcs scale r u = applyBcV fes bcs' scale r u ∧ assignBcV fes bcs u = assignBcV fes bcs' u ∧
    copyBcV fes bcs u = copyBcV fes bcs' u ∧ elimRows fes bcs A = elimRows fes bcs' A := by
  have key : ∀ k : Fin (totalDofs fes), applyBcV fes bcs scale r u k = applyBcV fes bcs' scale r u k ∧
      assignBcV fes bcs u k = assignBcV fes bcs' u k ∧ copyBcV fes bcs u k = copyBcV fes bcs' u k ∧
      ∀ l, elimRows fes bcs A k l = elimRows fes bcs' A k l := by
    intro k
    obtain ⟨i, n, c, fe, hfe, hn, hc, hk⟩ := exists_dof fes k k.2
    obtain ⟨pts, info, hpts, hinfo⟩ := exists_mesh fes a hs bcs h i fe hfe
    obtain ⟨pts', info', hpts', hinfo'⟩ := exists_mesh fes a' hs' bcs' h' i fe hfe
    rw [← hm, hpts] at hpts'
    cases hpts'
    obtain ⟨hperm, hcomp⟩ := hp i pts info info' hpts hinfo hinfo'
    obtain ⟨h1, h2⟩ := C107_rows fes a hs bcs h i n c fe pts info hfe hpts hinfo hn hc k hk scale r u A
    obtain ⟨g1, g2⟩ := C107_rows fes a' hs' bcs' h' i n c fe pts info' hfe (hm ▸ hpts) hinfo' hn hc k hk scale r u A
    obtain ⟨o, ho⟩ := demands_exists pts (conds info) n c
    have ho' := (demands_perm pts _ _ hperm hcomp n c o).1 ho
    cases o with
    | none =>
      obtain ⟨a1, a2, -, a4, a5⟩ := h2 ho
      obtain ⟨b1, b2, -, b4, b5⟩ := g2 ho'
      exact ⟨a1.trans b1.symm, a2.trans b2.symm, a4.trans b4.symm, fun l => (a5 l).trans (b5 l).symm⟩
    | some v =>
      obtain ⟨a1, a2, -, a4, a5⟩ := h1 v ho
      obtain ⟨b1, b2, -, b4, b5⟩ := g1 v ho'
      exact ⟨a1.trans b1.symm, a2.trans b2.symm, a4.trans b4.symm, fun l => (a5 l).trans (b5 l).symm⟩
  exact ⟨funext fun k => (key k).1, funext fun k => (key k).2.1, funext fun k => (key k).2.2.1,
    Matrix.ext fun k l => (key k).2.2.2 l⟩

/-- **C107 (construction).** The boundary data can be built exactly if every mesh has been given information and all of it is
readable; otherwise the constructor raises. -/
theorem C107_builds (a : Args P K) :
    (∃ bcs, problemBCs a = .ok bcs) ↔ ∀ i < a.meshes.length, ∃ info, a.given i = some info ∧ Readable info := by
  constructor
  · rintro ⟨bcs, h⟩ i hi
    obtain ⟨hl, hk⟩ := infoOf_given a bcs h
    obtain ⟨info, h1, h2, -⟩ := hk i _ _ (List.getElem?_eq_getElem hi) (List.getElem?_eq_getElem (hl ▸ hi))
    exact ⟨info, h1, h2⟩
  · intro h
    match a, h with
    | .single points info, h =>
      refine entriesFrom_total _ _ _ fun k hk => ?_
      obtain ⟨info', h1, h2⟩ := h k hk
      rw [Nat.zero_add]
      exact ⟨info', (infoOf_of_given (.single points info) k hk info').1 h1, h2⟩
    | .multi points infos, h =>
      refine entriesFrom_total _ _ _ fun k hk => ?_
      obtain ⟨info', h1, h2⟩ := h k hk
      rw [Nat.zero_add]
      exact ⟨info', (infoOf_of_given (.multi points infos) k hk info').1 h1, h2⟩

/-- **C107 (wrong component).** There is no check of the component numbers. An entry whose components do not exist leaves the
residual unchanged, since updates outside the array are dropped; the rows of the tangent it names are eliminated all the same,
and these rows belong to components of other nodes. -/
theorem C107_wrong_component [Ring K] (fe : FE) (pre post : List (BCEntry K)) (e : BCEntry K) (hc : ∀ c ∈ e.comps, fe.vec ≤ c)
    (scale : K) (res dofs : List K) (hr : res.length = totalDofs [fe]) :
    applyBcVec [fe] [pre ++ e :: post] scale res dofs = applyBcVec [fe] [pre ++ post] scale res dofs ∧
    ∀ n c, (n, c) ∈ e.nodes.zip e.comps → ∀ k : Fin (totalDofs [fe]), (k : Nat) = n * fe.vec + c →
      (∀ (A : Matrix (Fin (totalDofs [fe])) (Fin (totalDofs [fe])) K) l,
        elimRows [fe] [pre ++ e :: post] A k l = if k = l then 1 else 0) ∧ (k : Nat) / fe.vec ≠ n := by
  constructor
  · rw [← totalSize_solShapes] at hr
    have sR := unravelSol_hasShapes _ _ hr
    have e1 : solShapes [fe] = [(fe.numTotalNodes, fe.vec)] := rfl
    rw [applyBcVec, applyBcVec]
    simp only [e1] at sR ⊢
    cases hR : unravelSol [(fe.numTotalNodes, fe.vec)] res with
    | nil => rfl
    | cons R Rs =>
      rw [hR] at sR
      have hshape : Shape R fe.numTotalNodes fe.vec := by
        obtain ⟨a, t, h1, h2, h3, -⟩ := sR
        cases h1
        exact ⟨h2, h3⟩
      cases hD : unravelSol [(fe.numTotalNodes, fe.vec)] dofs with
      | nil => rfl
      | cons D Ds =>
        simp only [List.zip_cons_cons, List.zipWith_cons_cons, List.foldl_append, List.foldl_cons]
        congr 2
        set step := fun (res : List (List K)) (e : BCEntry K) => at2Add (at2Set res e.nodes e.comps (at2Get D e.nodes e.comps))
          e.nodes e.comps (e.vals.map fun v => -v * scale) with hstep
        have hsh : Shape (pre.foldl step R) fe.numTotalNodes fe.vec := by
          clear hR sR
          induction pre generalizing R with
          | nil => exact hshape
          | cons x pre ih => exact ih _ (at2Add_shape _ _ _ (at2Set_shape _ _ _ hshape _ _ _) _ _ _)
        have : step (pre.foldl step R) e = pre.foldl step R := by
          simp only [hstep]
          rw [at2Set_high _ _ _ hsh _ _ _ hc, at2Add_high _ _ _ hsh _ _ _ hc]
        exact congrArg (fun x => post.foldl step x) this
  · intro n c hm k hk
    have hcv := hc c (List.of_mem_zip (a := n) (b := c) hm).2
    refine ⟨fun A l => ?_, fun hd => ?_⟩
    · rw [elimRows_apply, if_pos]
      refine ⟨(e.nodes.zip e.comps).map fun p => p.1 * fe.vec + p.2 + 0, ?_, ?_⟩
      · simp only [bcRowLists, List.mem_flatMap, List.mem_range, List.mem_map]
        exact ⟨0, by simp, e, by simp, rfl⟩
      · rw [List.mem_map]
        exact ⟨(n, c), hm, by simp [hk]⟩
    · rcases Nat.eq_zero_or_pos fe.vec with h0 | h0
      · have := k.2
        simp [totalDofs, h0] at this
      · have h1 : n + 1 ≤ (k : Nat) / fe.vec := by
          rw [Nat.le_div_iff_mul_le h0, hk, Nat.add_mul, one_mul]
          omega
        omega

/-- **C107 (wrong component, consequence).** One variable with one component at two nodes, equations `2 u = 0`, and a condition
for the component 1, which does not exist, at node 0. Every Newton step with an exact linear solve replaces the value at node
1 by its negative, so that the residual never decreases there. -/
theorem C107_wrong_component_stalls (v : ℚ) (u du : Fin (totalDofs [⟨2, 1, 2, [[0, 1]]⟩]) → ℚ)
    (hdu : (elimRows [⟨2, 1, 2, [[0, 1]]⟩] [[⟨[0], [1], [v]⟩]]
        (2 • (1 : Matrix (Fin (totalDofs [⟨2, 1, 2, [[0, 1]]⟩])) (Fin (totalDofs [⟨2, 1, 2, [[0, 1]]⟩])) ℚ))).mulVec du
      = -applyBcV [⟨2, 1, 2, [[0, 1]]⟩] [[⟨[0], [1], [v]⟩]] 1 (2 • u) u) :
    (u + du) ⟨1, by decide⟩ = -u ⟨1, by decide⟩ := by
  have h1 := (C107_wrong_component (⟨2, 1, 2, [[0, 1]]⟩ : FE) [] [] ⟨[0], [1], [v]⟩ (by simp) 1 (List.ofFn (2 • u))
    (List.ofFn u) (by simp)).1
  have h2 := ((C107_wrong_component (⟨2, 1, 2, [[0, 1]]⟩ : FE) [] [] ⟨[0], [1], [v]⟩ (by simp) 1 (List.ofFn (2 • u))
    (List.ofFn u) (by simp)).2 0 1 (by simp) ⟨1, by decide⟩ rfl).1
    (2 • (1 : Matrix (Fin (totalDofs [⟨2, 1, 2, [[0, 1]]⟩])) (Fin (totalDofs [⟨2, 1, 2, [[0, 1]]⟩])) ℚ))
  have h3 := congrFun hdu ⟨1, by decide⟩
  have wf : WFBC [(⟨2, 1, 2, [[0, 1]]⟩ : FE)] [([] : List (BCEntry ℚ))] := by
    have h0 : ∀ es ∈ [([] : List (BCEntry ℚ))], es = [] := by simp
    refine ⟨rfl, ?_, ?_, ?_, ?_⟩
    · intro es hes e he
      rw [h0 es hes] at he
      cases he
    · intro es hes e he
      rw [h0 es hes] at he
      cases he
    · intro es hes e he
      rw [h0 es hes] at he
      cases he
    · intro i fe es _ hes e he
      rw [h0 es (List.mem_of_getElem? hes)] at he
      cases he
  have h4 : applyBcV [(⟨2, 1, 2, [[0, 1]]⟩ : FE)] [[⟨[0], [1], [v]⟩]] 1 (2 • u) u ⟨1, by decide⟩ = 2 * u ⟨1, by decide⟩ := by
    have h5 := (applyBcV_spec [(⟨2, 1, 2, [[0, 1]]⟩ : FE)] [([] : List (BCEntry ℚ))] wf 1 (2 • u) u ⟨1, by decide⟩).1
      (.free 0 1 0 _ _ rfl rfl (by decide) (by decide) rfl (by simp [FreeDof]))
    have h6 : applyBcV [(⟨2, 1, 2, [[0, 1]]⟩ : FE)] [[⟨[0], [1], [v]⟩]] 1 (2 • u) u
        = applyBcV [(⟨2, 1, 2, [[0, 1]]⟩ : FE)] [[]] 1 (2 • u) u := by
      funext k
      exact congrArg (fun l => List.getD l k 0) h1
    rw [h6, h5]
    simp
  rw [Matrix.mulVec, dotProduct] at h3
  simp only [List.nil_append] at h2
  simp only [h2, ite_mul, one_mul, zero_mul, Finset.sum_ite_eq, Finset.mem_univ, if_true, Pi.neg_apply, h4] at h3
  rw [Pi.add_apply, h3]
  ring

/-! ### Examples -/

/-- Three points on a line. -/
def linePts : List (ℚ × ℚ) := [(0, 0), (1, 0), (2, 0)]

/-- One variable with two components: both zero on the left, then the first one prescribed everywhere, then the second one on
the right, by a location function that looks at the node number. -/
def lineArgs : Args (ℚ × ℚ) ℚ := .single linePts (some ([.one fun p => p.1 == 0, .one fun p => p.1 == 0, .one fun _ => true,
  .two fun p n => p.1 == 2 && n == 2], [0, 1, 0, 1], [fun _ => 0, fun _ => 0, fun p => 5 + p.1, fun p => p.1 * 7]))

/-- Its variable. -/
def lineFe : FE := ⟨3, 2, 2, [[0, 1], [1, 2]]⟩

theorem line_suits : Suits [lineFe] lineArgs := by
  refine ⟨rfl, fun i fe pts hfe hp => ?_, fun i fe info hfe hg => ?_⟩
  · cases i with
    | zero =>
      cases hfe
      cases hp
      rfl
    | succ i => simp at hfe
  · cases i with
    | zero =>
      cases hfe
      cases hg
      simp [conds, lineFe]
    | succ i => simp at hfe

example : ∃ bcs, problemBCs lineArgs = .ok bcs := (C107_builds lineArgs).2 fun i hi => by
  have : i = 0 := by simpa [Args.meshes, lineArgs] using hi
  subst this
  exact ⟨_, rfl, rfl, rfl, by simp [LocFn.supported]⟩

/-- The first component at node 0 is prescribed twice; the later condition decides. -/
example (bcs : List (List (BCEntry ℚ))) (h : problemBCs lineArgs = .ok bcs) : Prescribed [lineFe] bcs 0 (some 5) :=
  ((C107_conditions [lineFe] lineArgs line_suits bcs h).2 0 0 0 lineFe linePts _ rfl rfl rfl (by decide) (by decide) _).2
    (by
      have := Demands.value (points := linePts) (n := 0) (c := 0) (its := conds (some ([.one fun p => p.1 == 0,
        .one fun p => p.1 == 0, .one fun _ => true, .two fun p n => p.1 == 2 && n == 2], [0, 1, 0, 1],
        [fun _ => (0 : ℚ), fun _ => 0, fun p => 5 + p.1, fun p => p.1 * 7])))
        [(.one fun p => p.1 == 0, 0, fun _ => 0), (.one fun p => p.1 == 0, 1, fun _ => 0)] (.one fun _ => true, 0, fun p => 5 + p.1)
        [(.two fun p n => p.1 == 2 && n == 2, 1, fun p => p.1 * 7)] (0, 0) rfl rfl rfl rfl (by simp [Concerns])
      simpa using this)

/-- The second component at node 1 is free. -/
example (bcs : List (List (BCEntry ℚ))) (h : problemBCs lineArgs = .ok bcs) : Prescribed [lineFe] bcs 3 none :=
  ((C107_conditions [lineFe] lineArgs line_suits bcs h).2 0 1 1 lineFe linePts _ rfl rfl rfl (by decide) (by decide) _).2
    (.free (by simp [conds, Concerns, OnDirichlet, LocFn.holds, linePts]))

/-- A problem with two meshes and information for one of them only cannot be built. -/
example : ¬∃ bcs, problemBCs (.multi [linePts, linePts] (some [(none : Info (ℚ × ℚ) ℚ)])) = .ok bcs := by
  rw [C107_builds]
  intro h
  obtain ⟨info, h1, -⟩ := h 1 (by simp [Args.meshes])
  simp [Args.given] at h1

end JaxFem.UserBC
