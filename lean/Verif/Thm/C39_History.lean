import Verif.Model.AdWrapper
import Verif.Thm.C23_Cache

/-!
# C39: forward and backward passes do not depend on the history
-/

namespace JaxFem

variable {E W G K : Type} [Field K] [LinearOrder K] {N : Nat}

/-! ### Specification: the pure forward and backward functions -/

/-- The whole of the internal variables is overwritten by `set_params`. -/
def AdProblem.Overwrites (P : AdProblem E W G K N) : Prop := ∀ p w w', P.setP p w = P.setP p w'

/-- The forward result as a function of the parameters: the solver of `Model/Newton` on the residual
and tangent for the internal variables `w`. -/
def AdProblem.pureForward (P : AdProblem E W G K N) (bcs : List (List (BCEntry K))) (w : W) (fuel : Nat) :
    Option (Except Err ((Fin N → K) × Nat)) :=
  newtonSolve (newtonUpdate P.fes bcs (P.res w)
      fun d => Matrix.of fun r k => cooEntry (cooI P.fes P.bs) (cooJ P.fes P.bs) (P.values w d) r k)
    (fun rA => P.norm rA.1) (newtonStep P.fes bcs P.norm (P.res w) P.solve P.lineSearch) P.finite P.tol
    P.relTol P.guess fuel

/-- The backward result as a function of parameters, solution and cotangent. -/
def AdProblem.pureBackward (P : AdProblem E W G K N) (bcs : List (List (BCEntry K))) (w : W) (p : E)
    (sol v : Fin N → K) : Except Err G :=
  (P.adjointSolve (tangentMat N P.fes P.bs (P.values w sol) bcs).transpose v).map (P.vjp p sol)

/-! ### Helper lemmas -/

/-- The cache belongs to the object and no array pair is shared between variables. -/
def AdInv (P : AdProblem E W G K N) (s : AdState W K) : Prop :=
  (∀ c, s.cs.cache = some c → CacheInv P.fes s.cs c) ∧
  ∀ i j p, EntryOf s.cs.bcs i p → EntryOf s.cs.bcs j p → i = j

omit [Field K] [LinearOrder K] in
theorem bcRowLists_entries (fes : List FE) (vals : Nat → Nat → List K) (heap : Nat → List Nat)
    (bcs : List (List (Nat × Nat))) :
    bcRowLists fes (bcEntries vals heap bcs) = currentRows fes heap bcs := by
  rw [currentRows, bcRowLists, bcRowLists]
  congr 1
  funext i
  have e1 : (bcEntries vals heap bcs).getD i [] =
      (bcs.getD i []).mapIdx fun j p => ⟨heap p.1, heap p.2, vals i j⟩ := by
    rw [List.getD_eq_getElem?_getD, List.getD_eq_getElem?_getD, bcEntries, List.getElem?_mapIdx]
    cases bcs[i]? <;> rfl
  have e2 : (bcs.map fun es => es.map fun p => (⟨heap p.1, heap p.2, []⟩ : BCEntry Unit)).getD i [] =
      (bcs.getD i []).map fun p => ⟨heap p.1, heap p.2, []⟩ := by
    rw [List.getD_eq_getElem?_getD, List.getD_eq_getElem?_getD, List.getElem?_map]
    cases bcs[i]? <;> rfl
  rw [e1, e2, List.map_map]
  apply List.ext_getElem?
  intro j
  rw [List.getElem?_map, List.getElem?_map, List.getElem?_mapIdx]
  cases (bcs.getD i [])[j]? <;> rfl

theorem updateS_spec (P : AdProblem E W G K N) (d : Fin N → K) (s : AdState W K) (hi : AdInv P s)
    (w : W) (hw : s.vars = some w) :
    (P.updateS d s).1 = newtonUpdate P.fes (bcEntries P.vals s.cs.heap s.cs.bcs) (P.res w)
      (fun d => Matrix.of fun r k => cooEntry (cooI P.fes P.bs) (cooJ P.fes P.bs) (P.values w d) r k) d ∧
    AdInv P (P.updateS d s).2 ∧ (P.updateS d s).2.vars = some w ∧
    (P.updateS d s).2.cs.heap = s.cs.heap ∧ (P.updateS d s).2.cs.bcs = s.cs.bcs := by
  obtain ⟨⟨c, h1, h2⟩, h3⟩ := getA_inv N P.fes P.bs { s.cs with V := P.values w d } hi.1 hi.2
  rw [AdProblem.updateS, hw]
  dsimp only
  rw [h1, h3, newtonUpdate, elimRows, bcRowLists_entries]
  refine ⟨rfl, ⟨?_, hi.2⟩, hw ▸ rfl, rfl, rfl⟩
  intro c' hc'
  cases hc'
  exact h2

theorem stepS_spec (P : AdProblem E W G K N) (r) (d : Fin N → K) (s : AdState W K)
    (w : W) (hw : s.vars = some w) :
    P.stepS r d s = newtonStep P.fes (bcEntries P.vals s.cs.heap s.cs.bcs) P.norm (P.res w) P.solve
      P.lineSearch r d := by
  rw [AdProblem.stepS, hw]

theorem loopS_spec (P : AdProblem E W G K N) (r0 : Flt K) (fuel : Nat) (d : Fin N → K) (r) (n : Nat)
    (s : AdState W K) (hi : AdInv P s) (w : W) (hw : s.vars = some w) (bcs : List (List (BCEntry K)))
    (hb : bcs = bcEntries P.vals s.cs.heap s.cs.bcs) :
    (P.loopS r0 fuel d r n s).1 = newtonLoop (newtonUpdate P.fes bcs (P.res w)
      fun d => Matrix.of fun r k => cooEntry (cooI P.fes P.bs) (cooJ P.fes P.bs) (P.values w d) r k)
      (fun rA => P.norm rA.1) (newtonStep P.fes bcs P.norm (P.res w) P.solve P.lineSearch) P.tol P.relTol
      r0 fuel d r n ∧
    AdInv P (P.loopS r0 fuel d r n s).2 ∧
    (P.loopS r0 fuel d r n s).2.cs.heap = s.cs.heap ∧ (P.loopS r0 fuel d r n s).2.cs.bcs = s.cs.bcs := by
  induction fuel generalizing d r n s with
  | zero => exact ⟨rfl, hi, rfl, rfl⟩
  | succ fuel ih =>
    rw [AdProblem.loopS, newtonLoop]
    split
    · rw [stepS_spec P r d s w hw, ← hb]
      rcases newtonStep P.fes bcs P.norm (P.res w) P.solve P.lineSearch r d with e | d'
      · exact ⟨rfl, hi, rfl, rfl⟩
      · dsimp only
        obtain ⟨u1, u2, u3, u4, u5⟩ := updateS_spec P d' s hi w hw
        rw [← hb] at u1
        rw [← u1]
        rcases hu : P.updateS d' s with ⟨e | r', s'⟩
        · rw [hu] at u2 u4 u5
          exact ⟨rfl, u2, u4, u5⟩
        · rw [hu] at u2 u3 u4 u5
          have := ih d' r' (n + 1) s' u2 u3 (by rw [hb, u4, u5])
          rw [u4, u5] at this
          exact this
    · exact ⟨rfl, hi, rfl, rfl⟩

theorem setParams_inv (P : AdProblem E W G K N) (p : E) (s : AdState W K) (hi : AdInv P s) :
    AdInv P (P.setParams p s) := hi

theorem forward_spec (P : AdProblem E W G K N) (fuel : Nat) (p : E) (s : AdState W K) (hi : AdInv P s) :
    (∀ w, P.setP p s.vars = some w →
      (P.forward fuel p s).1 = P.pureForward (bcEntries P.vals s.cs.heap s.cs.bcs) w fuel) ∧
    (P.setP p s.vars = none → (P.forward fuel p s).1 = some (.error .type)) ∧
    AdInv P (P.forward fuel p s).2 ∧ (P.forward fuel p s).2.cs.heap = s.cs.heap ∧
      (P.forward fuel p s).2.cs.bcs = s.cs.bcs := by
  rw [AdProblem.forward]
  set s1 := P.setParams p s with hs1
  have hi1 : AdInv P s1 := hi
  rcases hv : P.setP p s.vars with _ | w
  · have hv1 : s1.vars = none := hv
    have : P.updateS P.guess s1 = (.error .type, s1) := by rw [AdProblem.updateS, hv1]
    rw [this]
    exact ⟨fun w h => (by cases h), fun _ => rfl, hi1, rfl, rfl⟩
  · have hv1 : s1.vars = some w := hv
    obtain ⟨u1, u2, u3, u4, u5⟩ := updateS_spec P P.guess s1 hi1 w hv1
    refine ⟨?_, fun h => (by cases h), ?_⟩
    · intro w' hw'
      cases hw'
      rw [AdProblem.pureForward, newtonSolve]
      have hbb : bcEntries P.vals s1.cs.heap s1.cs.bcs = bcEntries P.vals s.cs.heap s.cs.bcs := rfl
      rw [hbb] at u1
      rw [← u1]
      rcases hu : P.updateS P.guess s1 with ⟨e | r, s2⟩
      · rfl
      · rw [hu] at u2 u3 u4 u5
        obtain ⟨l1, -, -⟩ := loopS_spec P (P.norm r.1) fuel P.guess r 0 s2 u2 w u3
          (bcEntries P.vals s.cs.heap s.cs.bcs) (by dsimp only at u4 u5 ⊢; rw [u4, u5]; rfl)
        dsimp only
        rw [← l1]
        rcases P.loopS (P.norm r.1) fuel P.guess r 0 s2 with ⟨_ | e | ⟨d, r', n⟩, s3⟩
        · rfl
        · rfl
        · dsimp only
          split
          · split <;> rfl
          · rfl
    · rcases hu : P.updateS P.guess s1 with ⟨e | r, s2⟩
      · rw [hu] at u2 u4 u5
        exact ⟨u2, u4, u5⟩
      · rw [hu] at u2 u3 u4 u5
        obtain ⟨-, l2, l3, l4⟩ := loopS_spec P (P.norm r.1) fuel P.guess r 0 s2 u2 w u3 _ rfl
        dsimp only
        rw [u4] at l3
        rw [u5] at l4
        rcases hl : P.loopS (P.norm r.1) fuel P.guess r 0 s2 with ⟨_ | e | ⟨d, r', n⟩, s3⟩
        · rw [hl] at l2 l3 l4; exact ⟨l2, l3, l4⟩
        · rw [hl] at l2 l3 l4; exact ⟨l2, l3, l4⟩
        · rw [hl] at l2 l3 l4
          dsimp only
          split
          · split <;> exact ⟨l2, l3, l4⟩
          · exact ⟨l2, l3, l4⟩

theorem backward_spec (P : AdProblem E W G K N) (p : E) (sol v : Fin N → K) (s : AdState W K)
    (hi : AdInv P s) :
    (∀ w, P.setP p s.vars = some w →
      (P.backward p sol v s).1 = P.pureBackward (bcEntries P.vals s.cs.heap s.cs.bcs) w p sol v) ∧
    (P.setP p s.vars = none → (P.backward p sol v s).1 = .error .type) ∧
    AdInv P (P.backward p sol v s).2 ∧ (P.backward p sol v s).2.cs.heap = s.cs.heap ∧
      (P.backward p sol v s).2.cs.bcs = s.cs.bcs := by
  rw [AdProblem.backward]
  set s1 := P.setParams p s with hs1
  have hi1 : AdInv P s1 := hi
  rcases hv : P.setP p s.vars with _ | w
  · have hv1 : s1.vars = none := hv
    have : P.updateS sol s1 = (.error .type, s1) := by rw [AdProblem.updateS, hv1]
    rw [this]
    exact ⟨fun w h => (by cases h), fun _ => rfl, hi1, rfl, rfl⟩
  · have hv1 : s1.vars = some w := hv
    obtain ⟨u1, u2, u3, u4, u5⟩ := updateS_spec P sol s1 hi1 w hv1
    rcases hu : P.updateS sol s1 with ⟨e | r, s2⟩
    · rw [hu] at u1; cases u1
    · rw [hu] at u1 u2 u4 u5
      have hr := Except.ok.inj u1
      dsimp only
      refine ⟨?_, fun h => (by cases h), ?_⟩
      · intro w' hw'
        cases hw'
        rw [AdProblem.pureBackward, tangentMat, hr]
        dsimp only
        rw [show bcEntries P.vals s1.cs.heap s1.cs.bcs = bcEntries P.vals s.cs.heap s.cs.bcs from rfl]
        rcases P.adjointSolve _ v with e | a <;> rfl
      · rcases P.adjointSolve r.2.transpose v with e | a
        · exact ⟨u2, u4, u5⟩
        · exact ⟨u2, u4, u5⟩

theorem run_inv (P : AdProblem E W G K N) (s : AdState W K) (hi : AdInv P s) (c : AdCall E W K N) :
    AdInv P (P.run s c) ∧ (P.run s c).cs.heap = s.cs.heap ∧ (P.run s c).cs.bcs = s.cs.bcs := by
  cases c with
  | forward fuel p => exact (forward_spec P fuel p s hi).2.2
  | backward p sol v => exact (backward_spec P p sol v s hi).2.2
  | direct vars V => exact ⟨⟨hi.1, hi.2⟩, rfl, rfl⟩

theorem runs_inv (P : AdProblem E W G K N) (s : AdState W K) (hi : AdInv P s)
    (cs : List (AdCall E W K N)) :
    AdInv P (cs.foldl P.run s) ∧ (cs.foldl P.run s).cs.heap = s.cs.heap ∧
      (cs.foldl P.run s).cs.bcs = s.cs.bcs := by
  induction cs generalizing s with
  | nil => exact ⟨hi, rfl, rfl⟩
  | cons c cs ih =>
    obtain ⟨h1, h2, h3⟩ := run_inv P s hi c
    obtain ⟨i1, i2, i3⟩ := ih _ h1
    exact ⟨i1, i2.trans h2, i3.trans h3⟩

/-! ### Property theorems -/

/-- **C39.** Let `set_params` overwrite all internal variables. On an object with any reachable cache
(in particular a new one), after any sequence of forward passes, backward passes and direct uses,
`fwd_pred(params)` is the pure solver for those parameters, and the backward pass is the pure adjoint
formula. -/
theorem C39_history (P : AdProblem E W G K N) (ho : P.Overwrites) (s : AdState W K)
    (hs : CacheHistory N P.fes P.bs s.cs) (calls : List (AdCall E W K N)) (p : E) (w w0)
    (hw : P.setP p w0 = some w) :
    (∀ fuel, (P.forward fuel p (calls.foldl P.run s)).1 =
      P.pureForward (bcEntries P.vals s.cs.heap s.cs.bcs) w fuel) ∧
    ∀ sol v, (P.backward p sol v (calls.foldl P.run s)).1 =
      P.pureBackward (bcEntries P.vals s.cs.heap s.cs.bcs) w p sol v := by
  obtain ⟨h1, h2, h3⟩ := runs_inv P s (history_inv N P.fes P.bs s.cs hs) calls
  have hw' : ∀ x, P.setP p x = some w := fun x => (ho p x w0).trans hw
  constructor
  · intro fuel
    have := (forward_spec P fuel p _ h1).1 w (hw' _)
    rw [h2, h3] at this
    exact this
  · intro sol v
    have := (backward_spec P p sol v _ h1).1 w (hw' _)
    rw [h2, h3] at this
    exact this

/-- **C39 (two histories).** Two histories of the same object give the same results. -/
theorem C39_two_histories (P : AdProblem E W G K N) (ho : P.Overwrites) (s : AdState W K)
    (hs : CacheHistory N P.fes P.bs s.cs) (calls calls' : List (AdCall E W K N)) (p : E) :
    (∀ fuel, (P.forward fuel p (calls.foldl P.run s)).1 = (P.forward fuel p (calls'.foldl P.run s)).1) ∧
    ∀ sol v, (P.backward p sol v (calls.foldl P.run s)).1 =
      (P.backward p sol v (calls'.foldl P.run s)).1 := by
  obtain ⟨h1, h2, h3⟩ := runs_inv P s (history_inv N P.fes P.bs s.cs hs) calls
  obtain ⟨h1', h2', h3'⟩ := runs_inv P s (history_inv N P.fes P.bs s.cs hs) calls'
  rcases hw : P.setP p none with _ | w
  · have hw' : ∀ x, P.setP p x = none := fun x => (ho p x none).trans hw
    exact ⟨fun fuel => by
        rw [(forward_spec P fuel p _ h1).2.1 (hw' _), (forward_spec P fuel p _ h1').2.1 (hw' _)],
      fun sol v => by
        rw [(backward_spec P p sol v _ h1).2.1 (hw' _), (backward_spec P p sol v _ h1').2.1 (hw' _)]⟩
  · have a := C39_history P ho s hs calls p w none hw
    have b := C39_history P ho s hs calls' p w none hw
    exact ⟨fun fuel => by rw [a.1, b.1], fun sol v => by rw [a.2, b.2]⟩

/-- **C39 (the object after a backward pass).** A successful backward pass leaves tracers in the
object: a residual evaluation without a new `set_params` raises. -/
theorem C39_tracers_left (P : AdProblem E W G K N) (p : E) (sol v d : Fin N → K) (s : AdState W K) (g : G)
    (hg : (P.backward p sol v s).1 = .ok g) :
    (P.updateS d (P.backward p sol v s).2).1 = .error .type := by
  have : (P.backward p sol v s).2.vars = none := by
    rw [AdProblem.backward] at hg ⊢
    set s1 := P.setParams p s with hs1
    rcases hu : P.updateS sol s1 with ⟨e | r, s2⟩
    · rw [hu] at hg; cases hg
    · rw [hu] at hg
      dsimp only at hg ⊢
      rcases hl : P.adjointSolve r.2.transpose v with e | a
      · rw [hl] at hg; cases hg
      · rfl
  rw [AdProblem.updateS, this]

/-! ### A concrete problem, and why `set_params` has to overwrite -/

/-- One free scalar unknown, `u - w = 0`. `set_params` is a parameter. -/
def adEx (setP : ℚ → Option ℚ → Option ℚ) : AdProblem ℚ ℚ ℚ ℚ 1 where
  fes := [⟨1, 1, 1, [[0]]⟩]
  bs := []
  vals := fun _ _ => []
  setP := setP
  res := fun w u => fun _ => u 0 - w
  values := fun _ _ => [1]
  norm := fun r => .fin |r 0|
  solve := fun A b _ => .ok fun i => b i / A 0 0
  adjointSolve := fun A b => .ok fun i => b i / A 0 0
  vjp := fun _ _ l => l 0
  finite := fun _ => true
  lineSearch := false
  tol := 1 / 1000
  relTol := 1 / 1000
  guess := 0

/-- A new object. -/
def adExState : AdState ℚ ℚ := ⟨none, ⟨fun _ => [], [[]], [], none⟩⟩

/-- The value of a finished forward pass. -/
def fwdVal (r : Option (Except Err ((Fin 1 → ℚ) × Nat)) × AdState ℚ ℚ) : Option ℚ :=
  match r.1 with
  | some (.ok (d, _)) => some (d 0)
  | _ => none

/-- With an overwriting `set_params` the result is the parameter, whatever happened before. -/
example : (adEx fun p _ => some p).Overwrites ∧
    CacheHistory 1 (adEx fun p _ => some p).fes (adEx fun p _ => some p).bs adExState.cs ∧
    fwdVal ((adEx fun p _ => some p).forward 5 3 adExState) = some 3 ∧
    fwdVal ((adEx fun p _ => some p).forward 5 3
      ([AdCall.forward 5 2, .backward 2 (fun _ => 2) (fun _ => 1), .direct none []].foldl
        (adEx fun p _ => some p).run adExState)) = some 3 := by
  refine ⟨fun _ _ _ => rfl, .new _ rfl ?_, by decide +kernel, by decide +kernel⟩
  rintro i j p ⟨es, h1, h2⟩ -
  cases i with
  | zero => cases h1; cases h2
  | succ i => cases h1

/-- **C39 (condition needed).** A `set_params` that updates the previous variables makes the result
depend on earlier calls, and raises after a backward pass. -/
theorem C39_needs_overwrite :
    let P := adEx fun p w => match w with
      | none => none
      | some w => some (w + p)
    let s : AdState ℚ ℚ := { adExState with vars := some 0 }
    fwdVal (P.forward 5 3 s) = some 3 ∧
    fwdVal (P.forward 5 3 ([AdCall.forward 5 3].foldl P.run s)) = some 6 ∧
    (P.forward 5 3 ([AdCall.backward 3 (fun _ => 3) (fun _ => 1)].foldl P.run s)).1.isSome ∧
    fwdVal (P.forward 5 3 ([AdCall.backward 3 (fun _ => 3) (fun _ => 1)].foldl P.run s)) = none := by
  decide +kernel

end JaxFem
