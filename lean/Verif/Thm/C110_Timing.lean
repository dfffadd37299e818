import Verif.Spec.Timing
import Mathlib.Algebra.Order.BigOperators.Group.List
import Mathlib.Order.Monotone.Basic
import Mathlib.Tactic.Linarith
import Mathlib.Tactic.Ring
import Mathlib.Tactic.FieldSimp
import Mathlib.Tactic.NormNum

/-!
# C110: timing and logging of the Newton solver
-/

namespace JaxFem.Timing

open JaxFem JaxFem.Timing.Spec

universe u
variable {K : Type u} {D B R I : Type u} [Field K] [LinearOrder K]

section result
variable (clock : Nat → K) (assemble : D → Except Err B) (getA : D → B → Except Err R) (norm : R → Flt K)
  (solve : R → D → Except Err I) (advance : D → I → D) (finite : D → Bool) (tol relTol : K)

theorem timedUpdate_fst (dofs : D) (m : Meter K) :
    ((timedUpdate clock assemble getA dofs m).1.map fun x => x.1) = (assemble dofs >>= getA dofs) := by
  unfold timedUpdate
  cases h : assemble dofs with
  | error e => rfl
  | ok b =>
    cases h2 : getA dofs b with
    | error e => simp [h2, Except.map, bind, Except.bind]
    | ok r => simp [h2, Except.map, bind, Except.bind]

theorem timedStep_fst (res : R) (dofs : D) (m : Meter K) :
    ((timedStep clock solve advance res dofs m).1.map fun x => x.1) = (solve res dofs).map (advance dofs) := by
  unfold timedStep
  cases h : solve res dofs with
  | error e => rfl
  | ok b => rfl

theorem timedLoop_fst (resInitial : Flt K) (fuel : Nat) : ∀ (dofs : D) (res : R) (n : Nat) (m : Meter K),
    (timedLoop clock assemble getA norm solve advance tol relTol resInitial fuel dofs res n m).1 =
      newtonLoop (fun d => assemble d >>= getA d) norm (fun r d => (solve r d).map (advance d)) tol relTol resInitial
        fuel dofs res n := by
  induction fuel with
  | zero => intro dofs res n m; rfl
  | succ fuel ih =>
    intro dofs res n m
    unfold timedLoop newtonLoop
    by_cases hg : (((norm res).div resInitial).gt (.fin relTol) && (norm res).gt (.fin tol)) = true
    · rw [if_pos hg, if_pos hg]
      dsimp only
      have hs := timedStep_fst clock solve advance res dofs (m.info (.start (n + 1)))
      rcases h1 : timedStep clock solve advance res dofs (m.info (.start (n + 1))) with ⟨o, m1⟩
      rw [h1] at hs
      rw [← hs]
      cases o with
      | error e => rfl
      | ok p =>
        obtain ⟨d', ls⟩ := p
        dsimp only [Except.map]
        have hu := timedUpdate_fst clock assemble getA d' m1
        rcases h2 : timedUpdate clock assemble getA d' m1 with ⟨o2, m2⟩
        rw [h2] at hu
        rw [← hu]
        cases o2 with
        | error e => rfl
        | ok q => exact ih _ _ _ _
    · rw [if_neg hg, if_neg hg]

/-- **C110 (transparency).** For every clock the solver with watches and log returns what it would return
without them: same vector, same number of iterations, same exception, and runs on in the same cases. -/
theorem C110_result (dofs : D) (fuel : Nat) :
    (timedSolve clock assemble getA norm solve advance finite tol relTol dofs fuel).1 =
      newtonSolve (fun d => assemble d >>= getA d) norm (fun r d => (solve r d).map (advance d)) finite tol relTol
        dofs fuel := by
  unfold timedSolve newtonSolve
  dsimp only
  have hu := timedUpdate_fst clock assemble getA dofs ((⟨1, ⟨0, 0, 0⟩, []⟩ : Meter K).info (.start 0))
  rcases h2 : timedUpdate clock assemble getA dofs ((⟨1, ⟨0, 0, 0⟩, []⟩ : Meter K).info (.start 0)) with ⟨o2, m2⟩
  rw [h2] at hu
  cases o2 with
  | error e =>
    have hu' : (assemble dofs >>= getA dofs) = .error e := hu.symm
    rw [hu']
  | ok q =>
    obtain ⟨res, ls, gs⟩ := q
    have hu' : (assemble dofs >>= getA dofs) = .ok res := hu.symm
    rw [hu']
    dsimp only
    have hl := timedLoop_fst clock assemble getA norm solve advance tol relTol (norm res) fuel dofs res 0
      (m2.info (.summary 0 ls gs (norm res) ((norm res).div (norm res)) none))
    rcases h3 : timedLoop clock assemble getA norm solve advance tol relTol (norm res) fuel dofs res 0
      (m2.info (.summary 0 ls gs (norm res) ((norm res).div (norm res)) none)) with ⟨o3, m3⟩
    rw [h3] at hl
    dsimp only at hl
    rw [← hl]
    cases o3 with
    | none => rfl
    | some x =>
      cases x with
      | error e => rfl
      | ok y =>
        obtain ⟨d, r, n⟩ := y
        dsimp only
        split_ifs <;> rfl

end result

section log
variable (clock : Nat → K) (assemble : D → Except Err B) (getA : D → B → Except Err R) (norm : R → Flt K)
  (solve : R → D → Except Err I) (advance : D → I → D) (finite : D → Bool) (tol relTol : K)

/-- Times of the meter grew by these amounts. -/
def Grown (t t' : Parts K) (rs : List (Round K)) : Prop :=
  t'.localAssembly = t.localAssembly + totalLocal rs ∧ t'.globalMatrix = t.globalMatrix + totalGlobal rs ∧
    t'.linear = t.linear + totalLinear rs

theorem timedUpdate_ok (dofs : D) (m m' : Meter K) (r : R) (l g : K)
    (h : timedUpdate clock assemble getA dofs m = (.ok (r, l, g), m')) :
    m'.log = m.log ∧ m'.timing.localAssembly = m.timing.localAssembly + l ∧
      m'.timing.globalMatrix = m.timing.globalMatrix + g ∧ m'.timing.linear = m.timing.linear := by
  unfold timedUpdate at h
  cases h1 : assemble dofs with
  | error e => rw [h1] at h; simp at h
  | ok b =>
    cases h2 : getA dofs b with
    | error e => rw [h1] at h; simp [h2] at h
    | ok r' =>
      rw [h1] at h
      simp only [h2, Meter.lap, timingRecord, Prod.mk.injEq, Except.ok.injEq] at h
      obtain ⟨⟨rfl, rfl, rfl⟩, rfl⟩ := h
      exact ⟨rfl, rfl, rfl, rfl⟩

theorem timedUpdate_error (dofs : D) (m m' : Meter K) (e : Err)
    (h : timedUpdate clock assemble getA dofs m = (.error e, m')) : m'.log = m.log := by
  unfold timedUpdate at h
  cases h1 : assemble dofs with
  | error e =>
    rw [h1] at h
    simp only [Prod.mk.injEq] at h
    rw [← h.2]; rfl
  | ok b =>
    cases h2 : getA dofs b with
    | error e =>
      rw [h1] at h
      simp only [h2, Prod.mk.injEq] at h
      rw [← h.2]; rfl
    | ok r' => rw [h1] at h; simp [h2] at h

theorem timedStep_ok (res : R) (dofs d' : D) (m m' : Meter K) (l : K)
    (h : timedStep clock solve advance res dofs m = (.ok (d', l), m')) :
    m'.log = m.log ∧ m'.timing.localAssembly = m.timing.localAssembly ∧
      m'.timing.globalMatrix = m.timing.globalMatrix ∧ m'.timing.linear = m.timing.linear + l := by
  unfold timedStep at h
  cases h1 : solve res dofs with
  | error e => rw [h1] at h; simp at h
  | ok inc =>
    rw [h1] at h
    simp only [Meter.lap, timingRecord, Prod.mk.injEq, Except.ok.injEq] at h
    obtain ⟨⟨rfl, rfl⟩, rfl⟩ := h
    exact ⟨rfl, rfl, rfl, rfl⟩

theorem timedStep_error (res : R) (dofs : D) (m m' : Meter K) (e : Err)
    (h : timedStep clock solve advance res dofs m = (.error e, m')) : m'.log = m.log := by
  unfold timedStep at h
  cases h1 : solve res dofs with
  | error e =>
    rw [h1] at h
    simp only [Prod.mk.injEq] at h
    rw [← h.2]; rfl
  | ok inc => rw [h1] at h; simp at h

/-- How the log of a loop ends, depending on its outcome. -/
def Ending (n : Nat) (rs : List (Round K)) (tail : List (LogLine K)) (go : Flt K → Prop) (x : Flt K)
    (norm : R → Flt K) : Option (Except Err (D × R × Nat)) → Prop
  | some (.ok (_, r, k)) => tail = [] ∧ k = n + rs.length ∧ ¬go (lastRes x rs) ∧ norm r = lastRes x rs
  | some (.error _) => tail = [.start (n + 1 + rs.length)] ∧ go (lastRes x rs)
  | none => tail = []

theorem timedLoop_log (resInitial : Flt K) (fuel : Nat) : ∀ (dofs : D) (res : R) (n : Nat) (m : Meter K),
    ∀ out, timedLoop clock assemble getA norm solve advance tol relTol resInitial fuel dofs res n m = out →
    ∃ (rs : List (Round K)) (tail : List (LogLine K)),
      out.2.log = m.log ++ journal (n + 1) rs ++ tail ∧
      (∀ y, out.1 = some (.ok y) → Grown m.timing out.2.timing rs) ∧
      (∀ r ∈ rs, r.linear.isSome ∧ r.rel = r.res.div resInitial) ∧
      Chain (Unfinished tol relTol resInitial) (norm res) rs ∧
      Ending n rs tail (Unfinished tol relTol resInitial) (norm res) norm out.1 := by
  induction fuel with
  | zero =>
    rintro dofs res n m out rfl
    exact ⟨[], [], by simp [timedLoop, journal], by simp [timedLoop], by simp, trivial, rfl⟩
  | succ fuel ih =>
    intro dofs res n m out hout
    unfold timedLoop at hout
    by_cases hg : (((norm res).div resInitial).gt (.fin relTol) && (norm res).gt (.fin tol)) = true
    · rw [if_pos hg] at hout
      dsimp only at hout
      have hgo : Unfinished tol relTol resInitial (norm res) := by
        rw [Bool.and_eq_true] at hg; exact hg
      rcases h1 : timedStep clock solve advance res dofs (m.info (.start (n + 1))) with ⟨o, m1⟩
      rw [h1] at hout
      cases o with
      | error e =>
        subst hout
        have hl := timedStep_error clock solve advance res dofs _ m1 e h1
        refine ⟨[], [.start (n + 1)], ?_, ?_, by simp, trivial, ?_⟩
        · simp only [hl, journal, Meter.info, List.append_nil]
        · intro y hy; simp at hy
        · exact ⟨rfl, hgo⟩
      | ok p =>
        obtain ⟨d', ls⟩ := p
        obtain ⟨hl, a1, a2, a3⟩ := timedStep_ok clock solve advance res dofs d' _ m1 ls h1
        dsimp only at hout
        rcases h2 : timedUpdate clock assemble getA d' m1 with ⟨o2, m2⟩
        rw [h2] at hout
        cases o2 with
        | error e =>
          subst hout
          have hl2 := timedUpdate_error clock assemble getA d' m1 m2 e h2
          refine ⟨[], [.start (n + 1)], ?_, ?_, by simp, trivial, ?_⟩
          · simp only [hl2, hl, journal, Meter.info, List.append_nil]
          · intro y hy; simp at hy
          · exact ⟨rfl, hgo⟩
        | ok q =>
          obtain ⟨res', lo, gl⟩ := q
          obtain ⟨hl2, b1, b2, b3⟩ := timedUpdate_ok clock assemble getA d' m1 m2 res' lo gl h2
          dsimp only at hout
          obtain ⟨rs, tail, c1, c2, c3, c4, c5⟩ := ih _ _ _ _ out hout
          refine ⟨⟨lo, gl, norm res', (norm res').div resInitial, some ls⟩ :: rs, tail, ?_, ?_, ?_, ⟨hgo, c4⟩, ?_⟩
          · rw [c1]
            simp only [Meter.info, hl2, hl, journal, List.append_assoc, List.cons_append, List.nil_append]
          · intro y hy
            obtain ⟨g1, g2, g3⟩ := c2 y hy
            simp only [Meter.info] at g1 g2 g3 a1 a2 a3
            refine ⟨?_, ?_, ?_⟩
            · rw [g1, b1, a1]; simp [totalLocal, add_assoc]
            · rw [g2, b2, a2]; simp [totalGlobal, add_assoc]
            · rw [g3, b3, a3]; simp [totalLinear, add_assoc]
          · intro r hr
            rcases List.mem_cons.1 hr with rfl | hr
            · exact ⟨rfl, rfl⟩
            · exact c3 r hr
          · rcases out with ⟨o, mo⟩
            dsimp only at c5 ⊢
            rcases o with _ | (e | ⟨d, r, k⟩)
            · exact c5
            · refine ⟨c5.1.trans ?_, c5.2⟩
              simp only [List.length_cons]
              congr 2; omega
            · refine ⟨c5.1, c5.2.1.trans ?_, c5.2.2⟩
              simp only [List.length_cons]
              omega
    · rw [if_neg hg] at hout
      subst hout
      refine ⟨[], [], by simp [journal], ?_, by simp, trivial, ?_⟩
      · intro y _
        exact ⟨by simp [totalLocal], by simp [totalGlobal], by simp [totalLinear]⟩
      · refine ⟨rfl, by simp, ?_, rfl⟩
        rintro ⟨u1, u2⟩
        exact hg (by rw [Bool.and_eq_true]; exact ⟨u1, u2⟩)

/-- **C110 (journal).** For every clock, if the solver returns after `n` iterations, its log consists of the
rounds `0, …, n`, each with start line and summary, followed by the table. The first round has no linear
solve, all others have one; every relative residual is the residual of the round over that of round 0; all
residuals but the last miss a tolerance, the last one does not. The three rows of the table are the sums of
the times reported per round, the percentages are shares of the wall time; the row `other` is what is left, and
is missing exactly if this is less than 0.01 s. -/
theorem C110_journal (dofs d : D) (n fuel : Nat)
    (h : (timedSolve clock assemble getA norm solve advance finite tol relTol dofs fuel).1 = some (.ok (d, n))) :
    ∃ (r0 : Round K) (rs : List (Round K)) (wall : K) (p : Part → K) (rest : List (LogLine K)),
      (timedSolve clock assemble getA norm solve advance finite tol relTol dofs fuel).2.log =
        journal 0 (r0 :: rs) ++
          [.table n wall, .row .localAssembly (totalLocal (r0 :: rs)) (p .localAssembly),
            .row .globalMatrix (totalGlobal (r0 :: rs)) (p .globalMatrix),
            .row .linear (totalLinear (r0 :: rs)) (p .linear)] ++ rest ∧
      rs.length = n ∧ r0.linear = none ∧ (∀ r ∈ rs, r.linear.isSome) ∧
      (∀ r ∈ r0 :: rs, r.rel = r.res.div r0.res) ∧
      Chain (Unfinished tol relTol r0.res) r0.res rs ∧ ¬Unfinished tol relTol r0.res (lastRes r0.res rs) ∧
      (lastRes r0.res rs).isFinite = true ∧
      (0 < wall → p .localAssembly * wall = 100 * totalLocal (r0 :: rs) ∧
        p .globalMatrix * wall = 100 * totalGlobal (r0 :: rs) ∧ p .linear * wall = 100 * totalLinear (r0 :: rs)) ∧
      (wall ≤ 0 → ∀ part, p part = 0) ∧
      (wall - (totalLocal (r0 :: rs) + totalGlobal (r0 :: rs) + totalLinear (r0 :: rs)) < 1 / 100 → rest = []) ∧
      (1 / 100 ≤ wall - (totalLocal (r0 :: rs) + totalGlobal (r0 :: rs) + totalLinear (r0 :: rs)) →
        ∃ q, rest = [.other (wall - (totalLocal (r0 :: rs) + totalGlobal (r0 :: rs) + totalLinear (r0 :: rs))) q] ∧
          (0 < wall →
            q * wall = 100 * (wall - (totalLocal (r0 :: rs) + totalGlobal (r0 :: rs) + totalLinear (r0 :: rs))))) := by
  revert h
  unfold timedSolve
  dsimp only
  rcases h2 : timedUpdate clock assemble getA dofs ((⟨1, ⟨0, 0, 0⟩, []⟩ : Meter K).info (.start 0)) with ⟨o2, m2⟩
  cases o2 with
  | error e => intro h; simp at h
  | ok q =>
    obtain ⟨res, lo, gl⟩ := q
    obtain ⟨hl2, b1, b2, b3⟩ := timedUpdate_ok clock assemble getA dofs _ m2 res lo gl h2
    dsimp only
    rcases h3 : timedLoop clock assemble getA norm solve advance tol relTol (norm res) fuel dofs res 0
      (m2.info (.summary 0 lo gl (norm res) ((norm res).div (norm res)) none)) with ⟨o3, m3⟩
    obtain ⟨rs, tail, c1, c2, c3, c4, c5⟩ := timedLoop_log clock assemble getA norm solve advance tol relTol
      (norm res) fuel dofs res 0 _ _ h3
    rcases o3 with _ | (e | ⟨d', r, k⟩)
    · intro h; simp at h
    · intro h; simp at h
    · dsimp only at c1 c2 c5 ⊢
      obtain ⟨t0, hk, hlast, hr⟩ := c5
      subst t0
      by_cases hfin : (norm r).isFinite = true
      swap
      · rw [if_neg hfin]; intro h; simp at h
      by_cases hd : finite d' = true
      swap
      · rw [if_pos hfin, if_neg hd]; intro h; simp at h
      rw [if_pos hfin, if_pos hd]
      intro h
      simp only [Option.some.injEq, Except.ok.injEq, Prod.mk.injEq] at h
      obtain ⟨g1, g2, g3⟩ := c2 _ rfl
      set r0 : Round K := ⟨lo, gl, norm res, (norm res).div (norm res), none⟩ with hr0
      have e1 : m3.timing.localAssembly = totalLocal (r0 :: rs) := by
        rw [g1]; simp only [Meter.info]; rw [b1]; simp [totalLocal, hr0, Meter.info]
      have e2 : m3.timing.globalMatrix = totalGlobal (r0 :: rs) := by
        rw [g2]; simp only [Meter.info]; rw [b2]; simp [totalGlobal, hr0, Meter.info]
      have e3 : m3.timing.linear = totalLinear (r0 :: rs) := by
        rw [g3]; simp only [Meter.info]; rw [b3]; simp [totalLinear, hr0, Meter.info]
      have hpos : ∀ x w : K, 0 < w → percent x w * w = 100 * x := by
        intro x w hw
        rw [percent, if_pos hw, div_mul_cancel₀ _ hw.ne']
      refine ⟨r0, rs, clock m3.tick - clock 0, fun part => percent (m3.timing.get part) (clock m3.tick - clock 0),
        if 1 / 100 ≤ clock m3.tick - clock 0 -
          (m3.timing.localAssembly + m3.timing.globalMatrix + m3.timing.linear) then
          [LogLine.other (clock m3.tick - clock 0 -
          (m3.timing.localAssembly + m3.timing.globalMatrix + m3.timing.linear))
            (percent (clock m3.tick - clock 0 -
          (m3.timing.localAssembly + m3.timing.globalMatrix + m3.timing.linear)) (clock m3.tick - clock 0))] else [],
        ?_, ?_, rfl, fun x hx => (c3 x hx).1, ?_, c4, hlast, ?_, ?_, ?_, ?_, ?_⟩
      · rw [c1]
        simp only [Meter.info, hl2, timingTable, journal, Parts.get, e1, e2, e3, List.map_cons, List.map_nil,
          List.append_assoc, List.cons_append, List.nil_append, List.append_nil, hr0, ← h.2, hk, Nat.zero_add]
      · omega
      · intro x hx
        rcases List.mem_cons.1 hx with rfl | hx
        · rfl
        · exact (c3 x hx).2
      · rw [← hr]; exact hfin
      · intro hw
        simp only [Parts.get, e1, e2, e3]
        exact ⟨hpos _ _ hw, hpos _ _ hw, hpos _ _ hw⟩
      · intro hw part
        exact if_neg (not_lt.2 hw)
      · intro hlt
        rw [e1, e2, e3, if_neg (not_le.2 hlt)]
      · intro hge
        rw [e1, e2, e3, if_pos hge]
        exact ⟨_, rfl, fun hw => hpos _ _ hw⟩

end log

/-! ## A run -/

/-- Newton for `x^2 = 2` from `1`, tolerance `1/100`. -/
def exRun (clock : Nat → ℚ) : Option (Except Err (ℚ × Nat)) × Meter ℚ :=
  timedSolve (D := ℚ) (B := ℚ) (R := ℚ × ℚ) (I := ℚ) clock (fun x => .ok (x * x - 2)) (fun x b => .ok (b, 2 * x))
    (fun r => .fin |r.1|) (fun r _ => .ok (-r.1 / r.2)) (fun x i => x + i) (fun _ => true) (1 / 100) 0 1 10

/-- Reachable: two iterations, one reading of the clock per second. -/
example : (exRun fun i => i).1 = some (.ok (17 / 12, 2)) := by
  rw [exRun, C110_result]
  decide +kernel

example : (exRun fun i => i).2.timing.localAssembly = 3 ∧ (exRun fun i => i).2.timing.globalMatrix = 3 ∧
    (exRun fun i => i).2.timing.linear = 2 ∧ (exRun fun i => i).2.log.length = 11 := by
  decide +kernel

end JaxFem.Timing
