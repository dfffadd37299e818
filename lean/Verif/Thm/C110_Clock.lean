import Verif.Thm.C110_Timing

/-!
# C110: times shown for a clock that does not run backwards, failures, logger and decorators
-/

namespace JaxFem.Timing

open JaxFem JaxFem.Timing.Spec

universe u
variable {K : Type u} {D B R I : Type u} [Field K] [LinearOrder K]

section clock
variable [IsStrictOrderedRing K] (clock : Nat → K) (hc : Monotone clock)
  (assemble : D → Except Err B) (getA : D → B → Except Err R) (norm : R → Flt K)
  (solve : R → D → Except Err I) (advance : D → I → D) (finite : D → Bool) (tol relTol : K)

/-- Recorded times are at least zero and together at most the time since the first reading; the log is
plausible and has no table. -/
structure Sound (clock : Nat → K) (m : Meter K) : Prop where
  loc : 0 ≤ m.timing.localAssembly
  glob : 0 ≤ m.timing.globalMatrix
  lin : 0 ≤ m.timing.linear
  sum : m.timing.localAssembly + m.timing.globalMatrix + m.timing.linear ≤ clock m.tick - clock 0
  log : ∀ l ∈ m.log, Plausible l ∧ ¬InTable l

include hc in
theorem Sound.lap {m : Meter K} (h : Sound clock m) (name : Part) :
    Sound clock (m.lap clock name).2 ∧ 0 ≤ (m.lap clock name).1 := by
  have h1 : clock m.tick ≤ clock (m.tick + 1) := hc (Nat.le_succ _)
  have h2 : clock (m.tick + 1) ≤ clock (m.tick + 2) := hc (Nat.le_succ _)
  obtain ⟨a, b, c, d, e⟩ := h
  refine ⟨?_, by simp only [Meter.lap]; linarith⟩
  cases name <;> constructor <;> simp only [Meter.lap, timingRecord] <;> first | linarith | exact e

include hc in
theorem Sound.lost {m : Meter K} (h : Sound clock m) : Sound clock m.lost := by
  have h1 : clock m.tick ≤ clock (m.tick + 1) := hc (Nat.le_succ _)
  obtain ⟨a, b, c, d, e⟩ := h
  exact ⟨a, b, c, by simp only [Meter.lost]; linarith, e⟩

omit [IsStrictOrderedRing K] in
theorem Sound.info {m : Meter K} (h : Sound clock m) (l : LogLine K) (hl : Plausible l ∧ ¬InTable l) :
    Sound clock (m.info l) := by
  obtain ⟨a, b, c, d, e⟩ := h
  refine ⟨a, b, c, d, ?_⟩
  intro x hx
  rcases List.mem_append.1 hx with hx | hx
  · exact e x hx
  · rw [List.mem_singleton.1 hx]; exact hl

include hc in
theorem Sound.update {m : Meter K} (h : Sound clock m) (dofs : D) :
    Sound clock (timedUpdate clock assemble getA dofs m).2 ∧
      ∀ r l g, (timedUpdate clock assemble getA dofs m).1 = .ok (r, l, g) → 0 ≤ l ∧ 0 ≤ g := by
  unfold timedUpdate
  cases assemble dofs with
  | error e => exact ⟨h.lost clock hc, by intro r l g hh; simp at hh⟩
  | ok b =>
    obtain ⟨h1, p1⟩ := h.lap clock hc .localAssembly
    obtain ⟨h2, p2⟩ := h1.lap clock hc .globalMatrix
    dsimp only
    cases getA dofs b with
    | error e => exact ⟨h1.lost clock hc, by intro r l g hh; simp at hh⟩
    | ok r =>
      refine ⟨h2, ?_⟩
      intro r' l g hh
      simp only [Except.ok.injEq, Prod.mk.injEq] at hh
      rw [← hh.2.1, ← hh.2.2]
      exact ⟨p1, p2⟩

include hc in
theorem Sound.step {m : Meter K} (h : Sound clock m) (res : R) (dofs : D) :
    Sound clock (timedStep clock solve advance res dofs m).2 ∧
      ∀ d l, (timedStep clock solve advance res dofs m).1 = .ok (d, l) → 0 ≤ l := by
  unfold timedStep
  cases solve res dofs with
  | error e => exact ⟨h.lost clock hc, by intro d l hh; simp at hh⟩
  | ok b =>
    obtain ⟨h1, p1⟩ := h.lap clock hc .linear
    refine ⟨h1, ?_⟩
    intro d l hh
    simp only [Except.ok.injEq, Prod.mk.injEq] at hh
    rw [← hh.2]
    exact p1

include hc in
theorem Sound.loop (resInitial : Flt K) (fuel : Nat) : ∀ (dofs : D) (res : R) (n : Nat) (m : Meter K), Sound clock m →
    Sound clock (timedLoop clock assemble getA norm solve advance tol relTol resInitial fuel dofs res n m).2 := by
  induction fuel with
  | zero => intro dofs res n m h; exact h
  | succ fuel ih =>
    intro dofs res n m h
    unfold timedLoop
    by_cases hg : (((norm res).div resInitial).gt (.fin relTol) && (norm res).gt (.fin tol)) = true
    · rw [if_pos hg]
      dsimp only
      have h0 := h.info clock (.start (n + 1)) ⟨trivial, id⟩
      obtain ⟨s1, p1⟩ := h0.step clock hc solve advance res dofs
      rcases h1 : timedStep clock solve advance res dofs (m.info (.start (n + 1))) with ⟨o, m1⟩
      rw [h1] at s1 p1
      cases o with
      | error e => exact s1
      | ok p =>
        obtain ⟨d', ls⟩ := p
        have q1 := p1 d' ls rfl
        dsimp only
        obtain ⟨s2, p2⟩ := Sound.update clock hc assemble getA s1 d'
        rcases h2 : timedUpdate clock assemble getA d' m1 with ⟨o2, m2⟩
        rw [h2] at s2 p2
        cases o2 with
        | error e => exact s2
        | ok q =>
          obtain ⟨res', lo, gl⟩ := q
          obtain ⟨q2, q3⟩ := p2 res' lo gl rfl
          apply ih
          refine s2.info clock _ ⟨⟨q2, q3, ?_⟩, id⟩
          intro x hx
          rw [Option.mem_some_iff] at hx
          rw [← hx]; exact q1
    · rw [if_neg hg]; exact h

/-- The table of a sound meter. -/
theorem table_sound (n : Nat) (t : Parts K) (w : K) (h1 : 0 ≤ t.localAssembly) (h2 : 0 ≤ t.globalMatrix)
    (h3 : 0 ≤ t.linear) (hs : t.localAssembly + t.globalMatrix + t.linear ≤ w) :
    (∀ l ∈ timingTable n t w, Plausible l) ∧
    ((timingTable n t w).map shownTime).sum ≤ w ∧ w - 1 / 100 < ((timingTable n t w).map shownTime).sum ∧
    ((timingTable n t w).map shownPercent).sum ≤ 100 ∧
    ((∃ dt pct, LogLine.other dt pct ∈ timingTable n t w) →
      ((timingTable n t w).map shownTime).sum = w ∧ ((timingTable n t w).map shownPercent).sum = 100) := by
  have hw : 0 ≤ w := by linarith
  have hp : ∀ x : K, 0 ≤ x → 0 ≤ percent x w := by
    intro x hx
    unfold percent
    split_ifs with h
    · exact div_nonneg (mul_nonneg (by norm_num) hx) h.le
    · exact le_refl _
  have hadd : ∀ x : K, 0 < w → percent x w = 100 * x / w := fun x h => if_pos h
  unfold timingTable
  dsimp only
  by_cases ho : 1 / 100 ≤ w - (t.localAssembly + t.globalMatrix + t.linear)
  · have hpos : 0 < w := by
      have : (0 : K) < 1 / 100 := by norm_num
      linarith
    rw [if_pos ho]
    have et : ((LogLine.table n w :: [Part.localAssembly, Part.globalMatrix, Part.linear].map (fun key =>
        LogLine.row key (t.get key) (percent (t.get key) w)) ++ [LogLine.other
        (w - (t.localAssembly + t.globalMatrix + t.linear))
        (percent (w - (t.localAssembly + t.globalMatrix + t.linear)) w)]).map shownTime).sum = w := by
      simp only [List.map_cons, List.map_nil, List.cons_append, List.nil_append, shownTime, Parts.get, List.sum_cons,
        List.sum_nil]
      ring
    have ep : ((LogLine.table n w :: [Part.localAssembly, Part.globalMatrix, Part.linear].map (fun key =>
        LogLine.row key (t.get key) (percent (t.get key) w)) ++ [LogLine.other
        (w - (t.localAssembly + t.globalMatrix + t.linear))
        (percent (w - (t.localAssembly + t.globalMatrix + t.linear)) w)]).map shownPercent).sum = 100 := by
      simp only [List.map_cons, List.map_nil, List.cons_append, List.nil_append, shownPercent, Parts.get,
        List.sum_cons, List.sum_nil, hadd _ hpos]
      have := hpos.ne'
      field_simp
      ring
    refine ⟨?_, et.le, ?_, ep.le, fun _ => ⟨et, ep⟩⟩
    · intro l hl
      simp only [List.map_cons, List.map_nil, List.cons_append, List.nil_append, List.mem_cons, List.not_mem_nil,
        or_false] at hl
      rcases hl with rfl | rfl | rfl | rfl | rfl
      · exact hw
      · exact ⟨h1, hp _ h1⟩
      · exact ⟨h2, hp _ h2⟩
      · exact ⟨h3, hp _ h3⟩
      · exact ⟨by linarith, hp _ (by linarith)⟩
    · rw [et]
      have : (0 : K) < 1 / 100 := by norm_num
      linarith
  · rw [if_neg ho]
    have et : ((LogLine.table n w :: [Part.localAssembly, Part.globalMatrix, Part.linear].map (fun key =>
        LogLine.row key (t.get key) (percent (t.get key) w)) ++ []).map shownTime).sum =
        t.localAssembly + t.globalMatrix + t.linear := by
      simp only [List.map_cons, List.map_nil, List.cons_append, List.nil_append, shownTime, Parts.get, List.sum_cons,
        List.sum_nil, List.append_nil]
      ring
    refine ⟨?_, ?_, ?_, ?_, ?_⟩
    · intro l hl
      simp only [List.map_cons, List.map_nil, List.append_nil, List.mem_cons, List.not_mem_nil,
        or_false] at hl
      rcases hl with rfl | rfl | rfl | rfl
      · exact hw
      · exact ⟨h1, hp _ h1⟩
      · exact ⟨h2, hp _ h2⟩
      · exact ⟨h3, hp _ h3⟩
    · rw [et]; exact hs
    · rw [et]; linarith
    · simp only [List.map_cons, List.map_nil, shownPercent, Parts.get,
        List.sum_cons, List.sum_nil, List.append_nil]
      rcases hw.lt_or_eq with hpos | h0
      · rw [hadd _ hpos, hadd _ hpos, hadd _ hpos]
        have e : 0 + (100 * t.localAssembly / w + (100 * t.globalMatrix / w + (100 * t.linear / w + 0))) =
            100 * (t.localAssembly + t.globalMatrix + t.linear) / w := by ring
        rw [e, div_le_iff₀ hpos]
        linarith
      · have e : ∀ x : K, percent x w = 0 := fun x => if_neg (by rw [← h0]; exact lt_irrefl _)
        rw [e, e, e]; norm_num
    · rintro ⟨dt, pct, hm⟩
      simp at hm

theorem sum_zero_of (f : LogLine K → K) (hf : ∀ l, ¬InTable l → f l = 0) (log : List (LogLine K))
    (h : ∀ l ∈ log, ¬InTable l) : (log.map f).sum = 0 := by
  induction log with
  | nil => rfl
  | cons a log ih =>
    rw [List.map_cons, List.sum_cons, hf a (h a (by simp)), ih fun l hl => h l (by simp [hl]), add_zero]

include hc in
/-- **C110 (times).** If the clock never runs backwards and the solver returns, then no time and no percentage in
the log is negative, the seconds in the rows of the table add up to at most the wall time and more than the wall
time minus 0.01 s, the percentages to at most 100; with the row `other` both sums are exact. -/
theorem C110_times (dofs d : D) (n fuel : Nat)
    (h : (timedSolve clock assemble getA norm solve advance finite tol relTol dofs fuel).1 = some (.ok (d, n))) :
    ∃ wall, .table n wall ∈ (timedSolve clock assemble getA norm solve advance finite tol relTol dofs fuel).2.log ∧
      (∀ l ∈ (timedSolve clock assemble getA norm solve advance finite tol relTol dofs fuel).2.log, Plausible l) ∧
      ((timedSolve clock assemble getA norm solve advance finite tol relTol dofs fuel).2.log.map shownTime).sum ≤ wall ∧
      wall - 1 / 100 <
        ((timedSolve clock assemble getA norm solve advance finite tol relTol dofs fuel).2.log.map shownTime).sum ∧
      ((timedSolve clock assemble getA norm solve advance finite tol relTol dofs fuel).2.log.map shownPercent).sum
        ≤ 100 ∧
      ((∃ dt pct, LogLine.other dt pct ∈
          (timedSolve clock assemble getA norm solve advance finite tol relTol dofs fuel).2.log) →
        ((timedSolve clock assemble getA norm solve advance finite tol relTol dofs fuel).2.log.map shownTime).sum
            = wall ∧
          ((timedSolve clock assemble getA norm solve advance finite tol relTol dofs fuel).2.log.map
            shownPercent).sum = 100) := by
  revert h
  unfold timedSolve
  dsimp only
  have s0 : Sound clock ((⟨1, ⟨0, 0, 0⟩, []⟩ : Meter K).info (.start 0)) := by
    have h1 : clock 0 ≤ clock 1 := hc (Nat.le_succ _)
    refine Sound.info clock ⟨le_refl _, le_refl _, le_refl _, ?_, by simp⟩ _ ⟨trivial, id⟩
    simp only [add_zero]; linarith
  obtain ⟨s2, p2⟩ := Sound.update clock hc assemble getA s0 dofs
  rcases h2 : timedUpdate clock assemble getA dofs ((⟨1, ⟨0, 0, 0⟩, []⟩ : Meter K).info (.start 0)) with ⟨o2, m2⟩
  rw [h2] at s2 p2
  cases o2 with
  | error e => intro h; simp at h
  | ok q =>
    obtain ⟨res, lo, gl⟩ := q
    obtain ⟨q2, q3⟩ := p2 res lo gl rfl
    dsimp only
    have s3 := Sound.loop clock hc assemble getA norm solve advance tol relTol (norm res) fuel dofs res 0 _
      (s2.info clock (.summary 0 lo gl (norm res) ((norm res).div (norm res)) none) ⟨⟨q2, q3, by simp⟩, id⟩)
    rcases h3 : timedLoop clock assemble getA norm solve advance tol relTol (norm res) fuel dofs res 0
      (m2.info (.summary 0 lo gl (norm res) ((norm res).div (norm res)) none)) with ⟨o3, m3⟩
    rw [h3] at s3
    rcases o3 with _ | (e | ⟨d', r, k⟩)
    · intro h; simp at h
    · intro h; simp at h
    · dsimp only at s3 ⊢
      by_cases hfin : (norm r).isFinite = true
      swap
      · rw [if_neg hfin]; intro h; simp at h
      by_cases hd : finite d' = true
      swap
      · rw [if_pos hfin, if_neg hd]; intro h; simp at h
      rw [if_pos hfin, if_pos hd]
      intro h
      simp only [Option.some.injEq, Except.ok.injEq, Prod.mk.injEq] at h
      obtain ⟨a, b, c, e, f⟩ := s3
      obtain ⟨t1, t2, t3, t4, t5⟩ := table_sound k m3.timing _ a b c e
      have z1 := sum_zero_of shownTime (by intro l hl; cases l <;> first | rfl | exact absurd trivial hl) m3.log
        fun l hl => (f l hl).2
      have z2 := sum_zero_of shownPercent (by intro l hl; cases l <;> first | rfl | exact absurd trivial hl) m3.log
        fun l hl => (f l hl).2
      refine ⟨clock m3.tick - clock 0, ?_, ?_, ?_, ?_, ?_, ?_⟩
      · rw [← h.2]; exact List.mem_append_right _ (by simp [timingTable])
      · intro l hl
        rcases List.mem_append.1 hl with hl | hl
        · exact (f l hl).1
        · exact t1 l hl
      · rw [List.map_append, List.sum_append, z1, zero_add]; exact t2
      · rw [List.map_append, List.sum_append, z1, zero_add]; exact t3
      · rw [List.map_append, List.sum_append, z2, zero_add]; exact t4
      · rintro ⟨dt, pct, hm⟩
        rw [List.map_append, List.sum_append, z1, zero_add, List.map_append, List.sum_append, z2, zero_add]
        rcases List.mem_append.1 hm with hm | hm
        · exact absurd trivial (f _ hm).2
        · exact t5 ⟨dt, pct, hm⟩

end clock

section failures
variable (clock : Nat → K) (assemble : D → Except Err B) (getA : D → B → Except Err R) (norm : R → Flt K)
  (solve : R → D → Except Err I) (advance : D → I → D) (finite : D → Bool) (tol relTol : K)

/-- **C110 (failures).** If the solver raises, its log has complete rounds only and then possibly the start line of
the round in which the call raised, in particular no table; without this last start line the exception is the final
assertion (`solver.py:1335-1336`). While it runs, the log consists of complete rounds. -/
theorem C110_failures (dofs : D) (fuel : Nat) :
    (∀ e, (timedSolve clock assemble getA norm solve advance finite tol relTol dofs fuel).1 = some (.error e) →
      ∃ (rs : List (Round K)) (tail : List (LogLine K)),
        (timedSolve clock assemble getA norm solve advance finite tol relTol dofs fuel).2.log =
          journal 0 rs ++ tail ∧ (tail = [.start rs.length] ∨ tail = [] ∧ e = .assertion)) ∧
    ((timedSolve clock assemble getA norm solve advance finite tol relTol dofs fuel).1 = none →
      ∃ rs : List (Round K),
        (timedSolve clock assemble getA norm solve advance finite tol relTol dofs fuel).2.log = journal 0 rs) := by
  unfold timedSolve
  dsimp only
  rcases h2 : timedUpdate clock assemble getA dofs ((⟨1, ⟨0, 0, 0⟩, []⟩ : Meter K).info (.start 0)) with ⟨o2, m2⟩
  cases o2 with
  | error e =>
    have hl := timedUpdate_error clock assemble getA dofs _ m2 e h2
    refine ⟨?_, by intro h; simp at h⟩
    intro e' _
    exact ⟨[], [.start 0], by rw [hl]; rfl, Or.inl rfl⟩
  | ok q =>
    obtain ⟨res, lo, gl⟩ := q
    obtain ⟨hl2, -⟩ := timedUpdate_ok clock assemble getA dofs _ m2 res lo gl h2
    dsimp only
    rcases h3 : timedLoop clock assemble getA norm solve advance tol relTol (norm res) fuel dofs res 0
      (m2.info (.summary 0 lo gl (norm res) ((norm res).div (norm res)) none)) with ⟨o3, m3⟩
    obtain ⟨rs, tail, c1, -, -, -, c5⟩ := timedLoop_log clock assemble getA norm solve advance tol relTol
      (norm res) fuel dofs res 0 _ _ h3
    have hlog : m3.log = journal 0 (⟨lo, gl, norm res, (norm res).div (norm res), none⟩ :: rs) ++ tail := by
      dsimp only at c1
      rw [c1]
      simp only [Meter.info, hl2, journal, List.cons_append, List.nil_append, Nat.zero_add]
    rcases o3 with _ | (e | ⟨d', r, k⟩)
    · refine ⟨by intro e h; simp at h, fun _ =>
        ⟨⟨lo, gl, norm res, (norm res).div (norm res), none⟩ :: rs, ?_⟩⟩
      dsimp only
      rw [hlog, show tail = [] from c5, List.append_nil]
    · refine ⟨?_, by intro h; simp at h⟩
      intro e' _
      refine ⟨_, tail, hlog, Or.inl ?_⟩
      rw [c5.1, List.length_cons]
      congr 2; omega
    · dsimp only at c5 ⊢
      obtain ⟨t0, -⟩ := c5
      by_cases hfin : (norm r).isFinite = true
      · by_cases hd : finite d' = true
        · rw [if_pos hfin, if_pos hd]
          exact ⟨by intro e h; simp at h, by intro h; simp at h⟩
        · rw [if_pos hfin, if_neg hd]
          refine ⟨?_, by intro h; simp at h⟩
          intro e h
          simp only [Option.some.injEq, Except.error.injEq] at h
          exact ⟨_, tail, hlog, Or.inr ⟨t0, h.symm⟩⟩
      · rw [if_neg hfin]
        refine ⟨?_, by intro h; simp at h⟩
        intro e h
        simp only [Option.some.injEq, Except.error.injEq] at h
        exact ⟨_, tail, hlog, Or.inr ⟨t0, h.symm⟩⟩

end failures

/-! ## Logger -/

section logger

theorem setup_other (reg : Registry) (name k : List String) (h : k ≠ name) :
    ((setupLogger reg name).logger k).handlers = (reg.logger k).handlers ∧
      ((setupLogger reg name).logger k).propagate = (reg.logger k).propagate := by
  unfold setupLogger
  dsimp only
  rw [if_neg (fun hh => h hh.1)]
  exact ⟨rfl, rfl⟩

theorem setup_self (reg : Registry) (name : List String) :
    ((reg.logger name).handlers = [] → ((setupLogger reg name).logger name).handlers = [reg.next] ∧
      ((setupLogger reg name).logger name).propagate = false) ∧
    ((reg.logger name).handlers ≠ [] →
      ((setupLogger reg name).logger name).handlers = (reg.logger name).handlers ∧
      ((setupLogger reg name).logger name).propagate = (reg.logger name).propagate) := by
  unfold setupLogger
  dsimp only
  constructor
  · intro h
    rw [if_pos ⟨rfl, h⟩]
    exact ⟨rfl, rfl⟩
  · intro h
    rw [if_neg (fun hh => h hh.2)]
    exact ⟨rfl, rfl⟩

theorem setup_level (reg : Registry) (name k : List String) :
    ((setupLogger reg name).logger k).level = if k = ["tensorflow"] ∨ k = ["jax"] then 40 else
      if k = name then 10 else (reg.logger k).level := by
  have e : (withLevels reg name k).level = if k = ["tensorflow"] ∨ k = ["jax"] then 40 else
      if k = name then 10 else (reg.logger k).level := rfl
  rw [← e]
  unfold setupLogger
  dsimp only
  by_cases h : k = name ∧ (withLevels reg name k).handlers = []
  · rw [if_pos h]
  · rw [if_neg h]

/-- **C110 (levels).** After any calls of `setup_logger` the loggers set up pass debug messages on, except that
`tensorflow` and `jax` are limited to errors after at least one call; the level of all other loggers is unchanged. -/
theorem C110_levels (reg : Registry) (names : List (List String)) (k : List String) :
    ((names.foldl setupLogger reg).logger k).level =
      if k = ["tensorflow"] ∨ k = ["jax"] then (if names = [] then (reg.logger k).level else 40)
      else if k ∈ names then 10 else (reg.logger k).level := by
  induction names using List.reverseRecOn with
  | nil => simp
  | append_singleton names name ih =>
    rw [List.foldl_append, List.foldl_cons, List.foldl_nil, setup_level, ih]
    by_cases h1 : k = ["tensorflow"] ∨ k = ["jax"]
    · rw [if_pos h1, if_pos h1, if_neg (by simp)]
    · rw [if_neg h1, if_neg h1, if_neg h1]
      by_cases h2 : k = name
      · rw [if_pos h2, if_pos (by simp [h2])]
      · rw [if_neg h2]
        by_cases h3 : k ∈ names
        · rw [if_pos h3, if_pos (by simp [h3])]
        · rw [if_neg h3, if_neg (by simp [h2, h3])]

/-- A registry in which no logger but the root has handlers, as at the start of Python. -/
def Fresh (reg : Registry) : Prop := ∀ k, k ≠ [] → (reg.logger k).handlers = []

/-- **C110 (logger).** However often and for whichever names `setup_logger` is called, every message to a logger set
up is delivered by exactly one handler, no matter which handlers the root has; different loggers have different
handlers. -/
theorem C110_logger (reg : Registry) (hr : Fresh reg) (names : List (List String)) (hn : [] ∉ names) :
    (∀ k ∈ names, ∃ h, deliver (names.foldl setupLogger reg) k.reverse = [h]) ∧
    (∀ k ∈ names, ∀ k' ∈ names, k ≠ k' → deliver (names.foldl setupLogger reg) k.reverse ≠
      deliver (names.foldl setupLogger reg) k'.reverse) := by
  have key : ∀ names : List (List String), [] ∉ names →
      (∀ k ∈ names, ∃ h, h < (names.foldl setupLogger reg).next ∧
        ((names.foldl setupLogger reg).logger k).handlers = [h] ∧
        ((names.foldl setupLogger reg).logger k).propagate = false) ∧
      (∀ k ∉ names, k ≠ [] → ((names.foldl setupLogger reg).logger k).handlers = []) ∧
      (∀ k ∈ names, ∀ k' ∈ names, k ≠ k' → ((names.foldl setupLogger reg).logger k).handlers ≠
        ((names.foldl setupLogger reg).logger k').handlers) := by
    intro names
    induction names using List.reverseRecOn with
    | nil => intro _; exact ⟨by simp, fun k _ hk => hr k hk, by simp⟩
    | append_singleton names name ih =>
      intro hn
      obtain ⟨i1, i2, i3⟩ := ih fun h => hn (by simp [h])
      have hname : name ≠ [] := fun h => hn (by simp [h])
      rw [List.foldl_append, List.foldl_cons, List.foldl_nil]
      set r := names.foldl setupLogger reg with hrdef
      have hnext : (setupLogger r name).next = r.next + 1 := rfl
      -- what the logger `k` looks like afterwards
      have hin : ∀ k ∈ names, ((setupLogger r name).logger k).handlers = (r.logger k).handlers ∧
          ((setupLogger r name).logger k).propagate = (r.logger k).propagate := by
        intro k hk
        by_cases hkn : k = name
        · subst hkn
          obtain ⟨h, -, hh, -⟩ := i1 k hk
          exact (setup_self r k).2 (by rw [hh]; simp)
        · exact setup_other r name k hkn
      have hnew : name ∉ names → ((setupLogger r name).logger name).handlers = [r.next] ∧
          ((setupLogger r name).logger name).propagate = false :=
        fun h => (setup_self r name).1 (i2 name h hname)
      refine ⟨?_, ?_, ?_⟩
      · intro k hk
        by_cases hkn : k ∈ names
        · obtain ⟨h, h1, h2, h3⟩ := i1 k hkn
          obtain ⟨e1, e2⟩ := hin k hkn
          exact ⟨h, by rw [hnext]; omega, by rw [e1, h2], by rw [e2, h3]⟩
        · have hke : k = name := by
            rcases List.mem_append.1 hk with h | h
            · exact absurd h hkn
            · exact List.mem_singleton.1 h
          subst hke
          exact ⟨r.next, by rw [hnext]; omega, (hnew hkn).1, (hnew hkn).2⟩
      · intro k hk hk0
        have h1 : k ∉ names := fun h => hk (by simp [h])
        have h2 : k ≠ name := fun h => hk (by simp [h])
        rw [(setup_other r name k h2).1]
        exact i2 k h1 hk0
      · have cross : ∀ k ∈ names, name ∉ names → ((setupLogger r name).logger k).handlers ≠
            ((setupLogger r name).logger name).handlers := by
          intro k hk hnn
          obtain ⟨h, h1, h2, -⟩ := i1 k hk
          rw [(hin k hk).1, (hnew hnn).1, h2]
          intro hh
          have := List.cons.inj hh
          omega
        intro k hk k' hk' hne
        by_cases hkn : k ∈ names
        · by_cases hkn' : k' ∈ names
          · rw [(hin k hkn).1, (hin k' hkn').1]
            exact i3 k hkn k' hkn' hne
          · have hke : k' = name := by
              rcases List.mem_append.1 hk' with h | h
              · exact absurd h hkn'
              · exact List.mem_singleton.1 h
            subst hke
            exact cross k hkn hkn'
        · have hke : k = name := by
            rcases List.mem_append.1 hk with h | h
            · exact absurd h hkn
            · exact List.mem_singleton.1 h
          subst hke
          by_cases hkn' : k' ∈ names
          · exact (cross k' hkn' hkn).symm
          · have hke' : k' = k := by
              rcases List.mem_append.1 hk' with h | h
              · exact absurd h hkn'
              · exact List.mem_singleton.1 h
            exact absurd hke'.symm hne
  obtain ⟨k1, -, k3⟩ := key names hn
  have hdel : ∀ k ∈ names, deliver (names.foldl setupLogger reg) k.reverse =
      ((names.foldl setupLogger reg).logger k).handlers := by
    intro k hk
    obtain ⟨h, -, -, hp⟩ := k1 k hk
    rcases hkr : k.reverse with _ | ⟨s, rest⟩
    · exact absurd hk (by rw [List.reverse_eq_nil_iff.1 hkr]; exact hn)
    · have hks : k = (s :: rest).reverse := by rw [← hkr, List.reverse_reverse]
      unfold deliver
      dsimp only
      rw [← hks, hp]
      simp
  refine ⟨?_, ?_⟩
  · intro k hk
    obtain ⟨h, -, hh, -⟩ := k1 k hk
    exact ⟨h, by rw [hdel k hk, hh]⟩
  · intro k hk k' hk' hne
    rw [hdel k hk, hdel k' hk']
    exact k3 k hk k' hk' hne

/-- **C110 (foreign handler).** A logger which already had a handler before `setup_logger` keeps propagating, so that
a message is delivered twice if the root has a handler too; the comment at `logger_setup.py:21-24` holds for loggers
without handlers only. -/
theorem C110_foreign_handler (reg : Registry) (s : String) (h hroot : Nat) (h1 : (reg.logger [s]).handlers = [h])
    (h2 : (reg.logger [s]).propagate = true) (h3 : (reg.logger []).handlers = [hroot]) :
    deliver (setupLogger reg [s]) [s] = [h, hroot] := by
  obtain ⟨a, b⟩ := (setup_self reg [s]).2 (by rw [h1]; simp)
  obtain ⟨c, -⟩ := setup_other reg [s] [] (by simp)
  simp only [deliver, List.reverse_cons, List.reverse_nil, List.nil_append]
  rw [a, b, h1, h2, c, h3]
  rfl

/-- Reachable: a registry with such a logger. -/
example : ∃ reg : Registry, (reg.logger ["a"]).handlers = [0] ∧ (reg.logger ["a"]).propagate = true ∧
    (reg.logger []).handlers = [1] :=
  ⟨⟨fun k => if k = [] then ⟨[1], true, 30⟩ else ⟨[0], true, 0⟩, 2⟩, by simp⟩

/-- Reachable: `jax_fem` set up twice and a second logger, on a root with two handlers. -/
example : let reg : Registry := ⟨fun k => if k = [] then ⟨[1, 2], true, 30⟩ else ⟨[], true, 0⟩, 3⟩
    Fresh reg ∧ deliver ([["jax_fem"], ["jax_fem", "x"], ["jax_fem"]].foldl setupLogger reg) ["jax_fem"] = [3] ∧
    deliver reg ["jax_fem"] = [1, 2] := by
  refine ⟨?_, by decide, by decide⟩
  intro k hk
  simp [hk]

end logger

/-! ## Decorators -/

section decorators

/-- One call of a function decorated by `walltime`. -/
structure WallCall (K B : Type u) where
  txtDir : Option String
  filename : Option String
  platform : String
  outcome : Except Err B
  t0 : K
  t1 : K

/-- The call by the decorator, from the files before. -/
def WallCall.run (c : WallCall K B) (files : String → Option (K × K × K)) :
    Except Err B × (String → Option (K × K × K)) :=
  walltime (I := PUnit) c.txtDir c.filename c.platform (fun _ => c.outcome) c.t0 c.t1 PUnit.unit files

/-- The file for the record of the call: directory, given name or `walltime`, platform. -/
def WallCall.path (c : WallCall K B) : Option String :=
  match c.txtDir, c.filename with
  | none, _ => none
  | some d, none => some (d ++ "/" ++ "walltime" ++ "_" ++ c.platform ++ ".txt")
  | some d, some x => some (d ++ "/" ++ x ++ "_" ++ c.platform ++ ".txt")

/-- The call leaves a record in file `f`. -/
def WallCall.writes (c : WallCall K B) (f : String) : Bool :=
  (match c.outcome with | .ok _ => true | .error _ => false) && decide (c.path = some f)

omit [LinearOrder K] in
theorem WallCall.run_files (c : WallCall K B) (fs : String → Option (K × K × K)) (f : String) :
    (c.run fs).2 f = if c.writes f then some (c.t0, c.t1, c.t1 - c.t0) else fs f := by
  obtain ⟨dir, fn, pl, oc, a, b⟩ := c
  unfold WallCall.run walltime WallCall.writes
  cases oc with
  | error e => rfl
  | ok x =>
    cases dir with
    | none => simp [WallCall.path]
    | some dir =>
      have hname : (⟨some dir, fn, pl, .ok x, a, b⟩ : WallCall K B).path = some (walltimeFile dir fn pl) := by
        cases fn <;> rfl
      rw [hname]
      by_cases hf : f = walltimeFile dir fn pl
      · simp [hf]
      · simp [hf, Ne.symm hf]

omit [LinearOrder K] in
/-- **C110 (decorators).** The decorators return what the function returns or raise what it raises; the debug time of
`timeit` is there exactly if the function returned. After any sequence of calls of functions decorated by `walltime` a
file has the times of the last successful call for this file name only. -/
theorem C110_decorators (func : I → Except Err B) (t0 t1 : K) (args : I) (calls : List (WallCall K B))
    (files : String → Option (K × K × K)) (f : String) :
    (timeit func t0 t1 args).1 = func args ∧
    ((timeit func t0 t1 args).2 = some (t1 - t0) ∧ (∃ b, func args = .ok b) ∨
      (timeit func t0 t1 args).2 = none ∧ ∃ e, func args = .error e) ∧
    (∀ c ∈ calls, ∀ fs, (c.run fs).1 = c.outcome) ∧
    calls.foldl (fun fs c => (c.run fs).2) files f =
      match calls.reverse.find? (fun c => c.writes f) with
      | some c => some (c.t0, c.t1, c.t1 - c.t0)
      | none => files f := by
  refine ⟨?_, ?_, ?_, ?_⟩
  · unfold timeit; cases func args <;> rfl
  · unfold timeit
    cases h : func args with
    | error e => exact Or.inr ⟨rfl, e, rfl⟩
    | ok b => exact Or.inl ⟨rfl, b, rfl⟩
  · intro c _ fs
    unfold WallCall.run walltime
    cases c.outcome with
    | error e => rfl
    | ok b => cases c.txtDir <;> rfl
  · induction calls using List.reverseRecOn with
    | nil => rfl
    | append_singleton calls c ih =>
      rw [List.foldl_append, List.foldl_cons, List.foldl_nil, List.reverse_append, List.reverse_cons,
        List.reverse_nil, List.nil_append, List.singleton_append, List.find?_cons]
      rw [WallCall.run_files]
      cases hw : c.writes f with
      | true => simp
      | false =>
        rw [if_neg (by simp)]
        exact ih

/-- Two functions timed with the default file name: the record of the first is lost. -/
example : ([⟨some "txt", none, "cpu", .ok PUnit.unit, (0 : ℚ), 1⟩, ⟨some "txt", none, "cpu", .ok PUnit.unit, 2, 5⟩] :
    List (WallCall ℚ PUnit)).foldl (fun fs c => (c.run fs).2) (fun _ => none) "txt/walltime_cpu.txt" =
      some (2, 5, 3) := by
  rw [(C110_decorators (I := PUnit) (fun _ => Except.ok PUnit.unit) 0 0 PUnit.unit _ _ _).2.2.2]
  have h : (⟨some "txt", none, "cpu", .ok PUnit.unit, 2, 5⟩ : WallCall ℚ PUnit).writes "txt/walltime_cpu.txt" = true := by
    decide
  rw [List.reverse_cons, List.reverse_cons, List.reverse_nil, List.nil_append, List.singleton_append,
    List.find?_cons, h]
  norm_num

end decorators

end JaxFem.Timing
