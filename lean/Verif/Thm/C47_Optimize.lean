import Verif.Thm.C46_Subsolv

/-!
# C47: the optimisation loop
-/

namespace JaxFem
namespace MMA

open scoped BigOperators

variable {m n : Nat}

/-- Invariant of the loop state. -/
structure OptInv (movelimit : ℝ) (st : OptState m n) : Prop where
  xmin : st.obj.xmin = fun _ => 0
  xmax : st.obj.xmax = fun _ => 1
  move : st.obj.move = movelimit
  epoch : st.obj.epoch = st.loop + 1
  range : ∀ j, 0 ≤ st.xval j ∧ st.xval j ≤ 1

/-- Rule for the distance `d` of an asymptote from the current point in iteration `k` (variables range over an
interval of length 1): half the range in the first two iterations, afterwards the previous distance `dprev`
(asymptote to previous point) times 1.2, 0.7 or 1 according to the sign of the product `z` of the last two changes
of the variable, but at least 0.01 and at most 10. -/
def AsyRule (k : Nat) (z dprev d : ℝ) : Prop :=
  (k ≤ 2 ∧ d = 1 / 2) ∨
  (3 ≤ k ∧ ∃ g : ℝ, ((0 < z ∧ g = 1.2) ∨ (z < 0 ∧ g = 0.7) ∨ (z = 0 ∧ g = 1)) ∧ d = max 0.01 (min 10 (g * dprev)))

theorem newLow_rule (k : Nat) (x p1 p2 low : ℝ) :
    AsyRule k ((x - p1) * (p1 - p2)) (p1 - low) (x - newLow k 0 1 x p1 p2 low) := by
  unfold newLow
  by_cases hk : k ≤ 2
  · left; rw [if_pos hk]; exact ⟨hk, by norm_num⟩
  · right
    rw [if_neg hk]
    refine ⟨by omega, asyFactor x p1 p2, ?_, ?_⟩
    · unfold asyFactor
      rcases lt_trichotomy ((x - p1) * (p1 - p2)) 0 with h | h | h
      · right; left; simp only; rw [if_pos h]; exact ⟨h, rfl⟩
      · right; right; simp only; rw [h, if_neg (lt_irrefl _), if_neg (lt_irrefl _)]; exact ⟨rfl, rfl⟩
      · left; simp only; rw [if_neg (by linarith), if_pos h]; exact ⟨h, rfl⟩
    · simp only
      generalize asyFactor x p1 p2 * (p1 - low) = t
      rcases le_total (x - t) (x - 10 * (1 - 0)) with h1 | h1
      · rw [max_eq_right h1, min_eq_left (by linarith), min_eq_left (by linarith), max_eq_right (by norm_num)]
        ring
      · rw [max_eq_left h1, min_eq_right (a := (10 : ℝ)) (by linarith)]
        rcases le_total (x - t) (x - 0.01 * (1 - 0)) with h2 | h2
        · rw [min_eq_left h2, max_eq_right (by linarith)]; ring
        · rw [min_eq_right h2, max_eq_left (by linarith)]; ring

theorem newUpp_rule (k : Nat) (x p1 p2 upp : ℝ) :
    AsyRule k ((x - p1) * (p1 - p2)) (upp - p1) (newUpp k 0 1 x p1 p2 upp - x) := by
  have e : newUpp k 0 1 x p1 p2 upp - x = x - newLow k 0 1 x p1 p2 (2 * p1 - upp) := by
    unfold newUpp newLow
    split_ifs
    · ring
    · simp only
      have e1 : asyFactor x p1 p2 * (p1 - (2 * p1 - upp)) = asyFactor x p1 p2 * (upp - p1) := by ring
      rw [e1]
      generalize asyFactor x p1 p2 * (upp - p1) = t
      rcases le_total (x + t) (x + 10 * (1 - 0)) with h1 | h1
      · rw [min_eq_left h1, max_eq_left (a := x - t) (by linarith)]
        rcases le_total (x + t) (x + 0.01 * (1 - 0)) with h2 | h2
        · rw [max_eq_right h2, min_eq_right (by linarith)]; ring
        · rw [max_eq_left h2, min_eq_left (by linarith)]; ring
      · rw [min_eq_right h1, max_eq_right (a := x - t) (by linarith), max_eq_left (by linarith),
          min_eq_left (by linarith)]
        ring
  rw [e]
  have := newLow_rule k x p1 p2 (2 * p1 - upp)
  have e2 : p1 - (2 * p1 - upp) = upp - p1 := by ring
  rwa [e2] at this

/-- Everything one pass guarantees. -/
theorem optStep_spec (df sf : Bool) (solve : LinSolve) (H : Fin n → Fin n → ℝ) (Hs : Fin n → ℝ)
    (hd : Handles m n) (movelimit : ℝ) (hmove : 0 < movelimit) (st st' : OptState m n) (e : LogEntry n)
    (hi : OptInv movelimit st) (h : optStep df sf solve H Hs hd st = .ok (st', e)) :
    OptInv movelimit st' ∧ st'.loop = st.loop + 1 ∧ st'.obj.xold1 = st.xval ∧ st'.obj.xold2 = st.obj.xold1 ∧
    (∀ j, |st'.xval j - st.xval j| ≤ movelimit) ∧
    (∀ j, 0 < st'.xval j ∧ st'.xval j < 1) ∧
    e.rhoPhysical = (if df then applyDensityFilter H Hs st.xval else st.xval) ∧ e.consIter = st.loop + 1 ∧
    e.xval = st.xval ∧ e.xold1 = st.obj.xold1 ∧ e.xold2 = st.obj.xold2 ∧ e.epoch = st.loop + 1 ∧
    e.low = st'.obj.low ∧ e.upp = st'.obj.upp ∧
    ∀ j, AsyRule (st.loop + 1) ((st.xval j - st.obj.xold1 j) * (st.obj.xold1 j - st.obj.xold2 j))
        (st.obj.xold1 j - st.obj.low j) (st.xval j - st'.obj.low j) ∧
      AsyRule (st.loop + 1) ((st.xval j - st.obj.xold1 j) * (st.obj.xold1 j - st.obj.xold2 j))
        (st.obj.upp j - st.obj.xold1 j) (st'.obj.upp j - st.xval j) := by
  unfold optStep at h
  extract_lets loop rho rhoP dJ0 vc dJ dvc pb at h
  rcases hs : subsolv solve pb with er | sol
  · rw [hs] at h; cases h
  rw [hs] at h
  obtain ⟨h1, h2⟩ := Prod.mk.inj (Except.ok.inj h)
  have hb : ∀ j, BoundsOrdered 0 1 movelimit (st.xval j) (pb.low j) (pb.upp j) (pb.alfa j) (pb.beta j) := by
    intro j
    have := C45_bounds st.obj st.xval dJ vc.1 dvc j (by rw [hi.xmin, hi.xmax]; exact one_pos)
      (by rw [hi.move]; exact hmove) (by rw [hi.xmin]; exact (hi.range j).1) (by rw [hi.xmax]; exact (hi.range j).2)
    simp only [hi.xmin, hi.xmax, hi.move] at this
    exact this
  have hint := C46_subsolv solve pb sol (fun j => (hb j).alfa_lt_beta) hs
  have hx : ∀ j, 0 < sol.x j ∧ sol.x j < 1 := fun j =>
    ⟨lt_of_le_of_lt (hb j).xmin_le (hint.x_gt j), lt_of_lt_of_le (hint.x_lt j) (hb j).beta_le⟩
  subst h1 h2
  refine ⟨⟨hi.xmin, hi.xmax, hi.move, ?_, fun j => ⟨(hx j).1.le, (hx j).2.le⟩⟩, rfl, rfl, rfl, ?_, hx, rfl, rfl, rfl,
    rfl, rfl, hi.epoch, rfl, rfl, fun j => ⟨?_, ?_⟩⟩
  · show st.obj.epoch + 1 = st.loop + 1 + 1
    rw [hi.epoch]
  · intro j
    have a := (hb j).move_alfa
    have b := (hb j).move_beta
    have c := hint.x_gt j
    have d := hint.x_lt j
    show |sol.x j - st.xval j| ≤ movelimit
    rw [abs_le]
    constructor <;> linarith
  · have := newLow_rule st.obj.epoch (st.xval j) (st.obj.xold1 j) (st.obj.xold2 j) (st.obj.low j)
    rw [hi.epoch] at this
    have e : pb.low j = newLow (st.loop + 1) 0 1 (st.xval j) (st.obj.xold1 j) (st.obj.xold2 j) (st.obj.low j) := by
      show newLow st.obj.epoch (st.obj.xmin j) (st.obj.xmax j) _ _ _ _ = _
      rw [hi.epoch, hi.xmin, hi.xmax]
    show AsyRule _ _ _ (st.xval j - pb.low j)
    rw [e]; exact this
  · have := newUpp_rule st.obj.epoch (st.xval j) (st.obj.xold1 j) (st.obj.xold2 j) (st.obj.upp j)
    rw [hi.epoch] at this
    have e : pb.upp j = newUpp (st.loop + 1) 0 1 (st.xval j) (st.obj.xold1 j) (st.obj.xold2 j) (st.obj.upp j) := by
      show newUpp st.obj.epoch (st.obj.xmin j) (st.obj.xmax j) _ _ _ _ = _
      rw [hi.epoch, hi.xmin, hi.xmax]
    show AsyRule _ _ _ (pb.upp j - st.xval j)
    rw [e]; exact this

/-- The requirement on the log of a run that starts at iteration `k` with iterate `x`, previous iterates
`p1` and `p2`, previous asymptotes `l` and `u`, and returns `xfin`. -/
inductive GoodLog (phys : (Fin n → ℝ) → Fin n → ℝ) (movelimit : ℝ) :
    Nat → (Fin n → ℝ) → (Fin n → ℝ) → (Fin n → ℝ) → (Fin n → ℝ) → (Fin n → ℝ) → List (LogEntry n) →
      (Fin n → ℝ) → Prop
  | nil (k x p1 p2 l u) : GoodLog phys movelimit k x p1 p2 l u [] x
  | cons (k x p1 p2 l u l' u' x' es xfin) (hr : ∀ j, 0 ≤ x j ∧ x j ≤ 1) (hr' : ∀ j, 0 < x' j ∧ x' j < 1)
      (hm : ∀ j, |x' j - x j| ≤ movelimit)
      (ha : ∀ j, AsyRule (k + 1) ((x j - p1 j) * (p1 j - p2 j)) (p1 j - l j) (x j - l' j) ∧
        AsyRule (k + 1) ((x j - p1 j) * (p1 j - p2 j)) (u j - p1 j) (u' j - x j))
      (ht : GoodLog phys movelimit (k + 1) x' x p1 l' u' es xfin) :
      GoodLog phys movelimit k x p1 p2 l u (⟨phys x, k + 1, x, p1, p2, k + 1, l', u'⟩ :: es) xfin

theorem optLoop_log (df sf : Bool) (solve : LinSolve) (H : Fin n → Fin n → ℝ) (Hs : Fin n → ℝ)
    (hd : Handles m n) (movelimit : ℝ) (hmove : 0 < movelimit) (k : Nat) (st st' : OptState m n)
    (es : List (LogEntry n)) (hi : OptInv movelimit st)
    (h : optLoop df sf solve H Hs hd k st = .ok (st', es)) :
    OptInv movelimit st' ∧ es.length = k ∧
      GoodLog (fun x => if df then applyDensityFilter H Hs x else x) movelimit st.loop st.xval st.obj.xold1
        st.obj.xold2 st.obj.low st.obj.upp es st'.xval := by
  induction k generalizing st es with
  | zero => cases h; exact ⟨hi, rfl, .nil _ _ _ _ _ _⟩
  | succ k ih =>
    unfold optLoop at h
    rcases hs : optStep df sf solve H Hs hd st with er | ⟨s1, e⟩
    · rw [hs] at h; cases h
    rw [hs] at h
    rcases hl : optLoop df sf solve H Hs hd k s1 with er | ⟨s2, es2⟩
    · simp only [bind, Except.bind] at h
      rw [hl] at h; cases h
    simp only [bind, Except.bind] at h
    rw [hl] at h
    obtain ⟨h1, h2⟩ := Prod.mk.inj (Except.ok.inj h)
    obtain ⟨i1, l1, o1, o2, mv, rg, p1, p2, p3, p4, p5, p6, p7, p8, p9⟩ :=
      optStep_spec df sf solve H Hs hd movelimit hmove st s1 e hi hs
    subst h1 h2
    obtain ⟨j1, j2, j3⟩ := ih s1 es2 i1 hl
    refine ⟨j1, by rw [List.length_cons, j2], ?_⟩
    have he : e = ⟨if df then applyDensityFilter H Hs st.xval else st.xval, st.loop + 1, st.xval, st.obj.xold1,
        st.obj.xold2, st.loop + 1, s1.obj.low, s1.obj.upp⟩ := by
      cases e; simp only at p1 p2 p3 p4 p5 p6 p7 p8; subst p1 p2 p3 p4 p5 p6 p7 p8; rfl
    rw [he]
    rw [l1, o1, o2] at j3
    exact .cons _ _ _ _ _ _ _ _ _ _ _ hi.range rg mv p9 j3

/-- **C47.** For every initial density in `[0,1]`, every positive move limit, all handles (also stateful
ones), any filter and any linear solver (also a wrong one): a run of `optimize` that returns has called the
handles exactly `maxIters` times with iteration numbers `1, …, maxIters` and the (filtered) current
densities; every iterate is in `[0,1]` (strictly inside after the first update) and differs from the
previous one by at most the move limit; the two previous iterates used for the asymptotes are the true
previous iterates (initially the starting point), and the asymptotes of each iteration follow from those of the
previous iteration by the moving-asymptote rule `AsyRule`. -/
theorem C47_optimize (df sf : Bool) (solve : LinSolve) (H : Fin n → Fin n → ℝ) (Hs : Fin n → ℝ)
    (hd : Handles m n) (rhoIni : Fin n → ℝ) (movelimit : ℝ) (hmove : 0 < movelimit) (maxIters : Nat)
    (hr : ∀ j, 0 ≤ rhoIni j ∧ rhoIni j ≤ 1) (rho : Fin n → ℝ) (log : List (LogEntry n))
    (h : optimize df sf solve H Hs hd rhoIni movelimit maxIters = .ok (rho, log)) :
    (∀ j, 0 ≤ rho j ∧ rho j ≤ 1) ∧ log.length = maxIters ∧
      GoodLog (fun x => if df then applyDensityFilter H Hs x else x) movelimit 0 rhoIni rhoIni rhoIni (fun _ => 1)
        (fun _ => 1) log rho := by
  unfold optimize at h
  rcases hl : optLoop df sf solve H Hs hd maxIters (optInit m rhoIni movelimit) with e | ⟨st, es⟩
  · rw [hl] at h; cases h
  rw [hl] at h
  obtain ⟨h1, h2⟩ := Prod.mk.inj (Except.ok.inj h)
  subst h1 h2
  obtain ⟨i, l, g⟩ := optLoop_log df sf solve H Hs hd movelimit hmove maxIters _ _ _ ⟨rfl, rfl, rfl, rfl, hr⟩ hl
  exact ⟨i.range, l, g⟩

/-- **C47 (returns).** If the linear solver never raises, `optimize` returns. -/
theorem C47_returns (df sf : Bool) (solve : LinSolve)
    (hs : ∀ (ι : Type) (A : ι → ι → ℝ) (b : ι → ℝ), ∃ x, solve ι A b = .ok x) (H : Fin n → Fin n → ℝ)
    (Hs : Fin n → ℝ) (hd : Handles m n) (rhoIni : Fin n → ℝ) (movelimit : ℝ) (maxIters : Nat) :
    ∃ r, optimize df sf solve H Hs hd rhoIni movelimit maxIters = .ok r := by
  have hloop : ∀ (k : Nat) (st : OptState m n), ∃ r, optLoop df sf solve H Hs hd k st = .ok r := by
    intro k
    induction k with
    | zero => intro st; exact ⟨_, rfl⟩
    | succ k ih =>
      intro st
      have h1 : ∃ r, optStep df sf solve H Hs hd st = .ok r := by
        unfold optStep
        extract_lets loop rho rhoP dJ0 vc dJ dvc pb
        obtain ⟨sol, hsol⟩ := C46_terminates solve pb hs
        rw [hsol]
        exact ⟨_, rfl⟩
      obtain ⟨⟨s1, e⟩, h1⟩ := h1
      obtain ⟨⟨s2, es⟩, h2⟩ := ih s1
      unfold optLoop
      rw [h1]
      simp only [bind, Except.bind]
      rw [h2]
      exact ⟨_, rfl⟩
  obtain ⟨⟨st, es⟩, h⟩ := hloop maxIters (optInit m rhoIni movelimit)
  unfold optimize
  rw [h]
  exact ⟨_, rfl⟩

/-- The hypotheses can be met: a run of five iterations with a solver that returns garbage. -/
example : ∃ r : (Fin 2 → ℝ) × List (LogEntry 2), optimize (m := 1) false true (fun _ _ b => .ok b) (fun _ _ => 1)
    (fun _ => 2) ⟨fun _ _ => (0, fun _ => 1), fun _ _ _ => (fun _ => 0, fun _ _ => 1)⟩ (fun _ => 0.5) 0.2 5 = .ok r ∧
    r.2.length = 5 := by
  obtain ⟨⟨rho, log⟩, h⟩ := C47_returns (m := 1) false true (fun _ _ b => .ok b) (fun _ _ b => ⟨b, rfl⟩)
    (fun _ _ => 1) (fun _ => 2) ⟨fun _ _ => (0, fun _ => 1), fun _ _ _ => (fun _ => 0, fun _ _ => 1)⟩
    (fun _ : Fin 2 => 0.5) 0.2 5
  exact ⟨_, h, (C47_optimize _ _ _ _ _ _ _ _ (by norm_num) _ (fun _ => by norm_num) _ _ h).2.1⟩

end MMA
end JaxFem
