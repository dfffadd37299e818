import Verif.Model.Crystal
import Verif.Spec.Crystal

/-!
C89: the local Newton iteration with line search, and the time increment seen by compiled functions.
-/

namespace JaxFem.Crystal

variable {Y V : Type}

/-- `a < b`, or one of the two is NaN: what `not (a >= b)` means. -/
def NotGe (a b : Flt ℝ) : Prop := a.lt b = true ∨ a.isNaN = true ∨ b.isNaN = true

theorem fge_false (a b : Flt ℝ) : fge a b = false ↔ NotGe a b := by
  unfold fge NotGe Flt.lt
  cases a.isNaN <;> cases b.isNaN <;> cases b.gt a <;> simp

theorem fge_self (a b : Flt ℝ) (h : a.gt b = true) : fge a a = true := by
  cases a with
  | nan => simp [Flt.gt] at h
  | inf n => cases n <;> simp [fge, Flt.isNaN, Flt.gt]
  | fin x => simp [fge, Flt.isNaN, Flt.gt]

theorem lineSearch_spec (o : Ops Y V) (y d : Y) (r0 : V) : ∀ (left k : Nat),
    (∀ j ≤ k, fge (o.norm (o.res (o.axpy y (1 / 2 ^ j) d))) (o.norm r0) = true ∨ j = k) →
    ∃ i, i ≤ left ∧ lineSearch o y d r0 left (1 / 2 ^ (k + 1)) (o.res (o.axpy y (1 / 2 ^ k) d))
        = (1 / 2 ^ (k + i + 1), o.res (o.axpy y (1 / 2 ^ (k + i)) d))
      ∧ (∀ j < k + i, fge (o.norm (o.res (o.axpy y (1 / 2 ^ j) d))) (o.norm r0) = true)
      ∧ (i = left ∨ fge (o.norm (o.res (o.axpy y (1 / 2 ^ (k + i)) d))) (o.norm r0) = false) := by
  intro left
  induction left with
  | zero =>
    intro k hk
    exact ⟨0, le_refl _, rfl, fun j hj => (hk j (by omega)).resolve_right (by omega), Or.inl rfl⟩
  | succ left ih =>
    intro k hk
    by_cases hc : fge (o.norm (o.res (o.axpy y (1 / 2 ^ k) d))) (o.norm r0) = true
    · have e : (0.5 : ℝ) * (1 / 2 ^ (k + 1)) = 1 / 2 ^ (k + 1 + 1) := by
        rw [pow_succ 2 (k + 1)]
        field_simp
        norm_num
      obtain ⟨i, hi, he, hl, hx⟩ := ih (k + 1) (by
        intro j hj
        rcases Nat.lt_or_ge j (k + 1) with h | h
        · left
          rcases hk j (by omega) with h' | h'
          · exact h'
          · rw [h']; exact hc
        · right; omega)
      refine ⟨i + 1, by omega, ?_, ?_, ?_⟩
      · rw [lineSearch, if_pos hc, e, he, show k + 1 + i = k + (i + 1) by omega]
      · intro j hj
        exact hl j (by omega)
      · rw [show k + (i + 1) = k + 1 + i by omega]
        rcases hx with h | h
        · left; omega
        · right; exact h
    · have hc' : fge (o.norm (o.res (o.axpy y (1 / 2 ^ k) d))) (o.norm r0) = false := by simpa using hc
      refine ⟨0, by omega, ?_, fun j hj => (hk j (by omega)).resolve_right (by omega), Or.inr hc'⟩
      rw [lineSearch, hc', if_neg (by simp)]
      rfl

/-- One pass of the outer loop. -/
theorem body_spec (o : Ops Y V) (tol : Flt ℝ) (c : Nat) (y : Y) (h : (o.norm (o.res y)).gt tol = true) :
    ∃ y', body o (c, o.res y, y) = (c + 1, o.res y', y')
      ∧ DampedStep (fun z => o.norm (o.res z)) NotGe (fun a d z => o.axpy z a d) y (o.inc y (o.res y)) y' := by
  set d := o.inc y (o.res y) with hd
  have hs := fge_self _ _ h
  have e1 : lineSearch o y d (o.res y) 5 1 (o.res y)
      = lineSearch o y d (o.res y) 4 (1 / 2 ^ (0 + 1)) (o.res (o.axpy y (1 / 2 ^ 0) d)) := by
    rw [lineSearch, if_pos hs]
    norm_num
  obtain ⟨i, hi, he, hl, hx⟩ := lineSearch_spec o y d (o.res y) 4 0 (fun j hj => Or.inr (by omega))
  simp only [Nat.zero_add] at he hl hx
  rw [Nat.zero_add] at e1
  have e2 : (2 : ℝ) * (1 / 2 ^ (i + 1)) = 1 / 2 ^ i := by
    rw [pow_succ]
    field_simp
  refine ⟨o.axpy y (1 / 2 ^ i) d, ?_, i, hi, rfl, ?_, ?_⟩
  · show (c + 1, (lineSearch o y d (o.res y) 5 1 (o.res y)).2, o.axpy y (2 * (lineSearch o y d (o.res y) 5 1 (o.res y)).1) d) = _
    rw [e1, he]
    simp only [e2]
  · intro j hj hn
    rw [← fge_false, hl j hj] at hn
    exact absurd hn (by simp)
  · exact hx.imp id fun h => (fge_false _ _).1 h

theorem loop_spec (o : Ops Y V) (tol : ℝ) : ∀ (fuel c : Nat) (y : Y) (r : Nat × V × Y),
    newtonLoop o tol fuel (c, o.res y, y) = some r →
    ∃ (n : Nat) (ys : Nat → Y), ys 0 = y ∧ r = (c + n, o.res (ys n), ys n) ∧ n < fuel
      ∧ (o.norm (o.res (ys n))).gt (.fin tol) = false
      ∧ ∀ i < n, (o.norm (o.res (ys i))).gt (.fin tol) = true
        ∧ DampedStep (fun z => o.norm (o.res z)) NotGe (fun a d z => o.axpy z a d) (ys i) (o.inc (ys i) (o.res (ys i)))
          (ys (i + 1)) := by
  intro fuel
  induction fuel with
  | zero => intro c y r h; simp [newtonLoop] at h
  | succ fuel ih =>
    intro c y r h
    rw [newtonLoop] at h
    by_cases hg : (o.norm (o.res y)).gt (.fin tol) = true
    · rw [if_pos hg] at h
      obtain ⟨y', hb, hd⟩ := body_spec o _ c y hg
      rw [hb] at h
      obtain ⟨n, ys, h0, hr, hn, hx, hi⟩ := ih _ _ _ h
      refine ⟨n + 1, fun i => match i with | 0 => y | i + 1 => ys i, rfl, ?_, by omega, hx, ?_⟩
      · rw [hr, show c + 1 + n = c + (n + 1) by omega]
      · intro i hin
        cases i with
        | zero => exact ⟨hg, by show DampedStep _ _ _ y _ (ys 0); rw [h0]; exact hd⟩
        | succ i => exact hi i (by omega)
    · have hg' : (o.norm (o.res y)).gt (.fin tol) = false := by simpa using hg
      rw [if_neg hg] at h
      exact ⟨0, fun _ => y, rfl, (Option.some.inj h).symm, by omega, hg', fun i hi => absurd hi (by omega)⟩

theorem loop_mono (o : Ops Y V) (tol : ℝ) : ∀ (fuel : Nat) (s r : Nat × V × Y),
    newtonLoop o tol fuel s = some r → newtonLoop o tol (fuel + 1) s = some r := by
  intro fuel
  induction fuel with
  | zero => intro s r h; simp [newtonLoop] at h
  | succ fuel ih =>
    intro s r h
    rw [newtonLoop] at h ⊢
    by_cases hg : (o.norm s.2.1).gt (.fin tol) = true
    · rw [if_pos hg] at h ⊢
      exact ih _ _ h
    · rw [if_neg hg] at h ⊢
      exact h

/-- **C89 (local iteration).** Whatever residual, norm and linear solver: the value returned is reached from the start by damped
Newton steps, each along the increment of the current point, taken as long as the norm of the residual is above the tolerance; at
the value returned the norm is not above the tolerance (it is at most `1e-8`, or NaN); the number of passes is counted correctly and
does not depend on the budget of the model. -/
theorem C89_newton (o : Ops Y V) (y0 : Y) (fuel : Nat) (c : Nat) (v : V) (y : Y) (h : newtonSolver o y0 fuel = some (c, v, y)) :
    (∃ ys : Nat → Y, ys 0 = y0 ∧ ys c = y ∧ ∀ i < c, (o.norm (o.res (ys i))).gt (.fin (1 / 10 ^ 8)) = true
      ∧ DampedStep (fun z => o.norm (o.res z)) NotGe (fun a d z => o.axpy z a d) (ys i) (o.inc (ys i) (o.res (ys i))) (ys (i + 1)))
    ∧ v = o.res y
    ∧ (o.norm (o.res y) = .nan ∨ (∃ x : ℝ, x ≤ 1 / 10 ^ 8 ∧ o.norm (o.res y) = .fin x) ∨ o.norm (o.res y) = .inf true)
    ∧ (newtonSolver o y0 (fuel + 1) = some (c, v, y)) := by
  obtain ⟨n, ys, h0, hr, hn, hx, hi⟩ := loop_spec o _ _ _ _ _ h
  simp only [Nat.zero_add, Prod.mk.injEq] at hr
  obtain ⟨rfl, rfl, rfl⟩ := hr
  refine ⟨⟨ys, h0, rfl, hi⟩, rfl, ?_, loop_mono o _ _ _ _ h⟩
  cases e : o.norm (o.res (ys c)) with
  | nan => exact Or.inl rfl
  | inf b =>
    rw [e] at hx
    cases b
    · simp [Flt.gt] at hx
    · exact Or.inr (Or.inr rfl)
  | fin x =>
    rw [e] at hx
    exact Or.inr (Or.inl ⟨x, by simpa [Flt.gt] using hx, rfl⟩)

/-- The equation `y = 0`. -/
noncomputable def exRoot : Ops ℝ ℝ where
  res := fun y => y
  norm := fun v => .fin |v|
  inc := fun _ v => -v
  axpy := fun y a d => y + a * d

/-- The hypothesis can be met with a step that is not trivial: one step from 1. -/
example : newtonSolver exRoot 1 2 = some (1, 0, 0) := by
  have h1 : ((Flt.fin |(1 : ℝ)|).gt (.fin (1 / 10 ^ 8)) : Bool) = true := by simp [Flt.gt]; norm_num
  have h0 : ((Flt.fin |(0 : ℝ)|).gt (.fin (1 / 10 ^ 8)) : Bool) = false := by simp [Flt.gt]
  have hb : body exRoot (0, exRoot.res 1, 1) = (1, 0, 0) := by
    have g1 : fge (Flt.fin |(1 : ℝ)|) (Flt.fin |(1 : ℝ)|) = true := by simp [fge, Flt.gt, Flt.isNaN]
    have g2 : fge (Flt.fin |(1 : ℝ) + 1 * -1|) (Flt.fin |(1 : ℝ)|) = false := by simp [fge, Flt.gt, Flt.isNaN]
    have : lineSearch exRoot 1 (-1) 1 5 1 1 = (0.5 * 1, 1 + 1 * -1) := by
      rw [lineSearch, if_pos (show fge (exRoot.norm 1) (exRoot.norm 1) = true from g1), lineSearch]
      show (if fge (Flt.fin |(1 : ℝ) + 1 * -1|) (Flt.fin |(1 : ℝ)|) then _ else _) = _
      rw [g2]
      rfl
    show (0 + 1, (lineSearch exRoot 1 (-1) 1 5 1 1).2, (1 : ℝ) + 2 * (lineSearch exRoot 1 (-1) 1 5 1 1).1 * -1) = _
    rw [this]
    norm_num
  unfold newtonSolver
  rw [newtonLoop, if_pos (show ((exRoot.norm (exRoot.res 1)).gt (.fin (1 / 10 ^ 8))) = true from h1), hb, newtonLoop,
    if_neg (by show ¬ ((Flt.fin |(0 : ℝ)|).gt (.fin (1 / 10 ^ 8)) : Bool) = true; rw [h0]; simp)]

/-- A residual that never vanishes, and one that is NaN. -/
def exNever (b : Flt ℝ) : Ops ℝ ℝ where
  res := fun _ => 1
  norm := fun _ => b
  inc := fun _ v => -v
  axpy := fun y a d => y + a * d

/-- **C89 (local iteration, failures).** There is no bound on the number of passes: for a residual without a zero the iteration never
ends. A residual that is NaN ends the iteration at once, and the current point is returned as if it were a solution. -/
theorem C89_newton_failures :
    (∀ fuel, newtonSolver (exNever (.fin 1)) 0 fuel = none)
    ∧ ∀ fuel, newtonSolver (exNever .nan) 0 (fuel + 1) = some (0, 1, 0) := by
  refine ⟨fun fuel => ?_, fun fuel => rfl⟩
  have : ∀ fuel s, newtonLoop (exNever (.fin 1)) (1 / 10 ^ 8) fuel s = none := by
    intro fuel
    induction fuel with
    | zero => intro s; rfl
    | succ fuel ih =>
      intro s
      rw [newtonLoop, if_pos (by show ((Flt.fin (1 : ℝ)).gt (.fin (1 / 10 ^ 8)) : Bool) = true; simp [Flt.gt]; norm_num)]
      exact ih _
  exact this _ _

/-! ## Time increments -/

theorem timeSteps_compiled (c : ℝ) : ∀ (s : DtState) (ds : List ℝ), s.compiled = some c →
    timeSteps s ds = ds.map fun d => (c, d) := by
  intro s ds
  induction ds generalizing s with
  | nil => intro _; rfl
  | cons d ds ih =>
    intro h
    rw [timeSteps, List.map_cons]
    simp only [timeStep, h, Option.getD_some]
    rw [ih _ rfl]

/-- **C89 (time increments).** In every run the equilibrium equations use the increment of the *first* step in all steps, while the
update of the internal variables uses that of the current step; the two agree in all steps exactly if all increments are equal. -/
theorem C89_time_step (s : DtState) (h : s.compiled = none) (d : ℝ) (ds : List ℝ) :
    timeSteps s (d :: ds) = (d :: ds).map (fun e => (d, e))
    ∧ ((∀ p ∈ timeSteps s (d :: ds), p.1 = p.2) ↔ ∀ e ∈ ds, e = d) := by
  have e : timeSteps s (d :: ds) = (d :: ds).map (fun e => (d, e)) := by
    rw [timeSteps, List.map_cons]
    simp only [timeStep, h, Option.getD_none]
    rw [timeSteps_compiled d _ _ rfl]
  refine ⟨e, ?_⟩
  rw [e]
  simp only [List.mem_map, forall_exists_index, and_imp, List.mem_cons]
  constructor
  · intro H e he
    exact (H (d, e) e (Or.inr he) rfl).symm
  · rintro H _ x (rfl | hx) rfl
    · rfl
    · exact (H x hx).symm

/-- Refined time steps: the second update uses 0.5, the equilibrium equations still 1. -/
example : timeSteps ⟨0, none⟩ [1, 0.5] = [(1, 1), (1, 0.5)] := (C89_time_step ⟨0, none⟩ rfl 1 [0.5]).1

end JaxFem.Crystal
