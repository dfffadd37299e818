import Verif.Thm.C45_Asymptotes
import Mathlib.Data.Matrix.Mul
import Mathlib.Algebra.BigOperators.Field
import Mathlib.Tactic.LinearCombination

/-!
# C46, C63, C64: the subproblem solver of MMA
-/

namespace JaxFem
namespace MMA

open scoped BigOperators

variable {m n : Nat}

/-- Strictly between the bounds, with positive slacks and multipliers. -/
structure Interior (pb : SubProb m n) (st : SubState m n) : Prop where
  x_gt : ∀ j, pb.alfa j < st.x j
  x_lt : ∀ j, st.x j < pb.beta j
  y : ∀ i, 0 < st.y i
  z : 0 < st.z
  lam : ∀ i, 0 < st.lam i
  xsi : ∀ j, 0 < st.xsi j
  eta : ∀ j, 0 < st.eta j
  mu : ∀ i, 0 < st.mu i
  zet : 0 < st.zet
  s : ∀ i, 0 < st.s i

/-! ### Helper lemmas -/

theorem le_foldl_max (l : List ℝ) : ∀ a : ℝ, a ≤ l.foldl max a ∧ ∀ b ∈ l, b ≤ l.foldl max a := by
  induction l with
  | nil => intro a; exact ⟨le_refl _, fun b hb => by cases hb⟩
  | cons c l ih =>
    intro a
    rw [List.foldl_cons]
    obtain ⟨h1, h2⟩ := ih (max a c)
    refine ⟨(le_max_left _ _).trans h1, fun b hb => ?_⟩
    rcases List.mem_cons.1 hb with rfl | hb
    · exact (le_max_right _ _).trans h1
    · exact h2 b hb

theorem le_npMax (l : List ℝ) (b : ℝ) (hb : b ∈ l) : b ≤ npMax l := by
  cases l with
  | nil => cases hb
  | cons a l =>
    rcases List.mem_cons.1 hb with rfl | hb
    · exact (le_foldl_max l _).1
    · exact (le_foldl_max l _).2 b hb

theorem foldl_max_mem (l : List ℝ) : ∀ a : ℝ, l.foldl max a ∈ a :: l := by
  induction l with
  | nil => intro a; exact List.mem_cons_self ..
  | cons c l ih =>
    intro a
    rw [List.foldl_cons]
    rcases List.mem_cons.1 (ih (max a c)) with h | h
    · rw [h]
      rcases max_choice a c with h' | h' <;> rw [h'] <;> simp
    · exact List.mem_cons_of_mem _ (List.mem_cons_of_mem _ h)

theorem npMax_le (l : List ℝ) (hl : l ≠ []) (t : ℝ) : npMax l ≤ t ↔ ∀ b ∈ l, b ≤ t := by
  cases l with
  | nil => exact absurd rfl hl
  | cons a l =>
    exact ⟨fun h b hb => (le_npMax _ b hb).trans h, fun h => h _ (foldl_max_mem l a)⟩

theorem zipWith_ofFn {α β γ : Type} (f : α → β → γ) : ∀ {k : Nat} (a : Fin k → α) (b : Fin k → β),
    List.zipWith f (List.ofFn a) (List.ofFn b) = List.ofFn fun i => f (a i) (b i)
  | 0, _, _ => by simp
  | k + 1, a, b => by
    rw [List.ofFn_succ, List.ofFn_succ, List.zipWith_cons_cons, zipWith_ofFn, List.ofFn_succ]

/-- The ratios whose maximum limits the step. -/
theorem posList_zip (d st : SubState m n) :
    List.zipWith (fun dv v => -1.01 * dv / v) d.posList st.posList =
      List.ofFn (fun i => -1.01 * d.y i / st.y i) ++ [-1.01 * d.z / st.z] ++
      List.ofFn (fun i => -1.01 * d.lam i / st.lam i) ++ List.ofFn (fun j => -1.01 * d.xsi j / st.xsi j) ++
      List.ofFn (fun j => -1.01 * d.eta j / st.eta j) ++ List.ofFn (fun i => -1.01 * d.mu i / st.mu i) ++
      [-1.01 * d.zet / st.zet] ++ List.ofFn (fun i => -1.01 * d.s i / st.s i) := by
  unfold SubState.posList
  rw [List.zipWith_append (by simp), List.zipWith_append (by simp), List.zipWith_append (by simp),
    List.zipWith_append (by simp), List.zipWith_append (by simp), List.zipWith_append (by simp),
    List.zipWith_append (by simp)]
  simp only [zipWith_ofFn, List.zipWith_cons_cons, List.zipWith_nil_left]

/-- A positive quantity stays positive under a step that is at most the reciprocal of the ratio. -/
theorem step_pos (v dv S t : ℝ) (hv : 0 < v) (hS : 0 < S) (hr : -1.01 * dv / v ≤ S) (ht0 : 0 ≤ t)
    (ht : t ≤ 1 / S) : 0 < v + t * dv := by
  rw [div_le_iff₀ hv] at hr
  have h1 : t * S ≤ 1 := by rwa [le_div_iff₀ hS] at ht
  have h2 : t * (-1.01 * dv) ≤ t * (S * v) := mul_le_mul_of_nonneg_left hr ht0
  have h3 : t * S * v ≤ 1 * v := mul_le_mul_of_nonneg_right h1 hv.le
  nlinarith

theorem stepLength_spec (pb : SubProb m n) (st d : SubState m n) (h : Interior pb st) :
    0 < stepLength pb st d ∧ ∀ t, 0 ≤ t → t ≤ stepLength pb st d → Interior pb (st.move d t) := by
  unfold stepLength
  extract_lets stmxx stmalfa stmbeta stmalbe stmalbexx stminv
  have hS1 : 1 ≤ stminv := le_max_right _ _
  have hS : 0 < stminv := by linarith
  have hxx : stmxx ≤ stminv := (le_max_right _ _).trans (le_max_left _ _)
  have ha : stmalfa ≤ stminv := ((le_max_left _ _).trans (le_max_left _ _)).trans (le_max_left _ _)
  have hb : stmbeta ≤ stminv := ((le_max_right _ _).trans (le_max_left _ _)).trans (le_max_left _ _)
  have hmem : ∀ r, r ∈ List.ofFn (fun i => -1.01 * d.y i / st.y i) ++ [-1.01 * d.z / st.z] ++
      List.ofFn (fun i => -1.01 * d.lam i / st.lam i) ++ List.ofFn (fun j => -1.01 * d.xsi j / st.xsi j) ++
      List.ofFn (fun j => -1.01 * d.eta j / st.eta j) ++ List.ofFn (fun i => -1.01 * d.mu i / st.mu i) ++
      [-1.01 * d.zet / st.zet] ++ List.ofFn (fun i => -1.01 * d.s i / st.s i) → r ≤ stminv := by
    intro r hr
    rw [← posList_zip] at hr
    exact (le_npMax _ r hr).trans hxx
  simp only [List.mem_append, List.mem_ofFn, List.mem_singleton] at hmem
  refine ⟨by positivity, fun t ht0 ht => ?_⟩
  constructor
  · intro j
    have hr : -1.01 * d.x j / (st.x j - pb.alfa j) ≤ stminv :=
      (le_npMax _ _ (List.mem_ofFn.2 ⟨j, rfl⟩)).trans ha
    have := step_pos (st.x j - pb.alfa j) (d.x j) stminv t (by linarith [h.x_gt j]) hS hr ht0 ht
    show pb.alfa j < st.x j + t * d.x j
    linarith
  · intro j
    have hr : 1.01 * d.x j / (pb.beta j - st.x j) ≤ stminv :=
      (le_npMax _ _ (List.mem_ofFn.2 ⟨j, rfl⟩)).trans hb
    have := step_pos (pb.beta j - st.x j) (-d.x j) stminv t (by linarith [h.x_lt j]) hS
      (by rw [mul_neg, neg_mul, neg_neg]; exact hr) ht0 ht
    show st.x j + t * d.x j < pb.beta j
    linarith
  · exact fun i => step_pos _ _ stminv t (h.y i) hS (hmem _ (by simp)) ht0 ht
  · exact step_pos _ _ stminv t h.z hS (hmem _ (by simp)) ht0 ht
  · exact fun i => step_pos _ _ stminv t (h.lam i) hS (hmem _ (by simp)) ht0 ht
  · exact fun i => step_pos _ _ stminv t (h.xsi i) hS (hmem _ (by simp)) ht0 ht
  · exact fun i => step_pos _ _ stminv t (h.eta i) hS (hmem _ (by simp)) ht0 ht
  · exact fun i => step_pos _ _ stminv t (h.mu i) hS (hmem _ (by simp)) ht0 ht
  · exact step_pos _ _ stminv t h.zet hS (hmem _ (by simp)) ht0 ht
  · exact fun i => step_pos _ _ stminv t (h.s i) hS (hmem _ (by simp)) ht0 ht

/-! ### C46 -/

/-- **C46 (start).** The starting point is interior whenever `alfa < beta` (which C45 shows). -/
theorem C46_start (pb : SubProb m n) (h : ∀ j, pb.alfa j < pb.beta j) : Interior pb (subInit pb) := by
  have e : ∀ j, (subInit pb).x j = 0.5 * (pb.alfa j + pb.beta j) := fun _ => rfl
  refine ⟨fun j => ?_, fun j => ?_, fun _ => one_pos, one_pos, fun _ => one_pos, fun j => ?_, fun j => ?_,
    fun i => ?_, one_pos, fun _ => one_pos⟩
  · rw [e]; linarith [h j]
  · rw [e]; linarith [h j]
  · exact lt_of_lt_of_le one_pos (le_max_right _ _)
  · exact lt_of_lt_of_le one_pos (le_max_right _ _)
  · exact lt_of_lt_of_le one_pos (le_max_left _ _)

/-- **C46 (step halving).** From an interior point, for every direction whatsoever and after any number
of halvings, the trial point is interior. -/
theorem C46_line_search (pb : SubProb m n) (epsi : ℝ) (st d : SubState m n) (rn rnew : ℝ) (k : Nat)
    (h : Interior pb st) :
    Interior pb (lineSearch pb epsi st d rn k (stepLength pb st d) st rnew).1 := by
  obtain ⟨h0, hI⟩ := stepLength_spec pb st d h
  have key : ∀ (k : Nat) (t : ℝ) (cur : SubState m n) (r : ℝ), 0 ≤ t → t ≤ stepLength pb st d →
      Interior pb cur → Interior pb (lineSearch pb epsi st d rn k t cur r).1 := by
    intro k
    induction k with
    | zero => intro t cur r _ _ hc; exact hc
    | succ k ih =>
      intro t cur r ht0 ht hc
      unfold lineSearch
      split_ifs
      · exact ih _ _ _ (by linarith) (by linarith) (hI t ht0 ht)
      · exact hc
  exact key k _ _ _ h0.le le_rfl h

/-- **C46 (inner loop).** Whatever the linear solver returns, after any number of inner iterations the
point is interior. -/
theorem C46_inner (solve : LinSolve) (pb : SubProb m n) (epsi : ℝ) (k : Nat) (st st' : SubState m n)
    (rn rm : ℝ) (h : Interior pb st) (hr : innerLoop solve pb epsi k st rn rm = .ok st') :
    Interior pb st' := by
  induction k generalizing st rn rm with
  | zero => cases hr; exact h
  | succ k ih =>
    unfold innerLoop at hr
    split_ifs at hr
    · unfold innerStep at hr
      rcases hm : mainDirs solve pb epsi st with e | ⟨dx, dz, dlam⟩
      · rw [hm] at hr; cases hr
      · rw [hm] at hr
        exact ih _ _ _ (C46_line_search pb epsi st _ _ _ 50 h) hr
    · cases hr; exact h

theorem outerLoop_interior (solve : LinSolve) (pb : SubProb m n) (epsimin : ℝ) (k : Nat) (epsi : ℝ)
    (st st' : SubState m n) (h : Interior pb st) (hr : outerLoop solve pb epsimin k epsi st = .ok st') :
    Interior pb st' := by
  induction k generalizing st epsi with
  | zero =>
    unfold outerLoop at hr
    split_ifs at hr
    cases hr; exact h
  | succ k ih =>
    unfold outerLoop at hr
    split_ifs at hr
    · rcases hm : outerStep solve pb epsi st with e | s1
      · rw [hm] at hr; cases hr
      · rw [hm] at hr
        exact ih _ _ (C46_inner solve pb epsi 200 _ _ _ _ h hm) hr
    · cases hr; exact h

/-- **C46.** Whatever the linear solver returns, the result of `subsolv` is strictly between the bounds
with all slacks and multipliers positive. -/
theorem C46_subsolv (solve : LinSolve) (pb : SubProb m n) (st : SubState m n)
    (h : ∀ j, pb.alfa j < pb.beta j) (hr : subsolv solve pb = .ok st) : Interior pb st :=
  outerLoop_interior solve pb _ _ _ _ _ (C46_start pb h) hr

/-- **C46 (termination).** `subsolv` always terminates: it fails only if the linear solver raises; if the
solver never raises, a result is returned. -/
theorem C46_terminates (solve : LinSolve) (pb : SubProb m n)
    (hs : ∀ (ι : Type) (A : ι → ι → ℝ) (b : ι → ℝ), ∃ x, solve ι A b = .ok x) : ∃ st, subsolv solve pb = .ok st := by
  have hinner : ∀ (epsi : ℝ) (k : Nat) (st : SubState m n) (rn rm : ℝ),
      ∃ st', innerLoop solve pb epsi k st rn rm = .ok st' := by
    intro epsi k
    induction k with
    | zero => intro st rn rm; exact ⟨st, rfl⟩
    | succ k ih =>
      intro st rn rm
      unfold innerLoop
      split_ifs
      · have hd : ∃ d, mainDirs solve pb epsi st = .ok d := by
          unfold mainDirs
          split_ifs
          · obtain ⟨x, hx⟩ := hs (Fin m ⊕ Unit) (systemLam pb epsi st).1 (systemLam pb epsi st).2
            simp only
            rw [hx]; exact ⟨_, rfl⟩
          · obtain ⟨x, hx⟩ := hs (Fin n ⊕ Unit) (systemX pb epsi st).1 (systemX pb epsi st).2
            simp only
            rw [hx]; exact ⟨_, rfl⟩
        obtain ⟨⟨dx, dz, dlam⟩, hd⟩ := hd
        unfold innerStep
        rw [hd]
        exact ih _ _ _
      · exact ⟨st, rfl⟩
  have houter : ∀ (k : Nat) (epsi : ℝ) (st : SubState m n), 0.1 ^ k * epsi ≤ 0.0000001 →
      ∃ st', outerLoop solve pb 0.0000001 k epsi st = .ok st' := by
    intro k
    induction k with
    | zero =>
      intro epsi st he
      refine ⟨st, ?_⟩
      unfold outerLoop
      rw [if_neg (by rw [pow_zero, one_mul] at he; linarith)]
    | succ k ih =>
      intro epsi st he
      unfold outerLoop
      split_ifs
      · obtain ⟨st1, h1⟩ := hinner epsi 200 st (residuNorm (subResidual pb epsi st))
          (residuMax (subResidual pb epsi st))
        have h1' : outerStep solve pb epsi st = .ok st1 := h1
        rw [h1']
        refine ih _ _ ?_
        rw [pow_succ] at he
        linarith
      · exact ⟨st, rfl⟩
  exact houter 8 1 _ (by norm_num)

/-! ### C63: elimination -/

/-- The linear equations of one Newton step for the perturbed optimality system: each residual group
plus its directional derivative vanishes. `Wxx` is the diagonal second derivative of the Lagrangian. -/
structure NewtonEqs (pb : SubProb m n) (epsi : ℝ) (st d : SubState m n) : Prop where
  x : ∀ j, 2 * (plam pb st.lam j / (pb.upp j - st.x j) ^ 3 + qlam pb st.lam j / (st.x j - pb.low j) ^ 3) * d.x j +
    ∑ i, (pb.P i j / (pb.upp j - st.x j) ^ 2 - pb.Q i j / (st.x j - pb.low j) ^ 2) * d.lam i - d.xsi j + d.eta j =
    -(subResidual pb epsi st).x j
  y : ∀ i, pb.d i * d.y i - d.mu i - d.lam i = -(subResidual pb epsi st).y i
  z : -d.zet - ∑ i, pb.a i * d.lam i = -(subResidual pb epsi st).z
  lam : ∀ i, ∑ j, (pb.P i j / (pb.upp j - st.x j) ^ 2 - pb.Q i j / (st.x j - pb.low j) ^ 2) * d.x j -
    pb.a i * d.z - d.y i + d.s i = -(subResidual pb epsi st).lam i
  xsi : ∀ j, (st.x j - pb.alfa j) * d.xsi j + st.xsi j * d.x j = -(subResidual pb epsi st).xsi j
  eta : ∀ j, (pb.beta j - st.x j) * d.eta j - st.eta j * d.x j = -(subResidual pb epsi st).eta j
  mu : ∀ i, st.y i * d.mu i + st.mu i * d.y i = -(subResidual pb epsi st).mu i
  zet : st.z * d.zet + st.zet * d.z = -(subResidual pb epsi st).zet
  s : ∀ i, st.lam i * d.s i + st.s i * d.lam i = -(subResidual pb epsi st).s i

theorem GG_eq (pb : SubProb m n) (x : Fin n → ℝ) (i : Fin m) (j : Fin n) :
    GG pb x i j = pb.P i j / (pb.upp j - x j) ^ 2 - pb.Q i j / (x j - pb.low j) ^ 2 := by
  unfold GG; ring

/-- The three equations that remain after eliminating the other unknowns imply all nine. -/
theorem newtonEqs_of_reduced (pb : SubProb m n) (epsi : ℝ) (st : SubState m n) (h : Interior pb st)
    (hd : ∀ i, 0 ≤ pb.d i) (dx : Fin n → ℝ) (dz : ℝ) (dlam : Fin m → ℝ)
    (e1 : ∀ j, diagx pb st j * dx j + ∑ i, GG pb st.x i j * dlam i = -delx pb epsi st j)
    (e2 : ∑ i, pb.a i * dlam i - st.zet / st.z * dz = delz pb epsi st)
    (e3 : ∀ i, diaglamyi pb st i * dlam i = ∑ j, GG pb st.x i j * dx j - pb.a i * dz +
      (dellam pb epsi st i + dely pb epsi st i / diagy pb st i)) :
    NewtonEqs pb epsi st (completeDirs pb epsi st dx dz dlam) := by
  have hxa : ∀ j, st.x j - pb.alfa j ≠ 0 := fun j => by linarith [h.x_gt j] |> fun h : 0 < _ => h.ne'
  have hxb : ∀ j, pb.beta j - st.x j ≠ 0 := fun j => by linarith [h.x_lt j] |> fun h : 0 < _ => h.ne'
  have hy : ∀ i, st.y i ≠ 0 := fun i => (h.y i).ne'
  have hz : st.z ≠ 0 := h.z.ne'
  have hlam : ∀ i, st.lam i ≠ 0 := fun i => (h.lam i).ne'
  have hdy : ∀ i, diagy pb st i ≠ 0 := fun i => by
    have : 0 < diagy pb st i := by
      have := div_pos (h.mu i) (h.y i)
      have := hd i
      unfold diagy; linarith
    exact this.ne'
  constructor
  · intro j
    have := e1 j
    simp only [← GG_eq]
    simp only [completeDirs, subResidual]
    have hx : ∑ i, GG pb st.x i j * dlam i = -delx pb epsi st j - diagx pb st j * dx j := by linarith
    rw [hx]
    unfold delx diagx
    have hxa := hxa j
    have hxb := hxb j
    simp only
    ring
  · intro i
    simp only [completeDirs, subResidual]
    have hdy := hdy i
    have hy := hy i
    have hyy : diagy pb st i = pb.d i + st.mu i / st.y i := rfl
    have e : diagy pb st i * (-dely pb epsi st i / diagy pb st i + dlam i / diagy pb st i) =
        -dely pb epsi st i + dlam i := by field_simp
    generalize -dely pb epsi st i / diagy pb st i + dlam i / diagy pb st i = dy at *
    rw [hyy] at e
    unfold dely at e
    have e' : pb.d i * dy + st.mu i * dy / st.y i = -(pb.c i + pb.d i * st.y i - st.lam i - epsi / st.y i) + dlam i := by
      rw [← e]; ring
    linarith
  · simp only [completeDirs, subResidual]
    unfold delz at e2
    have : st.zet * dz / st.z = st.zet / st.z * dz := by ring
    rw [this]
    linarith
  · intro i
    simp only [← GG_eq]
    simp only [completeDirs, subResidual]
    have := e3 i
    unfold diaglamyi at this
    unfold dellam at this
    have hlam := hlam i
    have e : st.s i * dlam i / st.lam i = st.s i / st.lam i * dlam i := by ring
    have e' : dlam i / diagy pb st i = 1 / diagy pb st i * dlam i := by ring
    have e'' : -dely pb epsi st i / diagy pb st i = -(dely pb epsi st i / diagy pb st i) := by ring
    rw [e, e', e'']
    linarith
  · intro j
    simp only [completeDirs, subResidual]
    have := hxa j
    field_simp
    ring
  · intro j
    simp only [completeDirs, subResidual]
    have := hxb j
    field_simp
    ring
  · intro i
    simp only [completeDirs, subResidual]
    have := hy i
    generalize -dely pb epsi st i / diagy pb st i + dlam i / diagy pb st i = dy at *
    field_simp
    ring
  · simp only [completeDirs, subResidual]
    field_simp
    ring
  · intro i
    simp only [completeDirs, subResidual]
    have := hlam i
    field_simp
    ring

/-- `solve` solves the systems it is given. -/
def SolvesExactly (solve : LinSolve) : Prop :=
  ∀ (ι : Type) [Fintype ι] (A : Matrix ι ι ℝ) (b x : ι → ℝ), solve ι A b = .ok x → A.mulVec x = b

/-- **C63.** If the linear solver solves the condensed system it is given, then in both branches
(`m < n` and `m ≥ n`) the direction computed by the code satisfies all nine groups of Newton equations of
the perturbed optimality system. -/
theorem C63_elimination (solve : LinSolve) (hs : SolvesExactly solve) (pb : SubProb m n) (epsi : ℝ)
    (st : SubState m n) (h : Interior pb st) (hd : ∀ i, 0 ≤ pb.d i)
    (hpos : ∀ j, 0 < pb.p0 j ∧ 0 < pb.q0 j) (hPQ : ∀ i j, 0 ≤ pb.P i j ∧ 0 ≤ pb.Q i j)
    (hlow : ∀ j, pb.low j < pb.alfa j) (hupp : ∀ j, pb.beta j < pb.upp j)
    (dx : Fin n → ℝ) (dz : ℝ) (dlam : Fin m → ℝ) (hr : mainDirs solve pb epsi st = .ok (dx, dz, dlam)) :
    NewtonEqs pb epsi st (completeDirs pb epsi st dx dz dlam) := by
  have hdy : ∀ i, 0 < diagy pb st i := fun i => by
    have := div_pos (h.mu i) (h.y i)
    have := hd i
    unfold diagy; linarith
  have hdl : ∀ i, 0 < diaglamyi pb st i := fun i => by
    have := div_pos (h.s i) (h.lam i)
    have := one_div_pos.2 (hdy i)
    unfold diaglamyi; linarith
  have hdx : ∀ j, 0 < diagx pb st j := fun j => by
    have h1 : 0 < plam pb st.lam j := by
      have : 0 ≤ ∑ i, pb.P i j * st.lam i := Finset.sum_nonneg fun i _ => mul_nonneg (hPQ i j).1 (h.lam i).le
      have := (hpos j).1
      unfold plam; linarith
    have h2 : 0 < qlam pb st.lam j := by
      have : 0 ≤ ∑ i, pb.Q i j * st.lam i := Finset.sum_nonneg fun i _ => mul_nonneg (hPQ i j).2 (h.lam i).le
      have := (hpos j).2
      unfold qlam; linarith
    have hu : 0 < pb.upp j - st.x j := by linarith [h.x_lt j, hupp j]
    have hl : 0 < st.x j - pb.low j := by linarith [h.x_gt j, hlow j]
    have ha : 0 < st.x j - pb.alfa j := by linarith [h.x_gt j]
    have hb : 0 < pb.beta j - st.x j := by linarith [h.x_lt j]
    have := h.xsi j
    have := h.eta j
    unfold diagx
    simp only
    positivity
  unfold mainDirs at hr
  split_ifs at hr with hmn
  · simp only at hr
    rcases hx : solve (Fin m ⊕ Unit) (systemLam pb epsi st).1 (systemLam pb epsi st).2 with e | sol
    · rw [hx] at hr; cases hr
    rw [hx] at hr
    obtain ⟨r1, r2⟩ := Prod.mk.inj (Except.ok.inj hr)
    obtain ⟨r2, r3⟩ := Prod.mk.inj r2
    have hsys := hs _ _ _ _ hx
    have hrow1 : ∀ i, ∑ k, ((if i = k then diaglamyi pb st i else 0) +
        ∑ j, (1 / diagx pb st j * GG pb st.x i j) * GG pb st.x k j) * dlam k + pb.a i * dz =
        dellam pb epsi st i + dely pb epsi st i / diagy pb st i -
          ∑ j, GG pb st.x i j * (delx pb epsi st j / diagx pb st j) := by
      intro i
      have := congrFun hsys (.inl i)
      simp only [Matrix.mulVec, dotProduct, Fintype.sum_sum_type, systemLam, Matrix.fromBlocks_apply₁₁,
        Matrix.fromBlocks_apply₁₂, Matrix.of_apply, Finset.univ_unique, Finset.sum_singleton, Sum.elim_inl] at this
      rw [← r3, ← r2]
      exact this
    have hrow2 : ∑ k, pb.a k * dlam k + -st.zet / st.z * dz = delz pb epsi st := by
      have := congrFun hsys (.inr ())
      simp only [Matrix.mulVec, dotProduct, Fintype.sum_sum_type, systemLam, Matrix.fromBlocks_apply₂₁,
        Matrix.fromBlocks_apply₂₂, Matrix.of_apply, Finset.univ_unique, Finset.sum_singleton, Sum.elim_inr] at this
      rw [← r3, ← r2]
      exact this
    have hdxe : ∀ j, dx j = -delx pb epsi st j / diagx pb st j -
        (∑ i, GG pb st.x i j * dlam i) / diagx pb st j := by
      intro j
      rw [← r1, ← r3]
    apply newtonEqs_of_reduced pb epsi st h hd
    · intro j
      rw [hdxe j]
      have := (hdx j).ne'
      field_simp
      ring
    · rw [← hrow2]; ring
    · intro i
      have h1 := hrow1 i
      have hsplit : ∑ k, ((if i = k then diaglamyi pb st i else 0) +
          ∑ j, (1 / diagx pb st j * GG pb st.x i j) * GG pb st.x k j) * dlam k =
          diaglamyi pb st i * dlam i + ∑ j, GG pb st.x i j * ((∑ k, GG pb st.x k j * dlam k) / diagx pb st j) := by
        simp only [add_mul, Finset.sum_add_distrib, ite_mul, zero_mul, Finset.sum_ite_eq, Finset.mem_univ, if_true]
        congr 1
        simp only [Finset.sum_mul, Finset.mul_sum, Finset.sum_div]
        rw [Finset.sum_comm]
        refine Finset.sum_congr rfl fun j _ => Finset.sum_congr rfl fun k _ => ?_
        ring
      have hgx : ∑ j, GG pb st.x i j * dx j = -∑ j, GG pb st.x i j * (delx pb epsi st j / diagx pb st j) -
          ∑ j, GG pb st.x i j * ((∑ k, GG pb st.x k j * dlam k) / diagx pb st j) := by
        rw [← Finset.sum_neg_distrib, ← Finset.sum_sub_distrib]
        refine Finset.sum_congr rfl fun j _ => ?_
        rw [hdxe j]; ring
      rw [hsplit] at h1
      rw [hgx]
      linarith
  · simp only at hr
    rcases hx : solve (Fin n ⊕ Unit) (systemX pb epsi st).1 (systemX pb epsi st).2 with e | sol
    · rw [hx] at hr; cases hr
    rw [hx] at hr
    obtain ⟨r1, r2⟩ := Prod.mk.inj (Except.ok.inj hr)
    obtain ⟨r2, r3⟩ := Prod.mk.inj r2
    have hsys := hs _ _ _ _ hx
    set D : Fin m → ℝ := fun i => dellam pb epsi st i + dely pb epsi st i / diagy pb st i with hD
    have hrow1 : ∀ j, ∑ k, ((if j = k then diagx pb st j else 0) +
        ∑ i, (1 / diaglamyi pb st i * GG pb st.x i j) * GG pb st.x i k) * dx k +
        (∑ i, -GG pb st.x i j * (pb.a i / diaglamyi pb st i)) * dz =
        -(delx pb epsi st j + ∑ i, GG pb st.x i j * (D i / diaglamyi pb st i)) := by
      intro j
      have := congrFun hsys (.inl j)
      simp only [Matrix.mulVec, dotProduct, Fintype.sum_sum_type, systemX, Matrix.fromBlocks_apply₁₁,
        Matrix.fromBlocks_apply₁₂, Matrix.of_apply, Finset.univ_unique, Finset.sum_singleton, Sum.elim_inl] at this
      rw [← r1, ← r2]
      exact this
    have hrow2 : ∑ k, (∑ i, -GG pb st.x i k * (pb.a i / diaglamyi pb st i)) * dx k +
        (st.zet / st.z + ∑ i, pb.a i * (pb.a i / diaglamyi pb st i)) * dz =
        -(delz pb epsi st - ∑ i, pb.a i * (D i / diaglamyi pb st i)) := by
      have := congrFun hsys (.inr ())
      simp only [Matrix.mulVec, dotProduct, Fintype.sum_sum_type, systemX, Matrix.fromBlocks_apply₂₁,
        Matrix.fromBlocks_apply₂₂, Matrix.of_apply, Finset.univ_unique, Finset.sum_singleton, Sum.elim_inr] at this
      rw [← r1, ← r2]
      exact this
    have hle : ∀ i, dlam i = (∑ j, GG pb st.x i j * dx j) / diaglamyi pb st i -
        dz * (pb.a i / diaglamyi pb st i) + D i / diaglamyi pb st i := by
      intro i
      rw [← r3, ← r1, ← r2]
    have e3 : ∀ i, diaglamyi pb st i * dlam i = ∑ j, GG pb st.x i j * dx j - pb.a i * dz + D i := by
      intro i
      rw [hle i]
      have := (hdl i).ne'
      field_simp
    apply newtonEqs_of_reduced pb epsi st h hd
    · intro j
      have h1 := hrow1 j
      have hsplit : ∑ k, ((if j = k then diagx pb st j else 0) +
          ∑ i, (1 / diaglamyi pb st i * GG pb st.x i j) * GG pb st.x i k) * dx k =
          diagx pb st j * dx j + ∑ i, GG pb st.x i j * ((∑ k, GG pb st.x i k * dx k) / diaglamyi pb st i) := by
        simp only [add_mul, Finset.sum_add_distrib, ite_mul, zero_mul, Finset.sum_ite_eq, Finset.mem_univ, if_true]
        congr 1
        simp only [Finset.sum_mul, Finset.mul_sum, Finset.sum_div]
        rw [Finset.sum_comm]
        refine Finset.sum_congr rfl fun j _ => Finset.sum_congr rfl fun k _ => ?_
        ring
      have hgl : ∑ i, GG pb st.x i j * dlam i =
          ∑ i, GG pb st.x i j * ((∑ k, GG pb st.x i k * dx k) / diaglamyi pb st i) +
          (∑ i, -GG pb st.x i j * (pb.a i / diaglamyi pb st i)) * dz +
          ∑ i, GG pb st.x i j * (D i / diaglamyi pb st i) := by
        rw [Finset.sum_mul, ← Finset.sum_add_distrib, ← Finset.sum_add_distrib]
        refine Finset.sum_congr rfl fun i _ => ?_
        rw [hle i]; ring
      rw [hsplit] at h1
      rw [hgl]
      linarith
    · have hal : ∑ i, pb.a i * dlam i =
          -∑ k, (∑ i, -GG pb st.x i k * (pb.a i / diaglamyi pb st i)) * dx k -
          (∑ i, pb.a i * (pb.a i / diaglamyi pb st i)) * dz + ∑ i, pb.a i * (D i / diaglamyi pb st i) := by
        have hc : ∑ k, (∑ i, -GG pb st.x i k * (pb.a i / diaglamyi pb st i)) * dx k =
            ∑ i, -(pb.a i * ((∑ k, GG pb st.x i k * dx k) / diaglamyi pb st i)) := by
          simp only [Finset.sum_mul, Finset.mul_sum, Finset.sum_div]
          rw [Finset.sum_comm]
          refine Finset.sum_congr rfl fun i _ => ?_
          rw [← Finset.sum_neg_distrib]
          refine Finset.sum_congr rfl fun k _ => ?_
          ring
        rw [hc, Finset.sum_neg_distrib, neg_neg, Finset.sum_mul, ← Finset.sum_sub_distrib, ← Finset.sum_add_distrib]
        refine Finset.sum_congr rfl fun i _ => ?_
        rw [hle i]; ring
      rw [hal]
      linarith
    · exact e3

end MMA
end JaxFem
