import Verif.Thm.C97_Constrained
import Mathlib.Tactic.IntervalCases

/-!
# C97: the multiplier solver
-/

namespace JaxFem
namespace LM

variable (P : Prob ℝ)

theorem helper_ok (eps : ℝ) (U : Update P) (x : Vec P) (rA) (h : helper P eps U false x = .ok rA) :
    rA = (residual P eps (U.res (dofsOf P x)) x, matrix P eps (U.I, U.J, U.V (dofsOf P x))) := by
  simp only [helper, getA, Bool.false_eq_true, if_false, Except.ok.injEq] at h
  exact h.symm

/-- **C97 (Newton step).** What the solver computes at a vector is the augmented residual there and
its derivative, if the triplets of the problem are the derivative of its residual. -/
theorem C97_newton (h : WF P) (eps : ℝ) (U : Update P) (hT : ∀ u, WFT P U.I U.J (U.V u))
    (hK : ∀ u, HasJacobianAt U.res (kMat P (U.I, U.J, U.V u)) u) (x : Vec P) :
    ∃ A, helper P eps U false x = .ok (residual P eps (U.res (dofsOf P x)) x, A) ∧
      HasJacobianAt (fun y : Vec P => residual P eps (U.res (dofsOf P y)) y) A x :=
  ⟨_, rfl, C97_tangent P h eps _ (hT _) U.res x (hK _)⟩

theorem incremental_ok (solve : LinSolve P) (hs : ExactLin solve) (rA) (x x' : Vec P)
    (h : incremental P solve rA x = .ok x') : ∃ inc, rA.2.mulVec inc = -rA.1 ∧ x' = x + inc := by
  rw [incremental] at h
  rcases hi : solve rA.2 (-rA.1) none with e | inc
  · rw [hi] at h; cases h
  · rw [hi] at h
    cases h
    exact ⟨inc, hs _ _ _ _ hi, rfl⟩

theorem dofsOf_add (x y : Vec P) : dofsOf P (x + y) = dofsOf P x + dofsOf P y := rfl
theorem lamOf_add (x y : Vec P) : lamOf P (x + y) = lamOf P x + lamOf P y := rfl

/-- **C97 (step).** One exact step from any vector, of any problem, yields a vector meeting all
conditions. -/
theorem C97_step (h : WF P) (eps : ℝ) (he : eps ≠ 0) (U : Update P)
    (hT : ∀ u, WFT P U.I U.J (U.V u)) (solve : LinSolve P) (hs : ExactLin solve) (x x' : Vec P) (rA)
    (hr : helper P eps U false x = .ok rA) (hx : incremental P solve rA x = .ok x') : Meets P (dofsOf P x') := by
  obtain ⟨inc, hi, rfl⟩ := incremental_ok P solve hs rA x x' hx
  rw [helper_ok P eps U x rA hr] at hi
  rw [meets_iff P h]
  intro q
  have h1 := (matrix_mulVec P h eps (U.I, U.J, U.V (dofsOf P x)) (hT _) inc).2 q
  have h2 := congrFun hi (Fin.natAdd _ q)
  dsimp only at h2
  rw [h1, Pi.neg_apply, (C97_residual P h eps _ x).2 q] at h2
  have h3 : ∑ j, bMat P q j * dofsOf P inc j = -(∑ j, bMat P q j * dofsOf P x j - gVec P q) := by
    refine mul_left_cancel₀ he ?_
    rw [h2]; ring
  simp only [dofsOf_add, Pi.add_apply, mul_add, Finset.sum_add_distrib, h3]
  ring

/-- One exact step solves a linear problem. -/
theorem step_linear (h : WF P) (eps : ℝ) (he : eps ≠ 0) (U : Update P)
    (hT : ∀ u, WFT P U.I U.J (U.V u)) (V : List ℝ) (hV : ∀ u, U.V u = V) (f : Fin (nDofs P) → ℝ)
    (hres : ∀ u, U.res u = (kMat P (U.I, U.J, V)).mulVec u - f)
    (solve : LinSolve P) (hs : ExactLin solve) (x x' : Vec P) (rA)
    (hr : helper P eps U false x = .ok rA) (hx : incremental P solve rA x = .ok x') :
    residual P eps (U.res (dofsOf P x')) x' = 0 := by
  have hm := C97_step P h eps he U hT solve hs x x' rA hr hx
  rw [meets_iff P h] at hm
  obtain ⟨inc, hi, rfl⟩ := incremental_ok P solve hs rA x x' hx
  rw [helper_ok P eps U x rA hr] at hi
  funext k
  refine Fin.addCases (fun j => ?_) (fun q => ?_) k
  · have h1 := (matrix_mulVec P h eps (U.I, U.J, U.V (dofsOf P x)) (hT _) inc).1 j
    have h2 := congrFun hi (Fin.castAdd _ j)
    dsimp only at h2
    rw [h1, Pi.neg_apply, (C97_residual P h eps _ x).1 j, hres, hV, Pi.sub_apply] at h2
    rw [(C97_residual P h eps _ _).1 j, hres, dofsOf_add, Matrix.mulVec_add, lamOf_add, Pi.zero_apply]
    simp only [Pi.add_apply, Pi.sub_apply, add_mul, Finset.sum_add_distrib, mul_add]
    linarith
  · rw [(C97_residual P h eps _ _).2 q, hm q, sub_self, mul_zero, Pi.zero_apply]

theorem guess_rhs (h : WF P) (eps : ℝ) (b : Fin (nDofs P) → ℝ) :
    (∀ j, ofList P (augBc P (List.ofFn b) eps) (Fin.castAdd _ j) = b j) ∧
    ∀ q, ofList P (augBc P (List.ofFn b) eps) (Fin.natAdd _ q) = eps * gVec P q := by
  simp only [ofList, augBc_eq P h]
  constructor
  · intro j
    rw [List.getD_eq_getElem?_getD, List.getElem?_append_left (by simp)]
    simp
  · intro q
    rw [List.getD_eq_getElem?_getD, List.getElem?_append_right (by simp)]
    obtain ⟨row, hr, hq⟩ := rows_get P h q
    simp [gVec, hq]

/-- The guess meets the conditions; for a linear problem it is the solution. -/
theorem guess_ok (h : WF P) (eps : ℝ) (he : eps ≠ 0) (T : List Nat × List Nat × List ℝ)
    (hT : WFT P T.1 T.2.1 T.2.2) (solve : LinSolve P) (hs : ExactLin solve) (b : Fin (nDofs P) → ℝ) (x : Vec P)
    (hx : guess P eps solve (List.ofFn b) (matrix P eps T) = .ok x) :
    Meets P (dofsOf P x) ∧ residual P eps ((kMat P T).mulVec (dofsOf P x) - b) x = 0 := by
  have hA := hs _ _ _ _ hx
  have hm := matrix_mulVec P h eps T hT x
  have hg := guess_rhs P h eps b
  have h1 : ∀ q, ∑ j, bMat P q j * dofsOf P x j = gVec P q := by
    intro q
    have := congrFun hA (Fin.natAdd _ q)
    rw [hm.2, hg.2] at this
    exact mul_left_cancel₀ he this
  refine ⟨(meets_iff P h _).2 h1, ?_⟩
  funext k
  refine Fin.addCases (fun j => ?_) (fun q => ?_) k
  · have := congrFun hA (Fin.castAdd _ j)
    rw [hm.1, hg.1] at this
    rw [(C97_residual P h eps _ _).1 j, Pi.sub_apply, Pi.zero_apply]
    linarith
  · rw [(C97_residual P h eps _ _).2 q, h1 q, sub_self, mul_zero, Pi.zero_apply]

/-- What the loop returns. -/
theorem loop_ok (h : WF P) (eps : ℝ) (he : eps ≠ 0) (U : Update P)
    (hT : ∀ u, WFT P U.I U.J (U.V u)) (solve : LinSolve P) (hs : ExactLin solve) (norm : Vec P → Flt ℝ) :
    ∀ (fuel : Nat) (x : Vec P) rA (x' : Vec P), helper P eps U false x = .ok rA → Meets P (dofsOf P x) →
      loop P eps U false solve norm fuel x rA = some (.ok x') →
      Meets P (dofsOf P x') ∧ (norm (residual P eps (U.res (dofsOf P x')) x')).gt (.fin (1 / 1000000)) = false := by
  intro fuel
  induction fuel with
  | zero => intro x rA x' _ _ hl; cases hl
  | succ fuel ih =>
    intro x rA x' hr hm hl
    rw [loop] at hl
    split at hl
    · rcases hi : incremental P solve rA x with e | y
      · rw [hi] at hl; cases hl
      · rw [hi] at hl
        dsimp only at hl
        rcases hh : helper P eps U false y with e | rA'
        · rw [hh] at hl; cases hl
        · rw [hh] at hl
          exact ih y rA' x' hh (C97_step P h eps he U hT solve hs x y rA hr hi) hl
    · rename_i hg
      cases hl
      refine ⟨hm, ?_⟩
      rw [helper_ok P eps U x rA hr] at hg
      simpa using hg

/-- **C97 (result).** Whatever the problem, a result meets all conditions exactly; in the nonlinear
case the loop has ended because the norm of the augmented residual is not above `1e-6`. -/
theorem C97_result (h : WF P) (numEps : Option ℝ) (he : numEps.getD 1 ≠ 0) (U : Update P)
    (hT : ∀ u, WFT P U.I U.J (U.V u)) (solve : LinSolve P) (hs : ExactLin solve) (norm : Vec P → Flt ℝ)
    (b : Fin (nDofs P) → ℝ) (linear : Bool) (fuel : Nat) (u : Fin (nDofs P) → ℝ)
    (hu : solution P numEps U (List.ofFn b) linear false solve norm fuel = some (.ok u)) :
    Meets P u ∧ (linear = false → ∃ x, dofsOf P x = u ∧
      (norm (residual P (numEps.getD 1) (U.res u) x)).gt (.fin (1 / 1000000)) = false) := by
  rw [solution] at hu
  obtain ⟨r, hr, hru⟩ := Option.map_eq_some_iff.1 hu
  rcases r with e | x
  · cases hru
  · cases hru
    unfold solver at hr
    extract_lets eps dofs d' x1 x2 at hr
    cases linear with
    | true =>
      simp only [if_true, Option.some.injEq] at hr
      rcases hh : helper P eps U false x1 with e | rA
      · rw [hh] at hr; cases hr
      · rw [hh] at hr
        exact ⟨C97_step P h eps he U hT solve hs x1 x rA hh hr, fun hc => by cases hc⟩
    | false =>
      simp only [Bool.false_eq_true, if_false] at hr
      rcases hh : helper P eps U false x2 with e | rA
      · rw [hh] at hr; cases hr
      · rw [hh] at hr
        rcases hg : guess P eps solve (List.ofFn b) rA.2 with e | y
        · simp only [bind, Except.bind, hg] at hr
          cases hr
        · simp only [bind, Except.bind, hg] at hr
          rcases hh' : helper P eps U false y with e | rA'
          · rw [hh'] at hr; cases hr
          · rw [hh'] at hr
            have hA := helper_ok P eps U x2 rA hh
            rw [hA] at hg
            have := loop_ok P h eps he U hT solve hs norm fuel y rA' x hh'
              (guess_ok P h eps he _ (hT _) solve hs b y hg).1 hr
            exact ⟨this.1, fun _ => ⟨x, rfl, this.2⟩⟩

/-- **C97 (linear problems).** For a linear problem `A u = f` both branches return a constrained
equilibrium, whatever the starting vector, `p_num_eps ≠ 0` and the residual norm (the nonlinear branch
if `f` is what `linear_guess_solve_lm` reads, without any iteration). -/
theorem C97_linear (h : WF P) (numEps : Option ℝ) (he : numEps.getD 1 ≠ 0) (U : Update P)
    (hT : ∀ u, WFT P U.I U.J (U.V u)) (V : List ℝ) (hV : ∀ u, U.V u = V) (f : Fin (nDofs P) → ℝ)
    (hres : ∀ u, U.res u = (kMat P (U.I, U.J, V)).mulVec u - f)
    (solve : LinSolve P) (hs : ExactLin solve) (norm : Vec P → Flt ℝ) (hn : norm 0 = .fin 0)
    (b : Fin (nDofs P) → ℝ) (linear : Bool) (hb : linear = false → b = f) (fuel : Nat) (u : Fin (nDofs P) → ℝ)
    (hu : solution P numEps U (List.ofFn b) linear false solve norm fuel = some (.ok u)) :
    Equilibrium P (U.res u) u := by
  rw [solution] at hu
  obtain ⟨r, hr, hru⟩ := Option.map_eq_some_iff.1 hu
  rcases r with e | x
  · cases hru
  · cases hru
    unfold solver at hr
    extract_lets eps dofs d' x1 x2 at hr
    refine (C97_equilibrium P h eps he _ _).1 ⟨x, rfl, ?_⟩
    cases linear with
    | true =>
      simp only [if_true, Option.some.injEq] at hr
      rcases hh : helper P eps U false x1 with e | rA
      · rw [hh] at hr; cases hr
      · rw [hh] at hr
        exact step_linear P h eps he U hT V hV f hres solve hs x1 x rA hh hr
    | false =>
      simp only [Bool.false_eq_true, if_false] at hr
      rcases hh : helper P eps U false x2 with e | rA
      · rw [hh] at hr; cases hr
      · rw [hh] at hr
        rcases hg : guess P eps solve (List.ofFn b) rA.2 with e | y
        · simp only [bind, Except.bind, hg] at hr
          cases hr
        · simp only [bind, Except.bind, hg] at hr
          rcases hh' : helper P eps U false y with e | rA'
          · rw [hh'] at hr; cases hr
          · rw [hh'] at hr
            have hA := helper_ok P eps U x2 rA hh
            rw [hA] at hg
            have hz := (guess_ok P h eps he _ (hT _) solve hs b y hg).2
            rw [hV, hb rfl, ← hres] at hz
            have hA' := helper_ok P eps U y rA' hh'
            cases fuel with
            | zero => cases hr
            | succ fuel =>
              dsimp only [pure, Except.pure] at hr
              rw [loop, hA'] at hr
              dsimp only at hr
              rw [hz, hn, if_neg (by simp [Flt.gt])] at hr
              cases hr
              exact hz

/-- **C97 (PETSc).** With the default `use_petsc=True` every call raises. -/
theorem C97_petsc (numEps : Option ℝ) (U : Update P) (b : List ℝ) (linear : Bool) (solve : LinSolve P)
    (norm : Vec P → Flt ℝ) (fuel : Nat) :
    solution P numEps U b linear true solve norm fuel = some (.error .runtime) := by
  cases linear <;> rfl

/-! ### Cases -/

/-- A bar of two elements: node 0 at value 1, node 2 at value 3. -/
def exBar : Prob ℝ := ⟨⟨3, 1, 2, [[0, 1], [1, 2]]⟩, [⟨[0], [0], [1]⟩, ⟨[2], [0], [3]⟩], []⟩

/-- A square of four nodes, opposite sides paired in both directions. -/
def exSquare : Prob ℝ := ⟨⟨4, 1, 4, [[0, 1, 3, 2]]⟩, [], [⟨[0, 1], [2, 3], [0, 0]⟩, ⟨[0, 2], [1, 3], [0, 0]⟩]⟩

/-- The same without the redundant pair. -/
def exRing : Prob ℝ := ⟨⟨3, 1, 2, [[0, 1], [1, 2]]⟩, [], [⟨[0], [2], [0]⟩]⟩

theorem exBar_wf : WF exBar := by
  refine ⟨?_, ?_, ?_, ?_, ?_, ?_⟩ <;> simp [exBar]

theorem exSquare_wf : WF exSquare := by
  refine ⟨?_, ?_, ?_, ?_, ?_, ?_⟩ <;> simp [exSquare]

theorem exRing_wf : WF exRing := by
  refine ⟨?_, ?_, ?_, ?_, ?_, ?_⟩ <;> simp [exRing]

theorem exBar_prescribes (e : BCEntry ℝ) (he : e ∈ exBar.d) (n c : Nat) (v : ℝ) (h : e.Prescribes n c v) :
    (n = 0 ∧ c = 0 ∧ v = 1) ∨ (n = 2 ∧ c = 0 ∧ v = 3) := by
  obtain ⟨k, h1, h2, h3⟩ := h
  simp only [exBar, List.mem_cons, List.not_mem_nil, or_false] at he
  rcases he with rfl | rfl <;> rcases k with - | k <;> simp_all

/-- The hypotheses of `C97_dirichlet`. -/
example : WFBC [exBar.fe] [exBar.d] ∧ ∀ e ∈ exBar.d, ∀ e' ∈ exBar.d, ∀ n c v v', e.Prescribes n c v →
    e'.Prescribes n c v' → v = v' := by
  refine ⟨⟨rfl, ?_, ?_, ?_, ?_⟩, ?_⟩
  · simp [exBar]
  · simp [exBar]
  · simp [exBar]
  · intro i fe es h1 h2
    rcases i with - | i
    · simp only [List.getElem?_cons_zero, Option.some.injEq] at h1 h2
      subst h1 h2
      simp [exBar]
    · simp at h1
  · intro e he e' he' n c v v' h h'
    have h1 := exBar_prescribes e he n c v h
    have h2 := exBar_prescribes e' he' n c v' h'
    rcases h1 with ⟨h1, -, rfl⟩ | ⟨h1, -, rfl⟩ <;> rcases h2 with ⟨h2, -, rfl⟩ | ⟨h2, -, rfl⟩ <;> first | rfl | omega

/-- The hypotheses of `C97_periodic`: node 2 is the image of node 0. -/
example : tieA exRing = [0] ∧ tieB exRing = [2] ∧ (tieB exRing).Nodup ∧ ∀ a ∈ tieA exRing, a ∉ tieB exRing := by
  simp [tieA, tieB, exRing]

/-- Constraints of the bar. -/
theorem exBar_rows (h0 : 0 < augSize exBar) (h1 : 1 < augSize exBar) (j : Fin 3) :
    bMat exBar ⟨0, h0⟩ j = (if (j : Nat) = 0 then 1 else 0) ∧
    bMat exBar ⟨1, h1⟩ j = if (j : Nat) = 2 then 1 else 0 := ⟨rfl, rfl⟩

/-- **C97 (a case).** The bar `-u'' = 0`: the multiplier system is regular for every `p_num_eps ≠ 0`,
and the straight line is the equilibrium. -/
theorem C97_bar (eps : ℝ) (he : eps ≠ 0) :
    WFT exBar [0, 0, 1, 1, 1, 1, 2, 2] [0, 1, 0, 1, 1, 2, 1, 2] [1, -1, -1, 1, 1, -1, -1, 1] ∧
    (∀ b : Vec exBar, ∃! x, (matrix exBar eps ([0, 0, 1, 1, 1, 1, 2, 2], [0, 1, 0, 1, 1, 2, 1, 2],
      [1, -1, -1, 1, 1, -1, -1, 1])).mulVec x = b) ∧
    Equilibrium exBar (![-1, 0, 1] : Fin 3 → ℝ) (![1, 2, 3] : Fin 3 → ℝ) := by
  have hT : WFT exBar [0, 0, 1, 1, 1, 1, 2, 2] [0, 1, 0, 1, 1, 2, 1, 2] ([1, -1, -1, 1, 1, -1, -1, 1] : List ℝ) := by
    refine ⟨rfl, rfl, ?_, ?_⟩ <;> simp [exBar, nDofs, FE.numTotalDofs]
  have hm0 : (⟨[0], [0], [1]⟩ : BCEntry ℝ) ∈ exBar.d := by simp [exBar]
  have hm2 : (⟨[2], [0], [3]⟩ : BCEntry ℝ) ∈ exBar.d := by simp [exBar]
  have hvar : ∀ w : Fin 3 → ℝ, Variation exBar w → w 0 = 0 ∧ w 2 = 0 := fun w hw =>
    ⟨hw.1 _ hm0 0 0 1 ⟨0, rfl, rfl, rfl⟩ (0 : Fin 3) rfl, hw.1 _ hm2 2 0 3 ⟨0, rfl, rfl, rfl⟩ (2 : Fin 3) rfl⟩
  refine ⟨hT, C97_unique exBar exBar_wf eps he _ hT ?_ ?_, ?_, ?_⟩
  · intro mu hmu
    have hb := exBar_rows (by decide) (by decide)
    have e0 := hmu (0 : Fin 3)
    have e2 := hmu (2 : Fin 3)
    have hs : ∀ f : Fin (augSize exBar) → ℝ, ∑ q, f q = f ⟨0, by decide⟩ + f ⟨1, by decide⟩ := fun f =>
      Fin.sum_univ_two (f : Fin 2 → ℝ)
    rw [hs, (hb 0).1, (hb 0).2] at e0
    rw [hs, (hb 2).1, (hb 2).2] at e2
    norm_num at e0 e2
    funext q
    rcases q with ⟨q, hq⟩
    have : q < 2 := hq
    interval_cases q
    · exact e0
    · exact e2
  · intro w hw hne h0
    obtain ⟨w0, w2⟩ := hvar w hw
    have hs : ∀ f : Fin (nDofs exBar) → ℝ, ∑ q, f q = f (0 : Fin 3) + f (1 : Fin 3) + f (2 : Fin 3) := fun f =>
      Fin.sum_univ_three (f : Fin 3 → ℝ)
    have hK : (kMat exBar ([0, 0, 1, 1, 1, 1, 2, 2], [0, 1, 0, 1, 1, 2, 1, 2],
        [1, -1, -1, 1, 1, -1, -1, 1])).mulVec w (1 : Fin 3) = 2 * w (1 : Fin 3) := by
      simp only [Matrix.mulVec, dotProduct]
      rw [hs, w0, w2]
      have hk11 : kMat exBar ([0, 0, 1, 1, 1, 1, 2, 2], [0, 1, 0, 1, 1, 2, 1, 2],
          [1, -1, -1, 1, 1, -1, -1, 1]) (1 : Fin 3) (1 : Fin 3) = 2 := by
        show cooEntry _ _ _ 1 1 = _
        simp [cooEntry]
        norm_num
      rw [hk11]
      ring
    rw [hs, w0, w2, hK, mul_zero, mul_zero, zero_add, add_zero] at h0
    have w1 : w (1 : Fin 3) = 0 := by nlinarith
    refine hne (funext fun k => ?_)
    have hk : ∀ k : Fin 3, w k = 0 := by
      intro k
      fin_cases k
      · exact w0
      · exact w1
      · exact w2
    exact hk k
  · refine ⟨fun e hed n c v hp k hk => ?_, fun g hg => by simp [exBar] at hg⟩
    rcases exBar_prescribes e hed n c v hp with ⟨rfl, rfl, rfl⟩ | ⟨rfl, rfl, rfl⟩
    · have : k = (0 : Fin 3) := Fin.ext hk
      subst this; rfl
    · have : k = (2 : Fin 3) := Fin.ext hk
      subst this; rfl
  · intro w hw
    obtain ⟨w0, w2⟩ := hvar w hw
    have hs : ∀ f : Fin (nDofs exBar) → ℝ, ∑ q, f q = f (0 : Fin 3) + f (1 : Fin 3) + f (2 : Fin 3) := fun f =>
      Fin.sum_univ_three (f : Fin 3 → ℝ)
    rw [hs, w0, w2]
    simp

/-- **C97 (corners).** The square with both pairs of opposite sides is singular for every matrix. -/
theorem C97_corners (eps : ℝ) (he : eps ≠ 0) (T : List Nat × List Nat × List ℝ)
    (hT : WFT exSquare T.1 T.2.1 T.2.2) : ∃ y, y ≠ 0 ∧ (matrix exSquare eps T).mulVec y = 0 :=
  C97_singular exSquare exSquare_wf eps he T hT
    (.inr ⟨0, 2, 1, 3, 0, 3, 2, 1, by decide, rfl, rfl, rfl, rfl⟩)

end LM
end JaxFem
