import Verif.Thm.C112_Reverse
import Verif.Thm.C103_Sequence
import Mathlib.Analysis.Calculus.Deriv.Prod

/-!
# C112: what the backward pass must not find changed

Steps with equations `u₀ = v`, `u₁ = t p u₀` for a parameter `p`, a prescribed value `v` and a factor `t` (as the time increment
is one): every step gives `u₁` to the next as its parameter.
-/

namespace JaxFem.Sensitivity

open scoped Topology BigOperators

/-- Prescribed value. -/
def loopBcs (z : ℝ × ℝ) : ℝ → List (List (BCEntry ℝ)) := fun _ => [[⟨[0], [0], [z.1]⟩]]

/-- Residual. -/
def loopRes (z : ℝ × ℝ) : ℝ → (Fin 2 → ℝ) → Fin 2 → ℝ := fun p => adjExRes (z.2 * p)

/-- Tangent. -/
def loopTan (z : ℝ × ℝ) : ℝ → (Fin 2 → ℝ) → Matrix (Fin 2) (Fin 2) ℝ := fun p => adjExTan (z.2 * p)

/-- What the step sees. -/
noncomputable def loopSetup (z : ℝ × ℝ) : Inverse.Setup ℝ mpcExFes (totalDofs mpcExFes) where
  bcs := loopBcs z
  res := loopRes z
  tan := loopTan z
  norm := fun r => ‖r‖
  solve := CoDesign.seqExSolve
  lineSearch := false
  tol := 0
  relTol := 0
  guess := fun _ => 1
  adjointSolve := adjExSolve

/-- The loop. -/
noncomputable def loopScript : Script (ℝ × ℝ) ℝ ℝ mpcExFes (totalDofs mpcExFes) where
  setup := loopSetup
  par := fun _ b => b
  update := fun _ u _ => u (1 : Fin 2)
  objective := fun _ u _ => u (1 : Fin 2)

/-- Solution of a step. -/
def loopSol (z : ℝ × ℝ) (p : ℝ) : Fin 2 → ℝ := ![z.1, z.2 * p * z.1]

theorem loop_wf (z : ℝ × ℝ) (p : ℝ) : WFBC mpcExFes (loopBcs z p) := by
  refine ⟨rfl, ?_, ?_, ?_, ?_⟩
  · simp [loopBcs]
  · simp [loopBcs]
  · simp [loopBcs]
  · intro i fe es h1 h2
    cases i with
    | zero =>
      simp only [loopBcs, List.getElem?_cons_zero, Option.some.injEq] at h2
      simp only [mpcExFes, List.getElem?_cons_zero, Option.some.injEq] at h1
      subst h1 h2
      simp
    | succ i => simp [loopBcs] at h2

theorem loop_fixed (z : ℝ × ℝ) (p : ℝ) : Prescribed mpcExFes (loopBcs z p) 0 (some z.1) :=
  .fixed 0 0 0 ⟨2, 1, 2, [[0, 1]]⟩ [⟨[0], [0], [z.1]⟩] _ rfl rfl (by decide) (by decide)
      (by decide) ⟨[], _, [], rfl, ⟨0, rfl, rfl, rfl⟩, fun e he => by cases he⟩

theorem loop_free (z : ℝ × ℝ) (p : ℝ) : Prescribed mpcExFes (loopBcs z p) 1 none := by
  refine .free 0 1 0 ⟨2, 1, 2, [[0, 1]]⟩ [⟨[0], [0], [z.1]⟩] rfl rfl (by decide) (by decide) (by decide) ?_
  rintro e he v ⟨k, h1, -⟩
  cases List.mem_singleton.1 he
  cases k <;> simp at h1

theorem loop_constraint (z : ℝ × ℝ) (u : Fin 2 → ℝ) (p : ℝ) :
    constraintFn (N := 2) mpcExFes (loopBcs z) (loopRes z) u p = ![u 0 - z.1, u 1 - z.2 * p * u 0] := by
  funext k
  have h := applyBcV_spec mpcExFes (loopBcs z p) (loop_wf z p) 1 (loopRes z p u) u
  match k with
  | 0 => exact ((h (0 : Fin 2)).2 z.1 (loop_fixed z p)).trans (by simp)
  | 1 => exact ((h (1 : Fin 2)).1 (loop_free z p)).trans (by simp [loopRes, adjExRes])

theorem loop_matrix (z : ℝ × ℝ) (u : Fin 2 → ℝ) (p : ℝ) :
    elimRows (N := 2) mpcExFes (loopBcs z p) (loopTan z p u) = !![1, 0; -(z.2 * p), 1] := by
  have h := elimRows_spec (N := 2) mpcExFes (loopBcs z p) (loop_wf z p) (loopTan z p u)
  ext i j
  match i with
  | 0 => exact ((h 0 j).2 z.1 (loop_fixed z p)).trans (by fin_cases j <;> simp)
  | 1 => exact ((h 1 j).1 (loop_free z p)).trans (by fin_cases j <;> simp [loopTan, adjExTan])

theorem loop_solves (z : ℝ × ℝ) (p : ℝ) : SolvesBVP mpcExFes (loopBcs z p) (loopRes z p) (loopSol z p) := by
  refine (constraint_zero_iff (E := ℝ) mpcExFes (loopBcs z) (loopRes z) p (loop_wf z p) (loopSol z p)).1 ?_
  refine (loop_constraint z (loopSol z p) p).trans ?_
  funext k
  match k with
  | 0 => exact sub_self _
  | 1 => exact sub_self _

theorem loop_unique (z : ℝ × ℝ) (p : ℝ) (w : Fin (totalDofs mpcExFes) → ℝ)
    (h : SolvesBVP mpcExFes (loopBcs z p) (loopRes z p) w) : w = loopSol z p := by
  have h1 : w (0 : Fin 2) = z.1 := h.1 (0 : Fin 2) z.1 (loop_fixed z p)
  have h2 : w (1 : Fin 2) - z.2 * p * w (0 : Fin 2) = 0 := h.2 (1 : Fin 2) (loop_free z p)
  have h3 : w (1 : Fin 2) = z.2 * p * z.1 := by
    rw [h1] at h2
    exact sub_eq_zero.1 h2
  have key : ∀ x : Fin 2 → ℝ, x 0 = z.1 → x 1 = z.2 * p * z.1 → x = loopSol z p := by
    intro x h0 h1
    funext k
    match k with
    | 0 => exact h0
    | 1 => exact h1
  exact key w h1 h3

theorem loop_fwd (z : ℝ × ℝ) (p : ℝ) (fuel : Nat) : (loopSetup z).fwdPred (fuel + 2) p = some (.ok (loopSol z p)) := by
  have hdet : (elimRows (N := 2) mpcExFes (loopBcs z p) (loopTan z p 0)).det ≠ 0 := by
    rw [loop_matrix, Matrix.det_fin_two]; simp
  have hres : adjExRes (z.2 * p) = fun u => (adjExTan (z.2 * p) 0).mulVec u - 0 := by
    funext u i
    match i with
    | 0 => simp [adjExRes, adjExTan, dotProduct]
    | 1 => simp [adjExRes, adjExTan, dotProduct]; ring
  obtain ⟨w, n, h1, h2⟩ := C21_linear mpcExFes (loopBcs z p) (loop_wf z p) (adjExTan (z.2 * p) 0) 0 hdet
    (fun r => ‖r‖) (fun r => norm_nonneg r) (fun r => norm_eq_zero) CoDesign.seqExSolve
    (fun A b x0 x h => adjExSolve_exact 2 A b x h)
    (fun A b _ hd => CoDesign.adjExSolve_total 2 A b hd) false 0 0 le_rfl (fun _ => 1) fuel
  have hw : w = loopSol z p := by
    refine loop_unique z p w ?_
    have hres' : loopRes z p = fun u => (adjExTan (z.2 * p) 0).mulVec u - 0 := hres
    rcases h2 with ⟨-, hw1, h2 | h2⟩ | ⟨-, h2, -⟩
    · have hz := norm_le_zero_iff.1 h2
      refine (constraint_zero_iff (E := ℝ) mpcExFes (loopBcs z) (loopRes z) p (loop_wf z p) _).1 ?_
      exact (congrArg (fun r => applyBcV mpcExFes (loopBcs z p) 1 r w) (congrFun hres w)).trans (by rw [hw1]; exact hz)
    · exact absurd h2 (by norm_num)
    · rw [hres']
      exact h2
  have h3 : newtonSolve (newtonUpdate mpcExFes (loopBcs z p) (adjExRes (z.2 * p)) (adjExTan (z.2 * p)))
      (fun rA => .fin ‖rA.1‖) (newtonStep mpcExFes (loopBcs z p) (fun r => .fin ‖r‖) (adjExRes (z.2 * p))
        CoDesign.seqExSolve false)
      (fun _ => true) 0 0 (fun _ => 1) (fuel + 2) = some (.ok (w, n)) := by
    rw [hres]
    exact h1
  rw [hw] at h3
  exact congrArg (Option.map fun r : Except Err ((Fin 2 → ℝ) × Nat) => r.map Prod.fst) h3

/-- The backward pass of a step, at any vector. -/
theorem loop_vjp (z : ℝ × ℝ) (u : Fin 2 → ℝ) (p : ℝ) (v : Fin 2 → ℝ) : ∃ g : ℝ →L[ℝ] ℝ,
    implicitVjp (N := 2) mpcExFes (loopBcs z) (loopRes z) (loopTan z) none adjExSolve u p v = .ok g ∧
    g 1 = z.2 * u 0 * v 1 := by
  obtain ⟨y, hy⟩ := CoDesign.adjExSolve_total 2 (elimRows (N := 2) mpcExFes (loopBcs z p) (loopTan z p u)).transpose v (by
    rw [Matrix.det_transpose, loop_matrix, Matrix.det_fin_two]; simp)
  have e := adjExSolve_exact 2 _ _ _ hy
  rw [loop_matrix] at e
  have e1 := congrFun e 1
  simp [Matrix.mulVec, dotProduct, Fin.sum_univ_two] at e1
  refine ⟨-jaxVjp (fun q => constraintFn (N := 2) mpcExFes (loopBcs z) (loopRes z) u q) p y, ?_, ?_⟩
  · show (adjExSolve 2 _ v >>= fun adjoint => (pure _ : Except Err (ℝ →L[ℝ] ℝ))) = _
    rw [hy]
    rfl
  · have hd : HasFDerivAt (fun q : ℝ => constraintFn (N := 2) mpcExFes (loopBcs z) (loopRes z) u q)
        (ContinuousLinearMap.toSpanSingleton ℝ (![0, -(z.2 * u 0)] : Fin 2 → ℝ)) p := by
      have e : (fun q : ℝ => constraintFn (N := 2) mpcExFes (loopBcs z) (loopRes z) u q)
          = fun q => ![u 0 - z.1, u 1 - z.2 * q * u 0] := funext fun q => loop_constraint z u q
      rw [e]
      refine HasDerivAt.hasFDerivAt (f' := (![0, -(z.2 * u 0)] : Fin 2 → ℝ)) (hasDerivAt_pi.2 fun i => ?_)
      match i with
      | 0 => exact hasDerivAt_const _ _
      | 1 =>
        show HasDerivAt (fun q => u 1 - z.2 * q * u 0) (-(z.2 * u 0)) p
        have := (((hasDerivAt_id p).const_mul z.2).mul_const (u 0)).const_sub (u 1)
        simpa using this
    rw [jaxVjp, hd.fderiv]
    have hy : dotCLM y ![0, -(z.2 * u 0)] = y 1 * -(z.2 * u 0) := by
      show dotProduct y ![0, -(z.2 * u 0)] = _
      simp [dotProduct, Fin.sum_univ_two]
    simp only [ContinuousLinearMap.neg_apply, ContinuousLinearMap.comp_apply, ContinuousLinearMap.toSpanSingleton_apply, one_smul]
    rw [hy, e1]
    ring

theorem loop_run (z1 z2 : ℝ × ℝ) (θ : ℝ) :
    loopScript.run 2 [z1, z2] θ = some (.ok [loopSol z1 θ, loopSol z2 (z1.2 * θ * z1.1)]) := by
  have h2 : ∀ b, loopScript.run 2 [z2] b = some (.ok [loopSol z2 b]) := by
    intro b
    rw [Script.run, show (loopScript.setup z2).fwdPred 2 (loopScript.par z2 b) = _ from loop_fwd z2 b 0]
    rfl
  rw [Script.run, show (loopScript.setup z1).fwdPred 2 (loopScript.par z1 θ) = _ from loop_fwd z1 θ 0]
  exact congrArg (Option.map fun r : Except Err (List (Fin (totalDofs mpcExFes) → ℝ)) =>
    r.map fun us => loopSol z1 θ :: us) (h2 (z1.2 * θ * z1.1))

theorem loop_outcome (z1 z2 : ℝ × ℝ) (θ : ℝ) :
    Outcome loopScript θ [z1, z2] [loopSol z1 θ, loopSol z2 (z1.2 * θ * z1.1)] (z2.2 * (z1.2 * θ * z1.1) * z2.1) :=
  .step _ _ _ _ _ _ (loop_solves z1 θ) (.last _ _ _ (loop_solves z2 _))

theorem loop_second (x : (Fin 2 → ℝ) × ℝ) : HasFDerivAt (fun x : (Fin 2 → ℝ) × ℝ => x.1 1)
    ((ContinuousLinearMap.proj (R := ℝ) (φ := fun _ : Fin 2 => ℝ) 1).comp (ContinuousLinearMap.fst ℝ (Fin 2 → ℝ) ℝ)) x :=
  ((ContinuousLinearMap.proj (R := ℝ) (φ := fun _ : Fin 2 => ℝ) 1).comp (ContinuousLinearMap.fst ℝ (Fin 2 → ℝ) ℝ)).hasFDerivAt

theorem loop_smoothAt (z : ℝ × ℝ) (p : ℝ) (u : Fin 2 → ℝ) : SmoothAt (loopSetup z) p u where
  wf := loop_wf z
  tangent := adjEx_jacobian (z.2 * p) u
  res := by
    show DifferentiableAt ℝ (fun up : (Fin 2 → ℝ) × ℝ => adjExRes (z.2 * up.2) up.1) (u, p)
    rw [differentiableAt_pi]
    intro i
    match i with
    | 0 =>
      show DifferentiableAt ℝ (fun up : (Fin 2 → ℝ) × ℝ => up.1 0) (u, p)
      fun_prop
    | 1 =>
      show DifferentiableAt ℝ (fun up : (Fin 2 → ℝ) × ℝ => up.1 1 - z.2 * up.2 * up.1 0) (u, p)
      fun_prop
  bcs := by
    have key : ∀ k : Fin 2, (∀ p, Prescribed mpcExFes (loopBcs z p) k none) ∨
        ∃ val : ℝ → ℝ, DifferentiableAt ℝ val p ∧ ∀ p, Prescribed mpcExFes (loopBcs z p) k (some (val p)) := by
      intro k
      match k with
      | 0 => exact .inr ⟨fun _ => z.1, differentiableAt_const _, loop_fixed z⟩
      | 1 => exact .inl (loop_free z)
    exact key

theorem loop_smooth (z1 z2 : ℝ × ℝ) (b : ℝ) (u1 u2 : Fin 2 → ℝ) : SmoothAlong loopScript b [z1, z2] [u1, u2] :=
  .step _ _ _ _ _ (loop_smoothAt z1 _ _) differentiableAt_id (loop_second _).differentiableAt
    (.last _ _ _ (loop_smoothAt z2 _ _) differentiableAt_id (loop_second _).differentiableAt)

theorem loop_grad (z1 z2 : ℝ × ℝ) (θ : ℝ) : ∃ g : ℝ →L[ℝ] ℝ,
    loopScript.grad (fun θ => θ) 2 [z1, z2] θ = some (.ok g) ∧ g 1 = z2.2 * z2.1 * (z2.2 * z1.1) := by
  have hv : ∀ (bar : ℝ →L[ℝ] ℝ) (u : Fin 2 → ℝ) (b : ℝ) (k : Fin 2),
      bar ((fderiv ℝ (fun x : (Fin 2 → ℝ) × ℝ => x.1 1) (u, b)) (Pi.single k 1, 0)) = bar ((Pi.single k 1 : Fin 2 → ℝ) 1) := by
    intro bar u b k
    rw [(loop_second (u, b)).fderiv]
    rfl
  have hb : ∀ (u : Fin 2 → ℝ) (b : ℝ), (fderiv ℝ (fun x : (Fin 2 → ℝ) × ℝ => x.1 1) (u, b)) (0, 1) = 0 := by
    intro u b
    rw [(loop_second (u, b)).fderiv]
    rfl
  have hid : ∀ b : ℝ, fderiv ℝ (fun b : ℝ => b) b = ContinuousLinearMap.id ℝ ℝ := fun b => fderiv_id'
  set u1 : Fin 2 → ℝ := loopSol z1 θ with hu1
  set b1 : ℝ := z1.2 * θ * z1.1 with hb1
  set u2 : Fin 2 → ℝ := loopSol z2 b1 with hu2
  have s2 : ∃ bar : ℝ →L[ℝ] ℝ, loopScript.sweep (loopSetup z2) [z2] [u2] b1 = .ok bar ∧ bar 1 = z2.2 * z2.1 := by
    let D : (Fin 2 → ℝ) × ℝ →L[ℝ] ℝ := fderiv ℝ (fun x : (Fin 2 → ℝ) × ℝ => x.1 1) (u2, b1)
    obtain ⟨g, e, v⟩ := loop_vjp z2 u2 b1 fun k => D (Pi.single k 1, 0)
    refine ⟨D.comp (ContinuousLinearMap.inr ℝ _ _) + g.comp (fderiv ℝ (fun b : ℝ => b) b1), ?_, ?_⟩
    · show (implicitVjp (N := 2) mpcExFes (loopBcs z2) (loopRes z2) (loopTan z2) none adjExSolve u2 b1 (fun k => D (Pi.single k 1, 0))
        >>= fun g => (.ok (D.comp (ContinuousLinearMap.inr ℝ _ _) + g.comp (fderiv ℝ (fun b : ℝ => b) b1)) : Except Err (ℝ →L[ℝ] ℝ))) = _
      rw [e]
      rfl
    · show D (0, 1) + g (fderiv ℝ (fun b : ℝ => b) b1 1) = _
      rw [hb, hid, zero_add]
      refine v.trans ?_
      have := hv (ContinuousLinearMap.id ℝ ℝ) u2 b1 1
      simp only [ContinuousLinearMap.id_apply] at this
      rw [show D (Pi.single 1 1, 0) = _ from this]
      simp [hu2, loopSol]
  obtain ⟨bar, e1, v1⟩ := s2
  have s1 : ∃ bar' : ℝ →L[ℝ] ℝ, loopScript.sweep (loopSetup z2) [z1, z2] [u1, u2] θ = .ok bar' ∧
      bar' 1 = z2.2 * z2.1 * (z2.2 * z1.1) := by
    let D : (Fin 2 → ℝ) × ℝ →L[ℝ] ℝ := fderiv ℝ (fun x : (Fin 2 → ℝ) × ℝ => x.1 1) (u1, θ)
    obtain ⟨g, e, v⟩ := loop_vjp z2 u1 θ fun k => bar (D (Pi.single k 1, 0))
    refine ⟨bar.comp (D.comp (ContinuousLinearMap.inr ℝ _ _)) + g.comp (fderiv ℝ (fun b : ℝ => b) θ), ?_, ?_⟩
    · show (loopScript.sweep (loopSetup z2) [z2] [u2] b1 >>= fun bar =>
        implicitVjp (N := 2) mpcExFes (loopBcs z2) (loopRes z2) (loopTan z2) none adjExSolve u1 θ (fun k => bar (D (Pi.single k 1, 0)))
          >>= fun g => (.ok (bar.comp (D.comp (ContinuousLinearMap.inr ℝ _ _)) + g.comp (fderiv ℝ (fun b : ℝ => b) θ))
            : Except Err (ℝ →L[ℝ] ℝ))) = _
      rw [e1]
      show (implicitVjp (N := 2) mpcExFes (loopBcs z2) (loopRes z2) (loopTan z2) none adjExSolve u1 θ (fun k => bar (D (Pi.single k 1, 0)))
          >>= fun g => (.ok (bar.comp (D.comp (ContinuousLinearMap.inr ℝ _ _)) + g.comp (fderiv ℝ (fun b : ℝ => b) θ))
            : Except Err (ℝ →L[ℝ] ℝ))) = _
      rw [e]
      rfl
    · show bar (D (0, 1)) + g (fderiv ℝ (fun b : ℝ => b) θ 1) = _
      rw [hb, hid, map_zero, zero_add]
      refine v.trans ?_
      rw [show bar (D (Pi.single 1 1, 0)) = _ from hv bar u1 θ 1, Pi.single_eq_same, v1]
      simp [hu1, loopSol]
      ring
  obtain ⟨bar', e3, v3⟩ := s1
  refine ⟨bar'.comp (fderiv ℝ (fun b : ℝ => b) θ), ?_, ?_⟩
  · rw [Script.grad, loop_run]
    show some (loopScript.sweep (loopSetup z2) [z1, z2] [u1, u2] θ >>= fun bar =>
      (.ok (bar.comp (fderiv ℝ (fun b : ℝ => b) θ)) : Except Err (ℝ →L[ℝ] ℝ))) = _
    rw [e3]
    rfl
  · rw [ContinuousLinearMap.comp_apply, hid]
    exact v3

/-- **C112 (changed attributes).** The time increment must be the same in all steps: the backward pass runs with that of the last
one.  Here everything is linear and all solvers are exact, and between two steps only the factor changes from 1 to 2: the
returned gradient is 4 where the derivative is 2. -/
theorem C112_stale (θ : ℝ) : ∃ (us : ℝ → List (Fin (totalDofs mpcExFes) → ℝ)) (J : ℝ → ℝ) (g : ℝ →L[ℝ] ℝ),
    (∀ x, loopScript.run 2 [(1, 1), (1, 2)] x = some (.ok (us x))) ∧ (∀ x, Outcome loopScript x [(1, 1), (1, 2)] (us x) (J x)) ∧
    SmoothAlong loopScript θ [(1, 1), (1, 2)] (us θ) ∧ loopScript.grad (fun x => x) 2 [(1, 1), (1, 2)] θ = some (.ok g) ∧
    HasDerivAt J 2 θ ∧ g 1 = 4 := by
  obtain ⟨g, h1, h2⟩ := loop_grad (1, 1) (1, 2) θ
  refine ⟨_, _, g, loop_run (1, 1) (1, 2), loop_outcome (1, 1) (1, 2), loop_smooth _ _ _ _ _, h1, ?_, ?_⟩
  · have := (((hasDerivAt_id θ).const_mul 1).mul_const 1).const_mul 2 |>.mul_const (1 : ℝ)
    simpa using this
  · rw [h2]
    norm_num

/-- The hypotheses of `C112_gradient`, with a prescribed value that changes from 1 to 2. -/
example (θ : ℝ) : ∃ g : ℝ →L[ℝ] ℝ, loopScript.grad (fun x => x) 2 [(1, 1), (2, 1)] θ = some (.ok g) ∧ g 1 = 2 ∧
    HasFDerivAt (fun x : ℝ => 1 * (1 * x * 1) * 2) g θ := by
  obtain ⟨g, h1, h2⟩ := loop_grad (1, 1) (2, 1) θ
  refine ⟨g, h1, by rw [h2]; norm_num, ?_⟩
  refine C112_gradient loopScript (fun x => x) θ differentiableAt_id 2 [(1, 1), (2, 1)] (fun _ _ => adjExSolve_exact)
    (fun z p => loop_wf z p) ?_ (fun x => [loopSol (1, 1) x, loopSol (2, 1) (1 * x * 1)]) _ ?_ (loop_run _ _ θ)
    (.of_forall fun x => loop_outcome (1, 1) (2, 1) x) (loop_smooth _ _ _ _ _) g h1
  · have key : ∀ z z' : ℝ × ℝ, z.2 = z'.2 → SameUpToValues (loopSetup z) (loopSetup z') := by
      intro z z' e
      refine ⟨?_, ?_, ?_, ?_⟩
      · show (fun p => adjExRes (z.2 * p)) = fun p => adjExRes (z'.2 * p)
        rw [e]
      · show (fun p => adjExTan (z.2 * p)) = fun p => adjExTan (z'.2 * p)
        rw [e]
      · have q : ∀ (p : ℝ) (k : Fin 2), Prescribed mpcExFes (loopBcs z p) k none → Prescribed mpcExFes (loopBcs z' p) k none := by
          intro p k hk
          match k with
          | 0 => cases prescribed_unique _ _ (loop_wf z p) _ _ _ hk (loop_fixed z p)
          | 1 => exact loop_free z' p
        exact q
      · have q : ∀ (p : ℝ) (k : Fin 2) v, Prescribed mpcExFes (loopBcs z p) k (some v) →
            Prescribed mpcExFes (loopBcs z' p) k (some (v + ![z'.1 - z.1, 0] k)) := by
          intro p k v hk
          match k with
          | 0 =>
            have := prescribed_unique _ _ (loop_wf z p) _ _ _ hk (loop_fixed z p)
            obtain rfl : v = z.1 := Option.some.inj this
            have := loop_fixed z' p
            simpa using this
          | 1 => cases prescribed_unique _ _ (loop_wf z p) _ _ _ hk (loop_free z p)
        exact ⟨![z'.1 - z.1, 0], q⟩
    intro z hz z' hz'
    refine key z z' ?_
    simp only [List.mem_cons, List.not_mem_nil, or_false] at hz hz'
    rcases hz with rfl | rfl <;> rcases hz' with rfl | rfl <;> rfl
  · intro i
    have hc : ∀ z : ℝ × ℝ, DifferentiableAt ℝ (fun x => loopSol z x) θ := by
      intro z
      rw [differentiableAt_pi]
      intro k
      match k with
      | 0 => exact differentiableAt_const _
      | 1 =>
        show DifferentiableAt ℝ (fun x => z.2 * x * z.1) θ
        fun_prop
    match i with
    | 0 => exact hc (1, 1)
    | 1 =>
      show DifferentiableAt ℝ (fun x => loopSol (2, 1) (1 * x * 1)) θ
      simpa using hc (2, 1)
    | n + 2 => exact differentiableAt_const _

end JaxFem.Sensitivity
