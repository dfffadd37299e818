import Verif.Thm.C120_Select
import Verif.Thm.C120_Monotone
import Verif.Thm.C84_MeshGradient
import Verif.Thm.C107_Rows
import Mathlib.Analysis.SpecialFunctions.Trigonometric.Deriv

/-!
# C120: the difference quotient converges to the gradient
-/

namespace JaxFem

open scoped BigOperators Topology
open Filter

/-! ### Helper lemmas -/

section general

variable {IV : Type} {nq nfq nn vec dim : Nat}

/-- Gradients of functions of the solution with respect to the points, at a regular solution. -/
theorem flatAt_gradient (P : Problem1 IV nq nfq nn vec dim) (h : P.WF) (hm : P.SmoothMaps)
    (bcs : List (List (BCEntry ℝ))) (hb : WFBC P.fes bcs)
    (tan : (Fin P.numTotalNodes → Fin dim → ℝ) → (Fin (totalDofs P.fes) → ℝ) →
      Matrix (Fin (totalDofs P.fes)) (Fin (totalDofs P.fes)) ℝ)
    (solve : (n : Nat) → Matrix (Fin n) (Fin n) ℝ → (Fin n → ℝ) → Except Err (Fin n → ℝ))
    (hs : ExactAdjointSolver solve) (htot : ∀ n (A : Matrix (Fin n) (Fin n) ℝ) b, A.det ≠ 0 → ∃ x, solve n A b = .ok x)
    (x0 : Fin P.numTotalNodes → Fin dim → ℝ)
    (u0 : Fin (totalDofs P.fes) → ℝ) (hr : (P.atPoints x0).NonDegenerate)
    (ht : HasJacobianAt (P.flatAt x0) (tan x0 u0) u0)
    (hdet : (elimRows P.fes bcs (tan x0 u0)).det ≠ 0)
    (hz : SolvesBVP P.fes bcs (P.flatAt x0) u0) (f : (Fin (totalDofs P.fes) → ℝ) → ℝ) (hfd : DifferentiableAt ℝ f u0) :
    ∃ u : (Fin P.numTotalNodes → Fin dim → ℝ) → Fin (totalDofs P.fes) → ℝ, u x0 = u0 ∧
      (∀ᶠ x in 𝓝 x0, SolvesBVP P.fes bcs (P.flatAt x) (u x)) ∧
      ∃ g, implicitVjp P.fes (fun _ => bcs) P.flatAt tan none solve u0 x0 (fun k => fderiv ℝ f u0 (Pi.single k 1)) = .ok g ∧
        HasFDerivAt (fun x => f (u x)) g x0 := by
  have hc := constraint_smooth P.fes bcs hb P.flatAt (u0, x0) (C84_smooth P h hm u0 x0 hr)
  obtain ⟨u, e3, e4, e1, e2⟩ := exists_branch _ u0 x0 hc _
    (C17_derivative P.fes bcs hb 1 (P.flatAt x0) _ _ ht) hdet
    ((constraint_zero_iff P.fes (fun _ => bcs) P.flatAt x0 hb u0).2 hz)
  have hu : IsUnit (elimRows P.fes bcs (tan x0 u0)).det := isUnit_iff_ne_zero.2 hdet
  have hd := (hc.differentiableAt one_ne_zero).hasFDerivAt
  obtain ⟨hA, hB⟩ := partials_constraint P.fes (fun _ => bcs) P.flatAt tan x0 u0 hb ht _ hd
  obtain ⟨X, hX, hXd⟩ := implicit_hasFDerivAt _ _ u x0 (by rw [e3]; exact hd) _ hA hu e4 e2
  refine ⟨u, e3, ?_, ?_⟩
  · filter_upwards [e2] with p hp
    exact (constraint_zero_iff P.fes (fun _ => bcs) P.flatAt p hb _).1 hp
  · obtain ⟨l, hl⟩ := htot _ (elimRows P.fes bcs (tan x0 u0)).transpose (fun k => fderiv ℝ f u0 (Pi.single k 1))
      (by rw [Matrix.det_transpose]; exact hdet)
    have hg : implicitVjp P.fes (fun _ => bcs) P.flatAt tan none solve u0 x0 (fun k => fderiv ℝ f u0 (Pi.single k 1))
        = .ok (-jaxVjp (fun p => constraintFn P.fes (fun _ => bcs) P.flatAt u0 p) x0 l) := by
      rw [implicitVjp]
      exact congrArg (fun r : Except Err (Fin (totalDofs P.fes) → ℝ) => r.bind fun adjoint =>
        Except.ok (-jaxVjp (fun p => constraintFn P.fes (fun _ => bcs) P.flatAt u0 p) x0 adjoint)) hl
    refine ⟨-jaxVjp (fun p => constraintFn P.fes (fun _ => bcs) P.flatAt u0 p) x0 l, hg, ?_⟩
    have h1 : HasFDerivAt (fun p => f (u p)) ((fderiv ℝ f u0).comp X) x0 := by
      refine HasFDerivAt.comp x0 ?_ hX
      rw [e3]
      exact hfd.hasFDerivAt
    have h2 := C38_adjoint P.fes (fun _ => bcs) P.flatAt tan solve hs x0 u hb (by rw [e3]; exact ht)
      (by rw [e3]; exact hc.differentiableAt one_ne_zero) (by rw [e3]; exact hu) e4 e2 _ _ (by rw [e3]; exact hg)
    refine h1.congr_fderiv ?_
    rw [← h2.fderiv]
    have h3 : (fun p => dotProduct (fun k => fderiv ℝ f u0 (Pi.single k 1)) (u p)) = fun p => fderiv ℝ f u0 (u p) := by
      funext p
      conv_rhs => rw [pi_eq_sum_univ' (u p)]
      simp only [map_sum, map_smul, smul_eq_mul, dotProduct]
      exact Finset.sum_congr rfl fun k _ => mul_comm _ _
    rw [h3]
    exact (((fderiv ℝ f u0).hasFDerivAt.comp x0 hX).fderiv).symm

/-- Cells with positive measure keep it when the points move a little. -/
theorem positive_near (P : Problem1 IV nq nfq nn vec dim) (x0 : Fin P.numTotalNodes → Fin dim → ℝ)
    (hpos : (P.atPoints x0).PositiveMeasure) : ∀ᶠ x in 𝓝 x0, (P.atPoints x).PositiveMeasure := by
  have hcont : ∀ (cell : List Nat) (q : Fin nq), ContinuousAt (fun x : Fin P.numTotalNodes → Fin dim → ℝ =>
      (mapJacobian (coords nn (P.atPoints x).points cell) (Matrix.of (P.el.shapeGradsRef q))).det * P.el.quadWeights q) x0 := by
    intro cell q
    have h1 : ContDiffAt ℝ 1 (fun z : (Fin (totalDofs P.fes) → ℝ) × (Fin P.numTotalNodes → Fin dim → ℝ) =>
        (mapJacobian (coords nn (P.atPoints z.2).points cell) (Matrix.of (P.el.shapeGradsRef q))).det * P.el.quadWeights q)
        (0, x0) :=
      (contDiffAt_det _ (0, x0) (contDiffAt_jac _ _ (0, x0) (coords_smooth P cell (0, x0)))).mul contDiffAt_const
    have h2 : ContinuousAt (fun x : Fin P.numTotalNodes → Fin dim → ℝ => ((0 : Fin (totalDofs P.fes) → ℝ), x)) x0 :=
      (Continuous.prodMk_right _).continuousAt
    exact ContinuousAt.comp (f := fun x : Fin P.numTotalNodes → Fin dim → ℝ => ((0 : Fin (totalDofs P.fes) → ℝ), x))
      h1.continuousAt h2
  have h3 : ∀ cell ∈ {c | c ∈ P.cells}, ∀ᶠ x in 𝓝 x0, ∀ q : Fin nq,
      0 < (mapJacobian (coords nn (P.atPoints x).points cell.nodes) (Matrix.of (P.el.shapeGradsRef q))).det
        * P.el.quadWeights q := by
    intro cell hc
    rw [eventually_all]
    intro q
    exact (hcont cell.nodes q).eventually_const_lt (hpos cell hc q)
  have h4 := (eventually_all_finite (List.finite_toSet P.cells)).2 h3
  filter_upwards [h4] with x hx cell hc q
  exact hx cell hc q

/-- Two solutions of the boundary value problem agree if fields are determined by their work. -/
theorem solves_unique (P : Problem1 IV nq nfq nn vec dim) (h : P.WF) (bcs : List (List (BCEntry ℝ))) (hb : WFBC P.fes bcs)
    (huniq : P.UniqueField fun n c => FreeDof (bcs.getD 0 []) n c) (u w : Fin (totalDofs P.fes) → ℝ)
    (hu : SolvesBVP P.fes bcs P.flat u) (hw : SolvesBVP P.fes bcs P.flat w) : u = w := by
  refine vecField_eq_iff P u w (huniq _ _ ?_ ?_)
  · rw [← vecField_sub, ← flat_virtualWork P h, ← flat_virtualWork P h]
    refine Finset.sum_congr rfl fun k _ => ?_
    obtain ⟨o, ho⟩ := prescribed_exists P.fes bcs hb k k.2
    cases o with
    | none => rw [hu.2 k ho, hw.2 k ho]
    | some v => rw [Pi.sub_apply, hu.1 k v ho, hw.1 k v ho, sub_self, zero_mul, zero_mul]
  · intro n c hf
    have := vecField_vanish P bcs hb (u - w) (fun k v hp => by
      rw [Pi.sub_apply, hu.1 k v hp, hw.1 k v hp, sub_self]) n c hf
    rw [vecField_sub] at this
    exact sub_eq_zero.1 this

/-- Central difference quotients converge to the derivative. -/
theorem central_tendsto (J : ℝ → ℝ) (d : ℝ) (h : HasDerivAt J d 0) :
    Tendsto (fun e => (J e - J (-e)) / (2 * e)) (𝓝[≠] 0) (𝓝 d) := by
  have h1 := hasDerivAt_iff_tendsto_slope_zero.1 h
  have hneg : Tendsto (fun e : ℝ => -e) (𝓝[≠] 0) (𝓝[≠] 0) := by
    refine tendsto_nhdsWithin_iff.2 ⟨?_, ?_⟩
    · have : Tendsto (fun e : ℝ => -e) (𝓝 0) (𝓝 0) := by
        simpa using (continuous_neg (G := ℝ)).tendsto 0
      exact this.mono_left nhdsWithin_le_nhds
    · filter_upwards [self_mem_nhdsWithin] with e he
      exact neg_ne_zero.2 he
  have h2 := h1.comp hneg
  have h3 := (h1.add h2).const_mul (1 / 2 : ℝ)
  have e : 1 / 2 * (d + d) = d := by ring
  rw [e] at h3
  refine h3.congr' ?_
  filter_upwards [self_mem_nhdsWithin] with e he
  have he : e ≠ 0 := he
  simp only [Function.comp, zero_add, smul_eq_mul]
  field_simp
  ring

end general

namespace MeshCheck

variable {nq nfq nn : Nat}

theorem problem_atPoints (D : Disc nq nfq nn) (faces : List (Nat × Nat)) (x0 x : D.Points) :
    (D.problem faces x0).atPoints x = D.problem faces x := rfl

theorem res_eq (D : Disc nq nfq nn) (faces : List (Nat × Nat)) (x0 : D.Points) :
    D.res faces = (D.problem faces x0).flatAt := rfl

theorem smooth (D : Disc nq nfq nn) (faces : List (Nat × Nat)) (x0 : D.Points) : (D.problem faces x0).SmoothMaps where
  tensor := fun _ => contDiff_id
  mass := by
    intro m hm iv
    have hm' : m = fun _ u x => massMap u x := (Option.some.inj hm).symm
    subst hm'
    have hx : ∀ i, ContDiff ℝ 1 fun z : (Fin 1 → ℝ) × (Fin 2 → ℝ) => z.2 i := fun i => (contDiff_apply ℝ ℝ i).comp contDiff_snd
    have hu : ContDiff ℝ 1 fun z : (Fin 1 → ℝ) × (Fin 2 → ℝ) => z.1 0 := (contDiff_apply ℝ ℝ 0).comp contDiff_fst
    have hs : ContDiff ℝ 1 fun z : (Fin 1 → ℝ) × (Fin 2 → ℝ) => Real.sin (Real.pi * z.2 0) :=
      Real.contDiff_sin.comp (contDiff_const.mul (hx 0))
    refine contDiff_pi.2 fun c => ?_
    simp only [massMap]
    exact (hu.pow 3).sub (((contDiff_const.mul hs).mul (contDiff_const.add (hx 1))).add
      ((hs.mul (contDiff_const.add (hx 1))).pow 3))
  surface := by
    intro s hs iv
    have hs' : s = ⟨fun _ u x => neumannFlux u x, faces.map fun f => ⟨f.1, f.2, fun _ => ()⟩⟩ := List.mem_singleton.1 hs
    subst hs'
    refine contDiff_pi.2 fun c => ?_
    simp only [neumannFlux]
    exact Real.contDiff_sin.comp (contDiff_const.mul ((contDiff_apply ℝ ℝ 0).comp contDiff_snd))

theorem strong (D : Disc nq nfq nn) (faces : List (Nat × Nat)) (x0 : D.Points) : (D.problem faces x0).StronglyMonotone 1 := by
  intro iv G H
  rw [one_mul]
  exact le_rfl

theorem mass_mono (D : Disc nq nfq nn) (faces : List (Nat × Nat)) (x0 : D.Points) : (D.problem faces x0).MassMonotone := by
  intro m hm iv u w x
  have hm' : m = fun _ u x => massMap u x := (Option.some.inj hm).symm
  subst hm'
  rw [Fin.sum_univ_one]
  simp only [massMap]
  have e : (u 0 ^ 3 - (Real.pi ^ 2 * Real.sin (Real.pi * x 0) * (1 + x 1) + (Real.sin (Real.pi * x 0) * (1 + x 1)) ^ 3)
      - (w 0 ^ 3 - (Real.pi ^ 2 * Real.sin (Real.pi * x 0) * (1 + x 1) + (Real.sin (Real.pi * x 0) * (1 + x 1)) ^ 3)))
      * (u 0 - w 0) = (u 0 - w 0) ^ 2 * ((u 0 + w 0 / 2) ^ 2 + 3 / 4 * w 0 ^ 2) := by ring
  rw [e]
  positivity

theorem surface_mono (D : Disc nq nfq nn) (faces : List (Nat × Nat)) (x0 : D.Points) : (D.problem faces x0).SurfaceMonotone := by
  intro s hs f hf q u w x
  have hs' : s = ⟨fun _ u x => neumannFlux u x, faces.map fun f => ⟨f.1, f.2, fun _ => ()⟩⟩ := List.mem_singleton.1 hs
  subst hs'
  simp [neumannFlux]

theorem objective_differentiable {N : Nat} (u : Fin N → ℝ) : DifferentiableAt ℝ (objective (N := N)) u := by
  unfold objective
  fun_prop

theorem readable : UserBC.Readable info ∧ ∀ it ∈ UserBC.conds info, it.2.1 < 1 := by
  constructor
  · refine ⟨rfl, rfl, ?_⟩
    intro loc hl
    simp only [List.mem_cons, List.not_mem_nil, or_false] at hl
    rcases hl with rfl | rfl | rfl <;> trivial
  · intro it hit
    simp only [UserBC.conds, info, List.zip_cons_cons, List.zip_nil_right, List.mem_cons, List.not_mem_nil, or_false] at hit
    rcases hit with rfl | rfl | rfl <;> norm_num

theorem suits (D : Disc nq nfq nn) (x : D.Points) : UserBC.Suits D.fes (.single (List.ofFn x) info) := by
  refine ⟨rfl, ?_, ?_⟩
  · intro i fe pts h1 h2
    have h0 : i = 0 := by
      have := (List.getElem?_eq_some_iff.1 h1).1
      simpa [Disc.fes, Problem1.fes] using this
    subst h0
    have e1 : fe = ⟨D.numNodes, 1, nn, (D.problem [] 0).conn⟩ := (Option.some.inj h1).symm
    have e2 : pts = List.ofFn x := by simpa [UserBC.Args.meshes] using h2.symm
    rw [e1, e2]
    simp
  · intro i fe info' h1 h2 it hit
    have h0 : i = 0 := by
      have := (List.getElem?_eq_some_iff.1 h1).1
      simpa [Disc.fes, Problem1.fes] using this
    subst h0
    have e1 : fe = ⟨D.numNodes, 1, nn, (D.problem [] 0).conn⟩ := (Option.some.inj h1).symm
    have e2 : info' = info := by simpa [UserBC.Args.given] using h2.symm
    rw [e2] at hit
    rw [e1]
    exact readable.2 it hit

/-- The constructor never raises; its boundary conditions are well-formed and its faces are those whose vertices are near the
bottom. -/
theorem build_ok (D : Disc nq nfq nn) (x : D.Points) : ∃ bcs, UserBC.problemBCs (.single (List.ofFn x) info) = .ok bcs ∧
    D.build x = .ok (bcs, argwhere2 (boundaryFlags (List.ofFn x) D.cells D.faceInds
      fun p _ => decide (close (p 1) 0 (1 / 10 ^ 3)))) ∧ WFBC D.fes bcs := by
  obtain ⟨bcs, hb⟩ := (UserBC.C107_builds (.single (List.ofFn x) info)).2 (by
    intro i hi'
    have : i = 0 := by simpa [UserBC.Args.meshes] using hi'
    subst this
    exact ⟨info, rfl, readable.1⟩)
  refine ⟨bcs, hb, ?_, (UserBC.C107_conditions D.fes _ (suits D x) _ hb).1⟩
  rw [Disc.build, hb]
  rfl

/-- The solver returns the solution of the boundary value problem if there is one, and nothing but solutions. -/
def ExactAt (D : Disc nq nfq nn) (solver : Solver D) (bcs : List (List (BCEntry ℝ))) (faces : List (Nat × Nat)) : Prop :=
  ∀ x, (∀ u, solver bcs faces x = .ok u → SolvesBVP D.fes bcs (D.res faces x) u) ∧
    ((∃ u, SolvesBVP D.fes bcs (D.res faces x) u) → ∃ u, solver bcs faces x = .ok u)

theorem build_wf (D : Disc nq nfq nn) (x : D.Points) (bcs : List (List (BCEntry ℝ))) (faces : List (Nat × Nat))
    (h : D.build x = .ok (bcs, faces)) : WFBC D.fes bcs := by
  obtain ⟨bcs', -, h2, h3⟩ := build_ok D x
  rw [h2] at h
  have hbc : bcs' = bcs := congrArg Prod.fst (Except.ok.inj h)
  exact hbc ▸ h3

section

variable (D : Disc nq nfq nn) (bcs : List (List (BCEntry ℝ))) (faces : List (Nat × Nat))

theorem wf_any {x : D.Points} (h : (D.problem faces x).WF) (x' : D.Points) : (D.problem faces x').WF where
  nonempty := h.nonempty
  points := by simp [Disc.problem]
  cell_length := h.cell_length
  cell_lt := h.cell_lt
  face_lt := h.face_lt

theorem anchored_any {x : D.Points} {free : Nat → Fin 1 → Prop} (h : (D.problem faces x).Anchored free) (x' : D.Points) :
    (D.problem faces x').Anchored free := h

end

theorem main_ok (D : Disc nq nfq nn) (solver : Solver D)
    (tan : List (Nat × Nat) → D.Points → D.Vec → Matrix (Fin (totalDofs D.fes)) (Fin (totalDofs D.fes)) ℝ)
    (adjointSolve : (n : Nat) → Matrix (Fin n) (Fin n) ℝ → (Fin n → ℝ) → Except Err (Fin n → ℝ)) (x : D.Points) (eps : ℝ)
    (bcs : List (List (BCEntry ℝ))) (faces : List (Nat × Nat)) (n : Nat) (J Jm Jp q : ℝ) (g : D.Points →L[ℝ] ℝ)
    (h1 : D.build x = .ok (bcs, faces)) (h2 : pick (List.ofFn x) = .ok n)
    (h3 : D.valueAndGrad solver tan adjointSolve (bcs, faces) x = .ok (J, g))
    (h4 : D.gold solver x n 1 eps = .ok (q, Jm, Jp, faces.length, faces.length)) :
    D.main solver tan adjointSolve x 1 eps = .ok (n, g, q) := by
  rw [Disc.main, h1]
  show (pick (List.ofFn x)).bind _ = _
  rw [h2]
  show (D.valueAndGrad solver tan adjointSolve (bcs, faces) x).bind _ = _
  rw [h3]
  show (D.gold solver x n 1 eps).bind _ = _
  rw [h4]
  simp [Except.bind, pure, Except.pure]

theorem res_contDiff (D : Disc nq nfq nn) (faces : List (Nat × Nat)) (x0 : D.Points) (h : (D.problem faces x0).WF)
    (hnd : (D.problem faces x0).NonDegenerate) : ContDiff ℝ 1 (D.problem faces x0).flat := by
  rw [contDiff_iff_contDiffAt]
  intro u
  have h1 := C84_smooth (D.problem faces x0) h (smooth D faces x0) u x0 hnd
  have h2 : ContDiffAt ℝ 1 (fun u : D.Vec => (u, x0)) u := contDiffAt_id.prodMk contDiffAt_const
  exact ContDiffAt.comp (f := fun u : D.Vec => (u, x0)) u h1 h2

theorem res_differentiable (D : Disc nq nfq nn) (faces : List (Nat × Nat)) (x0 : D.Points) (h : (D.problem faces x0).WF)
    (hnd : (D.problem faces x0).NonDegenerate) (u : D.Vec) : DifferentiableAt ℝ (D.res faces x0) u :=
  ((res_contDiff D faces x0 h hnd).differentiable one_ne_zero).differentiableAt

/-! ### Property theorems -/

section

variable (D : Disc nq nfq nn) (bcs : List (List (BCEntry ℝ))) (faces : List (Nat × Nat)) (x0 : D.Points)

/-- **C120 (the discrete problem).** On every mesh with cells of positive measure whose nodes are all connected with Dirichlet
nodes and whose selected faces are not degenerate, the discrete problem of `NonlinearPoisson` has exactly one solution, and its
tangent at any state is regular. -/
theorem C120_poisson (hb : WFBC D.fes bcs) (h : (D.problem faces x0).WF) (hdet : D.el.Determines)
    (hpos : (D.problem faces x0).PositiveMeasure)
    (hnd : (D.problem faces x0).NonDegenerate)
    (hanch : (D.problem faces x0).Anchored fun n c => FreeDof (bcs.getD 0 []) n c) :
    (∃! u, SolvesBVP D.fes bcs (D.res faces x0) u) ∧
    ∀ u T, HasJacobianAt (D.res faces x0) T u → (elimRows D.fes bcs T).det ≠ 0 := by
  have hC := res_contDiff D faces x0 h hnd
  exact ⟨C120_wellposed (D.problem faces x0) h hpos hdet 1 one_pos (strong D faces x0) (mass_mono D faces x0)
    (surface_mono D faces x0) hC bcs hb hanch, fun u T hT => C120_regular (D.problem faces x0) h hpos hdet 1 one_pos
    (strong D faces x0) (mass_mono D faces x0) (surface_mono D faces x0) bcs hb hanch u T hT⟩

/-- **C120 (gradient).** Let the problem be built on points with cells of positive measure, no degenerate face and all nodes
connected with Dirichlet nodes, and let `node` lie strictly inside the strip of the bottom edge. With exact solvers and the
derivative of the residual as tangent, `value_and_grad` succeeds, and the difference quotient of the two independently built
problems, which select as many faces as the original one, converges to the entry of the gradient for the ordinate of this node
as the step tends to zero. -/
theorem C120_gradient (hbuild : D.build x0 = .ok (bcs, faces)) (h : (D.problem faces x0).WF) (hdet : D.el.Determines)
    (hpos : (D.problem faces x0).PositiveMeasure) (hnd : (D.problem faces x0).NonDegenerate)
    (hanch : (D.problem faces x0).Anchored fun n c => FreeDof (bcs.getD 0 []) n c)
    (solver : Solver D) (hsol : ExactAt D solver bcs faces)
    (tan : List (Nat × Nat) → D.Points → D.Vec → Matrix (Fin (totalDofs D.fes)) (Fin (totalDofs D.fes)) ℝ)
    (htan : ∀ u, HasJacobianAt (D.res faces x0) (tan faces x0 u) u)
    (adjointSolve : (n : Nat) → Matrix (Fin n) (Fin n) ℝ → (Fin n → ℝ) → Except Err (Fin n → ℝ))
    (hs : ExactAdjointSolver adjointSolve)
    (htot : ∀ n (A : Matrix (Fin n) (Fin n) ℝ) b, A.det ≠ 0 → ∃ x, adjointSolve n A b = .ok x)
    (node : Fin D.numNodes) (hnode : |x0 node 1| < 1 / 1000) :
    ∃ J g, D.valueAndGrad solver tan adjointSolve (bcs, faces) x0 = .ok (J, g) ∧
      ∃ q : ℝ → ℝ, (∀ᶠ e in 𝓝 0, ∃ Jm Jp, D.gold solver x0 node 1 e = .ok (q e, Jm, Jp, faces.length, faces.length)) ∧
        Tendsto q (𝓝[≠] 0) (𝓝 (g (unit D node))) := by
  have hb := build_wf D x0 bcs faces hbuild
  obtain ⟨⟨u0, hu0, hun⟩, hreg⟩ := C120_poisson D bcs faces x0 hb h hdet hpos hnd hanch
  obtain ⟨w0, hw0⟩ := (hsol x0).2 ⟨u0, hu0⟩
  have hw : w0 = u0 := hun w0 ((hsol x0).1 w0 hw0)
  subst hw
  obtain ⟨u, e1, e2, g, hg, hd⟩ := flatAt_gradient (D.problem faces x0) h (smooth D faces x0) bcs hb (tan faces) adjointSolve hs
    htot x0 w0 hnd (htan w0) (hreg w0 _ (htan w0)) hu0 objective (objective_differentiable w0)
  refine ⟨objective w0, g, ?_, ?_⟩
  · rw [Disc.valueAndGrad]
    show (solver bcs faces x0).bind _ = _
    rw [hw0]
    show (implicitVjp D.fes (fun _ => bcs) (D.res faces) (tan faces) none adjointSolve w0 x0
      (fun k => fderiv ℝ objective w0 (Pi.single k 1))).bind _ = _
    rw [show implicitVjp D.fes (fun _ => bcs) (D.res faces) (tan faces) none adjointSolve w0 x0
      (fun k => fderiv ℝ objective w0 (Pi.single k 1)) = .ok g from hg]
    rfl
  -- near the given points the solver returns the branch
  have hnear : ∀ᶠ x in 𝓝 x0, solver bcs faces x = .ok (u x) := by
    filter_upwards [e2, positive_near (D.problem faces x0) x0 hpos] with x hx hp
    have hp' : (D.problem faces x).PositiveMeasure := hp
    obtain ⟨w, hw⟩ := (hsol x).2 ⟨u x, hx⟩
    have hw2 := (hsol x).1 w hw
    have huniq := uniqueField_of_monotone (D.problem faces x) (wf_any D faces h x) hp' hdet
      (strictly_of_strong _ 1 one_pos (strong D faces x)) (mass_mono D faces x) (surface_mono D faces x) _ hanch
    rw [hw]
    congr 1
    exact solves_unique (D.problem faces x) (wf_any D faces h x) bcs hb huniq w (u x) hw2 hx
  have hline : Tendsto (fun e : ℝ => x0 + e • unit D node) (𝓝 0) (𝓝 x0) := by
    have : Continuous fun e : ℝ => x0 + e • unit D node := continuous_const.add (continuous_id.smul continuous_const)
    simpa using this.tendsto 0
  have hstrip : ∀ᶠ e : ℝ in 𝓝 0, |x0 node 1 + e| ≤ 1 / 1000 := by
    have : Continuous fun e : ℝ => |x0 node 1 + e| := (continuous_const.add continuous_id).abs
    have h1 := this.tendsto 0
    rw [add_zero] at h1
    filter_upwards [h1.eventually_lt_const hnode] with e he
    exact he.le
  -- one solve
  have hsolve : ∀ᶠ e : ℝ in 𝓝 0, ∃ x', D.shift x0 node 1 e = .ok x' ∧
      D.solve solver x' = .ok (u (x0 + e • unit D node), faces.length) := by
    filter_upwards [hline.eventually hnear, hstrip] with e he hst
    obtain ⟨x', h1, h2, h3⟩ := shift_moved D x0 node node.2 e
    refine ⟨x', h1, ?_⟩
    have h4 : D.build x' = .ok (bcs, faces) := (C120_selection D x0 x' node _ h2 hnode.le hst).trans hbuild
    have h5 : solver bcs faces x' = .ok (u (x0 + e • unit D node)) := by rw [h3]; exact he
    rw [Disc.solve, h4]
    show (solver bcs faces x').bind _ = _
    rw [h5]
    rfl
  have hneg : Tendsto (fun e : ℝ => -e) (𝓝 0) (𝓝 0) := by
    simpa using (continuous_neg (G := ℝ)).tendsto 0
  set J : ℝ → ℝ := fun e => objective (u (x0 + e • unit D node)) with hJ
  refine ⟨fun e => (J e - J (-e)) / (2 * e), ?_, ?_⟩
  · filter_upwards [hsolve, hneg.eventually hsolve] with e hp hm
    obtain ⟨xp, p1, p2⟩ := hp
    obtain ⟨xm, m1, m2⟩ := hm
    refine ⟨J (-e), J e, ?_⟩
    rw [Disc.gold, m1]
    show (D.shift x0 node 1 e).bind _ = _
    rw [p1]
    show (D.solve solver xm).bind _ = _
    rw [m2]
    show (D.solve solver xp).bind _ = _
    rw [p2]
    rfl
  · refine central_tendsto J _ ?_
    have h1 : HasFDerivAt (fun x => objective (u x)) g (x0 + (0 : ℝ) • unit D node) := by
      rw [zero_smul, add_zero]; exact hd
    have h2 : HasDerivAt (fun e : ℝ => x0 + e • unit D node) (unit D node) 0 := by
      have := ((hasDerivAt_id (0 : ℝ)).smul_const (unit D node)).const_add x0
      simpa using this
    exact h1.comp_hasDerivAt 0 h2

/-- **C120 (check of the face counts).** With the step of the script the check never raises when the picked node lies within
`1e-3 - 5e-6` of the bottom: if the solves succeed, the quotient, the two objectives (minus, plus) and the unchanged face counts are returned, and `main`
returns the picked node, the gradient and the quotient. -/
theorem C120_guard (hbuild : D.build x0 = .ok (bcs, faces)) (solver : Solver D)
    (tan : List (Nat × Nat) → D.Points → D.Vec → Matrix (Fin (totalDofs D.fes)) (Fin (totalDofs D.fes)) ℝ)
    (adjointSolve : (n : Nat) → Matrix (Fin n) (Fin n) ℝ → (Fin n → ℝ) → Except Err (Fin n → ℝ)) (eps : ℝ)
    (node : Fin D.numNodes) (hpick : pick (List.ofFn x0) = .ok node.1) (hnode : |x0 node 1| + |eps| ≤ 1 / 1000)
    (J : ℝ) (g : D.Points →L[ℝ] ℝ) (hvg : D.valueAndGrad solver tan adjointSolve (bcs, faces) x0 = .ok (J, g))
    (up um : D.Vec) (hp : solver bcs faces (x0 + eps • unit D node) = .ok up)
    (hm : solver bcs faces (x0 + (-eps) • unit D node) = .ok um) :
    D.gold solver x0 node 1 eps = .ok ((∑ k, up k ^ 2 - ∑ k, um k ^ 2) / (2 * eps), ∑ k, um k ^ 2, ∑ k, up k ^ 2,
      faces.length, faces.length) ∧
    D.main solver tan adjointSolve x0 1 eps = .ok (node.1, g, (∑ k, up k ^ 2 - ∑ k, um k ^ 2) / (2 * eps)) := by
  have h0 : |x0 node 1| ≤ 1 / 1000 := by linarith [abs_nonneg eps]
  have hsolve : ∀ e w, |e| = |eps| → solver bcs faces (x0 + e • unit D node) = .ok w → ∃ x', D.shift x0 node 1 e = .ok x' ∧
      D.solve solver x' = .ok (w, faces.length) := by
    intro e w he hw
    obtain ⟨x', h1, h2, h3⟩ := shift_moved D x0 node node.2 e
    refine ⟨x', h1, ?_⟩
    have h4 : D.build x' = .ok (bcs, faces) := (C120_selection D x0 x' node _ h2 h0 (by
      refine (abs_add_le _ _).trans ?_
      rw [he]
      exact hnode)).trans hbuild
    rw [Disc.solve, h4]
    show (solver bcs faces x').bind _ = _
    rw [h3, hw]
    rfl
  obtain ⟨xp, p1, p2⟩ := hsolve eps up rfl hp
  obtain ⟨xm, m1, m2⟩ := hsolve (-eps) um (abs_neg eps) hm
  have hgold : D.gold solver x0 node 1 eps = .ok ((∑ k, up k ^ 2 - ∑ k, um k ^ 2) / (2 * eps), ∑ k, um k ^ 2, ∑ k, up k ^ 2,
      faces.length, faces.length) := by
    rw [Disc.gold, m1]
    show (D.shift x0 node 1 eps).bind _ = _
    rw [p1]
    show (D.solve solver xm).bind _ = _
    rw [m2]
    show (D.solve solver xp).bind _ = _
    rw [p2]
    rfl
  exact ⟨hgold, main_ok D solver tan adjointSolve x0 eps bcs faces node J _ _ _ g hbuild hpick hvg hgold⟩

end

end MeshCheck

end JaxFem
