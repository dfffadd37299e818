import Verif.Thm.C103_Material

/-!
# C103: a concrete case

A tetrahedron with one free degree of freedom under a compression that makes it yield.
-/

namespace JaxFem.CoDesign

open scoped Topology BigOperators

/-- Points of the tetrahedron. -/
noncomputable def tetPts : List (Fin 3 → ℝ) := [![0, 0, 0], ![1, 0, 0], ![0, 1, 0], ![0, 0, 1]]

/-- Gradients of the shape functions. -/
noncomputable def tetG : Fin 4 → Fin 3 → ℝ := ![![-1, -1, -1], ![1, 0, 0], ![0, 1, 0], ![0, 0, 1]]

/-- Reference element with one quadrature point. -/
noncomputable def tetEl : RefElement ℝ 1 4 3 := ⟨fun _ _ => 1/4, fun _ => tetG, fun _ => 1/6⟩

/-- Face `x = 0` with one quadrature point. -/
noncomputable def tetFc : RefFaces ℝ 1 4 3 := ⟨fun _ _ => ![1/3, 0, 1/3, 1/3], fun _ _ => tetG, fun _ _ => 1/2, fun _ => ![-1, 0, 0]⟩

/-- The tetrahedron as a structure. -/
noncomputable abbrev tet : Problem1 (Body × ℝ) 1 1 4 3 3 := problem 4 tetPts [[0, 1, 2, 3]] tetEl tetFc [(0, 0)]

/-- Only the second component of the third node is free. -/
noncomputable def tetBcs : List (List (BCEntry ℝ)) :=
  [[⟨[0, 0, 0, 1, 1, 1, 2, 2, 3, 3, 3], [0, 1, 2, 0, 1, 2, 0, 2, 0, 1, 2], List.replicate 11 0⟩]]

theorem tet_wf : tet.WF where
  nonempty := by simp [tet, problem]
  points := rfl
  cell_length := by simp [tet, problem]
  cell_lt := by simp [tet, problem]
  face_lt := by simp [tet, problem]

theorem tet_wfbc : WFBC tet.fes tetBcs where
  len := rfl
  comps := by simp [tetBcs]
  vals := by simp [tetBcs]
  nodup := by simp [tetBcs]
  valid := by
    intro i fe es h1 h2 e he
    rcases i with _ | i
    · simp only [tetBcs, List.getElem?_cons_zero, Option.some.injEq] at h2
      simp only [Problem1.fes, List.getElem?_cons_zero, Option.some.injEq] at h1
      subst h2 h1
      simp only [List.mem_singleton] at he
      subst he
      simp [tet, problem]
    · simp [tetBcs] at h2

theorem tet_jacobian (cell : List Nat) (hc : cell = [0, 1, 2, 3]) : jacobianDxDeta (physicalCoos 4 tetPts cell) tetG = 1 := by
  subst hc
  ext i j
  fin_cases i <;> fin_cases j <;>
    simp [jacobianDxDeta, physicalCoos, tetPts, tetG, Fin.sum_univ_four]

theorem tet_nodes (c : Fin tet.cells.length) : (tet.cells[c]).nodes = [0, 1, 2, 3] := by
  have hc : c = ⟨0, by simp [tet, problem]⟩ := by
    apply Fin.ext
    have : tet.cells.length = 1 := by simp [tet, problem]
    have := c.2
    show c.1 = 0
    omega
  subst hc
  rfl

theorem tet_grad (v : Nat → Fin 3 → ℝ) (c : Fin tet.cells.length) (q : Fin 1) (i j : Fin 3) :
    tet.gradAt v c q i j = v 0 i * tetG 0 j + v 1 i * tetG 1 j + v 2 i * tetG 2 j + v 3 i * tetG 3 j := by
  have h : tet.gradAt v c q i j = ∑ a : Fin 4, v ((tet.cells[c]).nodes.getD a 0) i *
      shapeGradsPhysical (physicalCoos 4 tetPts (tet.cells[c]).nodes) tetG a j := gradient_eq tet v _ q i j
  have hs : ∀ a j, shapeGradsPhysical (physicalCoos 4 tetPts (tet.cells[c]).nodes) tetG a j = tetG a j := by
    intro a j
    rw [shapeGradsPhysical, tet_jacobian _ (tet_nodes c), inv_one]
    simp [Matrix.one_apply]
  rw [h]
  simp only [hs]
  rw [tet_nodes c, Fin.sum_univ_four]
  rfl

theorem tet_measure (c : Fin tet.cells.length) (q : Fin 1) : tet.measureAt c q = 1 / 6 := by
  have h : tet.measureAt c q = (jacobianDxDeta (physicalCoos 4 tetPts (tet.cells[c]).nodes) tetG).det * (1 / 6) := rfl
  rw [h, tet_jacobian _ (tet_nodes c), Matrix.det_one, one_mul]

theorem tet_deflection (v : Nat → Fin 3 → ℝ) : deflection tet [(0, 0)] v = (v 0 1 + v 2 1 + v 3 1) / 6 := by
  have h : nansonScale (physicalCoos 4 tetPts [0, 1, 2, 3]) tetG ![-1, 0, 0] (1 / 2) = 1 / 2 := by
    rw [nansonScale, tet_jacobian _ rfl, inv_one, Matrix.det_one]
    simp [Matrix.one_apply, Fin.sum_univ_three]
  have e : deflection tet [(0, 0)] v = (∑ a, (![1/3, 0, 1/3, 1/3] : Fin 4 → ℝ) a * v ([0, 1, 2, 3].getD a 0) 1)
      * nansonScale (physicalCoos 4 tetPts [0, 1, 2, 3]) tetG ![-1, 0, 0] (1 / 2) := by
    simp only [deflection, List.map_cons, List.map_nil, List.sum_cons, List.sum_nil, add_zero, Fin.sum_univ_one]
    rfl
  rw [e, h]
  simp [Fin.sum_univ_four]
  ring

/-- The free degree of freedom. -/
def tetDof : Fin (totalDofs tet.fes) := (7 : Fin 12)

/-- Displacement `s` of the free degree of freedom. -/
noncomputable def tetU (s : ℝ) : Fin (totalDofs tet.fes) → ℝ := Pi.single tetDof s

theorem tetU_field (s : ℝ) (n : Nat) (c : Fin 3) : tet.vecField (tetU s) n c = if n = 2 ∧ c = 1 then s else 0 := by
  have h7 : tetDof.1 = 7 := rfl
  have hc : (c = 1) ↔ c.1 = 1 := Fin.ext_iff
  have hT : totalDofs tet.fes = 12 := rfl
  have := c.2
  rw [Problem1.vecField]
  split_ifs with h1 h2 h2
  · have e : (⟨n * 3 + c, h1⟩ : Fin (totalDofs tet.fes)) = tetDof := Fin.ext (by rw [h7]; simp; omega)
    rw [e, tetU, Pi.single_eq_same]
  · rw [tetU, Pi.single_eq_of_ne]
    intro e
    have e' := congrArg Fin.val e
    rw [h7] at e'
    simp only at e'
    omega
  · omega
  · rfl

theorem tetU_grad (s : ℝ) (c : Fin tet.cells.length) (q : Fin 1) :
    tet.gradAt (tet.vecField (tetU s)) c q = fun i j => if i = 1 ∧ j = 1 then s else 0 := by
  funext i j
  rw [tet_grad]
  simp only [tetU_field]
  fin_cases i <;> fin_cases j <;> simp [tetG]

/-! ### The stress -/

/-- The body parameters of the example: full density, no additional yield stress. -/
def tetTheta : Fin tet.cells.length → Fin 2 → ℝ := fun _ => ![1, 0]

theorem tet_trial (s : ℝ) : Plasticity.sigmaTrial (young 1) 0.3 (fun i j => if i = (1 : Fin 3) ∧ j = (1 : Fin 3) then s else 0) 0 0
    = fun i j => if i = j then (if i = 1 then 525000 / 13 * s + 700000 / 13 * s else 525000 / 13 * s) else 0 := by
  funext i j
  simp only [Plasticity.sigmaTrial, Plasticity.stress, Plasticity.strain, Plasticity.lmbdaOf, Plasticity.muOf, young,
    Matrix.trace, Matrix.diag, Fin.sum_univ_three, Matrix.one_apply]
  fin_cases i <;> fin_cases j <;> norm_num [show ¬((2 : Fin 3) = 1) by decide] <;> ring

theorem tet_dev (s : ℝ) : Plasticity.sDev (d := 3) (fun i j => if i = j then (if i = 1 then 525000 / 13 * s + 700000 / 13 * s else 525000 / 13 * s) else 0)
    = fun i j => if i = j then (if i = 1 then 1400000 / 39 * s else -(700000 / 39 * s)) else 0 := by
  funext i j
  simp only [Plasticity.sDev, Matrix.trace, Matrix.diag, Fin.sum_univ_three, Matrix.one_apply]
  fin_cases i <;> fin_cases j <;> norm_num [show ¬((2 : Fin 3) = 1) by decide] <;> ring

theorem tet_norm (s : ℝ) : Plasticity.sNorm (d := 3) (fun i j => if i = j then (if i = 1 then 1400000 / 39 * s else -(700000 / 39 * s)) else 0)
    = 700000 / 13 * |s| := by
  have e : 3 / 2 * ∑ i : Fin 3, ∑ j : Fin 3, (if i = j then (if i = 1 then 1400000 / 39 * s else -(700000 / 39 * s)) else 0)
      * (if i = j then (if i = 1 then 1400000 / 39 * s else -(700000 / 39 * s)) else 0) = (700000 / 13 * s) ^ 2 := by
    simp [Fin.sum_univ_three]
    ring
  refine (safeSqrt_eq _).trans ?_
  rw [e, Real.sqrt_sq_eq_abs, abs_mul]
  norm_num

theorem tet_stress (s : ℝ) (hs : s < 0) (hy : 250 < 700000 / 13 * |s|) :
    (returnMapHelper (fun i j => if i = (1 : Fin 3) ∧ j = (1 : Fin 3) then s else 0) (0, 0, 0, 1, 0)).1 1 1
      = 175000 / 3 * s - 500 / 3 := by
  have h : (returnMapHelper (fun i j => if i = (1 : Fin 3) ∧ j = (1 : Fin 3) then s else 0) (0, 0, 0, 1, 0)).1 1 1
      = Plasticity.radialReturn (yieldStress 0) (Plasticity.sigmaTrial (young 1) 0.3
        (fun i j => if i = (1 : Fin 3) ∧ j = (1 : Fin 3) then s else 0) 0 0) 1 1 := rfl
  have hy0 : yieldStress 0 = 250 := by rw [yieldStress]; ring
  rw [h, tet_trial, hy0]
  unfold Plasticity.radialReturn
  simp only [tet_dev, tet_norm, Plasticity.safeDivide]
  have h1 : 0 < 700000 / 13 * |s| - 250 := by linarith
  have h2 : ¬ 700000 / 13 * |s| = 0 := by linarith
  simp only [h1, h2, if_true, if_false]
  rw [abs_of_neg hs] at *
  have hs0 : s ≠ 0 := hs.ne
  field_simp
  ring

theorem tet_res (t s : ℝ) (hs : s < 0) (hy : 250 < 700000 / 13 * |s|) :
    (setParams tet (initParams tetTheta) t).flat (tetU s) tetDof = (175000 / 3 * s - 500 / 3 + t) / 6 := by
  have h := set_flat 4 tetPts [[0, 1, 2, 3]] tetEl tetFc [(0, 0)] tet_wf (initParams tetTheta) t (tetU s) tetDof
  have hg : ∀ c q, tet.gradAt (tet.vecField (Pi.single tetDof 1)) c q = fun i j => if i = 1 ∧ j = 1 then 1 else 0 :=
    fun c q => tetU_grad 1 c q
  have hb : ∀ c q, initParams (nq := 1) tetTheta c q = (0, 0, 0, 1, 0) := fun c q => rfl
  have hf : ∀ n c, tet.vecField (Pi.single tetDof 1) n c = if n = 2 ∧ c = 1 then 1 else 0 := fun n c => tetU_field 1 n c
  refine h.trans ?_
  have hcon : ∀ A : Fin 3 → Fin 3 → ℝ, contract A (fun i j => if i = 1 ∧ j = 1 then (1 : ℝ) else 0) = A 1 1 := by
    intro A
    simp [contract, Fin.sum_univ_three]
  have hsum : ∀ f : Fin tet.cells.length → ℝ, ∑ c, f c = f ⟨0, by simp [tet, problem]⟩ := by
    intro f
    exact Fin.sum_univ_one (fun c : Fin 1 => f c)
  rw [tet_deflection, hsum, Fin.sum_univ_one]
  simp only [hg, hb, tetU_grad, hcon, tet_measure, hf]
  rw [tet_stress s hs hy]
  simp
  ring

/-- A matrix of partial derivatives where there is a derivative. -/
noncomputable def jacOf {N : Nat} (f : (Fin N → ℝ) → Fin N → ℝ) (u : Fin N → ℝ) : Matrix (Fin N) (Fin N) ℝ :=
  LinearMap.toMatrix' (fderiv ℝ f u).toLinearMap

theorem jacOf_spec {N : Nat} (f : (Fin N → ℝ) → Fin N → ℝ) (u : Fin N → ℝ) (h : DifferentiableAt ℝ f u) :
    HasJacobianAt f (jacOf f u) u := by
  have e : matCLM (jacOf f u) = fderiv ℝ f u := by
    ext x k
    simp [matCLM, jacOf, LinearMap.toMatrix'_mulVec]
  rw [HasJacobianAt, e]
  exact h.hasFDerivAt

/-- Setup with exact derivatives and exact linear solvers. -/
noncomputable def setupOf {nq nfq nn : Nat} (P : Problem1 (Body × ℝ) nq nfq nn 3 3) (bcs : List (List (BCEntry ℝ))) :
    Inverse.Setup ((Fin P.cells.length → Fin nq → Body) × ℝ) P.fes (totalDofs P.fes) where
  bcs := fun _ => bcs
  res := fun p u => (setParams P p.1 p.2).flat u
  tan := fun p => jacOf fun u => (setParams P p.1 p.2).flat u
  norm := fun r => ‖r‖
  solve := fun A b _ => adjExSolve _ A b
  lineSearch := false
  tol := 0
  relTol := 0
  guess := 0
  adjointSolve := adjExSolve

theorem setupOf_of {nq nfq nn : Nat} (P : Problem1 (Body × ℝ) nq nfq nn 3 3) (bcs : List (List (BCEntry ℝ))) :
    OfProblem P bcs (setupOf P bcs) where
  bcs := fun _ => rfl
  res := fun _ => rfl
  tangent := fun _ u h => jacOf_spec _ u h

/-- Setup of the example. -/
noncomputable abbrev tetS := setupOf tet tetBcs

theorem tetS_of : OfProblem tet tetBcs tetS := setupOf_of tet tetBcs

theorem tet_prescribed (k : Nat) : (Prescribed tet.fes tetBcs k none → k = 7) ∧
    ∀ v, Prescribed tet.fes tetBcs k (some v) → k ≠ 7 ∧ v = 0 := by
  have hfe : ∀ i fe, tet.fes[i]? = some fe → i = 0 ∧ fe.numTotalNodes = 4 ∧ fe.vec = 3 := by
    intro i fe h
    rcases i with _ | i
    · simp only [Problem1.fes, List.getElem?_cons_zero, Option.some.injEq] at h
      subst h
      exact ⟨rfl, rfl, rfl⟩
    · simp [Problem1.fes] at h
  have hdof : ∀ n c, dofNum tet.fes 0 n c = n * 3 + c := by
    intro n c
    simp [dofNum, Problem1.fes, tet, problem]
  constructor
  · rintro ⟨i, n, c, fe, es, h1, h2, h3, h4, h5, h6⟩
    obtain ⟨rfl, e1, e2⟩ := hfe i fe h1
    rw [e1] at h3
    rw [e2] at h4
    rw [hdof] at h5
    obtain rfl : _ = es := Option.some.inj h2
    by_contra hne
    have hnc : ¬ (n = 2 ∧ c = 1) := by omega
    have key : ∃ j, j < 11 ∧ [0, 0, 0, 1, 1, 1, 2, 2, 3, 3, 3][j]? = some n ∧ [0, 1, 2, 0, 1, 2, 0, 2, 0, 1, 2][j]? = some c := by
      interval_cases n <;> interval_cases c
      · exact ⟨0, by decide⟩
      · exact ⟨1, by decide⟩
      · exact ⟨2, by decide⟩
      · exact ⟨3, by decide⟩
      · exact ⟨4, by decide⟩
      · exact ⟨5, by decide⟩
      · exact ⟨6, by decide⟩
      · exact absurd ⟨rfl, rfl⟩ hnc
      · exact ⟨7, by decide⟩
      · exact ⟨8, by decide⟩
      · exact ⟨9, by decide⟩
      · exact ⟨10, by decide⟩
    obtain ⟨j, hj, hj1, hj2⟩ := key
    exact h6 _ (List.mem_singleton.2 rfl) 0 ⟨j, hj1, hj2, by rw [List.getElem?_replicate, if_pos hj]⟩
  · rintro v (_ | ⟨i, n, c, fe, es, _, h1, h2, h3, h4, h5, before, e, after, hes, ⟨j, hj1, hj2, hj3⟩, -⟩)
    obtain ⟨rfl, e1, e2⟩ := hfe i fe h1
    obtain rfl : _ = es := Option.some.inj h2
    rw [hdof] at h5
    have he : e = ⟨[0, 0, 0, 1, 1, 1, 2, 2, 3, 3, 3], [0, 1, 2, 0, 1, 2, 0, 2, 0, 1, 2], List.replicate 11 0⟩ := by
      have : e ∈ before ++ e :: after := by simp
      rw [← hes] at this
      exact List.mem_singleton.1 this
    subst he
    simp only at hj1 hj2 hj3
    rw [List.getElem?_replicate] at hj3
    split_ifs at hj3 with hj
    obtain rfl : (0 : ℝ) = v := Option.some.inj hj3
    refine ⟨?_, rfl⟩
    rw [h5]
    interval_cases j <;> simp at hj1 hj2 <;> omega

theorem tet_or (k : Fin (totalDofs tet.fes)) :
    Prescribed tet.fes tetBcs k none ∨ ∃ v, Prescribed tet.fes tetBcs k (some v) := by
  obtain ⟨o, ho⟩ := prescribed_exists tet.fes tetBcs tet_wfbc k k.2
  cases o with
  | none => exact Or.inl ho
  | some v => exact Or.inr ⟨v, ho⟩

theorem tet_free : Prescribed tet.fes tetBcs 7 none := by
  rcases tet_or tetDof with h | ⟨v, h⟩
  · exact h
  · exact absurd rfl ((tet_prescribed 7).2 v h).1

theorem tet_det (A : Matrix (Fin (totalDofs tet.fes)) (Fin (totalDofs tet.fes)) ℝ) (hA : A tetDof tetDof ≠ 0) :
    (elimRows tet.fes tetBcs A).det ≠ 0 := by
  intro h0
  obtain ⟨x, hx, hz⟩ := Matrix.exists_mulVec_eq_zero_iff.2 h0
  have hrow : ∀ r, r ≠ tetDof → x r = 0 := by
    intro r hr
    rcases tet_or r with h | ⟨v, h⟩
    · exact absurd (Fin.ext ((tet_prescribed r).1 h)) hr
    · have := congrFun hz r
      rw [Matrix.mulVec, dotProduct] at this
      simp only [(elimRows_spec tet.fes tetBcs tet_wfbc A r _).2 v h] at this
      simpa using this
  apply hx
  funext r
  by_cases hr : r = tetDof
  · subst hr
    have := congrFun hz tetDof
    rw [Matrix.mulVec, dotProduct, Finset.sum_eq_single tetDof] at this
    · rw [(elimRows_spec tet.fes tetBcs tet_wfbc A tetDof tetDof).1 tet_free] at this
      exact (mul_eq_zero.1 this).resolve_left hA
    · intro c _ hc
      rw [hrow c hc, mul_zero]
    · simp
  · exact hrow r hr

/-- Equilibrium under the load 600: the tetrahedron yields. -/
theorem tet_solves : SolvesBVP tet.fes (tetS.bcs (initParams tetTheta, 600)) (tetS.res (initParams tetTheta, 600)) (tetU (-13 / 1750)) := by
  refine ⟨fun k v hp => ?_, fun k hp => ?_⟩
  · obtain ⟨h1, rfl⟩ := (tet_prescribed k).2 v hp
    rw [tetU, Pi.single_eq_of_ne]
    intro h
    exact h1 (congrArg Fin.val h)
  · obtain rfl : k = tetDof := Fin.ext ((tet_prescribed k).1 hp)
    refine (tet_res 600 (-13 / 1750) (by norm_num) (by norm_num [abs_div])).trans ?_
    norm_num

theorem tet_predictor (s : ℝ) : Plasticity.sNorm (Plasticity.sDev (predictor (Matrix.of fun i j =>
    if i = (1 : Fin 3) ∧ j = (1 : Fin 3) then s else 0) (0, 0, 0, 1, 0))) = 700000 / 13 * |s| := by
  rw [← predictor_eq]
  refine Eq.trans ?_ (tet_norm s)
  rw [← tet_dev, ← tet_trial]
  rfl

theorem tet_regularPoint (s : ℝ) (h0 : s ≠ 0) (hy : 700000 / 13 * |s| ≠ 250) :
    RegularPoint (Matrix.of fun i j => if i = (1 : Fin 3) ∧ j = (1 : Fin 3) then s else 0) (0, 0, 0, 1, 0) := by
  intro dev hd
  have e : dev = Plasticity.sDev (predictor (Matrix.of fun i j =>
      if i = (1 : Fin 3) ∧ j = (1 : Fin 3) then s else 0) (0, 0, 0, 1, 0)) := Plasticity.isDev_unique _ _ hd
  have h2 := Plasticity.sNorm_sq dev
  rw [e, tet_predictor] at h2
  rw [e]
  have hs : 0 < |s| := abs_pos.2 h0
  constructor
  · intro hz
    rw [hz] at h2
    have : 0 < 700000 / 13 * |s| := by positivity
    nlinarith
  · rw [← h2]
    intro hz
    apply hy
    have h3 : (0 : ℝ) ≤ 700000 / 13 * |s| := by positivity
    have h4 : (700000 / 13 * |s|) ^ 2 = 250 ^ 2 := by rw [hz]; norm_num
    exact (pow_left_inj₀ h3 (by norm_num) two_ne_zero).1 h4

theorem tet_tangent : tetS.tan (initParams tetTheta, 600) (tetU (-13 / 1750)) tetDof tetDof = 175000 / 18 := by
  have hsm := res_smooth 4 tetPts [[0, 1, 2, 3]] tetEl tetFc [(0, 0)] tet_wf tetBcs tetS tetS_of (initParams tetTheta) 600
    (tetU (-13 / 1750)) (fun c q => by show 0 ≤ yieldStress 0; rw [yieldStress]; norm_num) (fun c q => by
      rw [tetU_grad]
      exact tet_regularPoint _ (by norm_num) (by norm_num [abs_div]))
  have hdiff : DifferentiableAt ℝ (tetS.res (initParams tetTheta, 600)) (tetU (-13 / 1750)) := by
    have : ContDiffAt ℝ 1 (fun u => tetS.res (initParams tetTheta, 600) u) (tetU (-13 / 1750)) :=
      ContDiffAt.comp (g := fun up : (Fin (totalDofs tet.fes) → ℝ) × ((Fin tet.cells.length → Fin 1 → Body) × ℝ) =>
        tetS.res up.2 up.1) (f := fun u => (u, ((initParams tetTheta, 600) : (Fin tet.cells.length → Fin 1 → Body) × ℝ)))
        _ hsm (contDiffAt_id.prodMk contDiffAt_const)
    exact this.differentiableAt one_ne_zero
  have hU : HasDerivAt tetU (Pi.single tetDof 1) (-13 / 1750) := by
    have : tetU = fun s => s • (Pi.single tetDof 1 : Fin (totalDofs tet.fes) → ℝ) := by
      funext s
      rw [tetU, ← Pi.single_smul, smul_eq_mul, mul_one]
    rw [this]
    simpa using (hasDerivAt_id (-13 / 1750 : ℝ)).smul_const (Pi.single tetDof 1 : Fin (totalDofs tet.fes) → ℝ)
  have h1 := hdiff.hasFDerivAt.comp_hasDerivAt (-13 / 1750) hU
  have h2 := (hasDerivAt_pi.1 h1) tetDof
  have h3 : HasDerivAt (fun s => tetS.res (initParams tetTheta, 600) (tetU s) tetDof) (175000 / 18) (-13 / 1750) := by
    have h4 : HasDerivAt (fun s : ℝ => (175000 / 3 * s - 500 / 3 + 600) / 6) (175000 / 18) (-13 / 1750) := by
      have := ((((hasDerivAt_id (-13 / 1750 : ℝ)).const_mul (175000 / 3)).sub_const (500 / 3)).add_const 600).div_const 6
      have e : (175000 / 3 * 1 / 6 : ℝ) = 175000 / 18 := by norm_num
      rw [e] at this
      exact this
    refine h4.congr_of_eventuallyEq ?_
    have hc : Continuous fun s : ℝ => 700000 / 13 * |s| := by fun_prop
    filter_upwards [gt_mem_nhds (show (-13 / 1750 : ℝ) < 0 by norm_num),
      hc.continuousAt.eventually (lt_mem_nhds (show (250 : ℝ) < 700000 / 13 * |(-13 / 1750 : ℝ)| by norm_num [abs_div]))]
      with s h1 h2
    exact tet_res 600 s h1 h2
  have h5 := h2.unique h3
  rw [← h5]
  exact LinearMap.toMatrix'_apply _ _ _

theorem tet_run : fwdPredSeq tetS (fun b t => (b, t)) (fun u b => updateStressStrain tet (tet.solArray u) b) 1 [600]
    (tetU (-13 / 1750)) (initParams tetTheta) = some (.ok [tetU (-13 / 1750)]) := by
  have hz := (constraint_zero_iff tet.fes tetS.bcs tetS.res (initParams tetTheta, 600) tet_wfbc _).2 tet_solves
  have hz' : applyBcV tet.fes tetBcs 1 (tetS.res (initParams tetTheta, 600) (tetU (-13 / 1750))) (tetU (-13 / 1750)) = 0 := hz
  have h : ({ tetS with guess := tetU (-13 / 1750) } : Inverse.Setup _ tet.fes _).fwdPred 1 (initParams tetTheta, 600)
      = some (.ok (tetU (-13 / 1750))) := by
    unfold Inverse.Setup.fwdPred newtonSolve newtonUpdate
    dsimp only [tetS, setupOf] at hz' ⊢
    rw [hz']
    simp [newtonLoop, Flt.gt, Flt.div, Flt.isFinite]
    rfl
  rw [fwdPredSeq, h]
  rfl

/-- The tetrahedron meets the hypotheses of `C103_structure`; the load makes it yield. -/
example : ∃ g, grad tetS (fun b t => (b, t)) (fun u b => updateStressStrain tet (tet.solArray u) b) initParams
      (fun u => -(600 * deflection tet [(0, 0)] (tet.vecField u))) 1 [600] (tetU (-13 / 1750)) tetTheta = some (.ok g) := by
  obtain ⟨g, hg, -⟩ := C103_structure 4 tetPts [[0, 1, 2, 3]] tetEl tetFc [(0, 0)] tet_wf tetBcs tet_wfbc tetS tetS_of
    adjExSolve_exact adjExSolve_total tetTheta (fun c => by simp [tetTheta]) 600 _
    (fun u => (C103_compliance 4 tetPts [[0, 1, 2, 3]] tetEl tetFc [(0, 0)] 600 u (initParams tetTheta)).1) 1 [600]
    (tetU (-13 / 1750)) _ tet_run (.step _ _ _ _ _ tet_solves (.done _)) (.step _ _ _ _ _ ⟨fun c q => by
      rw [tetU_grad]
      exact tet_regularPoint _ (by norm_num) (by norm_num [abs_div]), tet_det _ (by rw [tet_tangent]; norm_num)⟩ (.done _))
  exact ⟨g, hg⟩

/-- **C103 (the yield function that is shown lags).** The tetrahedron yields in the last (only) step, yet `inspect` shows
zero. -/
theorem C103_inspect_lag : ∃ u : Fin (totalDofs tet.fes) → ℝ,
    Trajectory tetS (fun b t => (b, t)) (fun u b => updateStressStrain tet (tet.solArray u) b) (initParams tetTheta) [600] [u] ∧
    (∀ c q, 0 < (bodyAfter (fun u b => updateStressStrain tet (tet.solArray u) b) [u] (initParams tetTheta) c q).2.2.1) ∧
    ∀ c, inspect (internalVarsAfter (fun u b => updateStressStrain tet (tet.solArray u) b) [u] (initParams tetTheta)) c = 0 := by
  refine ⟨tetU (-13 / 1750), .step _ _ _ _ _ tet_solves (.done _), fun c q => ?_, fun c =>
    (C103_inspect 4 tetPts [[0, 1, 2, 3]] tetEl tetFc [(0, 0)] tetTheta [] (tetU 0) _ c).1⟩
  have e : bodyAfter (fun u b => updateStressStrain tet (tet.solArray u) b) [tetU (-13 / 1750)] (initParams tetTheta) c q
      = updatePoint (tet.gradAt (tet.vecField (tetU (-13 / 1750))) c q) (0, 0, 0, 1, 0) :=
    congrFun (congrFun (update_eq 4 tetPts [[0, 1, 2, 3]] tetEl tetFc [(0, 0)] (tetU (-13 / 1750)) (initParams tetTheta)) c) q
  rw [e, fYield_eq, tetU_grad, tet_predictor]
  norm_num [abs_div]

end JaxFem.CoDesign
