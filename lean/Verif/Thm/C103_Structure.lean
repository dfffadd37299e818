import Verif.Thm.C103_CoDesign

/-!
# C103: the residual, the update and the objective of the co-design problem
-/

namespace JaxFem.CoDesign

open scoped Topology BigOperators
open Plasticity (hooke IsDev Admissible)

variable {nq nfq nn : Nat}

/-- Data of a setup: fixed boundary conditions, residual of the problem with the body parameters and the load as internal
variables, a tangent that is the derivative where there is one (C05). -/
structure OfProblem (P : Problem1 (Body × ℝ) nq nfq nn 3 3) (bcs : List (List (BCEntry ℝ)))
    (S : Inverse.Setup ((Fin P.cells.length → Fin nq → Body) × ℝ) P.fes (totalDofs P.fes)) : Prop where
  bcs : ∀ p, S.bcs p = bcs
  res : ∀ p, S.res p = fun u => (setParams P p.1 p.2).flat u
  tangent : ∀ p u, DifferentiableAt ℝ (S.res p) u → HasJacobianAt (S.res p) (S.tan p u) u

section

variable (numTotalNodes : Nat) (points : List (Fin 3 → ℝ)) (cells : List (List Nat)) (el : RefElement ℝ nq nn 3)
  (fc : RefFaces ℝ nfq nn 3) (faces : List (Nat × Nat))

local notation "𝒫" => problem numTotalNodes points cells el fc faces

/-! ### Helper lemmas -/

theorem set_conn (body : Fin (𝒫).cells.length → Fin nq → Body) (load : ℝ) : (setParams 𝒫 body load).conn = (𝒫).conn :=
  atIv_conn 𝒫 _

theorem set_wf (h : (𝒫).WF) (body : Fin (𝒫).cells.length → Fin nq → Body) (load : ℝ) : (setParams 𝒫 body load).WF := by
  have h1 := atIv_WF 𝒫 h fun c q => (if h : c < (𝒫).cells.length then body ⟨c, h⟩ q else 0, 0)
  refine ⟨h1.nonempty, h1.points, h1.cell_length, h1.cell_lt, ?_⟩
  intro s hs f hf
  have hl : (setParams 𝒫 body load).cells.length = (𝒫).cells.length := by simp [setParams, Problem1.atIv]
  rw [hl]
  obtain ⟨s', hs', rfl⟩ := List.mem_map.1 hs
  obtain ⟨f', hf', rfl⟩ := List.mem_map.1 hf
  exact h.face_lt s' hs' f' hf'

theorem set_tensorWork (body : Fin (𝒫).cells.length → Fin nq → Body) (load : ℝ) (u v : Nat → Fin 3 → ℝ) :
    (setParams 𝒫 body load).tensorWork u v = ∑ c : Fin (𝒫).cells.length, ∑ q,
      contract (returnMapHelper ((𝒫).gradAt u c q) (body c q)).1 ((𝒫).gradAt v c q) * (𝒫).measureAt c q := by
  have h := atIv_tensorWork 𝒫 (fun c q => (if h : c < (𝒫).cells.length then body ⟨c, h⟩ q else 0, 0)) u v
  have h' : (setParams 𝒫 body load).tensorWork u v = _ := h
  rw [h']
  refine Finset.sum_congr rfl fun c _ => Finset.sum_congr rfl fun q _ => ?_
  rw [dif_pos c.2]
  rfl

theorem set_surfaceWork (body : Fin (𝒫).cells.length → Fin nq → Body) (load : ℝ) (u v : Nat → Fin 3 → ℝ) :
    (setParams 𝒫 body load).surfaceWork u v = load * deflection 𝒫 faces v := by
  have hp : (setParams 𝒫 body load).points = (𝒫).points := rfl
  rw [Problem1.surfaceWork, set_conn, deflection, ← List.sum_map_mul_left]
  simp only [setParams, problem, List.map_cons, List.map_nil, List.sum_cons, List.sum_nil, add_zero, List.map_map]
  congr 1
  refine List.map_congr_left fun f _ => ?_
  simp only [Function.comp_apply, Finset.mul_sum]
  refine Finset.sum_congr rfl fun q _ => ?_
  simp only [Fin.sum_univ_three, Matrix.cons_val_zero, Matrix.cons_val_one, Matrix.cons_val_two, Matrix.head_cons,
    Matrix.tail_cons, Matrix.cons_val]
  simp only [Problem1.atIv, problem]
  ring

theorem set_flat (h : (𝒫).WF) (body : Fin (𝒫).cells.length → Fin nq → Body) (load : ℝ) (u : Fin (totalDofs (𝒫).fes) → ℝ)
    (k : Fin (totalDofs (𝒫).fes)) : (setParams 𝒫 body load).flat u k
      = (∑ c : Fin (𝒫).cells.length, ∑ q,
        contract (returnMapHelper ((𝒫).gradAt ((𝒫).vecField u) c q) (body c q)).1
          ((𝒫).gradAt ((𝒫).vecField (Pi.single k 1)) c q) * (𝒫).measureAt c q)
        + load * deflection 𝒫 faces ((𝒫).vecField (Pi.single k 1)) := by
  have h1 := flat_virtualWork (setParams 𝒫 body load) (set_wf numTotalNodes points cells el fc faces h body load) u
    (Pi.single k 1)
  have h2 : (∑ l : Fin (totalDofs (𝒫).fes), (Pi.single k 1 : Fin (totalDofs (𝒫).fes) → ℝ) l
      * (setParams 𝒫 body load).flat u l) = (setParams 𝒫 body load).flat u k := by
    rw [Finset.sum_eq_single k]
    · rw [Pi.single_eq_same, one_mul]
    · intro l _ hl
      rw [Pi.single_eq_of_ne hl, zero_mul]
    · simp
  rw [← h2]
  refine h1.trans ?_
  rw [Problem1.virtualWork, set_tensorWork, set_surfaceWork]
  show _ + 0 + _ = _
  rw [add_zero]
  rfl

theorem field_solArray (u : Fin (totalDofs (𝒫).fes) → ℝ) : fieldOf 3 ((𝒫).solArray u) = (𝒫).vecField u := by
  obtain ⟨sol, e1, e2, e3⟩ := unravel_single 𝒫 u
  rw [Problem1.solArray, e1]
  exact e3

theorem gradAt_gradL (u : Fin (totalDofs (𝒫).fes) → ℝ) (c : Fin (𝒫).cells.length) (q : Fin nq) :
    (𝒫).gradAt ((𝒫).vecField u) c q = Hyper.gradL 𝒫 (𝒫).cells[c] q u := rfl

theorem update_eq (u : Fin (totalDofs (𝒫).fes) → ℝ) (body : Fin (𝒫).cells.length → Fin nq → Body) :
    updateStressStrain 𝒫 ((𝒫).solArray u) body
      = fun c q => updatePoint ((𝒫).gradAt ((𝒫).vecField u) c q) (body c q) := by
  funext c q
  have hg : solToGrad (𝒫).el 3 (𝒫).points ((𝒫).solArray u) ((𝒫).cells[c]).nodes q
      = (𝒫).gradAt ((𝒫).vecField u) c q := by
    rw [← field_solArray]
    funext i j
    show _ = (𝒫).gradient (fieldOf 3 ((𝒫).solArray u)) ((𝒫).cells[c]).nodes q i j
    rw [gradient_eq]
    rfl
  rw [updateStressStrain, hg]

theorem res_smooth (h : (𝒫).WF) (bcs : List (List (BCEntry ℝ)))
    (S : Inverse.Setup ((Fin (𝒫).cells.length → Fin nq → Body) × ℝ) (𝒫).fes (totalDofs (𝒫).fes)) (hS : OfProblem 𝒫 bcs S)
    (b : Fin (𝒫).cells.length → Fin nq → Body) (t : ℝ) (u : Fin (totalDofs (𝒫).fes) → ℝ)
    (hy : ∀ c q, 0 ≤ yieldStress (b c q).2.2.2.2)
    (hp : ∀ c q, RegularPoint (Matrix.of ((𝒫).gradAt ((𝒫).vecField u) c q)) (b c q)) :
    ContDiffAt ℝ 1 (fun up : (Fin (totalDofs (𝒫).fes) → ℝ) × ((Fin (𝒫).cells.length → Fin nq → Body) × ℝ) =>
      S.res up.2 up.1) (u, (b, t)) := by
  have e : (fun up : (Fin (totalDofs (𝒫).fes) → ℝ) × ((Fin (𝒫).cells.length → Fin nq → Body) × ℝ) => S.res up.2 up.1)
      = fun up k => (∑ c : Fin (𝒫).cells.length, ∑ q, contract (returnMapHelper (Hyper.gradL 𝒫 (𝒫).cells[c] q up.1)
        (up.2.1 c q)).1 ((𝒫).gradAt ((𝒫).vecField (Pi.single k 1)) c q) * (𝒫).measureAt c q)
      + up.2.2 * deflection 𝒫 faces ((𝒫).vecField (Pi.single k 1)) := by
    funext up k
    rw [hS.res]
    exact set_flat numTotalNodes points cells el fc faces h up.2.1 up.2.2 up.1 k
  rw [e]
  refine contDiffAt_pi.2 fun k => ContDiffAt.add ?_ (by fun_prop)
  refine ContDiffAt.sum fun c _ => ContDiffAt.sum fun q _ => ContDiffAt.mul ?_ contDiffAt_const
  have hh : ContDiffAt ℝ 1 (fun up : (Fin (totalDofs (𝒫).fes) → ℝ) × ((Fin (𝒫).cells.length → Fin nq → Body) × ℝ) =>
      returnMapHelper (Hyper.gradL 𝒫 (𝒫).cells[c] q up.1) (up.2.1 c q)) (u, (b, t)) := by
    refine ContDiffAt.comp (g := fun x : Tensor × Body => returnMapHelper x.1 x.2)
      (f := fun up : (Fin (totalDofs (𝒫).fes) → ℝ) × ((Fin (𝒫).cells.length → Fin nq → Body) × ℝ) =>
        (Hyper.gradL 𝒫 (𝒫).cells[c] q up.1, up.2.1 c q)) (u, (b, t)) (helper_smooth _ (hy c q) (hp c q)) ?_
    refine ContDiffAt.prodMk ?_ (by fun_prop)
    exact ((Hyper.gradL 𝒫 (𝒫).cells[c] q).contDiff.contDiffAt).comp (u, (b, t)) contDiffAt_fst
  have h1 : ContDiffAt ℝ 1 (fun up : (Fin (totalDofs (𝒫).fes) → ℝ) × ((Fin (𝒫).cells.length → Fin nq → Body) × ℝ) =>
      (returnMapHelper (Hyper.gradL 𝒫 (𝒫).cells[c] q up.1) (up.2.1 c q)).1) (u, (b, t)) := hh.fst
  unfold contract
  refine ContDiffAt.sum fun i _ => ContDiffAt.sum fun j _ => ContDiffAt.mul ?_ contDiffAt_const
  exact contDiffAt_pi.1 (contDiffAt_pi.1 h1 i) j

/-- At regular points with nonnegative yield stress the data of a step are continuously differentiable. -/
theorem regularStep (h : (𝒫).WF) (bcs : List (List (BCEntry ℝ)))
    (S : Inverse.Setup ((Fin (𝒫).cells.length → Fin nq → Body) × ℝ) (𝒫).fes (totalDofs (𝒫).fes)) (hS : OfProblem 𝒫 bcs S)
    (b : Fin (𝒫).cells.length → Fin nq → Body) (t : ℝ) (u : Fin (totalDofs (𝒫).fes) → ℝ)
    (hy : ∀ c q, 0 ≤ yieldStress (b c q).2.2.2.2)
    (hp : ∀ c q, RegularPoint (Matrix.of ((𝒫).gradAt ((𝒫).vecField u) c q)) (b c q))
    (hdet : (elimRows (𝒫).fes bcs (S.tan (b, t) u)).det ≠ 0) :
    RegularStep S (fun b t => (b, t)) (fun u b => updateStressStrain 𝒫 ((𝒫).solArray u) b) b t u := by
  have hpt : ∀ c q, ContDiffAt ℝ 1 (fun x : (Fin (totalDofs (𝒫).fes) → ℝ) × (Fin (𝒫).cells.length → Fin nq → Body) =>
      (Hyper.gradL 𝒫 (𝒫).cells[c] q x.1, x.2 c q)) (u, b) := by
    intro c q
    refine ContDiffAt.prodMk ?_ (by fun_prop)
    exact ((Hyper.gradL 𝒫 (𝒫).cells[c] q).contDiff.contDiffAt).comp (u, b) contDiffAt_fst
  have hres := res_smooth numTotalNodes points cells el fc faces h bcs S hS b t u hy hp
  refine ⟨?_, ?_, hres, ?_, ?_⟩
  · refine hS.tangent _ _ ?_
    have : ContDiffAt ℝ 1 (fun u => S.res (b, t) u) u :=
      ContDiffAt.comp (g := fun up : (Fin (totalDofs (𝒫).fes) → ℝ) × ((Fin (𝒫).cells.length → Fin nq → Body) × ℝ) =>
        S.res up.2 up.1) (f := fun u => (u, (b, t))) u hres (contDiffAt_id.prodMk contDiffAt_const)
    exact this.differentiableAt one_ne_zero
  · rw [hS.bcs]
    exact hdet
  · fun_prop
  · have e : (fun x : (Fin (totalDofs (𝒫).fes) → ℝ) × (Fin (𝒫).cells.length → Fin nq → Body) =>
        updateStressStrain 𝒫 ((𝒫).solArray x.1) x.2)
        = fun x c q => updatePoint (Hyper.gradL 𝒫 (𝒫).cells[c] q x.1) (x.2 c q) := by
      funext x
      exact update_eq numTotalNodes points cells el fc faces x.1 x.2
    rw [e]
    refine contDiffAt_pi.2 fun c => contDiffAt_pi.2 fun q => ?_
    exact ContDiffAt.comp (g := fun x : Tensor × Body => updatePoint x.1 x.2)
      (f := fun x : (Fin (totalDofs (𝒫).fes) → ℝ) × (Fin (𝒫).cells.length → Fin nq → Body) =>
        (Hyper.gradL 𝒫 (𝒫).cells[c] q x.1, x.2 c q)) (u, b) (updatePoint_smooth _ (hy c q) (hp c q)) (hpt c q)

theorem regularAlong (h : (𝒫).WF) (bcs : List (List (BCEntry ℝ)))
    (S : Inverse.Setup ((Fin (𝒫).cells.length → Fin nq → Body) × ℝ) (𝒫).fes (totalDofs (𝒫).fes)) (hS : OfProblem 𝒫 bcs S)
    (b : Fin (𝒫).cells.length → Fin nq → Body) (ts : List ℝ) (us : List (Fin (totalDofs (𝒫).fes) → ℝ))
    (hal : Along (fun u b => updateStressStrain 𝒫 ((𝒫).solArray u) b) (fun b t u =>
      (∀ c q, RegularPoint (Matrix.of ((𝒫).gradAt ((𝒫).vecField u) c q)) (b c q)) ∧
        (elimRows (𝒫).fes bcs (S.tan (b, t) u)).det ≠ 0) b ts us) :
    (∀ c q, 0 ≤ yieldStress (b c q).2.2.2.2) →
    RegularAlong S (fun b t => (b, t)) (fun u b => updateStressStrain 𝒫 ((𝒫).solArray u) b) b ts us := by
  induction hal with
  | done b => exact fun _ => .done b
  | step b t ts u us hq _ ih =>
    intro hy
    exact .step _ _ _ _ _ (regularStep numTotalNodes points cells el fc faces h bcs S hS b t u hy hq.1 hq.2) (ih hy)

theorem deflection_lin (a : ℝ) (x y : Fin (totalDofs (𝒫).fes) → ℝ) :
    deflection 𝒫 faces ((𝒫).vecField (a • x + y))
      = a * deflection 𝒫 faces ((𝒫).vecField x) + deflection 𝒫 faces ((𝒫).vecField y) := by
  rw [deflection, deflection, deflection, ← List.sum_map_mul_left, ← List.sum_map_add]
  congr 1
  refine List.map_congr_left fun f _ => ?_
  rw [Finset.mul_sum, ← Finset.sum_add_distrib]
  refine Finset.sum_congr rfl fun q _ => ?_
  have hv : ∀ n c, (𝒫).vecField (a • x + y) n c = a * (𝒫).vecField x n c + (𝒫).vecField y n c := by
    intro n c
    simp only [Problem1.vecField]
    split_ifs
    · simp
    · simp
  have hi : interp ((𝒫).fc.shapeVals f.2 q) (restrict nn ((𝒫).vecField (a • x + y)) ((𝒫).conn.getD f.1 [])) 1
      = a * interp ((𝒫).fc.shapeVals f.2 q) (restrict nn ((𝒫).vecField x) ((𝒫).conn.getD f.1 [])) 1
        + interp ((𝒫).fc.shapeVals f.2 q) (restrict nn ((𝒫).vecField y) ((𝒫).conn.getD f.1 [])) 1 := by
    simp only [interp, restrict, Matrix.of_apply, hv]
    rw [Finset.mul_sum, ← Finset.sum_add_distrib]
    exact Finset.sum_congr rfl fun n _ => by ring
  rw [hi]
  ring

theorem deflection_differentiable (x : Fin (totalDofs (𝒫).fes) → ℝ) :
    DifferentiableAt ℝ (fun u => deflection 𝒫 faces ((𝒫).vecField u)) x := by
  let L : (Fin (totalDofs (𝒫).fes) → ℝ) →ₗ[ℝ] ℝ :=
    { toFun := fun u => deflection 𝒫 faces ((𝒫).vecField u)
      map_add' := fun u v => by
        have := deflection_lin numTotalNodes points cells el fc faces 1 u v
        rwa [one_smul, one_mul] at this
      map_smul' := fun a u => by
        have h0 := deflection_lin numTotalNodes points cells el fc faces 1 (0 : Fin (totalDofs (𝒫).fes) → ℝ) 0
        rw [one_smul, one_mul, add_zero, left_eq_add] at h0
        have := deflection_lin numTotalNodes points cells el fc faces a u 0
        rwa [add_zero, h0, add_zero] at this }
  exact (LinearMap.toContinuousLinearMap L).differentiableAt

/-! ### Property theorems -/

/-- **C103 (compliance).** `compute_compliance` returns minus the load times the integral of the vertical displacement over
the loaded boundary, which is minus the virtual work of the load of the problem. -/
theorem C103_compliance (load : ℝ) (u : Fin (totalDofs (𝒫).fes) → ℝ) (body : Fin (𝒫).cells.length → Fin nq → Body) :
    computeCompliance 𝒫 load ((𝒫).solArray u) = .ok (-(load * deflection 𝒫 faces ((𝒫).vecField u))) ∧
    ∀ w, (setParams 𝒫 body load).surfaceWork w ((𝒫).vecField u) = load * deflection 𝒫 faces ((𝒫).vecField u) := by
  refine ⟨?_, fun w => set_surfaceWork numTotalNodes points cells el fc faces body load w _⟩
  rw [← field_solArray, deflection, ← neg_mul, ← List.sum_map_mul_left, computeCompliance]
  simp only [problem, List.map_map]
  congr 2
  refine List.map_congr_left fun f _ => ?_
  simp only [Function.comp_apply, Finset.mul_sum]
  refine Finset.sum_congr rfl fun q _ => ?_
  have e : ∀ (w : Fin 3 → ℝ) (J : ℝ), ∑ i, -(![0, load, 0] : Fin 3 → ℝ) i * w i * J = -load * (w 1 * J) := by
    intro w J
    simp [Fin.sum_univ_three]
    ring
  refine (e _ _).trans ?_
  have hi : convertFromDofToFaceQuad (𝒫).fc 3 ((𝒫).solArray u) (𝒫).conn (f.1, f.2) q 1
      = interp ((𝒫).fc.shapeVals f.2 q) (restrict nn (fieldOf 3 ((𝒫).solArray u)) ((𝒫).conn.getD f.1 [])) 1 := by
    simp only [convertFromDofToFaceQuad, interp, restrict, Matrix.of_apply, fieldOf]
    exact Finset.sum_congr rfl fun a _ => mul_comm _ _
  exact congrArg (fun x => -load * (x * _)) hi

/-- **C103 (co-design gradient).** Design with yield stresses that are not negative, equilibria of all load steps at which
no quadrature point is on the yield surface or without shear stress and the tangents are regular: `jax.grad(J_total)`
returns the derivative of the compliance after the last step along the family of equilibria. -/
theorem C103_structure (h : (𝒫).WF) (bcs : List (List (BCEntry ℝ))) (hw : WFBC (𝒫).fes bcs)
    (S : Inverse.Setup ((Fin (𝒫).cells.length → Fin nq → Body) × ℝ) (𝒫).fes (totalDofs (𝒫).fes)) (hS : OfProblem 𝒫 bcs S)
    (hs : ExactAdjointSolver S.adjointSolve)
    (htot : ∀ n (A : Matrix (Fin n) (Fin n) ℝ) b, A.det ≠ 0 → ∃ x, S.adjointSolve n A b = .ok x)
    (θ0 : Fin (𝒫).cells.length → Fin 2 → ℝ) (hθ : ∀ c, 0 ≤ 250 + 100 * θ0 c 1) (load : ℝ)
    (J : (Fin (totalDofs (𝒫).fes) → ℝ) → ℝ) (hJ : ∀ u, computeCompliance 𝒫 load ((𝒫).solArray u) = .ok (J u))
    (fuel : Nat) (ts : List ℝ) (guess : Fin (totalDofs (𝒫).fes) → ℝ) (us0 : List (Fin (totalDofs (𝒫).fes) → ℝ))
    (hrun : fwdPredSeq S (fun b t => (b, t)) (fun u b => updateStressStrain 𝒫 ((𝒫).solArray u) b) fuel ts guess
      (initParams θ0) = some (.ok us0))
    (htraj : Trajectory S (fun b t => (b, t)) (fun u b => updateStressStrain 𝒫 ((𝒫).solArray u) b) (initParams θ0) ts us0)
    (hreg : Along (fun u b => updateStressStrain 𝒫 ((𝒫).solArray u) b) (fun b t u =>
      (∀ c q, RegularPoint (Matrix.of ((𝒫).gradAt ((𝒫).vecField u) c q)) (b c q)) ∧
        (elimRows (𝒫).fes bcs (S.tan (b, t) u)).det ≠ 0) (initParams θ0) ts us0) :
    ∃ g, grad S (fun b t => (b, t)) (fun u b => updateStressStrain 𝒫 ((𝒫).solArray u) b) initParams J fuel ts guess θ0
        = some (.ok g) ∧
      ∃ us : (Fin (𝒫).cells.length → Fin 2 → ℝ) → List (Fin (totalDofs (𝒫).fes) → ℝ), us θ0 = us0 ∧
        (∀ᶠ θ in 𝓝 θ0, Trajectory S (fun b t => (b, t)) (fun u b => updateStressStrain 𝒫 ((𝒫).solArray u) b)
          (initParams θ) ts (us θ)) ∧
        (∃ ε > 0, ∀ᶠ θ in 𝓝 θ0, ∀ ws, Trajectory S (fun b t => (b, t))
          (fun u b => updateStressStrain 𝒫 ((𝒫).solArray u) b) (initParams θ) ts ws →
          (∀ i, ‖ws.getD i 0 - us0.getD i 0‖ < ε) → ws = us θ) ∧
        HasFDerivAt (fun θ => J ((us θ).getLastD guess)) g θ0 := by
  have hJ' : J = fun u => -(load * deflection 𝒫 faces ((𝒫).vecField u)) := by
    funext u
    have h1 := (C103_compliance numTotalNodes points cells el fc faces load u (initParams θ0)).1
    rw [hJ u] at h1
    exact Except.ok.inj h1
  have hi : DifferentiableAt ℝ (fun θ : Fin (𝒫).cells.length → Fin 2 → ℝ =>
      (initParams θ : Fin (𝒫).cells.length → Fin nq → Body)) θ0 := by
    unfold initParams
    fun_prop
  refine C103_gradient S (fun b t => (b, t)) _ bcs hS.bcs hw hs htot initParams θ0 hi J fuel ts guess us0 hrun htraj ?_ ?_
  · refine regularAlong numTotalNodes points cells el fc faces h bcs S hS _ ts us0 hreg fun c q => ?_
    show 0 ≤ yieldStress (θ0 c 1)
    rw [yieldStress]
    linarith [hθ c]
  · rw [hJ']
    exact ((deflection_differentiable numTotalNodes points cells el fc faces _).const_mul load).neg

end

end JaxFem.CoDesign
