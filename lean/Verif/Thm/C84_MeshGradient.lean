import Verif.Spec.MeshGradient
import Verif.Thm.C38_Branch
import Verif.Thm.C74_LinearSolve
import Mathlib.Analysis.SpecialFunctions.Sqrt
import Mathlib.Analysis.Calculus.ContDiff.RCLike

/-!
# C84 (part 2): gradients with respect to the node coordinates
-/

namespace JaxFem

open scoped Topology

variable {IV : Type} {nq nfq nn vec dim : Nat} {Z : Type} [NormedAddCommGroup Z] [NormedSpace ℝ Z]

/-! ### Helper lemmas -/

theorem contDiffAt_det {n : Nat} (M : Z → Matrix (Fin n) (Fin n) ℝ) (z : Z)
    (h : ∀ i j, ContDiffAt ℝ 1 (fun z => M z i j) z) : ContDiffAt ℝ 1 (fun z => (M z).det) z := by
  simp only [Matrix.det_apply]
  refine ContDiffAt.sum fun s _ => ?_
  have hp : ContDiffAt ℝ 1 (fun z => ∏ i, M z (s i) i) z := contDiffAt_prod fun i _ => h (s i) i
  exact hp.const_smul (Equiv.Perm.sign s)

theorem contDiffAt_inv {n : Nat} (M : Z → Matrix (Fin n) (Fin n) ℝ) (z : Z)
    (h : ∀ i j, ContDiffAt ℝ 1 (fun z => M z i j) z) (hd : (M z).det ≠ 0) (i j : Fin n) :
    ContDiffAt ℝ 1 (fun z => (M z)⁻¹ i j) z := by
  have e : (fun z => (M z)⁻¹ i j) = fun z => ((M z).det)⁻¹ * ((M z).updateRow j (Pi.single i 1)).det := by
    funext z
    rw [Matrix.inv_def, Matrix.smul_apply, Ring.inverse_eq_inv', Matrix.adjugate_apply, smul_eq_mul]
  rw [e]
  refine ((contDiffAt_det M z h).inv hd).mul (contDiffAt_det _ z fun k l => ?_)
  simp only [Matrix.updateRow_apply]
  split
  · exact contDiffAt_const
  · exact h k l

theorem contDiffAt_list {α : Type} (l : List α) (f : α → Z → ℝ) (z : Z)
    (h : ∀ a ∈ l, ContDiffAt ℝ 1 (f a) z) : ContDiffAt ℝ 1 (fun z => (l.map fun a => f a z).sum) z := by
  induction l with
  | nil => simpa using contDiffAt_const
  | cons a l ih =>
    simp only [List.map_cons, List.sum_cons]
    exact (h a (by simp)).add (ih fun b hb => h b (by simp [hb]))

theorem contDiffAt_jac (X : Z → Matrix (Fin nn) (Fin dim) ℝ) (G : Matrix (Fin nn) (Fin dim) ℝ) (z : Z)
    (h : ∀ a i, ContDiffAt ℝ 1 (fun z => X z a i) z) (i j : Fin dim) :
    ContDiffAt ℝ 1 (fun z => mapJacobian (X z) G i j) z := by
  simp only [mapJacobian, Matrix.mul_apply, Matrix.transpose_apply]
  exact ContDiffAt.sum fun a _ => (h a i).mul contDiffAt_const

theorem contDiffAt_physGrad (X : Z → Matrix (Fin nn) (Fin dim) ℝ) (G : Matrix (Fin nn) (Fin dim) ℝ)
    (U : Z → Matrix (Fin nn) (Fin vec) ℝ) (z : Z) (h : ∀ a i, ContDiffAt ℝ 1 (fun z => X z a i) z)
    (hU : ∀ a c, ContDiffAt ℝ 1 (fun z => U z a c) z) (hd : (mapJacobian (X z) G).det ≠ 0)
    (c : Fin vec) (j : Fin dim) : ContDiffAt ℝ 1 (fun z => physGrad (X z) G (U z) c j) z := by
  simp only [physGrad, Matrix.mul_apply, Matrix.transpose_apply]
  refine ContDiffAt.sum fun k _ => ContDiffAt.mul (ContDiffAt.sum fun a _ => (hU a c).mul contDiffAt_const) ?_
  exact contDiffAt_inv _ z (contDiffAt_jac X G z h) hd k j

theorem contDiffAt_interp (N : Fin nn → ℝ) (U : Z → Matrix (Fin nn) (Fin vec) ℝ) (z : Z)
    (hU : ∀ a c, ContDiffAt ℝ 1 (fun z => U z a c) z) : ContDiffAt ℝ 1 (fun z => interp N (U z)) z := by
  refine contDiffAt_pi.2 fun c => ?_
  simp only [interp]
  exact ContDiffAt.sum fun a _ => contDiffAt_const.mul (hU a c)

theorem contDiffAt_position (N : Fin nn → ℝ) (X : Z → Matrix (Fin nn) (Fin dim) ℝ) (z : Z)
    (h : ∀ a i, ContDiffAt ℝ 1 (fun z => X z a i) z) : ContDiffAt ℝ 1 (fun z => positionIn N (X z)) z := by
  refine contDiffAt_pi.2 fun i => ?_
  simp only [positionIn, Matrix.vecMul, dotProduct]
  exact ContDiffAt.sum fun a _ => contDiffAt_const.mul (h a i)

theorem contDiffAt_nanson (X : Z → Matrix (Fin nn) (Fin dim) ℝ) (G : Fin nn → Fin dim → ℝ)
    (nrm : Fin dim → ℝ) (w : ℝ) (z : Z) (h : ∀ a i, ContDiffAt ℝ 1 (fun z => X z a i) z)
    (hn : nrm ≠ 0) (hd : (mapJacobian (X z) (Matrix.of G)).det ≠ 0) :
    ContDiffAt ℝ 1 (fun z => nansonScale (X z) G nrm w) z := by
  have hJ : ∀ Y : Matrix (Fin nn) (Fin dim) ℝ, jacobianDxDeta Y G = mapJacobian Y (Matrix.of G) := by
    intro Y
    ext i j
    simp [jacobianDxDeta, mapJacobian, Matrix.mul_apply]
  simp only [nansonScale, hJ]
  have hinv := contDiffAt_inv _ z (contDiffAt_jac X (Matrix.of G) z h) hd
  have hs : ContDiffAt ℝ 1 (fun z => ∑ j, (∑ k, nrm k * (mapJacobian (X z) (Matrix.of G))⁻¹ k j) ^ 2) z :=
    ContDiffAt.sum fun j _ => (ContDiffAt.sum fun k _ => contDiffAt_const.mul (hinv k j)).pow 2
  refine ((hs.sqrt ?_).mul (contDiffAt_det _ z (contDiffAt_jac X (Matrix.of G) z h))).mul contDiffAt_const
  intro h0
  rw [Finset.sum_eq_zero_iff_of_nonneg fun j _ => sq_nonneg _] at h0
  apply hn
  have h1 : Matrix.vecMul nrm (mapJacobian (X z) (Matrix.of G))⁻¹ = 0 := by
    funext j
    have := pow_eq_zero_iff (two_ne_zero) |>.1 (h0 j (by simp))
    simpa [Matrix.vecMul, dotProduct] using this
  have h2 := congrArg (fun v => Matrix.vecMul v (mapJacobian (X z) (Matrix.of G))) h1
  simpa [Matrix.vecMul_vecMul, Matrix.nonsing_inv_mul _ (isUnit_iff_ne_zero.2 hd)] using h2

/-! ### The residual as a function of solution and coordinates -/

/-- The flattened residual on the mesh with coordinates `x`. -/
noncomputable def Problem1.flatAt (P : Problem1 IV nq nfq nn vec dim) (x : Fin P.numTotalNodes → Fin dim → ℝ)
    (u : Fin (totalDofs P.fes) → ℝ) : Fin (totalDofs P.fes) → ℝ := (P.atPoints x).flat u

theorem atPoints_surfaceWork (P : Problem1 IV nq nfq nn vec dim) (x : Fin P.numTotalNodes → Fin dim → ℝ)
    (u v : Nat → Fin vec → ℝ) : (P.atPoints x).surfaceWork u v
    = (P.surfaces.map fun s => (s.faces.map fun f => ∑ q, (∑ c,
    s.map (f.iv q) (interp (P.fc.shapeVals f.face q) (restrict nn u (P.conn.getD f.cell [])))
      (positionIn (P.fc.shapeVals f.face q) (coords nn (P.atPoints x).points (P.conn.getD f.cell []))) c
      * interp (P.fc.shapeVals f.face q) (restrict nn v (P.conn.getD f.cell [])) c)
    * nansonScale (coords nn (P.atPoints x).points (P.conn.getD f.cell [])) (P.fc.shapeGradsRef f.face q)
        (P.fc.normals f.face) (P.fc.quadWeights f.face q)).sum).sum := rfl

theorem coords_smooth (P : Problem1 IV nq nfq nn vec dim) (cell : List Nat)
    (z : (Fin (totalDofs P.fes) → ℝ) × (Fin P.numTotalNodes → Fin dim → ℝ)) (a : Fin nn) (i : Fin dim) :
    ContDiffAt ℝ 1 (fun z : (Fin (totalDofs P.fes) → ℝ) × (Fin P.numTotalNodes → Fin dim → ℝ) =>
      coords nn (P.atPoints z.2).points cell a i) z := by
  simp only [coords, Problem1.atPoints, Matrix.of_apply]
  by_cases h : cell.getD a 0 < P.numTotalNodes
  · have : (fun z : (Fin (totalDofs P.fes) → ℝ) × (Fin P.numTotalNodes → Fin dim → ℝ) =>
        (List.ofFn z.2).getD (cell.getD a 0) 0 i) = fun z => z.2 ⟨cell.getD a 0, h⟩ i := by
      funext z
      rw [List.getD_eq_getElem _ _ (by simpa using h), List.getElem_ofFn]
    rw [this]
    exact contDiffAt_pi.1 (contDiffAt_pi.1 contDiffAt_snd _) i
  · have : (fun z : (Fin (totalDofs P.fes) → ℝ) × (Fin P.numTotalNodes → Fin dim → ℝ) =>
        (List.ofFn z.2).getD (cell.getD a 0) 0 i) = fun z => 0 := by
      funext z
      rw [List.getD_eq_default _ _ (by simpa using h)]
      rfl
    rw [this]
    exact contDiffAt_const

theorem field_smooth (P : Problem1 IV nq nfq nn vec dim) (cell : List Nat)
    (z : (Fin (totalDofs P.fes) → ℝ) × (Fin P.numTotalNodes → Fin dim → ℝ)) (a : Fin nn) (c : Fin vec) :
    ContDiffAt ℝ 1 (fun z : (Fin (totalDofs P.fes) → ℝ) × (Fin P.numTotalNodes → Fin dim → ℝ) =>
      restrict nn (P.vecField z.1) cell a c) z := by
  simp only [restrict, Problem1.vecField, Matrix.of_apply]
  split
  · exact contDiffAt_pi.1 contDiffAt_fst _
  · exact contDiffAt_const

theorem work_smooth (P : Problem1 IV nq nfq nn vec dim) (hm : P.SmoothMaps)
    (z : (Fin (totalDofs P.fes) → ℝ) × (Fin P.numTotalNodes → Fin dim → ℝ))
    (hr : (P.atPoints z.2).NonDegenerate) (v : Nat → Fin vec → ℝ) :
    ContDiffAt ℝ 1 (fun z : (Fin (totalDofs P.fes) → ℝ) × (Fin P.numTotalNodes → Fin dim → ℝ) =>
      (P.atPoints z.2).virtualWork (P.vecField z.1) v) z := by
  have hdet : ∀ cell ∈ P.cells, ∀ q, ContDiffAt ℝ 1 (fun z : (Fin (totalDofs P.fes) → ℝ) ×
      (Fin P.numTotalNodes → Fin dim → ℝ) => (mapJacobian (coords nn (P.atPoints z.2).points cell.nodes)
        (Matrix.of (P.el.shapeGradsRef q))).det * P.el.quadWeights q) z := fun cell hc q =>
    (contDiffAt_det _ z (contDiffAt_jac _ _ z (coords_smooth P cell.nodes z))).mul contDiffAt_const
  simp only [Problem1.virtualWork]
  refine ContDiffAt.add (ContDiffAt.add ?_ ?_) ?_
  · simp only [Problem1.tensorWork]
    refine contDiffAt_list P.cells _ z fun cell hc => ?_
    simp only [cellIntegral]
    refine ContDiffAt.sum fun q _ => ContDiffAt.mul ?_ (hdet cell hc q)
    simp only [contract]
    refine ContDiffAt.sum fun c _ => ContDiffAt.sum fun j _ => ContDiffAt.mul ?_ ?_
    · have h1 : ContDiffAt ℝ 1 (fun z : (Fin (totalDofs P.fes) → ℝ) × (Fin P.numTotalNodes → Fin dim → ℝ) =>
          (fun i j => (P.atPoints z.2).gradient (P.vecField z.1) cell.nodes q i j : Fin vec → Fin dim → ℝ)) z := by
        refine contDiffAt_pi.2 fun i => contDiffAt_pi.2 fun j => ?_
        exact contDiffAt_physGrad _ _ _ z (coords_smooth P cell.nodes z) (field_smooth P cell.nodes z)
          (hr.cells cell hc q) i j
      exact contDiffAt_pi.1 (contDiffAt_pi.1 ((hm.tensor (cell.iv q)).contDiffAt.comp z h1) c) j
    · exact contDiffAt_physGrad _ _ (fun _ => restrict nn v cell.nodes) z (coords_smooth P cell.nodes z)
        (fun _ _ => contDiffAt_const) (hr.cells cell hc q) c j
  · cases hmm : P.massMap with
    | none =>
      simp only [Problem1.atPoints, hmm]
      exact contDiffAt_const
    | some m =>
      simp only [Problem1.atPoints, hmm]
      simp only [Problem1.massWork]
      refine contDiffAt_list P.cells _ z fun cell hc => ?_
      simp only [cellIntegral]
      refine ContDiffAt.sum fun q _ => ContDiffAt.mul ?_ (hdet cell hc q)
      refine ContDiffAt.sum fun c _ => ContDiffAt.mul ?_ contDiffAt_const
      have h1 := (contDiffAt_interp (P.el.shapeVals q) _ z (field_smooth P cell.nodes z)).prodMk
        (contDiffAt_position (P.el.shapeVals q) _ z (coords_smooth P cell.nodes z))
      exact contDiffAt_pi.1 ((hm.mass m hmm (cell.iv q)).contDiffAt.comp z h1) c
  · simp only [atPoints_surfaceWork]
    refine contDiffAt_list P.surfaces _ z fun s hs => ?_
    refine contDiffAt_list s.faces _ z fun f hf => ?_
    refine ContDiffAt.sum fun q _ => ContDiffAt.mul ?_ ?_
    · refine ContDiffAt.sum fun c _ => ContDiffAt.mul ?_ contDiffAt_const
      have h1 := (contDiffAt_interp (P.fc.shapeVals f.face q) _ z (field_smooth P (P.conn.getD f.cell []) z)).prodMk
        (contDiffAt_position (P.fc.shapeVals f.face q) _ z (coords_smooth P (P.conn.getD f.cell []) z))
      exact contDiffAt_pi.1 ((hm.surface s hs (f.iv q)).contDiffAt.comp z h1) c
    · exact contDiffAt_nanson _ _ _ _ z (coords_smooth P (P.conn.getD f.cell []) z)
        (hr.faces s hs f hf q).1 (hr.faces s hs f hf q).2

theorem flat_entry (P : Problem1 IV nq nfq nn vec dim) (h : P.WF) (u : Fin (totalDofs P.fes) → ℝ)
    (k : Fin (totalDofs P.fes)) :
    P.flat u k = P.virtualWork (P.vecField u) (P.vecField (Pi.single k 1)) := by
  rw [← flat_virtualWork P h, Finset.sum_eq_single k]
  · rw [Pi.single_eq_same, one_mul]
  · intro b _ hb
    rw [Pi.single_eq_of_ne hb, zero_mul]
  · simp

/-- With fixed boundary conditions the constraint function inherits smoothness from the residual. -/
theorem constraint_smooth {E : Type} [NormedAddCommGroup E] [NormedSpace ℝ E] (fes : List FE)
    (bcs : List (List (BCEntry ℝ))) (hb : WFBC fes bcs)
    (res : E → (Fin (totalDofs fes) → ℝ) → Fin (totalDofs fes) → ℝ) (z : (Fin (totalDofs fes) → ℝ) × E)
    (hr : ContDiffAt ℝ 1 (fun z : (Fin (totalDofs fes) → ℝ) × E => res z.2 z.1) z) :
    ContDiffAt ℝ 1 (fun z : (Fin (totalDofs fes) → ℝ) × E => constraintFn fes (fun _ => bcs) res z.1 z.2) z := by
  refine contDiffAt_pi.2 fun k => ?_
  simp only [constraintFn]
  obtain ⟨w, hw⟩ := prescribed_exists fes bcs hb k k.2
  cases w with
  | none =>
    simp only [fun z : (Fin (totalDofs fes) → ℝ) × E => (applyBcV_spec fes bcs hb 1 (res z.2 z.1) z.1 k).1 hw]
    exact contDiffAt_pi.1 hr k
  | some v =>
    simp only [fun z : (Fin (totalDofs fes) → ℝ) × E => (applyBcV_spec fes bcs hb 1 (res z.2 z.1) z.1 k).2 v hw]
    exact (contDiffAt_pi.1 contDiffAt_fst k).sub contDiffAt_const

/-! ### Property theorems -/

/-- **C84 (smoothness).** With continuously differentiable maps the assembled residual is continuously
differentiable jointly in the solution and in the coordinates of all nodes, wherever no cell is
degenerate. -/
theorem C84_smooth (P : Problem1 IV nq nfq nn vec dim) (h : P.WF) (hm : P.SmoothMaps)
    (u : Fin (totalDofs P.fes) → ℝ) (x : Fin P.numTotalNodes → Fin dim → ℝ)
    (hr : (P.atPoints x).NonDegenerate) :
    ContDiffAt ℝ 1 (fun z : (Fin (totalDofs P.fes) → ℝ) × (Fin P.numTotalNodes → Fin dim → ℝ) =>
      P.flatAt z.2 z.1) (u, x) := by
  have hwf : ∀ x, (P.atPoints x).WF := fun x =>
    ⟨h.nonempty, by simp [Problem1.atPoints], h.cell_length, h.cell_lt, h.face_lt⟩
  refine contDiffAt_pi.2 fun k => ?_
  have e : (fun z : (Fin (totalDofs P.fes) → ℝ) × (Fin P.numTotalNodes → Fin dim → ℝ) =>
      P.flatAt z.2 z.1 k) = fun z => (P.atPoints z.2).virtualWork (P.vecField z.1)
        (P.vecField (Pi.single k 1)) := by
    funext z
    exact flat_entry (P.atPoints z.2) (hwf z.2) z.1 k
  rw [e]
  exact work_smooth P hm (u, x) hr _

/-- **C84 (mesh sensitivity).** Let `u0` solve the boundary value problem on the mesh with coordinates
`x0` (no degenerate cell, continuously differentiable maps, boundary values held fixed), with the assembled
tangent invertible after row elimination.  Then near `x0` there is exactly one solution `u(x)` near `u0`,
and what the backward pass returns for the cotangent `v` (with an exact adjoint solver) is the derivative
of `x ↦ ⟨v, u(x)⟩` with respect to all node coordinates. -/
theorem C84_mesh_gradient (P : Problem1 IV nq nfq nn vec dim) (h : P.WF) (hm : P.SmoothMaps)
    (bcs : List (List (BCEntry ℝ))) (hb : WFBC P.fes bcs)
    (tan : (Fin P.numTotalNodes → Fin dim → ℝ) → (Fin (totalDofs P.fes) → ℝ) →
      Matrix (Fin (totalDofs P.fes)) (Fin (totalDofs P.fes)) ℝ)
    (solve : (n : Nat) → Matrix (Fin n) (Fin n) ℝ → (Fin n → ℝ) → Except Err (Fin n → ℝ))
    (hs : ExactAdjointSolver solve) (x0 : Fin P.numTotalNodes → Fin dim → ℝ)
    (u0 : Fin (totalDofs P.fes) → ℝ) (hr : (P.atPoints x0).NonDegenerate)
    (ht : HasJacobianAt (P.flatAt x0) (tan x0 u0) u0)
    (hdet : (elimRows P.fes bcs (tan x0 u0)).det ≠ 0)
    (hz : SolvesBVP P.fes bcs (P.flatAt x0) u0) (v : Fin (totalDofs P.fes) → ℝ)
    (g : (Fin P.numTotalNodes → Fin dim → ℝ) →L[ℝ] ℝ)
    (hg : implicitVjp P.fes (fun _ => bcs) P.flatAt tan none solve u0 x0 v = .ok g) :
    ∃ u : (Fin P.numTotalNodes → Fin dim → ℝ) → Fin (totalDofs P.fes) → ℝ, u x0 = u0 ∧
      (∀ᶠ xw in 𝓝 (x0, u0), SolvesBVP P.fes bcs (P.flatAt xw.1) xw.2 ↔ u xw.1 = xw.2) ∧
      (∀ᶠ x in 𝓝 x0, SolvesBVP P.fes bcs (P.flatAt x) (u x)) ∧
      HasFDerivAt (fun x => dotProduct v (u x)) g x0 :=
  C38_branch P.fes (fun _ => bcs) P.flatAt tan solve hs x0 u0 (fun _ => hb) ht
    (constraint_smooth P.fes bcs hb P.flatAt (u0, x0) (C84_smooth P h hm u0 x0 hr)) hdet hz v g hg

/-! ### Non-vacuity -/

/-- Coordinates of the nodes of the example mesh. -/
noncomputable def exLaplaceX : Fin exLaplace.numTotalNodes → Fin 2 → ℝ := fun n => exLaplace.points.getD n 0

theorem exLaplace_atPoints : exLaplace.atPoints exLaplaceX = exLaplace := by
  have hl : exLaplace.points.length = exLaplace.numTotalNodes := exLaplace_rect.wf.points
  have : List.ofFn exLaplaceX = exLaplace.points := by
    refine List.ext_getElem (by simp [hl]) fun i h1 h2 => ?_
    rw [List.getElem_ofFn]
    exact List.getD_eq_getElem _ _ h2
  rw [Problem1.atPoints, this]

theorem exLaplace_wfbc : WFBC exLaplace.fes exLaplaceBcs where
  len := rfl
  comps := by simp [exLaplaceBcs]
  vals := by simp [exLaplaceBcs]
  nodup := by simp [exLaplaceBcs]
  valid := by
    intro i fe es h1 h2 e he
    rcases i with _ | i
    · simp only [exLaplaceBcs, List.getElem?_cons_zero, Option.some.injEq] at h2
      simp only [Problem1.fes, List.getElem?_cons_zero, Option.some.injEq] at h1
      subst h2 h1
      simp only [List.mem_singleton] at he
      subst he
      simp [exLaplace]
    · simp [exLaplaceBcs] at h2

theorem exLaplace_positive : exLaplace.PositiveMeasure := by
  intro cell hc q
  rw [exLaplace_rect.jac _ (List.mem_map_of_mem hc), Matrix.det_fin_two_of, mul_zero, sub_zero,
    exLaplace_rect.el]
  exact mul_pos (mul_pos exLaplace_rect.hx.1 exLaplace_rect.hx.2) (show (0 : ℝ) < 1 / 4 by norm_num)

theorem exLaplace_anchored : exLaplace.Anchored fun n c => FreeDof (exLaplaceBcs.getD 0 []) n c := by
  intro n hn c
  obtain ⟨m, h1, h2, h3⟩ := rect_anchored exLaplace exLaplace_rect n hn c
  refine ⟨m, fun hfr => ?_, h2, h3⟩
  have h1 : ¬ rectInterior 2 2 m := h1
  rw [exLaplace_interior] at h1
  have h2 : m < 9 := h2
  obtain rfl : c = 0 := Subsingleton.elim _ _
  have key : ∀ k v, [0, 1, 2, 3, 5, 6, 7, 8][k]? = some m → [0, 0, 0, 0, 0, 0, 0, 0][k]? = some 0 →
      ([3, 9, 15, 5, 17, 7, 13, 19] : List ℝ)[k]? = some v → False := fun k v a b c =>
    hfr ⟨[0, 1, 2, 3, 5, 6, 7, 8], [0, 0, 0, 0, 0, 0, 0, 0], [3, 9, 15, 5, 17, 7, 13, 19]⟩
      (by simp [exLaplaceBcs]) v ⟨k, a, b, c⟩
  rcases (by omega : m = 0 ∨ m = 1 ∨ m = 2 ∨ m = 3 ∨ m = 5 ∨ m = 6 ∨ m = 7 ∨ m = 8) with
    rfl | rfl | rfl | rfl | rfl | rfl | rfl | rfl
  · exact key 0 _ rfl rfl rfl
  · exact key 1 _ rfl rfl rfl
  · exact key 2 _ rfl rfl rfl
  · exact key 3 _ rfl rfl rfl
  · exact key 4 _ rfl rfl rfl
  · exact key 5 _ rfl rfl rfl
  · exact key 6 _ rfl rfl rfl
  · exact key 7 _ rfl rfl rfl

theorem exLaplace_smooth : exLaplace.SmoothMaps where
  tensor := fun _ => by simp only [exLaplace]; exact contDiff_id
  mass := by intro m hm; simp [exLaplace] at hm
  surface := by intro s hs; simp [exLaplace] at hs

theorem exLaplace_nonDegenerate : (exLaplace.atPoints exLaplaceX).NonDegenerate := by
  rw [exLaplace_atPoints]
  refine ⟨fun cell hc q h0 => ?_, by intro s hs; simp [exLaplace] at hs⟩
  have := exLaplace_positive cell hc q
  rw [h0, zero_mul] at this
  exact lt_irrefl _ this

theorem exLaplace_flatAt : exLaplace.flatAt exLaplaceX = exLaplace.flat := by
  have : ∀ Q : Problem1 _ _ _ _ _ _, Q = exLaplace → HEq Q.flat exLaplace.flat := by
    rintro _ rfl; rfl
  exact eq_of_heq (this _ exLaplace_atPoints)

/-- The Laplace problem on the 2 × 2 rectangle mesh meets all hypotheses of `C84_mesh_gradient`, for every
cotangent. -/
example (v : Fin (totalDofs exLaplace.fes) → ℝ) : ∃ tan u0 g,
    SolvesBVP exLaplace.fes exLaplaceBcs exLaplace.flat u0 ∧
    implicitVjp exLaplace.fes (fun _ => exLaplaceBcs) exLaplace.flatAt tan none adjExSolve u0 exLaplaceX v
      = .ok g ∧
    ∃ u : (Fin exLaplace.numTotalNodes → Fin 2 → ℝ) → Fin (totalDofs exLaplace.fes) → ℝ,
      u exLaplaceX = u0 ∧
      (∀ᶠ x in 𝓝 exLaplaceX, SolvesBVP exLaplace.fes exLaplaceBcs (exLaplace.flatAt x) (u x)) ∧
      HasFDerivAt (fun x => dotProduct v (u x)) g exLaplaceX := by
  have haff : exLaplace.Affine :=
    ⟨fun _ => ⟨LinearMap.id, fun G => by simp [exLaplace]⟩, by intro m hm; simp [exLaplace] at hm,
      by intro s hs; simp [exLaplace] at hs⟩
  have hdetm : exLaplace.el.Determines := by
    rw [exLaplace_rect.el]
    exact (C73_determines (fun _ => 1/4) exPts (fun _ _ => 0)).2.2.1 ⟨0, 1, 0, by simp [exPts]; norm_num⟩
  obtain ⟨T, f, hT⟩ := C74_affine exLaplace exLaplace_rect.wf haff
  have hmass : exLaplace.MassMonotone := by intro m hm; simp [exLaplace] at hm
  have hsm : exLaplace.SurfaceMonotone := by intro s hs; simp [exLaplace] at hs
  have hdet := C74_regular exLaplace exLaplace_rect.wf exLaplace_positive hdetm exLaplace_mono hmass hsm
    exLaplaceBcs exLaplace_wfbc exLaplace_anchored T f hT
  have hjac : ∀ x, HasJacobianAt exLaplace.flat T x := by
    intro x
    have : exLaplace.flat = fun u => matCLM T u - f := by funext u; rw [hT]; rfl
    rw [this]
    exact (matCLM T).hasFDerivAt.sub_const f
  have hs' : ∀ (A : Matrix (Fin (totalDofs exLaplace.fes)) (Fin (totalDofs exLaplace.fes)) ℝ) b
      (_ : Fin (totalDofs exLaplace.fes) → ℝ), A.det ≠ 0 → ∃ x, adjExSolve _ A b = .ok x := by
    intro A b _ hA
    rw [adjExSolve, if_pos (isUnit_iff_ne_zero.2 hA)]
    exact ⟨_, rfl⟩
  obtain ⟨u0, hu0, -, -⟩ := C74_solver exLaplace exLaplace_rect.wf exLaplace_positive hdetm exLaplace_mono hmass
    hsm haff exLaplaceBcs exLaplace_wfbc exLaplace_anchored (fun _ => T) hjac (fun r => ‖r‖)
    (fun r => norm_nonneg r) (fun r => norm_eq_zero) (fun A b _ => adjExSolve _ A b)
    (fun A b _ x hx => adjExSolve_exact _ A b x hx) hs' false 0 zero_lt_one
  obtain ⟨l, hl⟩ := hs' (elimRows exLaplace.fes exLaplaceBcs T).transpose v 0
    (by rwa [Matrix.det_transpose])
  have hg : ∃ g, implicitVjp exLaplace.fes (fun _ => exLaplaceBcs) exLaplace.flatAt (fun _ _ => T) none
      adjExSolve u0 exLaplaceX v = .ok g := by
    rw [implicitVjp, hl]
    exact ⟨_, rfl⟩
  obtain ⟨g, hg⟩ := hg
  obtain ⟨u, h1, -, h2, h3⟩ := C84_mesh_gradient exLaplace exLaplace_rect.wf exLaplace_smooth exLaplaceBcs
    exLaplace_wfbc (fun _ _ => T) adjExSolve adjExSolve_exact exLaplaceX u0 exLaplace_nonDegenerate
    (by rw [exLaplace_flatAt]; exact hjac u0) hdet (by rw [exLaplace_flatAt]; exact hu0) v g hg
  exact ⟨fun _ _ => T, u0, g, hu0, hg, u, h1, h2, h3⟩

end JaxFem
