import Verif.Thm.C105_Identify
import Verif.Thm.C104_Example

/-!
# C105: a concrete case

A tetrahedron with one free degree of freedom, stretched by a traction given at four quadrature points of a face.
-/

namespace JaxFem.Traction

open scoped BigOperators Topology
open CoDesign (jacOf jacOf_spec adjExSolve_total tetPts tetG tetEl tetBcs tet_jacobian)

/-- Face `x = 0` with four quadrature points. -/
noncomputable def quadFc : RefFaces ℝ 4 4 3 := ⟨fun _ _ => ![1/3, 0, 1/3, 1/3], fun _ _ => tetG, fun _ _ => 1/8, fun _ => ![-1, 0, 0]⟩

/-- The tetrahedron. -/
noncomputable abbrev pull : Problem1 ℝ 1 4 4 3 3 := problem 4 tetPts [[0, 1, 2, 3]] tetEl quadFc [(0, 0)]

theorem pull_wf : pull.WF where
  nonempty := by simp [problem]
  points := rfl
  cell_length := by simp [problem]
  cell_lt := by simp [problem]
  face_lt := by simp [problem]

theorem pull_wfbc : WFBC pull.fes tetBcs := CoDesign.tet_wfbc

theorem pull_nodes (c : Fin pull.cells.length) : (pull.cells[c]).nodes = [0, 1, 2, 3] := by
  have hc : c = ⟨0, by simp [problem]⟩ := by
    apply Fin.ext
    have : pull.cells.length = 1 := by simp [problem]
    have := c.2
    show c.1 = 0
    omega
  subst hc
  rfl

theorem pull_gradient (v : Nat → Fin 3 → ℝ) (cell : List Nat) (hc : cell = [0, 1, 2, 3]) (q : Fin 1) (i j : Fin 3) :
    pull.gradient v cell q i j = v 0 i * tetG 0 j + v 1 i * tetG 1 j + v 2 i * tetG 2 j + v 3 i * tetG 3 j := by
  have h : pull.gradient v cell q i j = ∑ a : Fin 4, v (cell.getD a 0) i *
      shapeGradsPhysical (physicalCoos 4 tetPts cell) tetG a j := gradient_eq pull v _ q i j
  have hs : ∀ a j, shapeGradsPhysical (physicalCoos 4 tetPts cell) tetG a j = tetG a j := by
    intro a j
    rw [shapeGradsPhysical, tet_jacobian _ hc, inv_one]
    simp [Matrix.one_apply]
  rw [h]
  simp only [hs]
  rw [hc, Fin.sum_univ_four]
  rfl

theorem pull_measure (c : Fin pull.cells.length) (q : Fin 1) : pull.measureAt c q = 1 / 6 := by
  have h : pull.measureAt c q = (jacobianDxDeta (physicalCoos 4 tetPts (pull.cells[c]).nodes) tetG).det * (1 / 6) := rfl
  rw [h, tet_jacobian _ (pull_nodes c), Matrix.det_one, one_mul]

theorem pull_area (q : Fin 4) : area pull (0, 0) q = 1 / 8 := by
  have h : area pull (0, 0) q = nansonScale (physicalCoos 4 tetPts [0, 1, 2, 3]) tetG ![-1, 0, 0] (1 / 8) := rfl
  rw [h, nansonScale, tet_jacobian _ rfl, inv_one, Matrix.det_one]
  simp [Matrix.one_apply, Fin.sum_univ_three]

theorem pull_vertical (q : Fin 4) (v : Nat → Fin 3 → ℝ) : vertical pull (0, 0) q v = (v 0 1 + v 2 1 + v 3 1) / 3 := by
  have h : vertical pull (0, 0) q v = ∑ a, (![1/3, 0, 1/3, 1/3] : Fin 4 → ℝ) a * v ([0, 1, 2, 3].getD a 0) 1 := rfl
  rw [h]
  simp [Fin.sum_univ_four]
  ring

theorem pull_work (θ : Fin 1 → Fin 4 → ℝ) (v : Nat → Fin 3 → ℝ) :
    tractionWork pull [(0, 0)] θ v = (∑ q, θ 0 q) * (v 0 1 + v 2 1 + v 3 1) / 24 := by
  have e : tractionWork pull [(0, 0)] θ v = ∑ q, θ 0 q * vertical pull (0, 0) q v * area pull (0, 0) q :=
    Fin.sum_univ_one (fun i : Fin 1 => ∑ q, θ i q * vertical pull [((0 : Nat), (0 : Nat))][i] q v * area pull [((0 : Nat), (0 : Nat))][i] q)
  rw [e]
  simp only [pull_area, pull_vertical, Fin.sum_univ_four]
  ring

/-- The free degree of freedom. -/
def pullDof : Fin (totalDofs pull.fes) := (7 : Fin 12)

/-- Displacement `s` of the free degree of freedom. -/
noncomputable def pullU (s : ℝ) : Fin (totalDofs pull.fes) → ℝ := Pi.single pullDof s

theorem pullU_field (s : ℝ) (n : Nat) (c : Fin 3) : pull.vecField (pullU s) n c = if n = 2 ∧ c = 1 then s else 0 :=
  CoDesign.tetU_field s n c

theorem pullU_gradient (s : ℝ) (cell : List Nat) (hc : cell = [0, 1, 2, 3]) (q : Fin 1) :
    pull.gradient (pull.vecField (pullU s)) cell q = Matrix.of fun i j => if i = 1 ∧ j = 1 then s else 0 := by
  ext i j
  rw [pull_gradient _ _ hc]
  simp only [pullU_field, Matrix.of_apply]
  fin_cases i <;> fin_cases j <;> simp [tetG]

theorem pullU_grad (s : ℝ) (c : Fin pull.cells.length) (q : Fin 1) :
    pull.gradAt (pull.vecField (pullU s)) c q = fun i j => if i = 1 ∧ j = 1 then s else 0 :=
  pullU_gradient s _ (pull_nodes c) q

theorem pull_admissible (s : ℝ) (hs : -1 < s) : pull.Admissible (pull.vecField (pullU s)) := by
  intro cell hc q
  have hc' : cell.nodes = [0, 1, 2, 3] := by
    have : cell ∈ [(⟨[0, 1, 2, 3], fun _ => 0⟩ : CellSpec ℝ 1)] := hc
    rw [List.mem_singleton] at this
    rw [this]
  rw [Problem1.defGrad, pullU_gradient s _ hc', Matrix.det_fin_three]
  simp [Matrix.one_apply]
  linarith

/-! ### The stress -/

/-- Stress in the direction of the stretch `1 + s`. -/
noncomputable def pullStress (s : ℝ) : ℝ := Hyper.firstPK energy (fun i j => if i = 1 ∧ j = 1 then s else 0) 1 1

theorem pullStress_eq (s : ℝ) (hs : -1 < s) : pullStress s = 10 ^ 6 * Shape.triStress s := by
  set F : Fin 3 → Fin 3 → ℝ := fun i j => (if i = 1 ∧ j = 1 then s else 0) + if i = j then 1 else 0 with hF
  have hE : energy = Hyper.psi 3 (10 ^ 6 * (5 / 13)) (10 ^ 6 * (5 / 6)) := by
    funext G
    rw [energy]
    congr 1 <;> norm_num [Hyper.muOf, Hyper.kappaOf]
  have hline : ∀ t : ℝ, F + t • (Pi.single 1 (Pi.single 1 1) : Fin 3 → Fin 3 → ℝ)
      = fun i j => if i = j then (if i = 1 then 1 + s + t else 1) else 0 := by
    intro t
    funext i j
    fin_cases i <;> fin_cases j <;> simp [hF]
    ring
  have hval : ∀ J : ℝ, energy (fun i j : Fin 3 => if i = j then (if i = 1 then J else 1) else 0)
      = 10 ^ 6 * (5 / 13) / 2 * (J ^ (-2 / 3 : ℝ) * (2 + J ^ 2) - 3) + 10 ^ 6 * (5 / 6) / 2 * (J - 1) ^ 2 := by
    intro J
    have hdet : (Matrix.of fun i j : Fin 3 => if i = j then (if i = 1 then J else 1) else 0).det = J := by
      rw [Matrix.det_fin_three]
      simp
    rw [hE, Hyper.psi_eq, hdet]
    congr 3
    simp [Fin.sum_univ_three]
    left
    ring
  have hdet : 0 < (Matrix.of F).det := by
    rw [Matrix.det_fin_three]
    simp [hF]
    linarith
  have hd : DifferentiableAt ℝ energy F := by
    rw [hE]
    exact ((Hyper.C88_smooth _ _ 1).1 3 _ F (.inl hdet)).differentiableAt one_ne_zero
  have h1 : HasDerivAt (fun t : ℝ => F + t • (Pi.single 1 (Pi.single 1 1) : Fin 3 → Fin 3 → ℝ)) (Pi.single 1 (Pi.single 1 1)) 0 := by
    simpa using ((hasDerivAt_id (0 : ℝ)).smul_const (Pi.single 1 (Pi.single 1 1) : Fin 3 → Fin 3 → ℝ)).const_add F
  have h2 : HasDerivAt (fun t : ℝ => energy (F + t • (Pi.single 1 (Pi.single 1 1) : Fin 3 → Fin 3 → ℝ)))
      (fderiv ℝ energy F (Pi.single 1 (Pi.single 1 1))) 0 := by
    refine HasFDerivAt.comp_hasDerivAt (l := energy) 0 ?_ h1
    rw [zero_smul, add_zero]
    exact hd.hasFDerivAt
  have h3 : HasDerivAt (fun t : ℝ => energy (F + t • (Pi.single 1 (Pi.single 1 1) : Fin 3 → Fin 3 → ℝ)))
      (10 ^ 6 * (5 / 26 * ((-2 / 3) * (1 + s) ^ (-2 / 3 - 1 : ℝ) * (2 + (1 + s) ^ 2) + (1 + s) ^ (-2 / 3 : ℝ) * (2 * (1 + s))) + 5 / 6 * s)) 0 := by
    have e : (fun t : ℝ => energy (F + t • (Pi.single 1 (Pi.single 1 1) : Fin 3 → Fin 3 → ℝ)))
        = fun t => 10 ^ 6 * (5 / 13) / 2 * ((1 + s + t) ^ (-2 / 3 : ℝ) * (2 + (1 + s + t) ^ 2) - 3)
          + 10 ^ 6 * (5 / 6) / 2 * (1 + s + t - 1) ^ 2 := by
      funext t
      rw [hline, hval]
    rw [e]
    have hl : HasDerivAt (fun t : ℝ => 1 + s + t) 1 0 := (hasDerivAt_id (0 : ℝ)).const_add (1 + s)
    have hp : HasDerivAt (fun t : ℝ => (1 + s + t) ^ (-2 / 3 : ℝ)) (1 * (-2 / 3) * (1 + s + 0) ^ (-2 / 3 - 1 : ℝ)) 0 :=
      hl.rpow_const (.inl (by linarith))
    have hq := ((hl.pow 2).const_add 2)
    have := ((hp.mul hq).sub_const 3).const_mul (10 ^ 6 * (5 / 13) / 2 : ℝ) |>.add
      (((hl.sub_const 1).pow 2).const_mul (10 ^ 6 * (5 / 6) / 2 : ℝ))
    refine this.congr_deriv ?_
    simp only [add_zero, Pi.pow_apply]
    norm_num
    ring
  have h4 := h2.unique h3
  rw [Shape.triStress_eq s hs, ← h4, pullStress]
  rfl

theorem pullStress_pos : 0 < pullStress (1 / 10) := by
  rw [pullStress_eq _ (by norm_num), Shape.triStress_simp _ (by norm_num)]
  have h1 : 1 < (1 + 1 / 10 : ℝ) ^ (1 / 3 : ℝ) := Real.one_lt_rpow (by norm_num) (by norm_num)
  have h2 : (1 + 1 / 10 : ℝ) ^ (-5 / 3 : ℝ) < 1 := Real.rpow_lt_one_of_one_lt_of_neg (by norm_num) (by norm_num)
  linarith

theorem pullStress_deriv (s : ℝ) (hs : -1 < s) : ∃ d, 0 < d ∧ HasDerivAt pullStress d s := by
  obtain ⟨d, hd, h⟩ := Shape.triStress_deriv s hs
  refine ⟨10 ^ 6 * d, by positivity, (h.const_mul (10 ^ 6)).congr_of_eventuallyEq ?_⟩
  filter_upwards [lt_mem_nhds hs] with t ht
  exact pullStress_eq t ht

/-! ### The setup -/

/-- Setup with exact derivatives and exact linear solvers. -/
noncomputable def setupOf {nq nfq nn F : Nat} (P : Problem1 ℝ nq nfq nn 3 3)
    (bcs : List (List (BCEntry ℝ))) (guess : Fin (totalDofs P.fes) → ℝ) :
    Inverse.Setup (Fin F → Fin nfq → ℝ) P.fes (totalDofs P.fes) where
  bcs := fun _ => bcs
  res := fun θ u => (setParams P θ).flat u
  tan := fun θ => jacOf fun u => (setParams P θ).flat u
  norm := fun r => ‖r‖
  solve := fun A b _ => adjExSolve _ A b
  lineSearch := false
  tol := 0
  relTol := 0
  guess := guess
  adjointSolve := adjExSolve

theorem setupOf_of {nq nfq nn F : Nat} (P : Problem1 ℝ nq nfq nn 3 3) (bcs : List (List (BCEntry ℝ)))
    (guess : Fin (totalDofs P.fes) → ℝ) : OfProblem (F := F) P bcs (setupOf P bcs guess) where
  bcs := fun _ => rfl
  res := fun _ => rfl
  tangent := fun _ u h => jacOf_spec _ u h

theorem setupOf_entry {nq nfq nn F : Nat} (P : Problem1 ℝ nq nfq nn 3 3)
    (bcs : List (List (BCEntry ℝ))) (guess : Fin (totalDofs P.fes) → ℝ) (θ : Fin F → Fin nfq → ℝ) (k : Fin (totalDofs P.fes)) (s0 d : ℝ)
    (hf : DifferentiableAt ℝ (fun u : Fin (totalDofs P.fes) → ℝ => (setParams P θ).flat u) (Pi.single k s0))
    (hd : HasDerivAt (fun s => (setParams P θ).flat (Pi.single k s : Fin (totalDofs P.fes) → ℝ) k) d s0) :
    (setupOf P bcs guess).tan θ (Pi.single k s0) k k = d := Shape.jacOf_entry _ k s0 d hf hd

theorem setupOf_fwd {nq nfq nn F : Nat} (P : Problem1 ℝ nq nfq nn 3 3)
    (bcs : List (List (BCEntry ℝ))) (guess : Fin (totalDofs P.fes) → ℝ) (θ : Fin F → Fin nfq → ℝ) (hw : WFBC P.fes bcs)
    (hs : SolvesBVP P.fes bcs (setParams P θ).flat guess) :
    (setupOf P bcs guess).fwdPred 1 θ = some (.ok guess) :=
  Shape.fwd_guess (setupOf P bcs guess) 0 θ hw hs norm_zero (le_refl 0)

theorem pull_res (θ : Fin 1 → Fin 4 → ℝ) (s : ℝ) :
    (setParams pull θ).flat (pullU s) pullDof = pullStress s / 6 - (∑ q, θ 0 q) / 24 := by
  have h := res_entry 4 tetPts [[0, 1, 2, 3]] tetEl quadFc [(0, 0)] pull_wf θ (pullU s) pullDof
  have hg : ∀ c q, pull.gradAt (pull.vecField (Pi.single pullDof 1)) c q = fun i j => if i = 1 ∧ j = 1 then 1 else 0 :=
    fun c q => pullU_grad 1 c q
  have hf : ∀ n c, pull.vecField (Pi.single pullDof 1) n c = if n = 2 ∧ c = 1 then 1 else 0 := fun n c => pullU_field 1 n c
  have hcon : ∀ A : Fin 3 → Fin 3 → ℝ, contract A (fun i j => if i = 1 ∧ j = 1 then (1 : ℝ) else 0) = A 1 1 := by
    intro A
    simp [contract, Fin.sum_univ_three]
  have hsum : ∀ f : Fin pull.cells.length → ℝ, ∑ c, f c = f ⟨0, by simp [problem]⟩ := by
    intro f
    exact Fin.sum_univ_one (fun c : Fin 1 => f c)
  refine h.trans ?_
  rw [hsum, Fin.sum_univ_one, pull_work, pullU_grad, hg, hcon, pull_measure, hf, hf, hf]
  have e : Hyper.firstPK energy (fun i j : Fin 3 => if i = 1 ∧ j = 1 then s else 0) 1 1 = pullStress s := rfl
  rw [e]
  simp
  ring

/-- The traction that balances the stretch `1 + s`. -/
noncomputable def pullT (s : ℝ) : Fin [((0 : Nat), (0 : Nat))].length → Fin 4 → ℝ := fun _ _ => pullStress s

/-- Setup of the example. -/
noncomputable abbrev pullS (s : ℝ) : Inverse.Setup (Fin [((0 : Nat), (0 : Nat))].length → Fin 4 → ℝ) pull.fes (totalDofs pull.fes) :=
  setupOf pull tetBcs (pullU s)

theorem pull_solves (s : ℝ) : SolvesBVP pull.fes tetBcs ((setParams pull (pullT s)).flat) (pullU s) := by
  refine ⟨fun (k : Fin (totalDofs pull.fes)) v hp => ?_, fun (k : Fin (totalDofs pull.fes)) hp => ?_⟩
  · obtain ⟨h1, rfl⟩ := (CoDesign.tet_prescribed k).2 v hp
    rw [pullU, Pi.single_eq_of_ne]
    intro h
    exact h1 (congrArg Fin.val h)
  · obtain rfl : k = pullDof := Fin.ext ((CoDesign.tet_prescribed k).1 hp)
    rw [pull_res]
    simp [pullT]
    ring

theorem traction_differentiable {nq nfq nn : Nat} (numTotalNodes : Nat) (points : List (Fin 3 → ℝ)) (cells : List (List Nat))
    (el : RefElement ℝ nq nn 3) (fc : RefFaces ℝ nfq nn 3) (faces : List (Nat × Nat))
    (h : (problem numTotalNodes points cells el fc faces).WF) (θ0 : Fin faces.length → Fin nfq → ℝ)
    (u0 : Fin (totalDofs (problem numTotalNodes points cells el fc faces).fes) → ℝ)
    (hadm : (problem numTotalNodes points cells el fc faces).Admissible ((problem numTotalNodes points cells el fc faces).vecField u0)) :
    DifferentiableAt ℝ (fun u : Fin (totalDofs (problem numTotalNodes points cells el fc faces).fes) → ℝ =>
      (setParams (problem numTotalNodes points cells el fc faces) θ0).flat u) u0 :=
  (res_diff numTotalNodes points cells el fc faces h (setupOf _ [] 0) [] (setupOf_of _ _ _) θ0 u0 hadm).2

theorem pull_tangent (s : ℝ) (hs : -1 < s) : (pullS s).tan (pullT s) (pullU s) pullDof pullDof ≠ 0 := by
  have hdiff := traction_differentiable 4 tetPts [[0, 1, 2, 3]] tetEl quadFc [(0, 0)] pull_wf (pullT s) (pullU s) (pull_admissible s hs)
  obtain ⟨d, hd, h3⟩ := pullStress_deriv s hs
  have h4 : HasDerivAt (fun x => (setParams pull (pullT s)).flat (pullU x) pullDof) (d / 6) s := by
    have e : (fun x => (setParams pull (pullT s)).flat (pullU x) pullDof)
        = fun x => pullStress x / 6 - (∑ q, pullT s 0 q) / 24 := funext fun x => pull_res _ x
    rw [e]
    exact (h3.div_const 6).sub_const _
  have h6 := setupOf_entry pull tetBcs (pullU s) (pullT s) pullDof s _ hdiff h4
  exact fun h0 => (div_pos hd (by norm_num : (0 : ℝ) < 6)).ne' (h6.symm.trans h0)

theorem pull_run (s : ℝ) : (pullS s).fwdPred 1 (pullT s) = some (.ok (pullU s)) := setupOf_fwd _ _ _ _ pull_wfbc (pull_solves s)

theorem pull_supported : SupportedOn pull [(0, 0)] {0, 2, 3} := by
  intro f hf q a ha
  rw [List.mem_singleton] at hf
  subst hf
  have e : pull.fc.shapeVals ((0 : Nat), (0 : Nat)).2 q a = (![1/3, 0, 1/3, 1/3] : Fin 4 → ℝ) a := rfl
  rw [e] at ha
  have e' : (pull.conn.getD ((0 : Nat), (0 : Nat)).1 []).getD a 0 = [0, 1, 2, 3].getD a 0 := rfl
  rw [e']
  fin_cases a <;> simp_all

/-! ### The property theorems apply -/

/-- `C105_load`: the work of the residual on the free degree of freedom. -/
example := C105_load 4 tetPts [[0, 1, 2, 3]] tetEl quadFc [(0, 0)] pull_wf

/-- `C105_misfit`: the weights are positive. -/
example (x y : Fin (totalDofs pull.fes) → ℝ) := (C105_misfit pull x y).2.2 fun c q => by rw [pull_measure]; norm_num

/-- `C105_gradient` and `C105_formula` apply at every equilibrium of the tetrahedron. -/
example (s : ℝ) (hs : -1 < s) (obs : Fin (totalDofs pull.fes) → ℝ) : ∃ g, (pullS s).grad 1 (misfit pull obs) (pullT s) = some (.ok g) ∧
    (∃ u : (Fin 1 → Fin 4 → ℝ) → Fin (totalDofs pull.fes) → ℝ, u (pullT s) = pullU s ∧
      HasFDerivAt (fun θ => misfit pull obs (u θ)) g (pullT s)) ∧
    ∃ w : Fin (totalDofs pull.fes) → ℝ, ∀ q : Fin 4, g (Pi.single 0 (Pi.single q 1))
      = (pull.vecField w 0 1 + pull.vecField w 2 1 + pull.vecField w 3 1) / 24 := by
  obtain ⟨u, h1, -, -, h4⟩ := C105_gradient 4 tetPts [[0, 1, 2, 3]] tetEl quadFc [(0, 0)] pull_wf tetBcs pull_wfbc (pullS s)
    (setupOf_of _ _ _) adjExSolve_exact adjExSolve_total (pullT s) (pullU s) (pull_admissible s hs)
    (CoDesign.tet_det _ (pull_tangent s hs)) (pull_solves s) 1 (pull_run s)
  obtain ⟨g, hg, hd⟩ := h4 obs
  obtain ⟨-, w, -, -, -, h7⟩ := C105_formula 4 tetPts [[0, 1, 2, 3]] tetEl quadFc [(0, 0)] pull_wf tetBcs pull_wfbc (pullS s)
    (setupOf_of _ _ _) adjExSolve_exact (pullT s) (pullU s) (pull_admissible s hs) 1 (pull_run s) obs g hg
  refine ⟨g, hg, ⟨u, h1, hd⟩, w, fun q => (h7 0 q).trans ?_⟩
  have e : vertical pull [((0 : Nat), (0 : Nat))][(0 : Fin [((0 : Nat), (0 : Nat))].length)] q (pull.vecField w)
      * area pull [((0 : Nat), (0 : Nat))][(0 : Fin [((0 : Nat), (0 : Nat))].length)] q
      = vertical pull (0, 0) q (pull.vecField w) * area pull (0, 0) q := rfl
  rw [e, pull_vertical, pull_area]
  ring

/-- `C105_stationary` applies to data produced by the traction itself. -/
example (s : ℝ) (hs : -1 < s) := C105_stationary 4 tetPts [[0, 1, 2, 3]] tetEl quadFc [(0, 0)] pull_wf tetBcs pull_wfbc (pullS s)
  (setupOf_of _ _ _) adjExSolve_exact (pullT s) (pullU s) (pull_admissible s hs) (CoDesign.tet_det _ (pull_tangent s hs)) 1
  (pull_run s) (pullU s) fun _ _ _ => rfl

/-- `C105_ambiguous` applies: three nodes, four quadrature points. -/
example := C105_ambiguous 4 tetPts [[0, 1, 2, 3]] tetEl quadFc [(0, 0)] pull_wf {0, 2, 3} pull_supported (by decide)

/-- `C105_difference` applies: the traction that stretches by `1/10` is positive. -/
example (obs : Fin (totalDofs pull.fes) → ℝ) (q : Fin 4) := C105_difference 4 tetPts [[0, 1, 2, 3]] tetEl quadFc [(0, 0)] pull_wf tetBcs pull_wfbc
  (pullS (1 / 10)) (setupOf_of _ _ _) adjExSolve_exact adjExSolve_total (pullT (1 / 10)) (pullU (1 / 10)) (pull_admissible _ (by norm_num))
  (CoDesign.tet_det _ (pull_tangent _ (by norm_num))) (pull_solves _) 1 (pull_run _) obs 0 q pullStress_pos.ne'

end JaxFem.Traction
