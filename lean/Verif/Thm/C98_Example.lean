import Verif.Thm.C98_Solver
import Verif.Thm.C82_Elasticity
import Mathlib.Analysis.Matrix.PosDef

/-!
# C98: homogenisation — concrete cases

A cube of one cell. The periodic pairs and the corner leave no fluctuation, so that the least energy is that of the affine
deformation.
-/

namespace JaxFem.Rve

open Matrix Fracture

/-- The cube. -/
noncomputable def exRve : Problem1 (ℝ × ℝ) 8 1 8 3 3 where
  numTotalNodes := 8
  points := (boxMesh 1 1 1 1 1 1).1
  cells := (boxMesh 1 1 1 (1 : ℝ) 1 1).2.map fun c => ⟨c, fun _ => (5 / 2, 1 / 4)⟩
  el := tabulate hex8N hex8G exBoxPts (fun _ => 1/8)
  fc := ⟨fun _ _ => hex8N ![1, 1/2, 1/2], fun _ _ => hex8G ![1, 1/2, 1/2], fun _ _ => 1, fun _ => ![1, 0, 0]⟩
  tensorMap := fun _ => 0
  massMap := none
  surfaces := []

/-- Opposite faces of the cube. -/
def exFaces : List (List Nat × List Nat) := [([0, 1, 2, 3], [4, 5, 6, 7]), ([0, 1, 4, 5], [2, 3, 6, 7]), ([0, 2, 4, 6], [1, 3, 5, 7])]

/-- The pairs of nodes. -/
def exPairs : List (Nat × Nat) := exFaces.flatMap fun f => f.1.zip f.2

theorem exRve_box : OnBox exRve 1 1 1 1 1 1 exBoxPts (fun _ => 1/8) where
  el := rfl
  points := rfl
  conn := by simp [exRve, Problem1.conn, Function.comp_def]
  nodes := rfl
  Nx_pos := by decide
  Ny_pos := by decide
  Nz_pos := by decide
  Lx_pos := by norm_num
  Ly_pos := by norm_num
  Lz_pos := by norm_num
  faces := by
    intro s hs
    exact absurd hs (by simp [exRve])

theorem exRve_wf : exRve.WF := exRve_box.wf

theorem exPairs_lt : ∀ p ∈ exPairs, p.1 < exRve.numTotalNodes ∧ p.2 < exRve.numTotalNodes := by
  show ∀ p ∈ exPairs, p.1 < 8 ∧ p.2 < 8
  decide

theorem exRve_tied (w : Fin exRve.numTotalNodes → Fin 3 → ℝ) (h : Fluctuation exPairs [0] (extend w)) : w = 0 := by
  obtain ⟨h1, h2⟩ := h
  have h0 := h2 0 (by simp)
  have h4 := (h1 (0, 4) (by decide)).symm.trans h0
  have h2' := (h1 (0, 2) (by decide)).symm.trans h0
  have h1' := (h1 (0, 1) (by decide)).symm.trans h0
  have h6 := (h1 (2, 6) (by decide)).symm.trans h2'
  have h5 := (h1 (1, 5) (by decide)).symm.trans h1'
  have h3 := (h1 (1, 3) (by decide)).symm.trans h1'
  have h7 := (h1 (3, 7) (by decide)).symm.trans h3
  have key : ∀ n : Fin 8, extend w n = 0 := by
    intro n
    fin_cases n
    · exact h0
    · exact h1'
    · exact h2'
    · exact h3
    · exact h4
    · exact h5
    · exact h6
    · exact h7
  funext n
  have := key n
  rw [extend, dif_pos n.2] at this
  exact this

theorem extend_zero {N : Nat} : extend (0 : Fin N → Fin 3 → ℝ) = 0 := by
  funext n
  rw [extend]
  split_ifs <;> rfl

theorem gradient_zero (cell : List Nat) (q : Fin 8) : exRve.gradient 0 cell q = 0 := by
  have := Hyper.gradient_mul exRve (0 : Matrix (Fin 3) (Fin 3) ℝ) 0 cell q
  simp only [Matrix.zero_apply, zero_mul, Finset.sum_const_zero, Matrix.zero_mul] at this
  exact this

theorem exRve_deformation (H : Matrix (Fin 3) (Fin 3) ℝ) (cell : List Nat) (q : Fin 8) :
    deformation exRve H (extend (0 : Fin exRve.numTotalNodes → Fin 3 → ℝ)) cell q = 1 + H := by
  rw [deformation, extend_zero, gradient_zero, add_zero]

theorem exRve_minimum (H : Matrix (Fin 3) (Fin 3) ℝ) (hH : 0 < (1 + H).det) :
    IsMinimum exRve exPairs [0] H 0 (computeEnergy (.rve H) exRve (solOf (0 : Fin exRve.numTotalNodes → Fin 3 → ℝ))) := by
  refine ⟨⟨fun p _ => ?_, fun n _ => ?_⟩, fun c _ q => ?_, rfl, fun w hw _ => ?_⟩
  · rw [extend_zero]
    rfl
  · rw [extend_zero]
    rfl
  · rw [exRve_deformation]
    exact hH
  · rw [exRve_tied w hw]

/-- `C98_energy`, `C98_gradient`, `C98_minimum` and `C98_solver`: a stretch of the cube. -/
example : let H : Matrix (Fin 3) (Fin 3) ℝ := !![1/10, 0, 0; 0, 0, 1/20; 0, 0, 0]
    Admissible exRve H (extend (0 : Fin exRve.numTotalNodes → Fin 3 → ℝ)) ∧ IsEquilibrium exRve exPairs [0] (fun i j => H i j) 0 ∧
    (∃ e, IsMinimum exRve exPairs [0] H 0 e) ∧
    ∀ f ∈ exFaces, f.2.length = f.1.length ∧ (∀ n ∈ f.1, n < exRve.numTotalNodes) ∧ ∀ n ∈ f.2, n < exRve.numTotalNodes := by
  intro H
  have hd : 0 < (1 + H).det := by
    rw [det_fin_three]
    simp [H]
    norm_num
  have hm := exRve_minimum H hd
  refine ⟨hm.2.1, ?_, ⟨_, hm⟩, ?_⟩
  · exact (C98_minimum exRve exPairs [0] exRve_wf exPairs_lt (fun i j => H i j) 0
      (fun G => computeEnergy (.rve G) exRve (solOf (0 : Fin exRve.numTotalNodes → Fin 3 → ℝ))) hm).1
  · show ∀ f ∈ exFaces, f.2.length = f.1.length ∧ (∀ n ∈ f.1, n < 8) ∧ ∀ n ∈ f.2, n < 8
    decide

/-- `C98_singular`: the four vertical edges of the cube. -/
example : (∃ f ∈ exFaces, (0, 4) ∈ f.1.zip f.2) ∧ (∃ f ∈ exFaces, (2, 6) ∈ f.1.zip f.2) ∧
    (∃ f ∈ exFaces, (0, 2) ∈ f.1.zip f.2) ∧ ∃ f ∈ exFaces, (4, 6) ∈ f.1.zip f.2 := by decide

theorem exRve_energy (H : Matrix (Fin 3) (Fin 3) ℝ) :
    computeEnergy (.rve fun i j => H i j) exRve (solOf (0 : Fin exRve.numTotalNodes → Fin 3 → ℝ))
      = psi (5 / 2, 1 / 4) fun i j => (1 + H) i j := by
  rw [energy_rve, fieldOf_solOf]
  have h1 : ∀ c ∈ exRve.cells, ∀ q, psi (c.iv q) (dfm exRve (fun i j => H i j) (extend (0 : Fin exRve.numTotalNodes → Fin 3 → ℝ)) c q)
      = psi (5 / 2, 1 / 4) (fun i j => (1 + H) i j) * 1 := by
    intro c hc q
    obtain ⟨n, -, rfl⟩ := List.mem_map.1 hc
    rw [mul_one]
    congr 1
    funext i j
    show deformation exRve H (extend (0 : Fin exRve.numTotalNodes → Fin 3 → ℝ)) n q i j = _
    rw [exRve_deformation]
  rw [quad_congr exRve h1, quad_smul]
  have hv : quad exRve (fun _ _ => 1) = 1 := by
    have hc : exRve.cells = [⟨boxCorners 1 1 0 0 0, fun _ => (5 / 2, 1 / 4)⟩] := rfl
    rw [quad, hc, List.map_singleton, List.sum_singleton, cellIntegral]
    have hj : ∀ q, (1 : ℝ) * ((mapJacobian (JaxFem.coords 8 exRve.points (boxCorners 1 1 0 0 0))
        (Matrix.of (exRve.el.shapeGradsRef q))).det * exRve.el.quadWeights q) = 1 / 8 := by
      intro q
      rw [exRve_box.jac _ (exRve_box.cell_mem 0 0 0 (by decide) (by decide) (by decide)) q, det_fin_three]
      simp [exRve, tabulate]
    rw [Finset.sum_congr rfl fun q _ => hj q]
    simp
  rw [hv, mul_one]

/-- The energy of the cube as a function of the invariants. -/
noncomputable def exNet (c : Fin 6 → ℝ) : ℝ :=
  let J := √(Surrogate.flatToTensor c).det
  1 / 2 * (J ^ (-2 / 3 : ℝ) * (c 0 + c 1 + c 2) - 3) + 5 / 3 / 2 * (J - 1) ^ 2

/-- `C98_surrogate`: the cube and its energy as a network. -/
example : ∃ E : (Fin 6 → ℝ) → ℝ, ∀ x : Fin 6 → ℝ,
    (∀ d : Fin 3 → ℝ, d ≠ 0 → 0 < d ⬝ᵥ (Surrogate.flatToTensor x + 1).mulVec d) →
      (∃ v, IsMinimum exRve exPairs [0] (Surrogate.flatToTensor x) v (E x)) ∧
      exNet (trainingRow 1 (x, E x)).1 = (trainingRow 1 (x, E x)).2 := by
  refine ⟨fun x => computeEnergy (.rve fun i j => Surrogate.flatToTensor x i j) exRve
    (solOf (0 : Fin exRve.numTotalNodes → Fin 3 → ℝ)), fun x hx => ?_⟩
  set F := Surrogate.flatToTensor x + 1 with hF
  have hsym : F.transpose = F := by
    ext i j
    fin_cases i <;> fin_cases j <;> simp [hF, Surrogate.flatToTensor]
  have hdet : 0 < F.det := by
    refine PosDef.det_pos (PosDef.of_dotProduct_mulVec_pos ?_ fun d hd => ?_)
    · show F.conjTranspose = F
      rw [conjTranspose_eq_transpose_of_trivial, hsym]
    · rw [star_trivial]
      exact hx d hd
  refine ⟨⟨0, exRve_minimum _ (by rw [add_comm]; exact hdet)⟩, ?_⟩
  show exNet (Surrogate.tensorToFlat (F.transpose * F)) = computeEnergy (.rve fun i j => Surrogate.flatToTensor x i j) exRve
    (solOf (0 : Fin exRve.numTotalNodes → Fin 3 → ℝ)) / 1 ^ 3
  rw [exRve_energy, one_pow, div_one, psi, Hyper.psi_eq]
  have e1 : (Matrix.of fun i j => F i j) = F := rfl
  have e2 : Surrogate.flatToTensor (Surrogate.tensorToFlat (F.transpose * F)) = F.transpose * F :=
    (Surrogate.C96_flat 0 (F.transpose * F)).2.2.2 (by rw [transpose_mul, transpose_transpose])
  have e3 : √(F.transpose * F).det = F.det := by
    rw [det_mul, det_transpose, Real.sqrt_mul_self hdet.le]
  have e4 : ∀ i j, (1 + Surrogate.flatToTensor x) i j = F i j := fun i j => by rw [hF, add_comm]
  simp only [exNet, e2, e3, e4, e1]
  have e5 : Surrogate.tensorToFlat (F.transpose * F) 0 + Surrogate.tensorToFlat (F.transpose * F) 1
      + Surrogate.tensorToFlat (F.transpose * F) 2 = ∑ i, ∑ j, F i j ^ 2 := by
    simp [Surrogate.tensorToFlat, mul_apply, Fin.sum_univ_three]
    ring
  rw [e5]
  norm_num [Hyper.muOf, Hyper.kappaOf]

/-- `C98_moduli`, `C98_traction`: a composite of two units. -/
example : let a : Args := ⟨1, 3/10, 1000, 100, 3/10, 2/5, 1, 1, 2⟩
    InInclusion a ![1/2, 1/2, 3/2] ∧ ¬InInclusion a ![1/2, 1/2, 2] ∧ 0 < a.L ∧ a.ratio ≤ 1 / 2 := by
  intro a
  refine ⟨⟨0, 0, 1, by decide, by decide, by decide, ?_⟩, not_top a (by norm_num [a]) (by norm_num [a]) _
      (by show (2 : ℝ) = (2 : Nat) * 1; norm_num),
    by norm_num [a], by norm_num [a]⟩
  have e : (![1/2, 1/2, 3/2] : Fin 3 → ℝ) 2 = 3 / 2 := rfl
  rw [e]
  norm_num [a]

/-- `C98_collect`: one sample of two is in the folder already. -/
example : let f : Folder := ⟨[(fileName ['r'] 1, (fun _ => 0), .fin 2)], []⟩
    Valid ['r'] (fun x => (x, .fin 2)) [fun _ => 1 / 10, fun _ => 0] f ∧ todoOf 2 f = [0] := by
  intro f
  constructor
  · intro r hr
    rw [List.mem_singleton] at hr
    subst hr
    exact ⟨1, by decide, rfl, by simp⟩
  · have : doneOf f = [1] := by
      show [fileIndex (fileName ['r'] 1)] = [1]
      rw [index_name _ _ (by decide)]
    rw [todoOf, this]
    decide

end JaxFem.Rve
