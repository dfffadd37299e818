import Verif.Thm.C87_Solution
import Verif.Thm.C87_Staggered

/-!
# C87: concrete cases for the hypotheses
-/

namespace JaxFem.Fracture

open Eigen (IsEigh eigenF)

/-- A function `eigh` as assumed exists. -/
theorem exists_eigh (n : Nat) : ∃ eigh : Eigh n, ∀ x, IsEigh x (eigh x).1 (eigh x).2 := by
  choose evals evecs hE using fun x : Fin n → Fin n → ℝ => Eigen.exists_eigh x
  exact ⟨fun x => (evals x, evecs x), hE⟩

/-- Pure shear: extension in one direction, compression in the other. -/
example : TensileSplit (n := 2) ![![0, 3], ![3, 0]] ![![3/2, 3/2], ![3/2, 3/2]] ![![-3/2, 3/2], ![3/2, -3/2]] where
  sum := by intro i j; fin_cases i <;> fin_cases j <;> norm_num
  pos := by
    intro v
    simp only [Fin.sum_univ_two, Matrix.cons_val_zero, Matrix.cons_val_one]
    nlinarith [sq_nonneg (v 0 + v 1)]
  neg := by
    intro v
    simp only [Fin.sum_univ_two, Matrix.cons_val_zero, Matrix.cons_val_one]
    nlinarith [sq_nonneg (v 0 - v 1)]
  orth := by
    simp only [contract, Fin.sum_univ_two, Matrix.cons_val_zero, Matrix.cons_val_one]
    norm_num

/-- In pure shear the tensile energy is half of the energy, the stress of the broken material is compressive. -/
example : ∃ eigh : Eigh 2, (∀ x, IsEigh x (eigh x).1 (eigh x).2) ∧
    psiPlus ⟨1, 1, 0, 1⟩ eigh ![![0, 3], ![3, 0]] = 9 ∧
    stressOpt1 ⟨1, 1, 0, 1⟩ eigh 0 (fun _ => 1) ![![0, 3], ![3, 0]] 0 0 = -3 := by
  obtain ⟨eigh, he⟩ := exists_eigh 2
  have hs : TensileSplit (n := 2) ![![0, 3], ![3, 0]] ![![3/2, 3/2], ![3/2, 3/2]] ![![-3/2, 3/2], ![3/2, -3/2]] := by
    refine ⟨?_, ?_, ?_, ?_⟩
    · intro i j; fin_cases i <;> fin_cases j <;> norm_num
    · intro v
      simp only [Fin.sum_univ_two, Matrix.cons_val_zero, Matrix.cons_val_one]
      nlinarith [sq_nonneg (v 0 + v 1)]
    · intro v
      simp only [Fin.sum_univ_two, Matrix.cons_val_zero, Matrix.cons_val_one]
      nlinarith [sq_nonneg (v 0 - v 1)]
    · simp only [contract, Fin.sum_univ_two, Matrix.cons_val_zero, Matrix.cons_val_one]
      norm_num
  refine ⟨eigh, he, ?_, ?_⟩
  · rw [((C87_split he _ _).2.1 _ _ hs).1]
    simp only [normSq, contract, tr, Fin.sum_univ_two, Matrix.cons_val_zero, Matrix.cons_val_one]
    norm_num
  · rw [(C87_stress he _ _ _ _).2.1 _ _ _ (by intro i j; fin_cases i <;> fin_cases j <;> norm_num) hs]
    simp only [tr, Fin.sum_univ_two, Matrix.cons_val_zero, Matrix.cons_val_one]
    norm_num

/-- A rectangle of 2 × 2 bilinear cells. -/
noncomputable def exMesh : MeshData 4 1 4 2 where
  numTotalNodes := 9
  points := (rectangleMesh 2 2 4 6).1
  cells := (rectangleMesh 2 2 (4 : ℝ) 6).2
  el := tabulate quad4N quad4G exPts (fun _ => 1/4)
  fc := ⟨fun _ _ => quad4N ![1/2, 0], fun _ _ => quad4G ![1/2, 0], fun _ _ => 1, fun _ => ![0, -1]⟩

/-- A nonnegative history that is not constant. -/
noncomputable def exHistory : List (Fin 4 → ℝ) := [fun _ => 1, fun _ => 0, fun q => if q = 0 then 2 else 3, fun _ => 0]

theorem exMesh_rect : OnRectangle (phaseProblem (material 1 1 (1/4) 1) exMesh exHistory) 2 2 4 6 exPts (fun _ => 1/4) where
  el := rfl
  points := rfl
  conn := by
    have : (rectangleMesh 2 2 (4 : ℝ) 6).2 = [[0, 3, 4, 1], [1, 4, 5, 2], [3, 6, 7, 4], [4, 7, 8, 5]] := by
      rfl
    simp only [Problem1.conn, phaseProblem, exMesh, exHistory, this]
    rfl
  nodes := rfl
  Nx_pos := by decide
  Ny_pos := by decide
  Lx_pos := by norm_num
  Ly_pos := by norm_num
  faces := by intro s hs; simp [phaseProblem] at hs

/-- The hypotheses of `C87_phase_field` hold for it. -/
example : let m := material 1 1 (1/4) 1
    0 < m.Gc ∧ 0 < m.l ∧ 0 ≤ m.lam ∧ 0 < m.mu ∧ (∀ h ∈ exHistory, ∀ q, 0 ≤ h q) ∧
    (phaseProblem m exMesh exHistory).WF ∧ (phaseProblem m exMesh exHistory).PositiveMeasure ∧
    exMesh.el.Determines ∧ exMesh.el.Unity ∧
    ∀ n < exMesh.numTotalNodes, ∃ c ∈ (phaseProblem m exMesh exHistory).cells, n ∈ c.nodes := by
  refine ⟨by norm_num [material], by norm_num [material], by norm_num [material], by norm_num [material], ?_,
    exMesh_rect.wf, ?_, ?_, ?_, ?_⟩
  · intro h hh q
    simp only [exHistory, List.mem_cons, List.not_mem_nil, or_false] at hh
    rcases hh with rfl | rfl | rfl | rfl <;> dsimp only <;> [skip; skip; split_ifs; skip] <;> norm_num
  · intro cell hc q
    rw [exMesh_rect.jac _ (List.mem_map_of_mem hc), Matrix.det_fin_two_of, mul_zero, sub_zero, exMesh_rect.el]
    exact mul_pos (mul_pos exMesh_rect.hx.1 exMesh_rect.hx.2) (by norm_num [tabulate])
  · exact (C73_determines (fun _ => 1/4) exPts (fun _ _ => 0)).2.2.1 ⟨0, 1, 0, by simp [exPts]; norm_num⟩
  · intro q
    constructor
    · simp only [SumsToOne, exMesh, tabulate, quad4N, Fin.sum_univ_four]
      simp
      ring
    · intro j
      fin_cases j <;>
      · simp [exMesh, tabulate, quad4G, Fin.sum_univ_four]
        try ring
  · intro n hn
    have hconn : (phaseProblem (material 1 1 (1/4) 1) exMesh exHistory).conn
        = [[0, 3, 4, 1], [1, 4, 5, 2], [3, 6, 7, 4], [4, 7, 8, 5]] := by
      rw [exMesh_rect.conn]; rfl
    have : ∃ cell ∈ (phaseProblem (material 1 1 (1/4) 1) exMesh exHistory).conn, n ∈ cell := by
      rw [hconn]
      have hn : n < 9 := hn
      interval_cases n <;> simp
    obtain ⟨cell, hc, hn'⟩ := this
    obtain ⟨c, hc', rfl⟩ := List.mem_map.1 hc
    exact ⟨c, hc', hn'⟩

/-- The loops come to an end for solvers with constant results: two passes. -/
example (m : Material) (eigh : Eigh 2) : ∃ outs, loads m eigh exMesh
    ⟨fun _ _ => .ok [[1]], fun _ => .ok [[2]]⟩ (1/2) 3 [1/10]
    { solU := [[0]], solD := [[0]], solUOld := [[0]], solDOld := [[0]], history := exHistory, historyOld := exHistory }
      = some (.ok outs) := by
  have r1 : relChange [[1]] [[0]] = .fin 1 := by
    simp [relChange, arrNorm, arrSub, Flt.div]
  have r2 : relChange [[2]] [[0]] = .fin 1 := by
    have : Real.sqrt (2 ^ 2) = 2 := Real.sqrt_sq (by norm_num)
    simp [relChange, arrNorm, arrSub, Flt.div]
  have r3 : relChange [[1]] [[1]] = .fin 0 := by
    simp [relChange, arrNorm, arrSub, Flt.div]
  have r4 : relChange [[2]] [[2]] = .fin 0 := by
    simp [relChange, arrNorm, arrSub, Flt.div]
  have g1 : Flt.gt (.fin (1 : ℝ)) (.fin (1/2)) = true := by simp [Flt.gt]; norm_num
  have g2 : Flt.gt (.fin (0 : ℝ)) (.fin (1/2)) = false := by simp [Flt.gt]
  have f1 : fmax (.fin (1 : ℝ)) (.fin 1) = .fin 1 := by simp [fmax, Flt.isNaN, Flt.gt]
  have f2 : fmax (.fin (0 : ℝ)) (.fin 0) = .fin 0 := by simp [fmax, Flt.isNaN, Flt.gt]
  simp only [loads, inner, pass, bind, Except.bind, pure, Except.pure, r1, r2, r3, r4, f1, f2, g1, g2, if_true,
    Bool.false_eq_true, if_false]
  exact ⟨_, rfl⟩

end JaxFem.Fracture
