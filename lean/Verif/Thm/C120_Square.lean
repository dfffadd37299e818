import Verif.Thm.C120_Gradient
import Verif.Thm.C100_Rectangle

/-!
# C120: the mesh of the script
-/

namespace JaxFem.MeshCheck

open Filter Topology

variable {nq nfq nn : Nat}

/-! ### Helper lemmas -/

/-- The discretisation of the script: the rectangle mesh of the unit square with QUAD4 cells. -/
noncomputable def square (Nx Ny : Nat) (faceInds : List (List Nat)) (p : Fin nq → Fin 2 → ℝ) (w : Fin nq → ℝ)
    (fc : RefFaces ℝ nfq 4 2) : Disc nq nfq 4 :=
  ⟨(Nx + 1) * (Ny + 1), (rectangleMesh Nx Ny (1 : ℝ) 1).2, faceInds, tabulate quad4N quad4G p w, fc⟩

/-- Its points. -/
noncomputable def squarePoints (Nx Ny : Nat) : Fin ((Nx + 1) * (Ny + 1)) → Fin 2 → ℝ :=
  fun n => (rectangleMesh Nx Ny (1 : ℝ) 1).1.getD n 0

theorem squarePoints_list (Nx Ny : Nat) : List.ofFn (squarePoints Nx Ny) = (rectangleMesh Nx Ny (1 : ℝ) 1).1 := by
  refine List.ext_getElem (by rw [List.length_ofFn, (C41_points Nx Ny (1 : ℝ) 1).1]) fun n h1 h2 => ?_
  rw [List.getElem_ofFn, squarePoints, List.getD_eq_getElem _ _ h2]

section

variable (Nx Ny : Nat) (hx : 0 < Nx) (hy : 0 < Ny) (faceInds : List (List Nat)) (p : Fin nq → Fin 2 → ℝ) (w : Fin nq → ℝ)
  (fc : RefFaces ℝ nfq 4 2)

local notation "𝒟" => square Nx Ny faceInds p w fc

/-- The faces that the constructor selects. -/
noncomputable def chosen : List (Nat × Nat) :=
  argwhere2 (boundaryFlags (List.ofFn (squarePoints Nx Ny)) (rectangleMesh Nx Ny (1 : ℝ) 1).2 faceInds
    fun p _ => decide (close (p 1) 0 (1 / 10 ^ 3)))

theorem chosen_lt {f : Nat × Nat} (h : f ∈ chosen Nx Ny faceInds) : f.1 < Nx * Ny ∧ f.2 < faceInds.length := by
  obtain ⟨c, f⟩ := f
  rw [chosen, mem_argwhere2] at h
  obtain ⟨row, h1, h2⟩ := h
  have h3 := (List.getElem?_eq_some_iff.1 h1).1
  rw [boundaryFlags, List.length_map, (C41_cells Nx Ny (1 : ℝ) 1).1] at h3
  refine ⟨h3, ?_⟩
  have h4 := (List.getElem?_eq_some_iff.1 h2).1
  rw [boundaryFlags, List.getElem?_map, Option.map_eq_some_iff] at h1
  obtain ⟨cell, -, rfl⟩ := h1
  rwa [List.length_map] at h4

include hx hy in
theorem square_rect : OnRectangle ((𝒟).problem (chosen Nx Ny faceInds) (squarePoints Nx Ny)) Nx Ny 1 1 p w where
  el := rfl
  points := squarePoints_list Nx Ny
  conn := by simp [Disc.problem, Problem1.conn, Function.comp_def, square]
  nodes := rfl
  Nx_pos := hx
  Ny_pos := hy
  Lx_pos := one_pos
  Ly_pos := one_pos
  faces := by
    intro s hs f hf
    simp only [Disc.problem, List.mem_cons, List.not_mem_nil, or_false] at hs
    subst hs
    obtain ⟨g, hg, rfl⟩ := List.mem_map.1 hf
    exact (chosen_lt Nx Ny faceInds hg).1

include hx hy in
theorem square_nonDegenerate
    (hfc : ∀ f < faceInds.length, fc.normals f ≠ 0 ∧ ∀ q, ∃ y, fc.shapeGradsRef f q = quad4G y) :
    ((𝒟).problem (chosen Nx Ny faceInds) (squarePoints Nx Ny)).NonDegenerate := by
  have h := square_rect Nx Ny hx hy faceInds p w fc
  have hd : (!![(1 : ℝ) / Nx, 0; 0, 1 / Ny]).det ≠ 0 := by
    rw [Matrix.det_fin_two_of, mul_zero, sub_zero]
    exact (mul_pos h.hx.1 h.hx.2).ne'
  refine ⟨fun cell hc q => ?_, ?_⟩
  · rw [h.jac _ (List.mem_map_of_mem hc)]
    exact hd
  · intro s hs f hf q
    simp only [Disc.problem, List.mem_cons, List.not_mem_nil, or_false] at hs
    subst hs
    obtain ⟨g, hg, rfl⟩ := List.mem_map.1 hf
    obtain ⟨h1, h2⟩ := chosen_lt Nx Ny faceInds hg
    refine ⟨(hfc _ h2).1, ?_⟩
    obtain ⟨y, hy'⟩ := (hfc _ h2).2 q
    have hlen : g.1 < (rectangleMesh Nx Ny (1 : ℝ) 1).2.length := by rw [(C41_cells Nx Ny (1 : ℝ) 1).1]; exact h1
    obtain ⟨i, j, hi, hj, he⟩ := rect_cell_mem Nx Ny (1 : ℝ) 1 _ (List.getElem_mem hlen)
    have hconn : ((𝒟).problem (chosen Nx Ny faceInds) (squarePoints Nx Ny)).conn.getD g.1 [] =
        [i * (Ny + 1) + j, (i + 1) * (Ny + 1) + j, (i + 1) * (Ny + 1) + (j + 1), i * (Ny + 1) + (j + 1)] := by
      rw [h.conn, List.getD_eq_getElem _ _ hlen, he]
    show (mapJacobian (coords 4 _ (((𝒟).problem (chosen Nx Ny faceInds) (squarePoints Nx Ny)).conn.getD g.1 []))
      (Matrix.of (fc.shapeGradsRef g.2 q))).det ≠ 0
    rw [hconn, hy', h.points, rect_jacobian Nx Ny 1 1 i j hi hj y]
    exact hd

include faceInds p w fc in
/-- The nodes of the left edge are not free. -/
theorem square_left (bcs : List (List (BCEntry ℝ)))
    (hb : UserBC.problemBCs (.single (List.ofFn (squarePoints Nx Ny)) info) = .ok bcs) (j : Nat) (hj : j ≤ Ny) :
    ¬ FreeDof (bcs.getD 0 []) j 0 := by
  intro hf
  obtain ⟨hw, hiff⟩ := UserBC.C107_conditions (𝒟).fes _ (suits 𝒟 (squarePoints Nx Ny)) bcs hb
  have hlt : j < (Nx + 1) * (Ny + 1) := by
    have := gridNode_lt (W := Ny + 1) (H := Nx + 1) (a := 0) (b := j) (by omega) (by omega)
    omega
  have hlen : 0 < bcs.length := by rw [hw.len]; exact Nat.one_pos
  have hes : bcs[0]? = some (bcs.getD 0 []) := by
    rw [List.getD_eq_getElem _ _ hlen]
    exact List.getElem?_eq_getElem hlen
  have h1 := (hiff 0 j 0 ⟨(Nx + 1) * (Ny + 1), 1, 4, ((𝒟).problem [] 0).conn⟩ _ info rfl rfl rfl hlt Nat.one_pos none).1
    (.free 0 j 0 _ _ rfl hes hlt Nat.one_pos rfl hf)
  cases h1 with
  | free hfree =>
    have hp := rect_point Nx Ny (1 : ℝ) 1 0 j (Nat.zero_le _) hj
    rw [Nat.zero_mul, Nat.zero_add] at hp
    have hp' : (List.ofFn (squarePoints Nx Ny))[j]? = some ![((0 : Nat) : ℝ) * (1 / Nx), (j : ℝ) * (1 / Ny)] := by
      rw [squarePoints_list]
      exact hp
    refine hfree (left, 0, u0) (by simp [UserBC.conds, info]) ⟨rfl, _, hp', ?_⟩
    show decide _ = true
    rw [decide_eq_true_iff, close]
    norm_num

/-- A grid node within `1e-3` of the bottom lies on the bottom. -/
theorem square_bottom (hN : Ny < 1000) (n : Fin ((Nx + 1) * (Ny + 1))) (h : |squarePoints Nx Ny n 1| ≤ 1 / 1000) :
    squarePoints Nx Ny n 1 = 0 := by
  by_cases hy : Ny = 0
  · subst hy
    have hp := rect_point Nx 0 (1 : ℝ) 1 n 0 (by have := n.2; omega) le_rfl
    have hn : (n : Nat) * (0 + 1) + 0 = n := by omega
    rw [hn] at hp
    rw [squarePoints, List.getD_eq_getElem?_getD, hp]
    simp
  have h1 := Nat.div_lt_of_lt_mul (m := n) (n := Ny + 1) (k := Nx + 1) (by
    have := n.2
    have e : (Ny + 1) * (Nx + 1) = (Nx + 1) * (Ny + 1) := mul_comm _ _
    omega)
  have h2 := Nat.mod_lt n (y := Ny + 1) (by omega)
  have h3 : (n : Nat) / (Ny + 1) * (Ny + 1) + n % (Ny + 1) = n := by
    rw [mul_comm]; exact Nat.div_add_mod n (Ny + 1)
  have hp := rect_point Nx Ny (1 : ℝ) 1 (n / (Ny + 1)) (n % (Ny + 1)) (by omega) (by omega)
  rw [h3] at hp
  have hv : squarePoints Nx Ny n 1 = ((n % (Ny + 1) : Nat) : ℝ) * (1 / Ny) := by
    rw [squarePoints, List.getD_eq_getElem?_getD, hp]
    rfl
  rw [hv] at h ⊢
  have hNy : (0 : ℝ) < Ny := Nat.cast_pos.2 (Nat.pos_of_ne_zero hy)
  generalize (n : Nat) % (Ny + 1) = j at h
  rw [abs_of_nonneg (by positivity), mul_one_div, div_le_iff₀ hNy] at h
  have h4 : (Ny : ℝ) < 1000 := by exact_mod_cast hN
  have h5 : (j : ℝ) < 1 := by linarith
  have h6 : j = 0 := by
    have : j < 1 := by exact_mod_cast h5
    omega
  rw [h6]
  simp

/-! ### Property theorems -/

include hx hy in
/-- **C120 (the script's mesh).** On the QUAD4 mesh of the unit square with any numbers of cells up to those for which grid
lines fall into the tolerances (the script has 32 × 32), a node of the bottom edge inside the edge and nearest to `(0.35, 0)` is
picked; the problem built there has exactly one solution; with exact solvers and the derivative of the residual as tangent the
gradient is obtained, and the script's difference quotient for the picked node exists for all small steps, with unchanged face
counts, and converges to the corresponding entry of the gradient as the step tends to zero. -/
theorem C120_square (hx2 : 2 ≤ Nx) (hNx : Nx < 10000) (hNy : Ny < 1000) (hw : ∀ q, 0 < w q)
    (hp : ∃ q q' k, p q k ≠ p q' k)
    (hfc : ∀ f < faceInds.length, fc.normals f ≠ 0 ∧ ∀ q, ∃ y, fc.shapeGradsRef f q = quad4G y) :
    ∃ (node : Fin ((Nx + 1) * (Ny + 1))) (bcs : List (List (BCEntry ℝ))) (faces : List (Nat × Nat)),
      pick (List.ofFn (squarePoints Nx Ny)) = .ok node.1 ∧ IsNearest (List.ofFn (squarePoints Nx Ny)) node.1 ∧
      squarePoints Nx Ny node 1 = 0 ∧ (𝒟).build (squarePoints Nx Ny) = .ok (bcs, faces) ∧
      (∃! u, SolvesBVP (𝒟).fes bcs ((𝒟).res faces (squarePoints Nx Ny)) u) ∧
      ∀ (solver : Solver 𝒟), ExactAt 𝒟 solver bcs faces →
      ∀ (tan : List (Nat × Nat) → (𝒟).Points → (𝒟).Vec → Matrix (Fin (totalDofs (𝒟).fes)) (Fin (totalDofs (𝒟).fes)) ℝ),
      (∀ u, HasJacobianAt ((𝒟).res faces (squarePoints Nx Ny)) (tan faces (squarePoints Nx Ny) u) u) →
      ∀ (adjointSolve : (n : Nat) → Matrix (Fin n) (Fin n) ℝ → (Fin n → ℝ) → Except Err (Fin n → ℝ)),
      ExactAdjointSolver adjointSolve →
      (∀ n (A : Matrix (Fin n) (Fin n) ℝ) b, A.det ≠ 0 → ∃ x, adjointSolve n A b = .ok x) →
      ∃ g, ∃ q : ℝ → ℝ,
        (∀ᶠ e in 𝓝 0, (𝒟).main solver tan adjointSolve (squarePoints Nx Ny) 1 e = .ok (node.1, g, q e)) ∧
        Tendsto q (𝓝[≠] 0) (𝓝 (g (unit 𝒟 node))) := by
  have hin : ∃ r ∈ List.ofFn (squarePoints Nx Ny), InsideEdge r := by
    have h1 := rect_point Nx Ny (1 : ℝ) 1 1 0 (by omega) (Nat.zero_le _)
    refine ⟨_, by rw [squarePoints_list]; exact List.mem_of_getElem? h1, ?_, ?_, ?_⟩
    · simp
    · have : (0 : ℝ) < Nx := Nat.cast_pos.2 hx
      have h2 : (Nx : ℝ) < 10000 := by exact_mod_cast hNx
      show 1 / 10000 < ((1 : Nat) : ℝ) * (1 / Nx)
      rw [Nat.cast_one, one_mul]
      exact one_div_lt_one_div_of_lt this h2
    · have h2 : (2 : ℝ) ≤ Nx := by exact_mod_cast hx2
      show ((1 : Nat) : ℝ) * (1 / Nx) < 9999 / 10000
      rw [Nat.cast_one, one_mul]
      have : (1 : ℝ) / Nx ≤ 1 / 2 := one_div_le_one_div_of_le two_pos h2
      linarith
  obtain ⟨n, hpick, hnear⟩ := (C120_pick _).1 hin
  obtain ⟨r, hr, hedge, hmin⟩ := id hnear
  have hn : n < (Nx + 1) * (Ny + 1) := by
    have := (List.getElem?_eq_some_iff.1 hr).1
    rwa [List.length_ofFn] at this
  have hval : squarePoints Nx Ny ⟨n, hn⟩ = r := by
    rw [List.getElem?_ofFn, dif_pos hn] at hr
    exact Option.some.inj hr
  have hzero : squarePoints Nx Ny ⟨n, hn⟩ 1 = 0 := square_bottom Nx Ny hNy _ (by rw [hval]; exact hedge.1)
  obtain ⟨bcs, hb1, hb2, hb3⟩ := build_ok 𝒟 (squarePoints Nx Ny)
  have hrect := square_rect Nx Ny hx hy faceInds p w fc
  have hpos := Inverse.rectangle_positive hrect hw
  have hdet : (𝒟).el.Determines := (C73_determines w p (fun _ _ => 0)).2.2.1 hp
  have hnd := square_nonDegenerate Nx Ny hx hy faceInds p w fc hfc
  have hanch : ((𝒟).problem (chosen Nx Ny faceInds) (squarePoints Nx Ny)).Anchored fun n c => FreeDof (bcs.getD 0 []) n c :=
    Inverse.rectangle_left hrect _ fun j hj c => by
      rw [Subsingleton.elim c 0]
      exact square_left Nx Ny faceInds p w fc bcs hb1 j hj
  refine ⟨⟨n, hn⟩, bcs, chosen Nx Ny faceInds, hpick, hnear, hzero, hb2,
    (C120_poisson 𝒟 bcs _ _ hb3 hrect.wf hdet hpos hnd hanch).1, ?_⟩
  intro solver hsol tan htan adjointSolve hs htot
  obtain ⟨J, g, h1, q, h2, h3⟩ := C120_gradient 𝒟 bcs _ _ hb2 hrect.wf hdet hpos hnd hanch solver hsol tan htan adjointSolve hs
    htot ⟨n, hn⟩ (by
      have : |squarePoints Nx Ny ⟨n, hn⟩ 1| < 1 / 1000 := by rw [hzero]; norm_num
      exact this)
  refine ⟨g, q, ?_, h3⟩
  filter_upwards [h2] with e he
  obtain ⟨Jm, Jp, he⟩ := he
  exact main_ok 𝒟 solver tan adjointSolve _ e bcs _ n J Jm Jp _ g hb2 hpick h1 he

end

/-! ### The mesh of the script with concrete solvers -/

/-- A solver that returns a solution if there is one. -/
noncomputable def someSolver (D : Disc nq nfq nn) : Solver D := fun bcs faces x =>
  open scoped Classical in
  if h : ∃ u, SolvesBVP D.fes bcs (D.res faces x) u then .ok h.choose else .error .runtime

theorem someSolver_exact (D : Disc nq nfq nn) (bcs : List (List (BCEntry ℝ))) (faces : List (Nat × Nat)) :
    ExactAt D (someSolver D) bcs faces := by
  intro x
  constructor
  · intro u hu
    by_cases h : ∃ u, SolvesBVP D.fes bcs (D.res faces x) u
    · rw [someSolver, dif_pos h] at hu
      rw [← Except.ok.inj hu]
      exact h.choose_spec
    · rw [someSolver, dif_neg h] at hu
      cases hu
  · intro h
    exact ⟨_, by rw [someSolver, dif_pos h]⟩

/-- Edges of the reference square with one point each. -/
noncomputable def exFaces : RefFaces ℝ 1 4 2 where
  shapeVals := fun f _ => quad4N (![![1 / 2, 0], ![0, 1 / 2], ![1, 1 / 2], ![1 / 2, 1]] (Fin.ofNat 4 f))
  shapeGradsRef := fun f _ => quad4G (![![1 / 2, 0], ![0, 1 / 2], ![1, 1 / 2], ![1 / 2, 1]] (Fin.ofNat 4 f))
  quadWeights := fun _ _ => 1
  normals := fun f => ![![0, -1], ![-1, 0], ![1, 0], ![0, 1]] (Fin.ofNat 4 f)

theorem exFaces_ok : ∀ f < [[0, 1], [0, 3], [1, 2], [2, 3]].length, exFaces.normals f ≠ 0 ∧
    ∀ q, ∃ y, exFaces.shapeGradsRef f q = quad4G y := by
  intro f hf
  refine ⟨?_, fun q => ⟨_, rfl⟩⟩
  have hf' : f < 4 := hf
  interval_cases f
  · exact fun h => by
      have h1 : (-1 : ℝ) = 0 := congrFun h 1
      norm_num at h1
  · exact fun h => by
      have h1 : (-1 : ℝ) = 0 := congrFun h 0
      norm_num at h1
  · exact fun h => by
      have h1 : (1 : ℝ) = 0 := congrFun h 0
      norm_num at h1
  · exact fun h => by
      have h1 : (1 : ℝ) = 0 := congrFun h 1
      norm_num at h1

theorem exists_jacobian {N M : Nat} (f : (Fin N → ℝ) → Fin M → ℝ) (u : Fin N → ℝ) (h : DifferentiableAt ℝ f u) :
    ∃ T, HasJacobianAt f T u := by
  refine ⟨LinearMap.toMatrix' (fderiv ℝ f u).toLinearMap, ?_⟩
  have e : matCLM (LinearMap.toMatrix' (fderiv ℝ f u).toLinearMap) = fderiv ℝ f u := by
    refine ContinuousLinearMap.ext fun v => ?_
    show Matrix.mulVec _ v = _
    rw [← Matrix.toLin'_apply, Matrix.toLin'_toMatrix']
    rfl
  rw [HasJacobianAt, e]
  exact h.hasFDerivAt

/-- The mesh of the script: the check converges for a solver that returns the solution, the matrix that is the tangent and the
adjoint solver by the inverse matrix. -/
theorem square_runs (Nx Ny : Nat) (hx : 2 ≤ Nx) (hy : 0 < Ny) (hNx : Nx < 10000) (hNy : Ny < 1000) (D : Disc 4 1 4)
    (hD : D = square Nx Ny [[0, 1], [0, 3], [1, 2], [2, 3]] gaussPts (fun _ => 1 / 4) exFaces) :
    ∃ (node : Fin D.numNodes) (x : D.Points) (tan : _) (g : _) (q : ℝ → ℝ), List.ofFn x = (rectangleMesh Nx Ny (1 : ℝ) 1).1 ∧
      (∀ᶠ e in 𝓝 0, D.main (someSolver D) tan adjExSolve x 1 e = .ok (node.1, g, q e)) ∧
      Tendsto q (𝓝[≠] 0) (𝓝 (g (unit D node))) := by
  subst hD
  have hp : ∃ q q' k, gaussPts q k ≠ gaussPts q' k := ⟨0, 2, 0, by
    have h3 : (0 : ℝ) < √3 := Real.sqrt_pos.2 (by norm_num)
    have : (1 : ℝ) / 2 - √3 / 6 ≠ 1 / 2 + √3 / 6 := by
      intro h
      linarith
    exact this⟩
  obtain ⟨node, bcs, faces, -, -, -, h4, -, h6⟩ := C120_square Nx Ny (by omega) hy [[0, 1], [0, 3], [1, 2], [2, 3]]
    gaussPts (fun _ => 1 / 4) exFaces hx hNx hNy (fun _ => by norm_num) hp exFaces_ok
  have hfaces : faces = chosen Nx Ny [[0, 1], [0, 3], [1, 2], [2, 3]] := by
    obtain ⟨bcs', -, h, -⟩ := build_ok (square Nx Ny [[0, 1], [0, 3], [1, 2], [2, 3]] gaussPts (fun _ => 1 / 4) exFaces)
      (squarePoints Nx Ny)
    exact congrArg Prod.snd (Except.ok.inj (h4.symm.trans h))
  have hdiff := fun u => exists_jacobian _ u (res_differentiable _ _ _
    (square_rect Nx Ny (by omega) hy [[0, 1], [0, 3], [1, 2], [2, 3]] gaussPts (fun _ => 1 / 4) exFaces).wf
    (square_nonDegenerate Nx Ny (by omega) hy _ _ _ _ exFaces_ok) u)
  rw [← hfaces] at hdiff
  choose T hT using hdiff
  obtain ⟨g, q, h7, h8⟩ := h6 (someSolver _) (someSolver_exact _ _ _) (fun _ _ u => T u) hT adjExSolve adjExSolve_exact
    fun n A b hd => by
      rw [adjExSolve, if_pos (isUnit_iff_ne_zero.2 hd)]
      exact ⟨_, rfl⟩
  exact ⟨node, squarePoints Nx Ny, fun _ _ u => T u, g, q, squarePoints_list Nx Ny, h7, h8⟩

example := square_runs 32 32 (by norm_num) (by norm_num) (by norm_num) (by norm_num) _ rfl

end JaxFem.MeshCheck
