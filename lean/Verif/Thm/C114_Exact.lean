import Verif.Thm.C114_Script
import Verif.Thm.C91_Solver

/-!
# C114: exact reproduction, and what the errors do not see
-/

namespace JaxFem.Convergence

open Matrix

variable {IV : Type} {nq nfq nn vec dim : Nat}

section exact_

variable {f : (Fin dim → ℝ) → Fin 1 → ℝ} {N : Nat} {points : List (Fin dim → ℝ)} {cells : List (CellSpec IV nq)}
  {el : RefElement ℝ nq nn dim} {fc : RefFaces ℝ nfq nn dim}

theorem field_range (N : Nat) (g : Nat → ℝ) (n : Nat) (c : Fin 1) :
    fieldOf 1 ((List.range N).map fun n => [g n]) n c = if n < N then g n else 0 := by
  rw [Subsingleton.elim c 0]
  by_cases hn : n < N <;> simp [fieldOf, List.getD_eq_getElem?_getD, hn]

theorem field_congr {P : Problem1 IV nq nfq nn vec dim} (hwf : P.WF) {v w : Nat → Fin vec → ℝ}
    (h : ∀ n < P.numTotalNodes, ∀ c, v n c = w n c) {cell : CellSpec IV nq} (hc : cell ∈ P.cells) :
    restrict nn v cell.nodes = restrict nn w cell.nodes := by
  ext a c
  have ha : (a : Nat) < cell.nodes.length := by rw [hwf.cell_length cell hc]; exact a.2
  have hm : cell.nodes.getD a 0 ∈ cell.nodes := by rw [List.getD_eq_getElem _ _ ha]; exact List.getElem_mem ha
  exact h _ (hwf.cell_lt cell hc _ hm) c

/-- **C114 (exact reproduction).** If the consistency functional vanishes and some array with the same prescribed values has
the right gradient at all quadrature points, the solution of the discrete equations *is* this array; if its values are right
there too, both errors are zero. -/
theorem C114_exact {P : Problem1 IV nq nfq nn 1 dim} (hP : P = problem f N points cells el fc) (hwf : P.WF)
    (hpos : P.PositiveMeasure) (hdet : P.el.Determines)
    (T : (Fin dim → ℝ) → Fin 1 → Fin dim → ℝ) (L : (Fin dim → ℝ) → Fin 1 → ℝ) (hT : HasGrad f T) (hL : HasDiv T L)
    (free : Nat → Fin 1 → Prop) (hanch : P.Anchored free) (hD : ∀ v, Vanishing free v → consistency P T L v = 0)
    (sol other : List (List ℝ)) (hs : HasShapes [(P.numTotalNodes, 1)] [sol]) (hsol : IsSolution P free sol)
    (hbc : ∀ n c, ¬free n c → fieldOf 1 sol n c = fieldOf 1 other n c) (ho : gradError P T (fieldOf 1 other) = 0) :
    (∀ n < P.numTotalNodes, fieldOf 1 sol n 0 = fieldOf 1 other n 0) ∧
    (valueError P f (fieldOf 1 other) = 0 → computeL2 P sol f = 0 ∧ computeH1 P sol f = 0) := by
  have hb := C114_best hP hwf (fun cell hc q => (hpos cell hc q).le) T L hT hL free hD sol other hs hsol hbc
  rw [ho] at hb
  have g1 : gradError P T (fieldOf 1 sol) = 0 := by
    have h1 := sq_nonneg (gradError P T (fieldOf 1 sol))
    have h2 := sq_nonneg (gradError P (fun _ _ _ => 0) fun n c => fieldOf 1 sol n c - fieldOf 1 other n c)
    exact pow_eq_zero_iff (n := 2) (by norm_num) |>.1 (by linarith)
  rw [gradError_zero P hpos] at ho
  have g1' := (gradError_zero P hpos T _).1 g1
  have hall := field_unique P hwf hpos hdet free hanch (fieldOf 1 sol) (fieldOf 1 other)
    (fun cell hc q => by
      ext c j
      rw [g1' cell hc q c j, ho cell hc q c j]) hbc
  refine ⟨fun n hn => hall n hn 0, fun hv => ?_⟩
  have v0 : valueError P f (fieldOf 1 sol) = 0 := by
    rw [valueError_zero P hpos] at hv ⊢
    intro cell hc q
    rw [← hv cell hc q, valueAt, valueAt, field_congr hwf hall hc]
  obtain ⟨e1, e2⟩ := C114_errors P sol f T hT
  rw [e1, e2, v0, g1, add_zero]
  exact ⟨rfl, rfl⟩

end exact_

/-! ### Affine functions on the rectangle mesh -/

section rectangle

variable {Nx Ny : Nat} {Lx Ly : ℝ} {p : Fin nq → Fin 2 → ℝ} {w : Fin nq → ℝ}

/-- A constant matrix field does no work on fields that vanish on the boundary of the rectangle. -/
theorem rect_consistency (P : Problem1 IV nq nfq 4 1 2) (h : OnRectangle P Nx Ny Lx Ly p w)
    (hw : ∑ q, w q = 1) (hw0 : ∑ q, w q * p q 0 = 1 / 2) (hw1 : ∑ q, w q * p q 1 = 1 / 2) (G : Fin 1 → Fin 2 → ℝ)
    (v : Nat → Fin 1 → ℝ) (hv : Vanishing (fun n _ => rectInterior Nx Ny n) v) :
    consistency P (fun _ => G) (fun _ _ => 0) v = 0 := by
  set Q : Problem1 IV nq nfq 4 1 2 := { P with tensorMap := fun _ _ => G, massMap := none, surfaces := [] } with hQ
  have hr : OnRectangle Q Nx Ny Lx Ly p w := ⟨h.el, h.points, h.conn, h.nodes, h.Nx_pos, h.Ny_pos, h.Lx_pos, h.Ly_pos,
    fun s hs => absurd hs List.not_mem_nil⟩
  have hsh : HasShapes [(Q.numTotalNodes, 1)] [List.replicate Q.numTotalNodes [(0 : ℝ)]] :=
    ⟨_, _, rfl, by simp, by intro r hr; rw [List.eq_of_mem_replicate hr]; rfl, rfl⟩
  have hs := C73_patch Q hr hw hw0 hw1 (fun _ _ _ => rfl) rfl rfl _ hsh (fun _ _ => 0) (fun _ => 0) (by
    intro n hn i
    rw [Subsingleton.elim i 0]
    simp [fieldOf, List.getD_eq_getElem?_getD, hn])
  have hg := (C72_galerkin Q hr.wf _ hsh _).1 hs v hv
  have e : Q.virtualWork (fieldOf 1 (List.replicate Q.numTotalNodes [(0 : ℝ)])) v = Q.tensorWork (fieldOf 1
      (List.replicate Q.numTotalNodes [(0 : ℝ)])) v + 0 + 0 := rfl
  rw [e, add_zero, add_zero] at hg
  rw [consistency]
  simp only [zero_mul, Finset.sum_const_zero, add_zero]
  exact hg

/-- Gradient of an affine function. -/
theorem affine_grad (G : Fin 1 → Fin dim → ℝ) (b : Fin 1 → ℝ) :
    HasGrad (fun (x : Fin dim → ℝ) i => ∑ j, G i j * x j + b i) fun _ => G := by
  intro x
  refine ⟨(Matrix.mulVecLin (Matrix.of G)).toContinuousLinearMap, ?_, fun c j => ?_⟩
  · have h := ((Matrix.mulVecLin (Matrix.of G)).toContinuousLinearMap.hasFDerivAt (x := x)).add_const b
    exact h
  · simp

theorem const_div (G : Fin 1 → Fin dim → ℝ) : HasDiv (fun _ : Fin dim → ℝ => G) fun _ _ => 0 := fun x =>
  ⟨fun _ _ _ => 0, fun c i => ⟨0, hasFDerivAt_const _ _, fun j => rfl⟩, fun c => by simp⟩

/-- **C114 (affine functions).** On the rectangle mesh, with positive weights that integrate linear functions exactly and with
quadrature points that differ in some coordinate, the study of an affine function reports two zeros, for all mesh sizes. -/
theorem C114_affine {N : Nat} {points : List (Fin 2 → ℝ)} {cells : List (CellSpec IV nq)}
    {el : RefElement ℝ nq 4 2} {fc : RefFaces ℝ nfq 4 2} (G : Fin 1 → Fin 2 → ℝ) (b : Fin 1 → ℝ)
    {P : Problem1 IV nq nfq 4 1 2} (hP : P = problem (fun x i => ∑ j, G i j * x j + b i) N points cells el fc)
    (h : OnRectangle P Nx Ny Lx Ly p w) (hw : ∑ q, w q = 1) (hw0 : ∑ q, w q * p q 0 = 1 / 2)
    (hw1 : ∑ q, w q * p q 1 = 1 / 2) (hpos : ∀ q, 0 < w q) (hp : ∃ q q' k, p q k ≠ p q' k)
    (sol : List (List ℝ)) (hs : HasShapes [(P.numTotalNodes, 1)] [sol])
    (hsol : IsSolution P (fun n _ => rectInterior Nx Ny n) sol)
    (hbc : ∀ n < P.numTotalNodes, ¬rectInterior Nx Ny n → fieldOf 1 sol n 0 = ∑ j, G 0 j * (P.points.getD n 0) j + b 0) :
    computeL2 P sol (fun x i => ∑ j, G i j * x j + b i) = 0 ∧ computeH1 P sol (fun x i => ∑ j, G i j * x j + b i) = 0 := by
  set aff : List (List ℝ) := (List.range P.numTotalNodes).map fun n =>
    [∑ j, G 0 j * (P.points.getD n 0) j + b 0] with haff
  have hval : ∀ n < P.numTotalNodes, ∀ i, fieldOf 1 aff n i = ∑ j, G i j * (P.points.getD n 0) j + b i := by
    intro n hn i
    rw [haff, field_range, if_pos hn, Subsingleton.elim i 0]
  have hposm : P.PositiveMeasure := by
    intro cell hc q
    rw [h.jac _ (List.mem_map_of_mem hc), Matrix.det_fin_two_of, mul_zero, sub_zero, h.el]
    exact mul_pos (mul_pos h.hx.1 h.hx.2) (hpos q)
  have hdet : P.el.Determines := by
    rw [h.el]; exact (C73_determines w p (fun _ _ => 0)).2.2.1 hp
  have hunity : P.el.Unity := by
    rw [h.el]; exact (C10_first_order_unity w p (fun _ _ => 0)).2.1
  have hcell : ∀ cell ∈ P.cells, ∀ n ∈ cell.nodes, ∀ i, fieldOf 1 aff n i = ∑ j, G i j * (P.points.getD n 0) j + b i :=
    fun cell hc n hn i => hval n (h.wf.cell_lt cell hc n hn) i
  have hzero : ∀ s : List (List ℝ), s.length = P.numTotalNodes → ∀ n, ¬n < P.numTotalNodes → ∀ c : Fin 1, fieldOf 1 s n c = 0 := by
    intro s e n hn c
    rw [fieldOf, List.getD_eq_default s _ (by rw [e]; omega)]
    simp
  have hlen : sol.length = P.numTotalNodes := by
    obtain ⟨_, _, e1, e2, -, -⟩ := hs
    cases e1
    exact e2
  refine (C114_exact hP h.wf hposm hdet (fun _ => G) (fun _ _ => 0) (affine_grad G b) (const_div G)
    (fun n _ => rectInterior Nx Ny n) (rect_anchored P h) (rect_consistency P h hw hw0 hw1 G) sol aff hs hsol ?_ ?_).2 ?_
  · intro n c hn
    by_cases hlt : n < P.numTotalNodes
    · rw [hval n hlt c, Subsingleton.elim c 0, hbc n hlt hn]
    · rw [hzero sol hlen n hlt, hzero aff (by simp [haff]) n hlt]
  · rw [gradError_zero P hposm]
    intro cell hc q c j
    have hcm : cell.nodes ∈ P.conn := List.mem_map_of_mem hc
    rw [affine_gradient P hunity cell.nodes (h.wf.cell_length cell hc) (fieldOf 1 aff) G b (hcell cell hc) q (by
      rw [h.jac _ hcm, Matrix.det_fin_two_of, mul_zero, sub_zero]
      exact (mul_pos h.hx.1 h.hx.2).ne')]
  · rw [valueError_zero P hposm]
    intro cell hc q
    funext c
    rw [← value_eq, C10_affine_value P.el hunity P.points aff cell.nodes (h.wf.cell_length cell hc) G b (hcell cell hc) q c,
      physicalPoint_eq]
    rfl

end rectangle

/-! ### What the errors do not see -/

/-- **C114 (blind spot).** With linear tetrahedra and one quadrature point per cell, the first error vanishes if and only if the
mean of the four nodal values of each cell is the value of the given function at its centre; the nodal values themselves may be
arbitrarily wrong. -/
theorem C114_blind (P : Problem1 IV 1 nfq 4 1 3) (hpos : P.PositiveMeasure) (w : ℝ)
    (hel : P.el = tabulate tet4N tet4G (fun _ => ![1 / 4, 1 / 4, 1 / 4]) fun _ => w) (sol : List (List ℝ))
    (u : (Fin 3 → ℝ) → Fin 1 → ℝ) :
    computeL2 P sol u = 0 ↔ ∀ cell ∈ P.cells,
      (∑ a : Fin 4, fieldOf 1 sol (cell.nodes.getD a 0) 0) / 4
        = u (fun i => (∑ a : Fin 4, P.points.getD (cell.nodes.getD a 0) 0 i) / 4) 0 := by
  rw [computeL2_eq, valueError_zero P hpos]
  refine forall₂_congr fun cell _ => ?_
  have hN : P.el.shapeVals 0 = fun _ => 1 / 4 := by
    rw [hel]
    funext a
    change ![1 - 1 / 4 - 1 / 4 - 1 / 4, 1 / 4, 1 / 4, 1 / 4] a = (1 / 4 : ℝ)
    fin_cases a
    · norm_num
    all_goals rfl
  have h1 : place P cell.nodes 0 = fun i => (∑ a : Fin 4, P.points.getD (cell.nodes.getD a 0) 0 i) / 4 := by
    funext i
    rw [place, positionIn, hN]
    simp only [vecMul, dotProduct, coords, of_apply, Fin.sum_univ_four]
    ring
  have h2 : valueAt P (fieldOf 1 sol) cell.nodes 0 0 = (∑ a : Fin 4, fieldOf 1 sol (cell.nodes.getD a 0) 0) / 4 := by
    change ∑ a, P.el.shapeVals 0 a * restrict 4 (fieldOf 1 sol) cell.nodes a 0 = _
    rw [hN]
    simp only [restrict, of_apply, Fin.sum_univ_four]
    ring
  rw [← h1, ← h2]
  constructor
  · intro h
    exact congrFun (h 0) 0
  · intro h q
    rw [Subsingleton.elim q 0]
    funext c
    rw [Subsingleton.elim c 0]
    exact h

/-! ### The script -/

/-- **C114 (the script).** For the manufactured solution on any mesh with nonnegative weights: the second error of a solution of the
discrete equations that takes the prescribed values exceeds the first one by at most the gradient error of the nodal values of the
manufactured solution plus the bound of the consistency functional. -/
theorem C114_script {N : Nat} {points : List (Fin 3 → ℝ)} {cells : List (CellSpec IV nq)} {el : RefElement ℝ nq nn 3}
    {fc : RefFaces ℝ nfq nn 3} {P : Problem1 IV nq nfq nn 1 3} (hP : P = problem trueU N points cells el fc) (hwf : P.WF)
    (hw : ∀ cell ∈ P.cells, ∀ q, 0 ≤ (mapJacobian (coords nn P.points cell.nodes)
      (Matrix.of (P.el.shapeGradsRef q))).det * P.el.quadWeights q)
    (D : ℝ) (hD0 : 0 ≤ D)
    (hD : ∀ v, Vanishing (fun n _ => n < P.numTotalNodes ∧ ¬NearFace (P.points.getD n 0)) v →
      |consistency P gradU lapU v| ≤ D * gradError P (fun _ _ _ => 0) v)
    (sol : List (List ℝ)) (hs : HasShapes [(P.numTotalNodes, 1)] [sol])
    (hsol : IsSolution P (fun n _ => n < P.numTotalNodes ∧ ¬NearFace (P.points.getD n 0)) sol)
    (hbc : ∀ n < P.numTotalNodes, NearFace (P.points.getD n 0) → fieldOf 1 sol n 0 = trueU (P.points.getD n 0) 0) :
    computeH1 P sol trueU ≤ computeL2 P sol trueU
      + gradError P gradU (fun n _ => if n < P.numTotalNodes then trueU (P.points.getD n 0) 0 else 0) + D := by
  set other : List (List ℝ) := (List.range P.numTotalNodes).map fun n => [trueU (P.points.getD n 0) 0] with ho
  have hval : fieldOf 1 other = fun n _ => if n < P.numTotalNodes then trueU (P.points.getD n 0) 0 else 0 := by
    funext n c
    rw [ho, field_range]
  have hlen : sol.length = P.numTotalNodes := by
    obtain ⟨_, _, e1, e2, -, -⟩ := hs
    cases e1
    exact e2
  have key := C114_strang hP hwf hw gradU lapU hasGrad_trueU hasDiv_gradU _ D hD0 hD sol other hs hsol (by
    intro n c hn
    rw [hval, Subsingleton.elim c 0]
    by_cases hlt : n < P.numTotalNodes
    · have hf : NearFace (P.points.getD n 0) := by
        by_contra hf
        exact hn ⟨hlt, hf⟩
      simp only [hlt, if_true]
      exact hbc n hlt hf
    · rw [fieldOf, List.getD_eq_default sol _ (by rw [hlen]; omega)]
      simp [hlt])
  obtain ⟨e1, e2⟩ := C114_errors P sol trueU gradU hasGrad_trueU
  rw [hval] at key
  rw [e1, e2]
  linarith

/-! ### Examples -/

/-- One tetrahedron. -/
noncomputable def exTet (f : (Fin 3 → ℝ) → Fin 1 → ℝ) : Problem1 Unit 1 1 4 1 3 :=
  problem f 4 [![0, 0, 0], ![1, 0, 0], ![0, 1, 0], ![0, 0, 1]] [⟨[0, 1, 2, 3], fun _ => ()⟩]
    (tabulate tet4N tet4G (fun _ => ![1 / 4, 1 / 4, 1 / 4]) fun _ => 1 / 6)
    ⟨fun _ _ _ => 0, fun _ _ _ _ => 0, fun _ _ => 0, fun _ _ => 0⟩

theorem exTet_measure (f : (Fin 3 → ℝ) → Fin 1 → ℝ) (q : Fin 1) :
    (mapJacobian (coords 4 (exTet f).points [0, 1, 2, 3]) (Matrix.of ((exTet f).el.shapeGradsRef q))).det
      * (exTet f).el.quadWeights q = 1 / 6 := by
  have : mapJacobian (coords 4 (exTet f).points [0, 1, 2, 3]) (Matrix.of ((exTet f).el.shapeGradsRef q)) = 1 := by
    ext i j
    fin_cases i <;> fin_cases j <;>
      simp [mapJacobian, coords, exTet, problem, Matrix.mul_apply, Fin.sum_univ_four, tabulate, tet4G]
  rw [this, det_one, one_mul]
  rfl

theorem exTet_positive (f : (Fin 3 → ℝ) → Fin 1 → ℝ) : (exTet f).PositiveMeasure := by
  intro cell hc q
  obtain rfl : cell = ⟨[0, 1, 2, 3], fun _ => ()⟩ := by simpa [exTet, problem] using hc
  rw [exTet_measure]
  norm_num

/-- Wrong nodal values, error zero. -/
example : computeL2 (exTet fun _ _ => 0) [[3], [-1], [-1], [-1]] (fun _ _ => 0) = 0 := by
  rw [C114_blind _ (exTet_positive _) (1 / 6) rfl]
  intro cell hc
  obtain rfl : cell = ⟨[0, 1, 2, 3], fun _ => ()⟩ := by simpa [exTet, problem] using hc
  simp [fieldOf, Fin.sum_univ_four]
  norm_num

/-- The second error sees them. -/
example : computeH1 (exTet fun _ _ => 0) [[3], [-1], [-1], [-1]] (fun _ _ => 0) ≠ 0 := by
  intro h
  have hT : HasGrad (fun (_ : Fin 3 → ℝ) (_ : Fin 1) => (0 : ℝ)) fun _ _ _ => 0 := fun x =>
    ⟨0, hasFDerivAt_const _ _, fun c j => rfl⟩
  have h1 := ((C114_zero _ (exTet_positive _) _ _ _ hT).2.1 h ⟨[0, 1, 2, 3], fun _ => ()⟩ (by simp [exTet, problem]) 0).2
  have hall := (C73_determines (fun _ : Fin 1 => 1 / 6) (fun _ _ => 0) (fun _ => ![1 / 4, 1 / 4, 1 / 4])).2.1 (by norm_num)
  have := field_unique (exTet fun _ _ => 0)
    ⟨by simp [exTet, problem], rfl, by simp [exTet, problem], by simp [exTet, problem], by simp [exTet, problem]⟩
    (exTet_positive _) hall (fun n _ => n ≠ 0) ?_ (fieldOf 1 [[3], [-1], [-1], [-1]]) (fun _ _ => 3) ?_ ?_ 1 (by decide) 0
  · norm_num [fieldOf] at this
  · intro n hn c
    refine ⟨0, by simp, by decide, .single ⟨[0, 1, 2, 3], by simp [exTet, problem, Problem1.conn], by simp, ?_⟩⟩
    have : n < 4 := hn
    interval_cases n <;> simp
  · intro cell hc q
    obtain rfl : cell = ⟨[0, 1, 2, 3], fun _ => ()⟩ := by simpa [exTet, problem] using hc
    ext c j
    rw [Subsingleton.elim q 0, h1 c j, gradient_eq, ← Finset.mul_sum, grads_sum_zero _ _ ?_, mul_zero]
    intro j
    fin_cases j <;> simp [exTet, problem, tabulate, tet4G, Fin.sum_univ_four]
  · intro n c hn
    obtain rfl : n = 0 := by simpa using hn
    rw [Subsingleton.elim c 0]
    rfl

/-- Poisson problem of a study on four squares. -/
noncomputable def exSquares (f : (Fin 2 → ℝ) → Fin 1 → ℝ) : Problem1 Unit 4 1 4 1 2 :=
  problem f 9 (rectangleMesh 2 2 (2 : ℝ) 2).1 ((rectangleMesh 2 2 (2 : ℝ) 2).2.map fun c => ⟨c, fun _ => ()⟩)
    (tabulate quad4N quad4G gaussPts fun _ => 1 / 4)
    ⟨fun _ _ => quad4N ![1/2, 0], fun _ _ => quad4G ![1/2, 0], fun _ _ => 1, fun _ => ![0, -1]⟩

theorem exSquares_rect (f : (Fin 2 → ℝ) → Fin 1 → ℝ) : OnRectangle (exSquares f) 2 2 2 2 gaussPts fun _ => 1 / 4 where
  el := rfl
  points := rfl
  conn := by simp [exSquares, problem, Problem1.conn, Function.comp_def]
  nodes := rfl
  Nx_pos := by decide
  Ny_pos := by decide
  Lx_pos := by norm_num
  Ly_pos := by norm_num
  faces := by intro s hs; simp [exSquares, problem] at hs

/-- The affine function `x + 1` is reproduced. -/
example (sol : List (List ℝ)) (hs : HasShapes [(9, 1)] [sol])
    (hsol : IsSolution (exSquares fun x i => ∑ j, (fun (_ : Fin 1) => ![1, 0]) i j * x j + (fun _ => 1) i)
      (fun n _ => rectInterior 2 2 n) sol)
    (hbc : ∀ n < 9, ¬rectInterior 2 2 n → fieldOf 1 sol n 0
      = ∑ j, (fun (_ : Fin 1) => ![1, 0]) 0 j * ((rectangleMesh 2 2 (2 : ℝ) 2).1.getD n 0) j + (fun _ => 1) (0 : Fin 1)) :
    computeH1 (exSquares fun x i => ∑ j, (fun (_ : Fin 1) => ![1, 0]) i j * x j + (fun _ => 1) i) sol
      (fun x i => ∑ j, (fun (_ : Fin 1) => ![1, 0]) i j * x j + (fun _ => 1) i) = 0 :=
  (C114_affine (P := exSquares _) _ _ rfl (exSquares_rect _) gauss_square.one (gauss_square.lin 0) (gauss_square.lin 1) (fun _ => by norm_num)
    ⟨0, 1, 1, by
      have h3 : 0 < √3 := Real.sqrt_pos.2 (by norm_num)
      simp [gaussPts]
      intro h
      linarith⟩ sol hs hsol hbc).2

/-- The orders of errors that behave like `h²` and nearly like `h²`. -/
example : ∃ x, printedOrder [7, 4, 1] = .ok x ∧ |x - 2| ≤ Real.logb 2 (4 / 4) :=
  (C114_order [7] 4 1 1 2 4 4 (by norm_num) (by norm_num) (by norm_num) (by norm_num) (by norm_num) (by norm_num)).1

/-- A node on a face and a node inside. -/
example : NearFace ![0, 1 / 2, 1 / 2] ∧ ¬NearFace ![1 / 2, 1 / 2, 1 / 2] := by
  refine ⟨⟨0, .inl (by simp)⟩, ?_⟩
  rintro ⟨i, h⟩
  fin_cases i <;> norm_num [abs_le] at h

end JaxFem.Convergence
