import Verif.Spec.UpdatedLagrangian
import Mathlib.Algebra.BigOperators.Field
import Mathlib.Analysis.Calculus.Deriv.Pow
import Mathlib.Analysis.SpecialFunctions.Log.Deriv
import Mathlib.Tactic.IntervalCases
import Verif.Thm.C72_WeakForm
import Verif.Thm.C14_Boundary

/-!
# C83: the updated-Lagrangian scheme solves the total-Lagrangian problem
-/

namespace JaxFem.UL

variable {nq nn : Nat}

/-! ### Helper lemmas: kinematics -/

theorem one_add_physGrad (X G U : Matrix (Fin nn) (Fin 3) ℝ) (h : (mapJacobian X G).det ≠ 0) :
    1 + physGrad X G U = mapJacobian (X + U) G * (mapJacobian X G)⁻¹ := by
  have hu : IsUnit (mapJacobian X G).det := h.isUnit
  rw [physGrad]
  have : mapJacobian (X + U) G = mapJacobian X G + U.transpose * G := by
    simp [mapJacobian, Matrix.add_mul]
  rw [this, Matrix.add_mul, Matrix.mul_nonsing_inv _ hu]

theorem fieldOf_addRows (u v : List (List ℝ)) (N : Nat) (hu : u.length = N) (hv : v.length = N)
    (hu3 : ∀ r ∈ u, r.length = 3) (hv3 : ∀ r ∈ v, r.length = 3) (n : Nat) (hn : n < N) (c : Fin 3) :
    fieldOf 3 (addRows u v) n c = fieldOf 3 u n c + fieldOf 3 v n c := by
  have h1 : n < u.length := by omega
  have h2 : n < v.length := by omega
  have e1 := hu3 _ (List.getElem_mem h1)
  have e2 := hv3 _ (List.getElem_mem h2)
  have h3 : n < (addRows u v).length := by simp [addRows]; omega
  have c1 : (c : Nat) < u[n].length := by rw [e1]; exact c.2
  have c2 : (c : Nat) < v[n].length := by rw [e2]; exact c.2
  simp only [fieldOf]
  rw [List.getD_eq_getElem _ _ h3, List.getD_eq_getElem _ _ h1, List.getD_eq_getElem _ _ h2]
  have : (addRows u v)[n] = List.zipWith (· + ·) u[n] v[n] := by simp [addRows]
  rw [this, List.getD_eq_getElem _ _ (by simp; omega), List.getD_eq_getElem _ _ c1,
    List.getD_eq_getElem _ _ c2]
  simp

theorem addRows_shape {u v : List (List ℝ)} {N : Nat} (hu : u.length = N) (hv : v.length = N)
    (hu3 : ∀ r ∈ u, r.length = 3) (hv3 : ∀ r ∈ v, r.length = 3) :
    (addRows u v).length = N ∧ ∀ r ∈ addRows u v, r.length = 3 := by
  refine ⟨by simp [addRows, hu, hv], fun r hr => ?_⟩
  obtain ⟨k, hk, rfl⟩ := List.mem_iff_getElem.1 hr
  have hk' : k < u.length ∧ k < v.length := by simpa [addRows] using hk
  have e1 := hu3 _ (List.getElem_mem hk'.1)
  have e2 := hv3 _ (List.getElem_mem hk'.2)
  simp [addRows, e1, e2]

theorem coords_addPoints (p : List (Fin 3 → ℝ)) (u : List (List ℝ)) (hu : u.length = p.length)
    (cell : List Nat) (hc : cell.length = nn) (hlt : ∀ n ∈ cell, n < p.length) :
    coords nn (addPoints p u) cell = coords nn p cell + restrict nn (fieldOf 3 u) cell := by
  ext a i
  have ha : (a : Nat) < cell.length := by rw [hc]; exact a.2
  have hn := hlt _ (List.getElem_mem ha)
  have hn' : cell[(a : Nat)] < u.length := by omega
  have hn'' : cell[(a : Nat)] < (addPoints p u).length := by simp [addPoints]; omega
  simp only [coords, restrict, fieldOf, Matrix.of_apply, Matrix.add_apply]
  rw [List.getD_eq_getElem _ _ ha, List.getD_eq_getElem _ _ hn'', List.getD_eq_getElem _ _ hn,
    List.getD_eq_getElem u [] hn']
  have e : (addPoints p u)[cell[(a : Nat)]]
      = fun i : Fin 3 => p[cell[(a : Nat)]] i + u[cell[(a : Nat)]].getD i 0 := by
    unfold addPoints
    exact List.getElem_zipWith
  rw [e]

theorem restrict_addRows (N : Nat) (u v : List (List ℝ)) (hu : u.length = N) (hv : v.length = N)
    (hu3 : ∀ r ∈ u, r.length = 3) (hv3 : ∀ r ∈ v, r.length = 3)
    (cell : List Nat) (hc : cell.length = nn) (hlt : ∀ n ∈ cell, n < N) :
    restrict nn (fieldOf 3 (addRows u v)) cell
      = restrict nn (fieldOf 3 u) cell + restrict nn (fieldOf 3 v) cell := by
  ext a i
  have ha : (a : Nat) < cell.length := by rw [hc]; exact a.2
  have hn := hlt _ (List.getElem_mem ha)
  simp only [restrict, Matrix.of_apply, Matrix.add_apply]
  rw [List.getD_eq_getElem _ _ ha]
  exact fieldOf_addRows u v N hu hv hu3 hv3 _ hn i

/-- Displacement arrays of a setup. -/
structure Disp (S : Setup nq nn) (u : List (List ℝ)) : Prop where
  len : u.length = S.points0.length
  row : ∀ r ∈ u, r.length = 3

theorem Disp.add {S : Setup nq nn} {u v : List (List ℝ)} (hu : Disp S u) (hv : Disp S v) :
    Disp S (addRows u v) :=
  ⟨(addRows_shape hu.len hv.len hu.row hv.row).1, (addRows_shape hu.len hv.len hu.row hv.row).2⟩

theorem disp_iff (S : Setup nq nn) (sols : List (List (List ℝ)))
    (h : HasShapes [(S.points0.length, 3)] sols) : ∃ u, sols = [u] ∧ Disp S u := by
  obtain ⟨a, t, rfl, h1, h2, h3⟩ := h
  cases h3
  exact ⟨a, rfl, h1, h2⟩

theorem Disp.shape {S : Setup nq nn} {u : List (List ℝ)} (h : Disp S u) :
    HasShapes [(S.points0.length, 3)] [u] := ⟨u, [], rfl, h.len, h.row, rfl⟩

section kin
variable {S : Setup nq nn} (hS : S.WF) {u du : List (List ℝ)} (hu : Disp S u) (hdu : Disp S du)
  {cell : List Nat} (hcell : cell ∈ S.cells) (q : Fin nq)
include hS hu hcell

/-- The mesh moved by `u` has Jacobian `F(u) J₀`. -/
theorem jac_moved :
    mapJacobian (coords nn (addPoints S.points0 u) cell) (Matrix.of (S.el.shapeGradsRef q))
      = defGrad S u cell q
        * mapJacobian (coords nn S.points0 cell) (Matrix.of (S.el.shapeGradsRef q)) := by
  have hreg := hS.regular cell hcell q
  rw [coords_addPoints _ u hu.len cell (hS.cell_length _ hcell) (hS.cell_lt _ hcell), defGrad, gradOn,
    one_add_physGrad _ _ _ hreg, Matrix.nonsing_inv_mul_cancel_right _ _ hreg.isUnit]

include hdu

/-- Deformation gradients compose. -/
theorem defGrad_add (hF : (defGrad S u cell q).det ≠ 0) :
    defGrad S (addRows u du) cell q
      = (1 + gradOn S (addPoints S.points0 u) du cell q) * defGrad S u cell q := by
  have hreg := hS.regular cell hcell q
  have hJx : (mapJacobian (coords nn (addPoints S.points0 u) cell)
      (Matrix.of (S.el.shapeGradsRef q))).det ≠ 0 := by
    rw [jac_moved hS hu hcell q, Matrix.det_mul]; exact mul_ne_zero hF hreg
  have key := jac_moved hS hu hcell q
  have key2 := jac_moved hS (hu.add hdu) hcell q
  have e : coords nn (addPoints S.points0 (addRows u du)) cell
      = coords nn (addPoints S.points0 u) cell + restrict nn (fieldOf 3 du) cell := by
    rw [coords_addPoints _ _ (hu.add hdu).len cell (hS.cell_length _ hcell) (hS.cell_lt _ hcell),
      coords_addPoints _ _ hu.len cell (hS.cell_length _ hcell) (hS.cell_lt _ hcell),
      restrict_addRows S.points0.length u du hu.len hdu.len hu.row hdu.row cell
        (hS.cell_length _ hcell) (hS.cell_lt _ hcell), add_assoc]
  have h1 : (1 + gradOn S (addPoints S.points0 u) du cell q)
      * mapJacobian (coords nn (addPoints S.points0 u) cell) (Matrix.of (S.el.shapeGradsRef q))
      = mapJacobian (coords nn (addPoints S.points0 (addRows u du)) cell)
        (Matrix.of (S.el.shapeGradsRef q)) := by
    rw [gradOn, one_add_physGrad _ _ _ hJx, Matrix.nonsing_inv_mul_cancel_right _ _ hJx.isUnit, e]
  rw [key, key2, ← Matrix.mul_assoc] at h1
  have := congrArg (· * (mapJacobian (coords nn S.points0 cell)
    (Matrix.of (S.el.shapeGradsRef q)))⁻¹) h1
  simp only [Matrix.mul_nonsing_inv_cancel_right _ _ hreg.isUnit] at this
  exact this.symm

end kin

/-! ### Helper lemmas: stress -/

theorem firstPiola_eq (F : Matrix (Fin 3) (Fin 3) ℝ) (h : 1 / 10 ^ 14 < F.det) :
    firstPiola F = materialKirchhoff F * F⁻¹.transpose := by
  have h0 : F.det ≠ 0 := by
    have : (0 : ℝ) < 1 / 10 ^ 14 := by positivity
    exact (this.trans h).ne'
  have e : F.transpose * F⁻¹.transpose = 1 := by
    rw [← Matrix.transpose_mul, Matrix.nonsing_inv_mul _ h0.isUnit, Matrix.transpose_one]
  have hm : max F.det floorJ = F.det := max_eq_left (by rw [floorJ]; exact h.le)
  simp only [firstPiola, materialKirchhoff, MU, LAMBDA, hm, Matrix.add_mul, Matrix.smul_mul, Matrix.sub_mul,
    Matrix.mul_assoc, e, Matrix.mul_one, Matrix.one_mul]

theorem pull_eq (Fp H J0 : Matrix (Fin 3) (Fin 3) ℝ) (G : Matrix (Fin nn) (Fin 3) ℝ) (rho w : ℝ)
    (hi : 1 / 10 ^ 14 < (1 + H).det) (ht : 1 / 10 ^ 14 < ((1 + H) * Fp).det) (hJ : J0.det ≠ 0) :
    ((Fp * J0).det * w) • (pullStress Fp rho H * (G * (Fp * J0)⁻¹).transpose)
      = (J0.det * w) • ((rho ^ 3 • firstPiola ((1 + H) * Fp)) * (G * J0⁻¹).transpose) := by
  have hp : (0 : ℝ) < 1 / 10 ^ 14 := by positivity
  have hi0 : (1 + H).det ≠ 0 := (hp.trans hi).ne'
  have ht0 : ((1 + H) * Fp).det ≠ 0 := (hp.trans ht).ne'
  have hF0 : Fp.det ≠ 0 := by
    intro h; apply ht0; rw [Matrix.det_mul, h, mul_zero]
  rw [firstPiola_eq _ ht]
  have m1 : max (1 + H).det floorJ = (1 + H).det := max_eq_left (by rw [floorJ]; exact hi.le)
  have m2 : max ((1 + H) * Fp).det floorJ = ((1 + H) * Fp).det :=
    max_eq_left (by rw [floorJ]; exact ht.le)
  simp only [pullStress, m1, m2]
  generalize 1 + H = A at *
  generalize materialKirchhoff (A * Fp) = T
  simp only [Matrix.mul_inv_rev, Matrix.transpose_mul, Matrix.smul_mul, smul_smul, Matrix.mul_assoc,
    Matrix.det_mul]
  congr 1
  · field_simp

/-! ### Helper lemmas: residuals -/

theorem fes_total (S : Setup nq nn) (rho : List ℝ) (hr : rho.length = S.cells.length) :
    (totalProblem S rho).fes = S.fes := by
  have : (totalProblem S rho).conn = S.cells := by
    refine List.ext_getElem (by simp [Problem1.conn, totalProblem, hr]) fun k h1 h2 => ?_
    simp [Problem1.conn, totalProblem]
  rw [Problem1.fes, this]
  rfl

theorem wf_total {S : Setup nq nn} (hS : S.WF) (rho : List ℝ) (hr : rho.length = S.cells.length) :
    (totalProblem S rho).WF := by
  have hmem : ∀ c ∈ (totalProblem S rho).cells, c.nodes ∈ S.cells := by
    intro c hc
    obtain ⟨k, hk, rfl⟩ := List.mem_iff_getElem.1 hc
    simp [totalProblem]
  refine ⟨?_, rfl, fun c hc => hS.cell_length _ (hmem c hc), fun c hc => hS.cell_lt _ (hmem c hc),
    fun s hs => by simp [totalProblem] at hs⟩
  intro h
  have h2 : (totalProblem S rho).cells.length = S.cells.length := by simp [totalProblem, hr]
  rw [h] at h2
  exact hS.nonempty (List.length_eq_zero_iff.1 h2.symm)

theorem mesh_wf {S : Setup nq nn} (hS : S.WF) : WFMesh S.fes := by
  intro fe hfe
  rw [Setup.fes, List.mem_singleton] at hfe
  subst hfe
  exact ⟨rfl, fun cell hcell => ⟨hS.cell_length _ hcell, hS.cell_lt _ hcell⟩⟩

theorem cellSol_flat {S : Setup nq nn} (hS : S.WF) {u : List (List ℝ)} (hu : Disp S u) (e : Nat)
    (he : e < S.cells.length) :
    cellSol nn 3 (cellSolFlat S.fes [u] e) = nodalValues nn 3 u (S.cells.getD e []) :=
  isLocal_cellSol (isLocal_cellSolFlat S.fes (mesh_wf hS) [u] hu.shape e he)

theorem gradOn_apply (S : Setup nq nn) (x : List (Fin 3 → ℝ)) (u : List (List ℝ)) (cell : List Nat)
    (q : Fin nq) : (Matrix.of fun i j => ∑ a, nodalValues nn 3 u cell a i *
      shapeGradsPhysical (physicalCoos nn x cell) (S.el.shapeGradsRef q) a j) = gradOn S x u cell q := by
  ext i j
  rw [gradOn, ← physicalCoos_eq, restrict_fieldOf]
  exact (physGrad_eq _ _ (nodalValues nn 3 u cell) i j).symm

theorem vGrads_sum (S : Setup nq nn) (x : List (Fin 3 → ℝ)) (cell : List Nat) (q : Fin nq)
    (T : Matrix (Fin 3) (Fin 3) ℝ) (a : Fin nn) (i : Fin 3) :
    ∑ j, T i j * (shapeGradsPhysical (physicalCoos nn x cell) (S.el.shapeGradsRef q) a j *
      cellJxW (physicalCoos nn x cell) (S.el.shapeGradsRef q) (S.el.quadWeights q))
    = (((mapJacobian (coords nn x cell) (Matrix.of (S.el.shapeGradsRef q))).det * S.el.quadWeights q) •
      (T * (Matrix.of (S.el.shapeGradsRef q) * (mapJacobian (coords nn x cell)
        (Matrix.of (S.el.shapeGradsRef q)))⁻¹).transpose)) i a := by
  rw [cellJxW, jacobian_eq, physicalCoos_eq, Matrix.smul_apply, Matrix.mul_apply, smul_eq_mul,
    Finset.mul_sum]
  refine Finset.sum_congr rfl fun j _ => ?_
  have : shapeGradsPhysical (physicalCoos nn x cell) (S.el.shapeGradsRef q) a j
      = (Matrix.of (S.el.shapeGradsRef q) * (mapJacobian (coords nn x cell)
        (Matrix.of (S.el.shapeGradsRef q)))⁻¹) a j := by
    rw [shapeGradsPhysical, Matrix.mul_apply, jacobian_eq, physicalCoos_eq]
    rfl
  rw [this, Matrix.transpose_apply]
  ring

/-- One cell: the kernel of the step and the total-Lagrangian kernel. -/
theorem kernel_eq {S : Setup nq nn} (hS : S.WF) {u du : List (List ℝ)} (hu : Disp S u)
    (hdu : Disp S du) (e : Nat) (he : e < S.cells.length) (Fp : Fin nq → Matrix (Fin 3) (Fin 3) ℝ)
    (hFp : ∀ q, Fp q = defGrad S u S.cells[e] q) (rho : ℝ)
    (hfl : ∀ q, 1 / 10 ^ 14 < (1 + gradOn S (addPoints S.points0 u) du S.cells[e] q).det ∧
      1 / 10 ^ 14 < ((1 + gradOn S (addPoints S.points0 u) du S.cells[e] q) * Fp q).det) :
    universalKernel (cellSolFlat S.fes [du] e)
        (cellData S.el (addPoints S.points0 u) S.cells[e] fun q => (Fp q, rho))
      = laplaceKernel (fun r G (i : Fin 3) (j : Fin 3) => r ^ 3 * firstPiola (1 + Matrix.of G) i j)
        (cellSolFlat S.fes [addRows u du] e) (cellData S.el S.points0 S.cells[e] fun _ => rho) := by
  have hcell := List.getElem_mem he
  have g1 : S.cells.getD e [] = S.cells[e] := List.getD_eq_getElem _ _ he
  rw [universalKernel, laplaceKernel]
  simp only [cellSol_flat hS hdu e he, cellSol_flat hS (hu.add hdu) e he, g1, cellData]
  congr 1
  funext a i
  refine Finset.sum_congr rfl fun q _ => ?_
  have hF0 : (defGrad S u S.cells[e] q).det ≠ 0 := by
    rw [← hFp q]
    intro h
    have := (hfl q).2
    rw [Matrix.det_mul, h, mul_zero] at this
    exact absurd this (not_lt.2 (by positivity))
  rw [gradOn_apply S (addPoints S.points0 u) du S.cells[e] q]
  rw [gradOn_apply S S.points0 (addRows u du) S.cells[e] q]
  have hadd := defGrad_add hS hu hdu hcell q hF0
  have key := pull_eq (Fp q) (gradOn S (addPoints S.points0 u) du S.cells[e] q)
    (mapJacobian (coords nn S.points0 S.cells[e]) (Matrix.of (S.el.shapeGradsRef q)))
    (Matrix.of (S.el.shapeGradsRef q)) rho (S.el.quadWeights q) (hfl q).1 (hfl q).2
    (hS.regular _ hcell q)
  rw [hFp q, ← jac_moved hS hu hcell q, ← hadd] at key
  have l := vGrads_sum S (addPoints S.points0 u) S.cells[e] q
    (pullStress (Fp q) rho (gradOn S (addPoints S.points0 u) du S.cells[e] q)) a i
  have r := vGrads_sum S S.points0 S.cells[e] q
    (rho ^ 3 • firstPiola (defGrad S (addRows u du) S.cells[e] q)) a i
  rw [hFp q] at l
  rw [hFp q, l, key, ← r]
  rfl

/-! ### Helper lemmas: boundary conditions -/

theorem tag_cases (p : Fin 3 → ℝ) :
    (OnLeft p ↔ isclose (p 0) 0 (1 / 10 ^ 7)) ∧ (OnRight p ↔ isclose (p 0) 1 (1 / 10 ^ 7)) ∧
      ¬(OnLeft p ∧ OnRight p) := by
  refine ⟨by simp [OnLeft, isclose], by simp [OnRight, isclose], ?_⟩
  rintro ⟨h1, h2⟩
  rw [OnLeft, abs_le] at h1
  rw [OnRight, abs_le] at h2
  norm_num at h1 h2
  linarith [h1.2, h2.1]

theorem tags_getElem? (points0 : List (Fin 3 → ℝ)) (n : Nat) (p : Fin 3 → ℝ) (h : points0[n]? = some p) :
    (OnLeft p → (boundaryNodeTags points0).getD n 0 = 1) ∧
    (OnRight p → (boundaryNodeTags points0).getD n 0 = 2) ∧
    (¬OnLeft p → ¬OnRight p → (boundaryNodeTags points0).getD n 0 = 0) := by
  obtain ⟨t1, t2, t3⟩ := tag_cases p
  have e : (boundaryNodeTags points0).getD n 0
      = @ite _ (isclose (p 0) 1 (1 / 10 ^ 7)) (Classical.propDecidable _) 2
        (@ite _ (isclose (p 0) 0 (1 / 10 ^ 7)) (Classical.propDecidable _) 1 0) := by
    rw [boundaryNodeTags, List.getD_eq_getElem?_getD, List.getElem?_map, h]
    rfl
  rw [e, ← t1, ← t2]
  refine ⟨fun hl => ?_, fun hr => by rw [if_pos hr], fun hl hr => by rw [if_neg hr, if_neg hl]⟩
  rw [if_neg fun hr => t3 ⟨hl, hr⟩, if_pos hl]

/-- A setup made by `build`. -/
structure Built (S : Setup nq nn) : Prop where
  tags : S.tags = boundaryNodeTags S.points0
  lens : S.nodeInds.length = 6 ∧ S.vecInds.length = 6
  mem : ∀ k n, n ∈ S.nodeInds.getD k [] ↔ k < 6 ∧ ∃ p, S.points0[n]? = some p ∧
    S.tags.getD n 0 = (if k < 3 then 1 else 2)
  comps : ∀ k < 6, S.vecInds.getD k [] = List.replicate (S.nodeInds.getD k []).length (k % 3)

theorem build_spec (points0 : List (Fin 3 → ℝ)) (cells : List (List Nat)) (el : RefElement ℝ nq nn 3) :
    ∃ S, build points0 cells el = .ok S ∧ S.points0 = points0 ∧ S.cells = cells ∧ S.el = el ∧ Built S := by
  obtain ⟨ns, vs, us, h1, h2, h3, h4, h5⟩ := C14_selection points0
    (buildDirichletBcByTag (boundaryNodeTags points0)).1
    (buildDirichletBcByTag (boundaryNodeTags points0)).2.1
    (buildDirichletBcByTag (boundaryNodeTags points0)).2.2 rfl rfl (by
      intro loc hloc
      simp only [buildDirichletBcByTag, List.mem_cons, List.not_mem_nil, or_false] at hloc
      rcases hloc with rfl | rfl | rfl | rfl | rfl | rfl <;> trivial)
  have l6 : (buildDirichletBcByTag (boundaryNodeTags points0)).1.length = 6 := rfl
  rw [l6] at h2 h3 h4
  have hb : build points0 cells el = .ok ⟨points0, cells, el, boundaryNodeTags points0, ns, vs⟩ := by
    simp only [build]
    rw [show (some (buildDirichletBcByTag (boundaryNodeTags points0)))
      = some ((buildDirichletBcByTag (boundaryNodeTags points0)).1,
        (buildDirichletBcByTag (boundaryNodeTags points0)).2.1,
        (buildDirichletBcByTag (boundaryNodeTags points0)).2.2) from rfl, h1]
    rfl
  have key : ∀ k < 6, EntrySpec points0
      (if k < 3 then .two fun _ ind => (boundaryNodeTags points0).getD ind 0 == 1
        else .two fun _ ind => (boundaryNodeTags points0).getD ind 0 == 2) (k % 3) (fun _ => (0 : ℝ))
      (ns.getD k []) (vs.getD k []) (us.getD k []) := by
    intro k hk
    have e1 : ns[k]? = some (ns.getD k []) := by
      rw [List.getD_eq_getElem _ _ (by omega), List.getElem?_eq_getElem (by omega)]
    have e2 : vs[k]? = some (vs.getD k []) := by
      rw [List.getD_eq_getElem _ _ (by omega), List.getElem?_eq_getElem (by omega)]
    have e3 : us[k]? = some (us.getD k []) := by
      rw [List.getD_eq_getElem _ _ (by omega), List.getElem?_eq_getElem (by omega)]
    refine h5 k _ _ _ _ _ _ ?_ ?_ ?_ e1 e2 e3 <;> interval_cases k <;> rfl
  refine ⟨_, hb, rfl, rfl, rfl, rfl, ⟨h2, h3⟩, fun k n => ?_, fun k hk => (key k hk).2.2.1⟩
  by_cases hk : k < 6
  · rw [(key k hk).2.1 n, OnDirichlet]
    simp only [hk, true_and]
    refine exists_congr fun p => and_congr_right fun _ => ?_
    by_cases h3' : k < 3
    · simp [h3', LocFn.holds]
    · simp [h3', LocFn.holds]
  · rw [List.getD_eq_default _ _ (by show ns.length ≤ k; omega)]
    simp [hk]

theorem target_entry (points0 : List (Fin 3 → ℝ)) (lam : ℝ) (n : Nat) (p : Fin 3 → ℝ)
    (h : points0[n]? = some p) (c : Fin 3) :
    ((totalTarget points0 lam (boundaryNodeTags points0)).getD n []).getD c 0
      = (targetRow p lam ((boundaryNodeTags points0).getD n 0)).getD c 0 := by
  obtain ⟨hn, rfl⟩ := List.getElem?_eq_some_iff.1 h
  have h2 : n < (boundaryNodeTags points0).length := by simpa [boundaryNodeTags] using hn
  have h3 : n < (totalTarget points0 lam (boundaryNodeTags points0)).length := by
    simp [totalTarget]; omega
  rw [List.getD_eq_getElem (boundaryNodeTags points0) 0 h2, List.getD_eq_getElem (totalTarget _ _ _) [] h3]
  simp [totalTarget]

theorem targetRow_left (p : Fin 3 → ℝ) (lam : ℝ) (c : Fin 3) : (targetRow p lam 1).getD c 0 = 0 := by
  fin_cases c <;> simp [targetRow]

theorem targetRow_right (p : Fin 3 → ℝ) (lam : ℝ) (c : Fin 3) :
    (targetRow p lam 2).getD c 0 = driven lam p c - p c := by
  fin_cases c <;> simp [targetRow, driven, RIGHT_PULL] <;> ring

/-- The prescribed increments of a step. -/
theorem entries_spec {S : Setup nq nn} (hB : Built S) (P : Params nq) (n : Nat) (p : Fin 3 → ℝ)
    (hp : S.points0[n]? = some p) (c : Fin 3) :
    (OnLeft p → ∀ v, LastPrescribes (stepEntries S P) n c v ↔ v = 0) ∧
    (OnRight p → ∀ v, LastPrescribes (stepEntries S P) n c v ↔
      v = driven P.lam p c - driven P.lamPrev p c) ∧
    (¬OnLeft p → ¬OnRight p → FreeDof (stepEntries S P) n c) := by
  obtain ⟨g1, g2, g3⟩ := tags_getElem? S.points0 n p hp
  rw [← hB.tags] at g1 g2 g3
  have hn : n < S.points0.length := (List.getElem?_eq_some_iff.1 hp).1
  -- entry `k` of the list
  have hlen : (stepEntries S P).length = 6 := by simp [stepEntries, hB.lens.1, hB.lens.2]
  obtain ⟨D, hD⟩ : ∃ D, D = subRows (totalTarget S.points0 P.lam S.tags)
    (totalTarget S.points0 P.lamPrev S.tags) := ⟨_, rfl⟩
  have hent : ∀ k (hk : k < 6), (stepEntries S P)[k]'(by omega)
      = ⟨S.nodeInds.getD k [], S.vecInds.getD k [], at2Get D (S.nodeInds.getD k [])
        (S.vecInds.getD k [])⟩ := by
    intro k hk
    have k1 : k < S.nodeInds.length := by rw [hB.lens.1]; exact hk
    have k2 : k < S.vecInds.length := by rw [hB.lens.2]; exact hk
    simp only [stepEntries, List.getElem_zipWith]
    rw [List.getD_eq_getElem _ _ k1, List.getD_eq_getElem _ _ k2, hD]
  have hDv : (D.getD n []).getD c 0 = (targetRow p P.lam (S.tags.getD n 0)).getD c 0
      - (targetRow p P.lamPrev (S.tags.getD n 0)).getD c 0 := by
    have a1 := target_entry S.points0 P.lam n p hp c
    have a2 := target_entry S.points0 P.lamPrev n p hp c
    rw [← hB.tags] at a1 a2
    rw [← a1, ← a2, hD]
    have ht : S.tags.length = S.points0.length := by rw [hB.tags]; simp [boundaryNodeTags]
    have l1 : n < (totalTarget S.points0 P.lam S.tags).length := by simp [totalTarget, ht]; exact hn
    have l2 : n < (totalTarget S.points0 P.lamPrev S.tags).length := by
      simp [totalTarget, ht]; exact hn
    rw [List.getD_eq_getElem (subRows _ _) _ (by simp [subRows]; omega), List.getD_eq_getElem _ _ l1,
      List.getD_eq_getElem _ _ l2]
    have r1 : (totalTarget S.points0 P.lam S.tags)[n].length = 3 := by simp [totalTarget, targetRow]
    have r2 : (totalTarget S.points0 P.lamPrev S.tags)[n].length = 3 := by simp [totalTarget, targetRow]
    have : (subRows (totalTarget S.points0 P.lam S.tags) (totalTarget S.points0 P.lamPrev S.tags))[n]'
        (by simp [subRows]; omega)
      = List.zipWith (· - ·) (totalTarget S.points0 P.lam S.tags)[n]
        (totalTarget S.points0 P.lamPrev S.tags)[n] := by simp [subRows]
    rw [this, List.getD_eq_getElem _ _ (by simp [r1, r2]), List.getD_eq_getElem _ _ (by rw [r1]; exact c.2),
      List.getD_eq_getElem _ _ (by rw [r2]; exact c.2)]
    simp
  have hpres : ∀ k (hk : k < 6) v, ((stepEntries S P)[k]'(by omega)).Prescribes n c v ↔
      (S.tags.getD n 0 = (if k < 3 then 1 else 2) ∧ (c : Nat) = k % 3 ∧ v = (D.getD n []).getD c 0) := by
    intro k hk v
    rw [hent k hk]
    have hv : ∀ (m : Nat) n', (S.nodeInds.getD k [])[m]? = some n' →
        (S.vecInds.getD k [])[m]? = some (k % 3) := by
      intro m n' hm
      rw [hB.comps k hk, List.getElem?_replicate, if_pos (List.getElem?_eq_some_iff.1 hm).1]
    have hval : ∀ (m : Nat) n', (S.nodeInds.getD k [])[m]? = some n' →
        (at2Get D (S.nodeInds.getD k []) (S.vecInds.getD k []))[m]?
          = some ((D.getD n' []).getD (k % 3) 0) := by
      intro m n' hm
      rw [at2Get, List.getElem?_map, (List.getElem?_zip_eq_some (z := (n', k % 3))).2 ⟨hm, hv m n' hm⟩]
      rfl
    constructor
    · rintro ⟨m, m1, m2, m3⟩
      have hm := (hB.mem k n).1 (List.mem_of_getElem? m1)
      simp only at m1 m2 m3
      rw [hv m n m1] at m2
      have hc : k % 3 = (c : Nat) := Option.some.inj m2
      rw [hval m n m1] at m3
      refine ⟨hm.2.choose_spec.2, hc.symm, ?_⟩
      rw [← hc]; exact (Option.some.inj m3).symm
    · rintro ⟨h1, h2, h3⟩
      have hm := (hB.mem k n).2 ⟨hk, p, hp, h1⟩
      obtain ⟨m, m1⟩ := List.mem_iff_getElem?.1 hm
      refine ⟨m, m1, ?_, ?_⟩
      · rw [h2]; exact hv m n m1
      · rw [h3, h2]; exact hval m n m1
  have hlast : ∀ k (hk : k < 6), S.tags.getD n 0 = (if k < 3 then 1 else 2) → (c : Nat) = k % 3 →
      LastPrescribes (stepEntries S P) n c ((D.getD n []).getD c 0) := by
    intro k hk h1 h2
    have hk' : k < (stepEntries S P).length := by omega
    refine ⟨(stepEntries S P).take k, (stepEntries S P)[k], (stepEntries S P).drop (k + 1), ?_,
      (hpres k hk _).2 ⟨h1, h2, rfl⟩, ?_⟩
    · rw [← List.drop_eq_getElem_cons hk', List.take_append_drop]
    · intro e he v hv
      obtain ⟨m, hm, rfl⟩ := List.mem_iff_getElem.1 he
      rw [List.getElem_drop] at hv
      have hm6 : k + 1 + m < 6 := by rw [List.length_drop, hlen] at hm; omega
      obtain ⟨q1, q2, -⟩ := (hpres (k + 1 + m) hm6 v).1 hv
      rw [h1] at q1
      have : k % 3 = (k + 1 + m) % 3 := by omega
      split_ifs at q1 <;> omega
  have hc3 := c.2
  have huniq : ∀ v, LastPrescribes (stepEntries S P) n c v → v = (D.getD n []).getD c 0 := by
    rintro v ⟨before, e, after, h1, h2, -⟩
    have he : e ∈ stepEntries S P := by rw [h1]; simp
    obtain ⟨m, hm, rfl⟩ := List.mem_iff_getElem.1 he
    exact ((hpres m (by omega) v).1 h2).2.2
  refine ⟨fun hl v => ?_, fun hr v => ?_, fun hl hr e he v hv => ?_⟩
  · have h1 := hlast c (by omega) (by rw [g1 hl, if_pos hc3]) (by omega)
    have h2 := huniq v
    rw [hDv, g1 hl, targetRow_left, targetRow_left, sub_zero] at h1 h2
    exact ⟨h2, fun h => by rw [h]; exact h1⟩
  · have h1 := hlast (c + 3) (by omega) (by rw [g2 hr, if_neg (by omega)]) (by omega)
    have h2 := huniq v
    rw [hDv, g2 hr, targetRow_right, targetRow_right, sub_sub_sub_cancel_right] at h1 h2
    exact ⟨h2, fun h => by rw [h]; exact h1⟩
  · obtain ⟨m, hm, rfl⟩ := List.mem_iff_getElem.1 he
    obtain ⟨q1, -⟩ := (hpres m (by omega) v).1 hv
    rw [g3 hl hr] at q1
    split_ifs at q1

/-! ### Property theorems -/

/-- **C83 (residual).** In a step that starts from the total displacement `u` with the stored deformation
gradients equal to those of `u`, the residual that the step's problem assigns to an increment `du` – on the
moved mesh, with stresses pulled back to it – is, entry by entry, the residual that the total-Lagrangian problem
on the undeformed mesh assigns to `u + du`. -/
theorem C83_residual (S : Setup nq nn) (hS : S.WF) (rho : List ℝ) (hr : rho.length = S.cells.length)
    (s : State nq) (lam : ℝ) (du : List (List ℝ))
    (hu : HasShapes [(S.points0.length, 3)] [s.uCum]) (hdu : HasShapes [(S.points0.length, 3)] [du])
    (hlen : s.Fprev.length = S.cells.length)
    (hF : ∀ (e : Nat) cell Fp, S.cells[e]? = some cell → s.Fprev[e]? = some Fp →
      ∀ q, Fp q = defGrad S s.uCum cell q)
    (hfl : ClearOfFloor S (s.params S rho lam) du) :
    stepResidual S (s.params S rho lam) [du]
      = (totalProblem S rho).residual [addRows s.uCum du] := by
  obtain ⟨u', e1, hu'⟩ := disp_iff S _ hu
  obtain ⟨du', e2, hdu'⟩ := disp_iff S _ hdu
  cases e1
  cases e2
  have hpos : 0 < numCells S.fes := by
    have : numCells S.fes = S.cells.length := rfl
    rw [this]
    exact List.length_pos_iff.2 hS.nonempty
  rw [stepResidual, Problem1.residual, fes_total S rho hr]
  simp only [computeResidual, C02_batching _ _ hpos]
  have hface : computeFace (cellsSolFlat S.fes [addRows s.uCum du]) (totalProblem S rho).bs
      ((totalProblem S rho).surfaces.map fun s => surfaceKernel (nn := nn) s.map)
      ((totalProblem S rho).surfaces.map fun s => s.faces.map fun f =>
        faceData (totalProblem S rho).fc (totalProblem S rho).points (totalProblem S rho).conn
          (f.cell, f.face) f.iv) = [] := rfl
  have hbs : (totalProblem S rho).bs = [] := rfl
  rw [hface, hbs]
  have hcells : List.zipWith universalKernel (cellsSolFlat S.fes [du]) (cellInputs S (s.params S rho lam))
      = List.zipWith (cellKernel (totalProblem S rho).el (totalProblem S rho).tensorMap
          (totalProblem S rho).massMap) (cellsSolFlat S.fes [addRows s.uCum du])
        ((totalProblem S rho).cells.map fun c =>
          cellData (totalProblem S rho).el (totalProblem S rho).points c.nodes c.iv) := by
    have n1 : numCells S.fes = S.cells.length := rfl
    refine List.ext_getElem ?_ fun e h1 h2 => ?_
    · simp [cellsSolFlat, cellInputs, totalProblem, State.params, hlen, hr, n1]
    · have he : e < S.cells.length := by
        simp [cellsSolFlat, n1] at h1; exact h1.1
      have heF : e < s.Fprev.length := by omega
      have her : e < rho.length := by omega
      simp only [List.getElem_zipWith, cellsSolFlat, List.getElem_map, List.getElem_range, cellInputs,
        List.getElem_zip, State.params, totalProblem, cellKernel]
      exact kernel_eq hS hu' hdu' e he s.Fprev[e]
        (hF e _ _ (List.getElem?_eq_getElem he) (List.getElem?_eq_getElem heF)) rho[e]
        (fun q => hfl e _ _ (List.getElem?_eq_getElem he) (List.getElem?_eq_getElem heF) q)
  rw [hcells]
  rfl

/-- What holds of the local variables of the loop after every step. -/
structure Inv (S : Setup nq nn) (s : State nq) : Prop where
  disp : Disp S s.uCum
  len : s.Fprev.length = S.cells.length
  grad : ∀ (e : Nat) cell Fp, S.cells[e]? = some cell → s.Fprev[e]? = some Fp →
    ∀ q, Fp q = defGrad S s.uCum cell q
  pos : ∀ (e : Nat) cell, S.cells[e]? = some cell → ∀ q, 1 / 10 ^ 14 < (defGrad S s.uCum cell q).det
  bc : MeetsBC S.points0 s.lamPrev s.uCum

theorem inv_init {S : Setup nq nn} (hS : S.WF) : Inv S (State.init S) := by
  have hz : ∀ n c, fieldOf 3 (State.init S).uCum n c = 0 := by
    intro n c
    simp only [fieldOf, State.init]
    by_cases hn : n < S.points0.length
    · rw [List.getD_eq_getElem (S.points0.map fun _ => ([0, 0, 0] : List ℝ)) [] (by simpa using hn)]
      fin_cases c <;> simp
    · rw [List.getD_eq_default (S.points0.map fun _ => ([0, 0, 0] : List ℝ)) [] (by simpa using hn)]
      simp
  have hg : ∀ cell q, defGrad S (State.init S).uCum cell q = 1 := by
    intro cell q
    have : restrict nn (fieldOf 3 (State.init S).uCum) cell = 0 := by
      ext a c; simp [restrict, hz]
    rw [defGrad, gradOn, physGrad, this]
    simp
  refine ⟨⟨by simp [State.init], fun r hr => ?_⟩, by simp [State.init], fun e cell Fp h1 h2 q => ?_,
    fun e cell _ q => ?_, fun n p _ => ⟨fun _ c => hz n c, fun _ c => ?_⟩⟩
  · simp only [State.init, List.mem_map] at hr
    obtain ⟨_, _, rfl⟩ := hr
    rfl
  · rw [hg]
    simp only [State.init, List.getElem?_map, h1, Option.map_some, Option.some.injEq] at h2
    rw [← h2]
  · rw [hg, Matrix.det_one]; norm_num
  · rw [hz, add_zero]
    fin_cases c <;> simp [driven, State.init]

theorem inv_advance {S : Setup nq nn} (hS : S.WF) (hB : Built S) {rho : List ℝ}
    {s : State nq} (hs : Inv S s) (lam : ℝ) {sols : List (List (List ℝ))}
    (hx : ExactStep S (s.params S rho lam) sols) : Inv S (s.advance S lam (sols.getD 0 [])) := by
  obtain ⟨du, rfl, hdu⟩ := disp_iff S _ hx.shape
  have e0 : [du].getD 0 [] = du := rfl
  have hcl := hx.clear
  have hval := hx.values
  rw [e0] at hcl ⊢
  have hnz : ∀ (e : Nat) cell, S.cells[e]? = some cell → ∀ q, (defGrad S s.uCum cell q).det ≠ 0 := by
    intro e cell h q h0
    have := hs.pos e cell h q
    rw [h0] at this
    exact absurd this (not_lt.2 (by positivity))
  have hadd : ∀ (e : Nat) cell, S.cells[e]? = some cell → ∀ q, defGrad S (addRows s.uCum du) cell q
      = (1 + gradOn S (addPoints S.points0 s.uCum) du cell q) * defGrad S s.uCum cell q :=
    fun e cell h q => defGrad_add hS hs.disp hdu (List.mem_of_getElem? h) q (hnz e cell h q)
  refine ⟨hs.disp.add hdu, by simp [State.advance, pushFPrev, hs.len], fun e cell Fp h1 h2 q => ?_,
    fun e cell h1 q => ?_, fun n p hp => ?_⟩
  · have he : e < s.Fprev.length := by rw [hs.len]; exact (List.getElem?_eq_some_iff.1 h1).1
    have h3 := hs.grad e cell _ h1 (List.getElem?_eq_getElem he) q
    simp only [State.advance, pushFPrev, List.getElem?_zipWith, h1, List.getElem?_eq_getElem he,
      Option.some.injEq] at h2
    rw [← h2]
    show _ = defGrad S (addRows s.uCum du) cell q
    rw [hadd e cell h1 q, ← h3]
    have := gradOn_apply S (addPoints S.points0 s.uCum) du cell q
    rw [← this]
    rfl
  · have he : e < s.Fprev.length := by rw [hs.len]; exact (List.getElem?_eq_some_iff.1 h1).1
    have h3 := hs.grad e cell _ h1 (List.getElem?_eq_getElem he) q
    have := (hcl e cell _ h1 (List.getElem?_eq_getElem he) q).2
    rw [h3] at this
    show _ < (defGrad S (addRows s.uCum du) cell q).det
    rw [hadd e cell h1 q]
    exact this
  · have hn : n < S.points0.length := (List.getElem?_eq_some_iff.1 hp).1
    have hsum : ∀ c, fieldOf 3 (s.advance S lam du).uCum n c = fieldOf 3 s.uCum n c + fieldOf 3 du n c :=
      fun c => fieldOf_addRows _ _ S.points0.length hs.disp.len hdu.len hs.disp.row hdu.row n hn c
    refine ⟨fun hl c => ?_, fun hr c => ?_⟩
    · have h1 := (hs.bc n p hp).1 hl c
      have h2 := hval n hn c c.2 0 (((entries_spec hB (s.params S rho lam) n p hp c).1 hl 0).2 rfl)
      rw [hsum, h1, zero_add]
      exact h2
    · have h1 := (hs.bc n p hp).2 hr c
      have h2 := hval n hn c c.2 _ (((entries_spec hB (s.params S rho lam) n p hp c).2.1 hr _).2 rfl)
      have h2' : fieldOf 3 du n c = driven lam p c - driven s.lamPrev p c := h2
      rw [hsum, ← add_assoc, h1, h2']
      show _ = driven lam p c
      ring

/-- The step taken from a state that satisfies the invariant solves the total-Lagrangian problem. -/
theorem step_solves {S : Setup nq nn} (hS : S.WF) (hB : Built S) {rho : List ℝ}
    (hr : rho.length = S.cells.length) {s : State nq} (hs : Inv S s) (lam : ℝ)
    {sols : List (List (List ℝ))} (hx : ExactStep S (s.params S rho lam) sols) :
    SolvesTotal S rho lam (s.advance S lam (sols.getD 0 [])).uCum := by
  refine ⟨?_, (inv_advance hS hB hs lam hx).bc⟩
  obtain ⟨du, rfl, hdu⟩ := disp_iff S _ hx.shape
  obtain ⟨R, r1, r2⟩ := hx.balance
  refine ⟨R, ?_, fun n hn c hfree => ?_⟩
  · rw [← r1]
    exact (C83_residual S hS rho hr s lam du hs.disp.shape hdu.shape hs.len hs.grad hx.clear).symm
  · have hp : S.points0[n]? = some S.points0[n] := List.getElem?_eq_getElem hn
    have := hfree _ hp
    exact r2 n hn c c.2 ((entries_spec hB (s.params S rho lam) n _ hp c).2.2 this.1 this.2)

/-- **C83 (loop).** For any list of load factors and any solver whose successful calls solve the step's
problem clear of the floors: whenever the loop ends without an error, the accumulated displacement solves the
total-Lagrangian problem of the last load factor – balance of forces on the undeformed mesh at all nodes that are
on neither end, the clamped end at rest, the driven end moved and turned by the last load factor alone – and the
stored deformation gradients are those of the accumulated displacement. -/
theorem C83_loop (points0 : List (Fin 3 → ℝ)) (cells : List (List Nat)) (el : RefElement ℝ nq nn 3)
    (S : Setup nq nn) (hb : build points0 cells el = .ok S) (hS : S.WF) (rho : List ℝ)
    (hr : rho.length = cells.length) (fwdPred : Params nq → Except Err (List (List (List ℝ))))
    (hsolve : ∀ p sols, fwdPred p = .ok sols → ExactStep S p sols) (lams : List ℝ) (lam : ℝ)
    (s : State nq) (hrun : loop S rho fwdPred (lams ++ [lam]) (State.init S) = .ok s) :
    SolvesTotal S rho lam s.uCum ∧ s.lamPrev = lam ∧ s.Fprev.length = cells.length ∧
      ∀ (e : Nat) cell Fp, cells[e]? = some cell → s.Fprev[e]? = some Fp →
        ∀ q, Fp q = 1 + gradOn S points0 s.uCum cell q := by
  obtain ⟨S', hb', p0, pc, -, hB⟩ := build_spec points0 cells el
  rw [hb] at hb'
  cases hb'
  subst p0 pc
  suffices h : ∀ (lams : List ℝ) (s0 : State nq), Inv S s0 →
      loop S rho fwdPred (lams ++ [lam]) s0 = .ok s →
      Inv S s ∧ SolvesTotal S rho lam s.uCum ∧ s.lamPrev = lam by
    obtain ⟨h1, h2, h3⟩ := h lams _ (inv_init hS) hrun
    exact ⟨h2, h3, h1.len, h1.grad⟩
  intro lams
  induction lams with
  | nil =>
    intro s0 hs0 h
    rw [List.nil_append, loop] at h
    cases hf : fwdPred (s0.params S rho lam) with
    | error e => rw [hf] at h; cases h
    | ok sols =>
      rw [hf] at h
      have hx := hsolve _ _ hf
      have h' : s0.advance S lam (sols.getD 0 []) = s := by
        have : Except.ok (s0.advance S lam (sols.getD 0 [])) = (Except.ok s : Except Err _) := h
        exact Except.ok.inj this
      rw [← h']
      exact ⟨inv_advance hS hB hs0 lam hx, step_solves hS hB hr hs0 lam hx, rfl⟩
  | cons l lams ih =>
    intro s0 hs0 h
    rw [List.cons_append, loop] at h
    cases hf : fwdPred (s0.params S rho l) with
    | error e => rw [hf] at h; cases h
    | ok sols =>
      rw [hf] at h
      exact ih _ (inv_advance hS hB hs0 l (hsolve _ _ hf)) h

/-- **C83 (end to end).** The result of `end_to_end_ul` solves the total-Lagrangian problem at load
factor 1 (half a turn, axial displacement `-0.1`) with the clipped densities. -/
theorem C83_end_to_end (points0 : List (Fin 3 → ℝ)) (cells : List (List Nat)) (el : RefElement ℝ nq nn 3)
    (S : Setup nq nn) (hb : build points0 cells el = .ok S) (hS : S.WF) (rho : List ℝ)
    (hr : rho.length = cells.length) (fwdPred : Params nq → Except Err (List (List (List ℝ))))
    (hsolve : ∀ p sols, fwdPred p = .ok sols → ExactStep S p sols)
    (s : State nq) (hrun : endToEnd S rho fwdPred = .ok s) :
    SolvesTotal S (rho.map fun r => min (max r (1 / 50)) 1) 1 s.uCum ∧
      ∀ n (p : Fin 3 → ℝ), points0[n]? = some p → OnRight p →
        ∀ c, p c + fieldOf 3 s.uCum n c = ![p 0 - 1 / 10, -p 1, -p 2] c := by
  have e : (List.range 7).map loadFactor = (List.range 6).map loadFactor ++ [1] := by
    rw [show 7 = 6 + 1 from rfl, List.range_succ, List.map_append]
    norm_num [loadFactor]
  have e2 : clipRho rho = rho.map fun r => min (max r (1 / 50)) 1 := by
    rw [clipRho, RHO_MIN]; norm_num
  rw [endToEnd, e] at hrun
  have h := (C83_loop points0 cells el S hb hS (clipRho rho) (by simp [clipRho, hr]) fwdPred hsolve _ 1 s
    hrun).1
  refine ⟨by rw [← e2]; exact h, fun n p hp hR c => ?_⟩
  obtain ⟨S', hb', p0, pc, -, hB⟩ := build_spec points0 cells el
  rw [hb] at hb'
  cases hb'
  subst p0 pc
  rw [(h.2 n p hp).2 hR c]
  fin_cases c <;> simp [driven]

/-! The material. -/

theorem hasDerivAt_det3 (F H : Matrix (Fin 3) (Fin 3) ℝ) :
    HasDerivAt (fun t : ℝ => (F + t • H).det) (∑ i, ∑ j, F.adjugate j i * H i j) 0 := by
  have he : ∀ i j, HasDerivAt (fun t : ℝ => (F + t • H) i j) (H i j) 0 := by
    intro i j
    have : HasDerivAt (fun t : ℝ => F i j + t * H i j) (0 + 1 * H i j) 0 :=
      (hasDerivAt_const _ _).add ((hasDerivAt_id _).mul_const _)
    simpa using this
  have hz : ∀ i j, (F + (0 : ℝ) • H) i j = F i j := by intro i j; simp
  have h : HasDerivAt (fun t : ℝ => (F + t • H) 0 0 * (F + t • H) 1 1 * (F + t • H) 2 2
      - (F + t • H) 0 0 * (F + t • H) 1 2 * (F + t • H) 2 1
      - (F + t • H) 0 1 * (F + t • H) 1 0 * (F + t • H) 2 2
      + (F + t • H) 0 1 * (F + t • H) 1 2 * (F + t • H) 2 0
      + (F + t • H) 0 2 * (F + t • H) 1 0 * (F + t • H) 2 1
      - (F + t • H) 0 2 * (F + t • H) 1 1 * (F + t • H) 2 0) _ 0 :=
    ((((((he 0 0).mul (he 1 1)).mul (he 2 2)).sub (((he 0 0).mul (he 1 2)).mul (he 2 1))).sub
      (((he 0 1).mul (he 1 0)).mul (he 2 2))).add (((he 0 1).mul (he 1 2)).mul (he 2 0))).add
      (((he 0 2).mul (he 1 0)).mul (he 2 1)) |>.sub (((he 0 2).mul (he 1 1)).mul (he 2 0))
  have hd : (fun t : ℝ => (F + t • H).det) = fun t : ℝ => (F + t • H) 0 0 * (F + t • H) 1 1 * (F + t • H) 2 2
      - (F + t • H) 0 0 * (F + t • H) 1 2 * (F + t • H) 2 1
      - (F + t • H) 0 1 * (F + t • H) 1 0 * (F + t • H) 2 2
      + (F + t • H) 0 1 * (F + t • H) 1 2 * (F + t • H) 2 0
      + (F + t • H) 0 2 * (F + t • H) 1 0 * (F + t • H) 2 1
      - (F + t • H) 0 2 * (F + t • H) 1 1 * (F + t • H) 2 0 := by
    funext t; rw [Matrix.det_fin_three]
  rw [hd]
  convert h using 1
  simp only [hz, Pi.mul_apply, Fin.sum_univ_three, Matrix.adjugate_fin_three]
  simp
  ring

theorem adjugate_eq (F : Matrix (Fin 3) (Fin 3) ℝ) (h : F.det ≠ 0) (i j : Fin 3) :
    F.adjugate j i = F.det * F⁻¹ j i := by
  rw [Matrix.inv_def, Ring.inverse_eq_inv', Matrix.smul_apply, smul_eq_mul, mul_inv_cancel_left₀ h]

/-- **C83 (material).** The stress of the total-Lagrangian problem is hyperelastic and objective: it is the
derivative of the stored energy in every direction, it vanishes in the undeformed state, rotating the deformed body
rotates the stress, and the Kirchhoff stress `P Fᵀ` is symmetric.  Above the floor the code's `material_kirchhoff` is
this Kirchhoff stress. -/
theorem C83_material (F : Matrix (Fin 3) (Fin 3) ℝ) (h : 0 < F.det) :
    (∀ H : Matrix (Fin 3) (Fin 3) ℝ, HasDerivAt (fun t : ℝ => energy (F + t • H))
      (contract (fun i j => firstPiola F i j) fun i j => H i j) 0) ∧
    firstPiola 1 = 0 ∧
    (∀ Q : Matrix (Fin 3) (Fin 3) ℝ, Q * Q.transpose = 1 → Q.det = 1 →
      firstPiola (Q * F) = Q * firstPiola F) ∧
    (firstPiola F * F.transpose).transpose = firstPiola F * F.transpose ∧
    (1 / 10 ^ 14 < F.det → materialKirchhoff F = firstPiola F * F.transpose) := by
  have h0 := h.ne'
  have eFF : F⁻¹.transpose * F.transpose = 1 := by
    rw [← Matrix.transpose_mul, Matrix.mul_nonsing_inv _ h0.isUnit, Matrix.transpose_one]
  have hK : firstPiola F * F.transpose
      = (1 : ℝ) • (F * F.transpose - 1) + (2 * Real.log F.det) • (1 : Matrix (Fin 3) (Fin 3) ℝ) := by
    simp only [firstPiola, Matrix.add_mul, Matrix.smul_mul, Matrix.sub_mul, eFF]
  refine ⟨fun H => ?_, by simp [firstPiola], fun Q hQ hQd => ?_, ?_, fun hfl => ?_⟩
  · have hdet := hasDerivAt_det3 F H
    have hz : F + (0 : ℝ) • H = F := by simp
    have hlog : HasDerivAt (fun t : ℝ => Real.log (F + t • H).det)
        ((∑ i, ∑ j, F.adjugate j i * H i j) / F.det) 0 := by
      have := hdet.log (by rw [hz]; exact h0)
      rwa [hz] at this
    have hsq : HasDerivAt (fun t : ℝ => ∑ i, ∑ j, (F + t • H) i j ^ 2)
        (∑ i, ∑ j, 2 * F i j * H i j) 0 := by
      refine HasDerivAt.fun_sum fun i _ => HasDerivAt.fun_sum fun j _ => ?_
      have he : HasDerivAt (fun t : ℝ => (F + t • H) i j) (H i j) 0 := by
        have : HasDerivAt (fun t : ℝ => F i j + t * H i j) (0 + 1 * H i j) 0 :=
          (hasDerivAt_const _ _).add ((hasDerivAt_id _).mul_const _)
        simpa using this
      have := he.fun_pow 2
      simpa [hz] using this
    have := (((hsq.sub_const 3).const_mul ((1 : ℝ) / 2)).sub (hlog.const_mul (1 : ℝ))).add
      ((hlog.fun_pow 2).const_mul ((2 : ℝ) / 2))
    refine this.congr_deriv ?_
    simp only [hz, contract, firstPiola, Matrix.add_apply, Matrix.smul_apply, Matrix.sub_apply,
      Matrix.transpose_apply, smul_eq_mul, adjugate_eq F h0, Finset.sum_div]
    rw [Finset.mul_sum, Finset.mul_sum, Finset.mul_sum, Finset.mul_sum, ← Finset.sum_sub_distrib,
      ← Finset.sum_add_distrib]
    refine Finset.sum_congr rfl fun i _ => ?_
    rw [Finset.mul_sum, Finset.mul_sum, Finset.mul_sum, Finset.mul_sum, ← Finset.sum_sub_distrib,
      ← Finset.sum_add_distrib]
    refine Finset.sum_congr rfl fun j _ => ?_
    field_simp
    ring
  · have hQi : Q⁻¹ = Q.transpose := Matrix.inv_eq_right_inv hQ
    have e1 : (Q * F)⁻¹.transpose = Q * F⁻¹.transpose := by
      rw [Matrix.mul_inv_rev, Matrix.transpose_mul, hQi, Matrix.transpose_transpose]
    simp only [firstPiola, e1, Matrix.det_mul, hQd, one_mul, Matrix.mul_add, Matrix.mul_smul,
      Matrix.mul_sub]
  · rw [hK]
    simp [Matrix.transpose_add, Matrix.transpose_smul, Matrix.transpose_sub, Matrix.transpose_mul]
  · rw [hK]
    have hm : max F.det floorJ = F.det := max_eq_left (by rw [floorJ]; exact hfl.le)
    simp only [materialKirchhoff, MU, LAMBDA, hm]

/-! Non-vacuity: one tetrahedron with two nodes on each end, driven by load factor 2 (a full turn and an axial
displacement of `-0.2`), density one half. -/

noncomputable def exPts : List (Fin 3 → ℝ) := [![0, 0, 0], ![1, 0, 0], ![0, 1, 0], ![1, 0, 1]]

noncomputable def exEl : RefElement ℝ 1 4 3 where
  shapeVals := fun _ _ => 1 / 4
  shapeGradsRef := fun _ => ![![-1, -1, -1], ![1, 0, 0], ![0, 1, 0], ![0, 0, 1]]
  quadWeights := fun _ => 1 / 6

noncomputable def exDu : List (List ℝ) := [[0, 0, 0], [-1 / 5, 0, 0], [0, 0, 0], [-1 / 5, 0, 0]]

example : ∃ (S : Setup 1 4) (fwdPred : Params 1 → Except Err (List (List (List ℝ)))) (s : State 1),
    build exPts [[0, 1, 2, 3]] exEl = .ok S ∧ S.WF ∧
    (∀ p sols, fwdPred p = .ok sols → ExactStep S p sols) ∧
    loop S [1 / 2] fwdPred ([] ++ [2]) (State.init S) = .ok s ∧ s.uCum.getD 1 [] = [-1 / 5, 0, 0] := by
  classical
  obtain ⟨S, hb, p0, pc, pe, hB⟩ := build_spec exPts [[0, 1, 2, 3]] exEl
  have hJ0 : (mapJacobian (coords 4 S.points0 [0, 1, 2, 3]) (Matrix.of (S.el.shapeGradsRef 0))).det = 1 := by
    rw [p0, pe, Matrix.det_fin_three]
    simp [mapJacobian, Matrix.mul_apply, Fin.sum_univ_four, coords, exPts, exEl]
  have hS : S.WF := by
    refine ⟨by simp [pc], by simp [pc], by simp [pc, p0, exPts], fun cell hcell q => ?_⟩
    rw [pc, List.mem_singleton] at hcell
    subst hcell
    rw [Subsingleton.elim q 0, hJ0]
    exact one_ne_zero
  have hx : ExactStep S ((State.init S).params S [1 / 2] 2) [exDu] := by
    have hd : Disp S exDu := ⟨by simp [p0, exDu, exPts], by simp [exDu]⟩
    have hends : ∀ (n : Nat) (p : Fin 3 → ℝ), S.points0[n]? = some p → OnLeft p ∨ OnRight p := by
      intro n p hp
      have hn := (List.getElem?_eq_some_iff.1 hp).1
      rw [p0] at hp hn
      have hn' : n < 4 := hn
      interval_cases n <;> simp only [exPts, List.getElem?_cons_zero, List.getElem?_cons_succ,
        Option.some.injEq] at hp <;> subst hp
      · left; simp [OnLeft]
      · right; norm_num [OnRight]
      · left; simp [OnLeft]
      · right; norm_num [OnRight]
    have hrow : ∀ (n : Nat) (p : Fin 3 → ℝ), S.points0[n]? = some p → ∀ c,
        (OnLeft p → fieldOf 3 exDu n c = 0) ∧
        (OnRight p → fieldOf 3 exDu n c = driven 2 p c - driven 0 p c) := by
      intro n p hp c
      have hn := (List.getElem?_eq_some_iff.1 hp).1
      rw [p0] at hp hn
      have hn' : n < 4 := hn
      have c2 : Real.cos (2 * Real.pi) = 1 := Real.cos_two_pi
      have s2 : Real.sin (2 * Real.pi) = 0 := Real.sin_two_pi
      interval_cases n <;> simp only [exPts, List.getElem?_cons_zero, List.getElem?_cons_succ,
        Option.some.injEq] at hp <;> subst hp <;> refine ⟨fun h => ?_, fun h => ?_⟩
      · fin_cases c <;> simp [fieldOf, exDu]
      · norm_num [OnRight] at h
      · norm_num [OnLeft] at h
      · fin_cases c <;> norm_num [fieldOf, exDu, driven, c2, s2]
      · fin_cases c <;> simp [fieldOf, exDu]
      · norm_num [OnRight] at h
      · norm_num [OnLeft] at h
      · fin_cases c <;> norm_num [fieldOf, exDu, driven, c2, s2]
    refine ⟨hd.shape, ?_, fun n hn c hc v hv => ?_, fun e cell Fp h1 h2 q => ?_⟩
    · have hpos : 0 < numCells S.fes := by
        have : numCells S.fes = S.cells.length := rfl
        rw [this, pc]; decide
      refine ⟨residualHelper S.fes [] (List.zipWith universalKernel (cellsSolFlat S.fes [exDu])
        (cellInputs S ((State.init S).params S [1 / 2] 2))) [], ?_, fun n hn c hc hfree => ?_⟩
      · rw [stepResidual]
        simp only [computeResidual, C02_batching _ _ hpos]
        rfl
      · have hp : S.points0[n]? = some S.points0[n] := List.getElem?_eq_getElem hn
        have hsp := entries_spec hB ((State.init S).params S [1 / 2] 2) n _ hp ⟨c, hc⟩
        have hno : ∀ v, ¬LastPrescribes (stepEntries S ((State.init S).params S [1 / 2] 2)) n c v := by
          rintro v ⟨before, e, after, h1, h2, -⟩
          exact hfree e (by rw [h1]; simp) v h2
        rcases hends n _ hp with h | h
        · exact absurd ((hsp.1 h 0).2 rfl) (hno 0)
        · exact absurd ((hsp.2.1 h _).2 rfl) (hno _)
    · have hp : S.points0[n]? = some S.points0[n] := List.getElem?_eq_getElem hn
      have hsp := entries_spec hB ((State.init S).params S [1 / 2] 2) n _ hp ⟨c, hc⟩
      rcases hends n _ hp with h | h
      · rw [(hsp.1 h v).1 hv]
        exact (hrow n _ hp ⟨c, hc⟩).1 h
      · rw [(hsp.2.1 h v).1 hv]
        exact (hrow n _ hp ⟨c, hc⟩).2 h
    · rw [pc] at h1
      have he : e = 0 := by
        have := (List.getElem?_eq_some_iff.1 h1).1
        simpa using this
      subst he
      simp only [List.getElem?_cons_zero, Option.some.injEq] at h1
      subst h1
      have hF : Fp = fun _ => 1 := by
        simp [State.params, State.init, pc] at h2
        exact h2.symm
      rw [hF, Matrix.mul_one, and_self, Subsingleton.elim q 0]
      have hz : ∀ cell, restrict 4 (fieldOf 3 (State.init S).uCum) cell = 0 := by
        intro cell; ext a c
        simp only [restrict, fieldOf, State.init, Matrix.of_apply, Matrix.zero_apply]
        rw [p0]
        generalize cell.getD a 0 = n
        rcases n with _ | _ | _ | _ | n <;> fin_cases c <;> simp [exPts]
      have hX : coords 4 (addPoints S.points0 (State.init S).uCum) [0, 1, 2, 3]
          = coords 4 S.points0 [0, 1, 2, 3] := by
        rw [coords_addPoints (nn := 4) S.points0 (State.init S).uCum (by simp [State.init]) [0, 1, 2, 3] rfl
          (by simp [p0, exPts]), hz, add_zero]
      show _ < (1 + gradOn S (addPoints S.points0 (State.init S).uCum) exDu [0, 1, 2, 3] 0).det
      rw [gradOn, hX, one_add_physGrad _ _ _ (by rw [hJ0]; exact one_ne_zero), Matrix.det_mul,
        Matrix.det_nonsing_inv, hJ0, Ring.inverse_one, mul_one, p0, pe, Matrix.det_fin_three]
      simp [mapJacobian, Matrix.mul_apply, Fin.sum_univ_four, coords, exPts, exEl, restrict, fieldOf, exDu]
      norm_num
  refine ⟨S, fun p => if ExactStep S p [exDu] then .ok [exDu] else .error .value,
    (State.init S).advance S 2 exDu, hb, hS, fun p sols h => ?_, ?_, ?_⟩
  · simp only at h
    by_cases hp : ExactStep S p [exDu]
    · rw [if_pos hp] at h; cases h; exact hp
    · rw [if_neg hp] at h; cases h
  · rw [List.nil_append, loop, if_pos hx]; rfl
  · simp [State.advance, State.init, addRows, exDu, p0, exPts]

end JaxFem.UL
