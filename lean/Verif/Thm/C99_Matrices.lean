import Verif.Thm.C99_Forms
import Verif.Thm.C92_Cantilever
import Mathlib.LinearAlgebra.Dimension.LinearMap
import Mathlib.LinearAlgebra.FiniteDimensional.Lemmas

/-!
# C99: the stiffness and mass matrices of the eigenfrequency analysis
-/

namespace JaxFem.Modal

open scoped BigOperators Topology

variable {nq nfq nn : Nat} (B : Problem1 (List ℝ) nq nfq nn 2 2)

/-! ### Helper lemmas -/

theorem modulus_pos {t : ℝ} (h : 0 ≤ t) : 0 < modulus t := by
  have : 0 ≤ t ^ 5 := pow_nonneg h 5
  rw [modulus]
  linarith

/-- Degrees of freedom of a nodal field. -/
def dofsOf (u : Nat → Fin 2 → ℝ) : Fin (totalDofs B.fes) → ℝ := fun k =>
  u (k / 2) ⟨k % 2, Nat.mod_lt _ two_pos⟩

theorem vecField_dofsOf (u : Nat → Fin 2 → ℝ) (n : Nat) (hn : n < B.numTotalNodes) (c : Fin 2) :
    B.vecField (dofsOf B u) n c = u n c := by
  have hlt : n * 2 + c < totalDofs B.fes := by
    rw [totalDofs_single]
    have := c.2
    omega
  rw [Problem1.vecField, dif_pos hlt, dofsOf]
  have e1 : (n * 2 + (c : Nat)) / 2 = n := by have := c.2; omega
  have e2 : (n * 2 + (c : Nat)) % 2 = c := by have := c.2; omega
  simp only [e1, e2]

/-- Rigid motions in the form of `RigidMotion`. -/
theorem rigidVec_eq (points : List (Fin 2 → ℝ)) (b : Fin 2 → ℝ) (omega : ℝ) (n : Nat) (i : Fin 2) :
    rigidVec points b omega n i = ∑ j, (!![0, -omega; omega, 0] : Matrix (Fin 2) (Fin 2) ℝ) i j * points.getD n 0 j
      + b i := by
  fin_cases i
  · show b 0 - omega * points.getD n 0 1 = _
    simp only [Fin.sum_univ_two]
    show _ = 0 * points.getD n 0 0 + -omega * points.getD n 0 1 + b 0
    ring
  · show b 1 + omega * points.getD n 0 0 = _
    simp only [Fin.sum_univ_two]
    show _ = omega * points.getD n 0 0 + 0 * points.getD n 0 1 + b 1
    ring

theorem skew_two {W : Matrix (Fin 2) (Fin 2) ℝ} (h : Skew W) : W = !![0, -W 1 0; W 1 0, 0] := by
  have h00 := h 0 0
  have h11 := h 1 1
  have h01 := h 0 1
  ext i j
  fin_cases i <;> fin_cases j
  · show W 0 0 = 0; linarith
  · show W 0 1 = -W 1 0; exact h01
  · rfl
  · show W 1 1 = 0; linarith

theorem gradient_congr (u w : Nat → Fin 2 → ℝ) (cell : CellSpec (List ℝ) nq) (hc : cell.nodes.length = nn)
    (he : ∀ n ∈ cell.nodes, u n = w n) (q : Fin nq) : B.gradient u cell.nodes q = B.gradient w cell.nodes q := by
  have : restrict nn u cell.nodes = restrict nn w cell.nodes := by
    ext a c
    have ha : (a : Nat) < cell.nodes.length := by rw [hc]; exact a.2
    simp only [restrict, Matrix.of_apply]
    rw [List.getD_eq_getElem _ _ ha, he _ (List.getElem_mem ha)]
  rw [Problem1.gradient, Problem1.gradient, this]

variable {B}

/-- Gradient of a field that is a rigid motion at the nodes of the mesh. -/
theorem FreeBody.rigid_gradient (h : FreeBody B) (u : Nat → Fin 2 → ℝ) (b : Fin 2 → ℝ) (omega : ℝ)
    (hu : ∀ n < B.numTotalNodes, u n = rigidVec B.points b omega n) (cell : CellSpec (List ℝ) nq) (hc : cell ∈ B.cells)
    (q : Fin nq) : B.gradient u cell.nodes q = !![0, -omega; omega, 0] :=
  affine_gradient B h.unity cell.nodes (h.wf.cell_length cell hc) u _ b
    (fun n hn i => by rw [hu n (h.wf.cell_lt cell hc n hn)]; exact rigidVec_eq _ _ _ _ _) q
    (left_ne_zero_of_mul (h.positive cell hc q).ne')

theorem stiffness_kernel (h : FreeBody B) (rho : Fin B.cells.length → ℝ) (hr : ∀ c, 0 ≤ rho c)
    (v : Fin (totalDofs B.fes) → ℝ) :
    (stiffness B rho).mulVec v = 0 ↔
      ∃ b omega, ∀ n < B.numTotalNodes, B.vecField v n = rigidVec B.points b omega n := by
  have hF := stiffForm_psd B h.positive
  constructor
  · intro hz
    have h0 : ∑ i : Fin B.cells.length × Fin nq, modulus (rho i.1) * stiffForm B i v v = 0 := by
      rw [← formMatrix_dot _ _ hF v v]
      exact (congrArg (dotProduct v) hz).trans (dotProduct_zero v)
    have hzero := (Finset.sum_eq_zero_iff_of_nonneg fun i _ =>
      mul_nonneg (modulus_pos (hr i.1)).le ((hF i).nonneg _)).1 h0
    have hstr : ∀ cell ∈ B.cells, ∀ q, symPart (B.gradient (B.vecField v) cell.nodes q) = 0 := by
      intro cell hc q
      obtain ⟨k, hk, rfl⟩ := List.getElem_of_mem hc
      have h1 := hzero (⟨k, hk⟩, q) (Finset.mem_univ _)
      have h2 : stiffForm B (⟨k, hk⟩, q) v v = 0 := (mul_eq_zero.1 h1).resolve_left (modulus_pos (hr _)).ne'
      have h3 : contract (planeLaw 0.3 (B.gradAt (B.vecField v) ⟨k, hk⟩ q)) (B.gradAt (B.vecField v) ⟨k, hk⟩ q) = 0 :=
        (mul_eq_zero.1 h2).resolve_right (h.positive _ (List.getElem_mem hk) q).ne'
      by_contra hne
      exact ((planeLaw_pos 0.3 (by norm_num) (by norm_num) _).2 hne).ne' h3
    obtain ⟨cell0, hc0, hheld⟩ := h.connected
    obtain ⟨cs, hcs, rfl⟩ := List.mem_map.1 hc0
    obtain ⟨W, b, hW, hb⟩ := h.strain cs hcs (restrict nn (B.vecField v) cs.nodes) (fun q => hstr cs hcs q)
    have hWe := skew_two hW
    refine ⟨b, W 1 0, fun n hn => funext fun c => ?_⟩
    refine held_unique B h.wf h.strain (fun m _ => m ∉ cs.nodes) (B.vecField v) (rigidVec B.points b (W 1 0))
      (fun cell hc q => ?_) (fun m i hm => ?_) n (hheld n hn) c
    · rw [hstr cell hc q, h.rigid_gradient _ b (W 1 0) (fun _ _ => rfl) cell hc q]
      funext i j
      fin_cases i <;> fin_cases j <;> simp [symPart]
    · have hm' : m ∈ cs.nodes := not_not.1 hm
      obtain ⟨a, ha, rfl⟩ := List.getElem_of_mem hm'
      have hlen := h.wf.cell_length cs hcs
      have := hb ⟨a, hlen ▸ ha⟩ i
      simp only [restrict, Matrix.of_apply, JaxFem.coords, List.getD_eq_getElem _ _ ha] at this
      rw [rigidVec_eq, ← hWe]
      exact this
  · rintro ⟨b, omega, hv⟩
    funext k
    refine (formMatrix_mulVec _ _ hF v k).trans (Finset.sum_eq_zero fun i _ => ?_)
    have hg : B.gradAt (B.vecField v) i.1 i.2 = !![0, -omega; omega, 0] :=
      h.rigid_gradient _ b omega hv _ (List.getElem_mem _) i.2
    have : stiffForm B i v (Pi.single k 1) = 0 := by
      have e := planeLaw_energy 0.3 (by norm_num) (by norm_num) (B.gradAt (B.vecField v) i.1 i.2)
        (B.gradAt (B.vecField (Pi.single k 1)) i.1 i.2)
      have g00 : B.gradAt (B.vecField v) i.1 i.2 0 0 = 0 := congrFun (congrFun hg 0) 0
      have g01 : B.gradAt (B.vecField v) i.1 i.2 0 1 = -omega := congrFun (congrFun hg 0) 1
      have g10 : B.gradAt (B.vecField v) i.1 i.2 1 0 = omega := congrFun (congrFun hg 1) 0
      have g11 : B.gradAt (B.vecField v) i.1 i.2 1 1 = 0 := congrFun (congrFun hg 1) 1
      rw [g00, g01, g10, g11] at e
      refine (congrArg (· * B.measureAt i.1 i.2) e).trans ?_
      simp
    rw [this, mul_zero]

/-- Rigid motions as vectors of degrees of freedom. -/
noncomputable def rigidMap (B : Problem1 (List ℝ) nq nfq nn 2 2) : (Fin 3 → ℝ) →ₗ[ℝ] (Fin (totalDofs B.fes) → ℝ) where
  toFun := fun p => dofsOf B (rigidVec B.points ![p 0, p 1] (p 2))
  map_add' := fun p p' => by
    funext k
    simp only [dofsOf, rigidVec, Pi.add_apply]
    generalize (⟨(k : Nat) % 2, _⟩ : Fin 2) = c
    fin_cases c <;> simp <;> ring
  map_smul' := fun a p => by
    funext k
    simp only [dofsOf, rigidVec, Pi.smul_apply, smul_eq_mul, RingHom.id_apply]
    generalize (⟨(k : Nat) % 2, _⟩ : Fin 2) = c
    fin_cases c <;> simp <;> ring

theorem rigidMap_injective (h : FreeBody B) : Function.Injective (rigidMap B) := by
  refine (injective_iff_map_eq_zero _).2 fun p hp => ?_
  have hz : ∀ n < B.numTotalNodes, rigidVec B.points ![p 0, p 1] (p 2) n = 0 := by
    intro n hn
    funext c
    rw [← vecField_dofsOf B (rigidVec B.points ![p 0, p 1] (p 2)) n hn c]
    have : dofsOf B (rigidVec B.points ![p 0, p 1] (p 2)) = 0 := hp
    rw [this]
    simp [Problem1.vecField]
  obtain ⟨cell, hc⟩ := List.exists_mem_of_ne_nil _ h.wf.nonempty
  have hg := h.rigid_gradient (rigidVec B.points ![p 0, p 1] (p 2)) _ _ (fun _ _ => rfl) cell hc ⟨0, h.quad⟩
  have hg0 := h.rigid_gradient (fun _ => 0) 0 0 (fun n _ => by
    funext c; fin_cases c <;> simp [rigidVec]) cell hc ⟨0, h.quad⟩
  rw [gradient_congr B (rigidVec B.points ![p 0, p 1] (p 2)) (fun _ => 0) cell (h.wf.cell_length cell hc)
    (fun n hn => hz n (h.wf.cell_lt cell hc n hn)), hg0] at hg
  have hom : p 2 = 0 := by
    have := congrFun (congrFun hg 1) 0
    exact this.symm
  have hne : ∃ n, n < B.numTotalNodes := by
    by_contra hcon
    push Not at hcon
    have hnn : nn = 0 := by
      have := h.wf.cell_length cell hc
      rcases hnodes : cell.nodes with _ | ⟨m, t⟩
      · rw [hnodes] at this; exact this.symm
      · exact absurd (h.wf.cell_lt cell hc m (by rw [hnodes]; simp)) (by have := hcon m; omega)
    subst hnn
    have := h.positive cell hc ⟨0, h.quad⟩
    have e : mapJacobian (coords 0 B.points cell.nodes) (Matrix.of (B.el.shapeGradsRef ⟨0, h.quad⟩)) = 0 := by
      ext i j
      simp [mapJacobian, Matrix.mul_apply]
    rw [e, Matrix.det_zero, zero_mul] at this
    exact lt_irrefl _ this
  obtain ⟨n, hn⟩ := hne
  have := hz n hn
  have h0 := congrFun this 0
  have h1 := congrFun this 1
  simp only [rigidVec, hom] at h0 h1
  funext i
  fin_cases i
  · simpa using h0
  · simpa using h1
  · exact hom

theorem stiffness_nullity (h : FreeBody B) (rho : Fin B.cells.length → ℝ) (hr : ∀ c, 0 ≤ rho c) :
    Module.finrank ℝ (LinearMap.ker (stiffness B rho).mulVecLin) = 3 := by
  have e : LinearMap.ker (stiffness B rho).mulVecLin = LinearMap.range (rigidMap B) := by
    ext v
    rw [LinearMap.mem_ker, Matrix.mulVecLin_apply, stiffness_kernel h rho hr, LinearMap.mem_range]
    constructor
    · rintro ⟨b, omega, hv⟩
      refine ⟨![b 0, b 1, omega], vecField_eq_iff B _ _ fun n hn c => ?_⟩
      rw [hv n hn]
      refine (vecField_dofsOf B (rigidVec B.points ![b 0, b 1] omega) n hn c).trans ?_
      congr 2
      funext i
      fin_cases i <;> rfl
    · rintro ⟨p, rfl⟩
      exact ⟨![p 0, p 1], p 2, fun n hn => funext fun c =>
        vecField_dofsOf B (rigidVec B.points ![p 0, p 1] (p 2)) n hn c⟩
  rw [e, LinearMap.finrank_range_of_inj (rigidMap_injective h)]
  simp

theorem mass_definite (h : FreeBody B) (rho : Fin B.cells.length → ℝ) (hr : ∀ c, 0 < rho c)
    (v : Fin (totalDofs B.fes) → ℝ) (hv : v ≠ 0) : 0 < dotProduct v ((mass B rho).mulVec v) := by
  have hF := massForm_psd B h.positive
  rw [mass, formMatrix_dot _ _ hF]
  have h0 : ∀ i : Fin B.cells.length × Fin nq, 0 ≤ 2700 * rho i.1 * massForm B i v v := fun i =>
    mul_nonneg (mul_nonneg (by norm_num) (hr i.1).le) ((hF i).nonneg v)
  refine lt_of_le_of_ne (Finset.sum_nonneg fun i _ => h0 i) fun hz => hv ?_
  have hzero := (Finset.sum_eq_zero_iff_of_nonneg fun i _ => h0 i).1 hz.symm
  refine vecField_eq_iff B _ _ fun n hn c => ?_
  obtain ⟨cell, hcell, hnc⟩ := h.covered n hn
  obtain ⟨cs, hcs, rfl⟩ := List.mem_map.1 hcell
  obtain ⟨k, hk, rfl⟩ := List.getElem_of_mem hcs
  have hval : ∀ q, valueAt B v (⟨k, hk⟩, q) c = 0 := by
    intro q
    have h1 := hzero (⟨k, hk⟩, q) (Finset.mem_univ _)
    have h2 : massForm B (⟨k, hk⟩, q) v v = 0 :=
      (mul_eq_zero.1 h1).resolve_left (mul_ne_zero (by norm_num) (hr _).ne')
    have h3 : ∑ c, valueAt B v (⟨k, hk⟩, q) c * valueAt B v (⟨k, hk⟩, q) c = 0 :=
      (mul_eq_zero.1 h2).resolve_right (h.positive _ (List.getElem_mem hk) q).ne'
    have h4 := (Finset.sum_eq_zero_iff_of_nonneg fun c _ => mul_self_nonneg _).1 h3 c (Finset.mem_univ _)
    exact mul_self_eq_zero.1 h4
  obtain ⟨a, ha, rfl⟩ := List.getElem_of_mem hnc
  have hlen := h.wf.cell_length _ hcs
  have := congrFun (h.value (fun a => restrict nn (B.vecField v) (B.cells[k]).nodes a c) (fun q =>
    (Finset.sum_congr rfl fun a _ => mul_comm _ _).trans (hval q))) ⟨a, hlen ▸ ha⟩
  simp only [restrict, Matrix.of_apply, List.getD_eq_getElem _ _ ha, Pi.zero_apply] at this
  rw [this]
  simp [Problem1.vecField]

/-! ### Property theorems -/

/-- **C99 (quadratic forms).** `vAv_fn` of the two problems is the quadratic form of their matrices, which are
symmetric: for the stiffness problem the sum over the cells of Young's modulus `Emin + (Emax - Emin) rho^5` times the
energy of the displacement, for the mass problem the sum of the density `2700 rho` times the integral of its square. -/
theorem C99_forms (h : B.WF) (hpos : B.PositiveMeasure) (rho : Fin B.cells.length → ℝ)
    (K M : Matrix (Fin (totalDofs B.fes)) (Fin (totalDofs B.fes)) ℝ) (u : Fin (totalDofs B.fes) → ℝ)
    (hK : HasJacobianAt (residual (problemK B) (column rho)) K u)
    (hM : HasJacobianAt (residual (problemM B) (column rho)) M u) :
    K.IsSymm ∧ M.IsSymm ∧ ∀ v : Fin (totalDofs B.fes) → ℝ,
      vAv (problemK B) (column rho) v = dotProduct v (K.mulVec v) ∧
      vAv (problemK B) (column rho) v = ∑ c, (70000000 + 69930000000 * rho c ^ 5)
        * ∑ q, B.energyAt (planeLaw 0.3) (B.vecField v) c q ∧
      vAv (problemM B) (column rho) v = dotProduct v (M.mulVec v) ∧
      vAv (problemM B) (column rho) v = ∑ c, 2700 * rho c * ∑ q, squareAt B (B.vecField v) c q := by
  obtain rfl := (stiffness_jacobian B h hpos rho).1 K u hK
  obtain rfl := (mass_jacobian B h hpos rho).1 M u hM
  refine ⟨formMatrix_symm _ _ (stiffForm_psd B hpos), formMatrix_symm _ _ (massForm_psd B hpos), fun v =>
    ⟨vKv_eq B h hpos rho v, ?_, vMv_eq B h hpos rho v, ?_⟩⟩
  · rw [vKv_eq B h hpos, stiffness, formMatrix_dot _ _ (stiffForm_psd B hpos), Fintype.sum_prod_type]
    refine Finset.sum_congr rfl fun c _ => ?_
    rw [Finset.mul_sum]
    rfl
  · rw [vMv_eq B h hpos, mass, formMatrix_dot _ _ (massForm_psd B hpos), Fintype.sum_prod_type]
    refine Finset.sum_congr rfl fun c _ => ?_
    rw [Finset.mul_sum]
    refine Finset.sum_congr rfl fun q _ => ?_
    simp only [massForm, squareAt, valueAt, sq]

/-- **C99 (definiteness).** For nonnegative densities the stiffness matrix of a free body is positive semidefinite and
its kernel consists of the rigid motions of the mesh, a space of dimension three; for positive densities the mass matrix
is positive definite. -/
theorem C99_definite (h : FreeBody B) (rho : Fin B.cells.length → ℝ) (hr : ∀ c, 0 ≤ rho c)
    (K M : Matrix (Fin (totalDofs B.fes)) (Fin (totalDofs B.fes)) ℝ) (u : Fin (totalDofs B.fes) → ℝ)
    (hK : HasJacobianAt (residual (problemK B) (column rho)) K u)
    (hM : HasJacobianAt (residual (problemM B) (column rho)) M u) :
    (∀ v, 0 ≤ dotProduct v (K.mulVec v)) ∧ (∀ v, 0 ≤ dotProduct v (M.mulVec v)) ∧
    (∀ v, K.mulVec v = 0 ↔ ∃ b omega, ∀ n < B.numTotalNodes, B.vecField v n = rigidVec B.points b omega n) ∧
    Module.finrank ℝ (LinearMap.ker K.mulVecLin) = 3 ∧
    ((∀ c, 0 < rho c) → ∀ v, v ≠ 0 → 0 < dotProduct v (M.mulVec v)) := by
  obtain rfl := (stiffness_jacobian B h.wf h.positive rho).1 K u hK
  obtain rfl := (mass_jacobian B h.wf h.positive rho).1 M u hM
  refine ⟨fun v => ?_, fun v => ?_, stiffness_kernel h rho hr, stiffness_nullity h rho hr, mass_definite h rho⟩
  · rw [stiffness, formMatrix_dot _ _ (stiffForm_psd B h.positive)]
    exact Finset.sum_nonneg fun i _ => mul_nonneg (modulus_pos (hr i.1)).le ((stiffForm_psd B h.positive i).nonneg v)
  · rw [mass, formMatrix_dot _ _ (massForm_psd B h.positive)]
    exact Finset.sum_nonneg fun i _ => mul_nonneg (mul_nonneg (by norm_num) (hr i.1))
      ((massForm_psd B h.positive i).nonneg v)

end JaxFem.Modal
