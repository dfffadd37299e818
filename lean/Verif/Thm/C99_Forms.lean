import Verif.Thm.C92_Gradient
import Verif.Thm.C92_Material
import Verif.Thm.C99_Pencil
import Verif.Model.Modal

/-!
# C99: stiffness and mass matrices as sums of forms (helper lemmas)
-/

namespace JaxFem.Modal

open scoped BigOperators Topology

variable {nq nfq nn : Nat}

/-! ### Sums of scaled forms -/

section abstract

variable {ι : Type} [Fintype ι] {N : Nat}

theorem psd_sum_left {V : Type} [AddCommGroup V] [Module ℝ V] {F : V → V → ℝ} (h : PSD F) {κ : Type} (s : Finset κ)
    (f : κ → V) (z : V) : F (∑ k ∈ s, f k) z = ∑ k ∈ s, F (f k) z := by
  classical
  induction s using Finset.induction_on with
  | empty =>
    have := h.smul 0 0 z
    rw [zero_smul, zero_mul] at this
    simpa using this
  | insert a s ha ih => rw [Finset.sum_insert ha, Finset.sum_insert ha, h.add, ih]

theorem psd_expand {F : (Fin N → ℝ) → (Fin N → ℝ) → ℝ} (h : PSD F) (x y : Fin N → ℝ) :
    F x y = ∑ k, x k * F (Pi.single k 1) y := by
  have e : x = ∑ k, x k • (Pi.single k (1 : ℝ) : Fin N → ℝ) := by
    funext j
    simp [Finset.sum_apply, Pi.single_apply]
  conv_lhs => rw [e]
  rw [psd_sum_left h]
  exact Finset.sum_congr rfl fun k _ => h.smul _ _ _

/-- Matrix of a sum of scaled forms. -/
noncomputable def formMatrix (a : ι → ℝ) (F : ι → (Fin N → ℝ) → (Fin N → ℝ) → ℝ) : Matrix (Fin N) (Fin N) ℝ :=
  Matrix.of fun k l => ∑ i, a i * F i (Pi.single l 1) (Pi.single k 1)

theorem formMatrix_mulVec (a : ι → ℝ) (F : ι → (Fin N → ℝ) → (Fin N → ℝ) → ℝ) (hF : ∀ i, PSD (F i)) (x : Fin N → ℝ)
    (k : Fin N) : (formMatrix a F).mulVec x k = ∑ i, a i * F i x (Pi.single k 1) := by
  simp only [Matrix.mulVec, dotProduct, formMatrix, Matrix.of_apply, Finset.sum_mul]
  rw [Finset.sum_comm]
  refine Finset.sum_congr rfl fun i _ => ?_
  rw [psd_expand (hF i) x, Finset.mul_sum]
  exact Finset.sum_congr rfl fun l _ => by ring

theorem formMatrix_dot (a : ι → ℝ) (F : ι → (Fin N → ℝ) → (Fin N → ℝ) → ℝ) (hF : ∀ i, PSD (F i)) (x y : Fin N → ℝ) :
    dotProduct y ((formMatrix a F).mulVec x) = ∑ i, a i * F i x y := by
  simp only [dotProduct, formMatrix_mulVec a F hF, Finset.mul_sum]
  rw [Finset.sum_comm]
  refine Finset.sum_congr rfl fun i _ => ?_
  rw [(hF i).symm x y, psd_expand (hF i) y, Finset.mul_sum]
  exact Finset.sum_congr rfl fun k _ => by rw [(hF i).symm x]; ring

theorem formMatrix_symm (a : ι → ℝ) (F : ι → (Fin N → ℝ) → (Fin N → ℝ) → ℝ) (hF : ∀ i, PSD (F i)) :
    (formMatrix a F).IsSymm := by
  ext k l
  simp only [formMatrix, Matrix.transpose_apply, Matrix.of_apply]
  exact Finset.sum_congr rfl fun i _ => by rw [(hF i).symm]

end abstract

/-! ### The two problems -/

variable (B : Problem1 (List ℝ) nq nfq nn 2 2)

theorem problemK_WF (h : B.WF) : (problemK B).WF where
  nonempty := h.nonempty
  points := h.points
  cell_length := h.cell_length
  cell_lt := h.cell_lt
  face_lt := by intro s hs; simp [problemK] at hs

theorem problemM_WF (h : B.WF) : (problemM B).WF where
  nonempty := h.nonempty
  points := h.points
  cell_length := h.cell_length
  cell_lt := h.cell_lt
  face_lt := by intro s hs; simp [problemM] at hs

/-- Young's modulus of a cell. -/
noncomputable def modulus (t : ℝ) : ℝ := 70000000 + 69930000000 * t ^ 5

theorem problemK_scaled :
    (problemK B).Scaled (TopOpt.young 70000000000 70000000 5) (planeLaw 0.3) where
  map := fun iv G i j => by
    show stress iv G i j = _
    simp only [stress, planeLaw, LinearMap.coe_mk, AddHom.coe_mk]
    rw [show (0.001 : ℝ) * 70000000000 = 70000000 by norm_num]
    fin_cases i <;> fin_cases j <;> simp [TopOpt.planeStress] <;> ring
  symm := fun G H => by
    rw [planeLaw_energy _ (by norm_num) (by norm_num), planeLaw_energy _ (by norm_num) (by norm_num)]
    ring
  nonneg := fun G => (planeLaw_pos _ (by norm_num) (by norm_num) G).1

/-- Value at quadrature point `q` of cell `c` of the field with the given degrees of freedom. -/
noncomputable def valueAt (x : Fin (totalDofs B.fes) → ℝ) (i : Fin B.cells.length × Fin nq) : Fin 2 → ℝ :=
  interp (B.el.shapeVals i.2) (restrict nn (B.vecField x) (B.cells[i.1]).nodes)

/-- Mass form of one quadrature point. -/
noncomputable def massForm (i : Fin B.cells.length × Fin nq) (x y : Fin (totalDofs B.fes) → ℝ) : ℝ :=
  (∑ c, valueAt B x i c * valueAt B y i c) * B.measureAt i.1 i.2

/-- Stiffness form of one quadrature point. -/
noncomputable def stiffForm (i : Fin B.cells.length × Fin nq) (x y : Fin (totalDofs B.fes) → ℝ) : ℝ :=
  B.dofForm (planeLaw 0.3) i x y

theorem stiffForm_psd (hpos : B.PositiveMeasure) (i : Fin B.cells.length × Fin nq) : PSD (stiffForm B i) :=
  dofForm_psd (problemK B) hpos _ _ (problemK_scaled B) i

theorem valueAt_lin (a : ℝ) (x y : Fin (totalDofs B.fes) → ℝ) (i : Fin B.cells.length × Fin nq) (c : Fin 2) :
    valueAt B (a • x + y) i c = a * valueAt B x i c + valueAt B y i c := by
  rw [valueAt, vecField_lin, interp_lin]
  rfl

theorem massForm_psd (hpos : B.PositiveMeasure) (i : Fin B.cells.length × Fin nq) : PSD (massForm B i) where
  add := fun x y z => by
    have : ∀ c, valueAt B (x + y) i c = valueAt B x i c + valueAt B y i c := fun c => by
      have := valueAt_lin B 1 x y i c
      rwa [one_smul, one_mul] at this
    simp only [massForm, this, add_mul, Finset.sum_add_distrib]
  smul := fun a x z => by
    have h0 : ∀ c, valueAt B 0 i c = 0 := fun c => by
      have := valueAt_lin B 1 0 0 i c
      rw [one_smul, one_mul, add_zero] at this
      linarith
    have : ∀ c, valueAt B (a • x) i c = a * valueAt B x i c := fun c => by
      have := valueAt_lin B a x 0 i c
      rwa [add_zero, h0, add_zero] at this
    simp only [massForm, this, mul_assoc, ← Finset.mul_sum]
  symm := fun x y => by simp only [massForm, mul_comm]
  nonneg := fun x => mul_nonneg (Finset.sum_nonneg fun c _ => mul_self_nonneg _)
    (hpos _ (List.getElem_mem _) _).le

theorem residual_flat (P : Problem1 (List ℝ) nq nfq nn 2 2) (params : List (List ℝ))
    (x : Fin (totalDofs P.fes) → ℝ) :
    residual P params x = P.flatIv (fun c _ => params.getD c []) x := by
  funext k
  rfl

theorem column_getD {n : Nat} (rho : Fin n → ℝ) (c : Nat) (hc : c < n) : (column rho).getD c [] = [rho ⟨c, hc⟩] := by
  rw [column, List.getD_eq_getElem?_getD, List.getElem?_ofFn, dif_pos hc]
  rfl

theorem residualK_entry (h : B.WF) (rho : Fin B.cells.length → ℝ) (x : Fin (totalDofs B.fes) → ℝ)
    (k : Fin (totalDofs B.fes)) :
    residual (problemK B) (column rho) x k
      = ∑ i : Fin B.cells.length × Fin nq, modulus (rho i.1) * stiffForm B i x (Pi.single k 1) := by
  have e := residual_flat (problemK B) (column rho) x
  refine (congrFun e k).trans ?_
  refine (flat_entry ((problemK B).atIv fun c _ => (column rho).getD c [])
    (atIv_WF _ (problemK_WF B h) _) x k).trans ?_
  have hs : ∀ u v, ((problemK B).atIv fun c _ => (column rho).getD c []).surfaceWork u v = 0 := fun u v => rfl
  have hm : ((problemK B).atIv fun c _ => (column rho).getD c []).massMap = none := rfl
  rw [Problem1.virtualWork, hs, hm, add_zero, add_zero]
  refine (atIv_work_scaled (problemK B) _ _ (problemK_scaled B) _ _ _).trans ?_
  refine Finset.sum_congr rfl fun i _ => ?_
  rw [column_getD rho i.1 i.1.2]
  have : TopOpt.young 70000000000 70000000 5 [rho ⟨i.1, i.1.2⟩] = modulus (rho i.1) := by
    show (70000000 : ℝ) + (70000000000 - 70000000) * rho i.1 ^ 5 = 70000000 + 69930000000 * rho i.1 ^ 5
    ring
  rw [this]
  rfl

theorem atIv_massWork (P : Problem1 (List ℝ) nq nfq nn 2 2) (iv : Nat → Fin nq → List ℝ)
    (m : List ℝ → (Fin 2 → ℝ) → (Fin 2 → ℝ) → Fin 2 → ℝ) (u v : Nat → Fin 2 → ℝ) :
    (P.atIv iv).massWork m u v = ∑ c : Fin P.cells.length, ∑ q,
      (∑ k, m (iv c q) (interp (P.el.shapeVals q) (restrict nn u (P.cells[c]).nodes))
        (positionIn (P.el.shapeVals q) (coords nn P.points (P.cells[c]).nodes)) k
        * interp (P.el.shapeVals q) (restrict nn v (P.cells[c]).nodes) k) * P.measureAt c q := by
  have e2 : ∀ (g : Nat → CellSpec (List ℝ) nq → CellSpec (List ℝ) nq) (f : CellSpec (List ℝ) nq → ℝ),
      ((P.cells.mapIdx g).map f).sum = ∑ c : Fin P.cells.length, f (g c P.cells[c]) := by
    intro g f
    rw [← List.sum_ofFn]
    congr 1
    refine List.ext_getElem (by simp) fun i h1 h2 => ?_
    simp
  rw [Problem1.massWork]
  exact e2 _ _

theorem residualM_entry (h : B.WF) (rho : Fin B.cells.length → ℝ) (x : Fin (totalDofs B.fes) → ℝ)
    (k : Fin (totalDofs B.fes)) :
    residual (problemM B) (column rho) x k
      = ∑ i : Fin B.cells.length × Fin nq, (2700 * rho i.1) * massForm B i x (Pi.single k 1) := by
  have e := residual_flat (problemM B) (column rho) x
  refine (congrFun e k).trans ?_
  refine (flat_entry ((problemM B).atIv fun c _ => (column rho).getD c [])
    (atIv_WF _ (problemM_WF B h) _) x k).trans ?_
  have hs : ∀ u v, ((problemM B).atIv fun c _ => (column rho).getD c []).surfaceWork u v = 0 := fun u v => rfl
  have hm : ((problemM B).atIv fun c _ => (column rho).getD c []).massMap = some massMap := rfl
  have ht : ∀ u v, ((problemM B).atIv fun c _ => (column rho).getD c []).tensorWork u v = 0 := fun u v => by
    rw [atIv_tensorWork]
    refine Finset.sum_eq_zero fun c _ => Finset.sum_eq_zero fun q _ => ?_
    simp [problemM, contract]
  rw [Problem1.virtualWork, hs, hm, ht, add_zero, zero_add]
  refine (atIv_massWork (problemM B) _ _ _ _).trans ?_
  rw [Fintype.sum_prod_type]
  refine Finset.sum_congr rfl fun c _ => Finset.sum_congr rfl fun q _ => ?_
  rw [column_getD rho c c.2, massForm, ← mul_assoc, Finset.mul_sum]
  refine congrArg (fun t : ℝ => t * B.measureAt c q) (Finset.sum_congr rfl fun j _ => ?_)
  show rho c * 2700 * valueAt B x (c, q) j * valueAt B (Pi.single k 1) (c, q) j
    = 2700 * rho c * (valueAt B x (c, q) j * valueAt B (Pi.single k 1) (c, q) j)
  ring

/-! ### Matrices and quadratic forms -/

theorem wfbc_none (P : Problem1 (List ℝ) nq nfq nn 2 2) : WFBC (K := ℝ) P.fes [[]] where
  len := rfl
  comps := by simp
  vals := by simp
  nodup := by simp
  valid := by
    intro i fe es _ h2 e he
    rcases i with _ | i
    · simp only [List.getElem?_cons_zero, Option.some.injEq] at h2
      subst h2
      simp at he
    · simp at h2

theorem vAv_eq (P : Problem1 (List ℝ) nq nfq nn 2 2) (params : List (List ℝ)) (v : Fin (totalDofs P.fes) → ℝ) :
    vAv P params v = ∑ k, v k * residual P params v k := by
  refine Finset.sum_congr rfl fun k _ => congrArg (fun t : ℝ => v k * t) ?_
  refine (applyBcV_spec P.fes [[]] (wfbc_none P) 1 _ _ k).1 ?_
  obtain ⟨i, n, c, hi, hn, hc, e⟩ := exists_dofNum P.fes k k.2
  have hi0 : i = 0 := by simp [Problem1.fes] at hi; exact hi
  subst hi0
  exact .free 0 n c _ [] (List.getElem?_eq_getElem hi) rfl hn hc e (by simp [FreeDof])

/-- The matrix of a problem whose residual is a sum of scaled forms. -/
theorem matrix_of_forms {ι : Type} [Fintype ι] {N : Nat} (F : ι → (Fin N → ℝ) → (Fin N → ℝ) → ℝ) (hF : ∀ i, PSD (F i))
    (a : ι → ℝ) (res : (Fin N → ℝ) → Fin N → ℝ) (hres : ∀ x k, res x k = ∑ i, a i * F i x (Pi.single k 1)) :
    (∀ T u, HasJacobianAt res T u → T = formMatrix a F) ∧ ∀ u, HasJacobianAt res (formMatrix a F) u := by
  have e : res = matCLM (formMatrix a F) := by
    funext x k
    rw [hres, ← formMatrix_mulVec a F hF]
    rfl
  have hJ : ∀ u, HasJacobianAt res (formMatrix a F) u := fun u => by
    rw [e]
    exact (matCLM (formMatrix a F)).hasFDerivAt
  exact ⟨fun T u hT => matCLM_inj (HasFDerivAt.unique hT (hJ u)), hJ⟩

/-- The stiffness matrix. -/
noncomputable def stiffness (rho : Fin B.cells.length → ℝ) :
    Matrix (Fin (totalDofs B.fes)) (Fin (totalDofs B.fes)) ℝ :=
  formMatrix (fun i : Fin B.cells.length × Fin nq => modulus (rho i.1)) (stiffForm B)

/-- The mass matrix. -/
noncomputable def mass (rho : Fin B.cells.length → ℝ) : Matrix (Fin (totalDofs B.fes)) (Fin (totalDofs B.fes)) ℝ :=
  formMatrix (fun i : Fin B.cells.length × Fin nq => 2700 * rho i.1) (massForm B)

theorem stiffness_jacobian (h : B.WF) (hpos : B.PositiveMeasure) (rho : Fin B.cells.length → ℝ) :
    (∀ (T : Matrix (Fin (totalDofs B.fes)) (Fin (totalDofs B.fes)) ℝ) u,
      HasJacobianAt (residual (problemK B) (column rho)) T u → T = stiffness B rho) ∧
    ∀ u, HasJacobianAt (residual (problemK B) (column rho)) (stiffness B rho) u :=
  matrix_of_forms _ (stiffForm_psd B hpos) _ _ (residualK_entry B h rho)

theorem mass_jacobian (h : B.WF) (hpos : B.PositiveMeasure) (rho : Fin B.cells.length → ℝ) :
    (∀ (T : Matrix (Fin (totalDofs B.fes)) (Fin (totalDofs B.fes)) ℝ) u,
      HasJacobianAt (residual (problemM B) (column rho)) T u → T = mass B rho) ∧
    ∀ u, HasJacobianAt (residual (problemM B) (column rho)) (mass B rho) u :=
  matrix_of_forms _ (massForm_psd B hpos) _ _ (residualM_entry B h rho)

theorem vKv_eq (h : B.WF) (hpos : B.PositiveMeasure) (rho : Fin B.cells.length → ℝ) (v : Fin (totalDofs B.fes) → ℝ) :
    vAv (problemK B) (column rho) v = dotProduct v ((stiffness B rho).mulVec v) := by
  refine (vAv_eq (problemK B) (column rho) v).trans (Finset.sum_congr rfl fun k _ => ?_)
  refine congrArg (fun t : ℝ => v k * t) ((residualK_entry B h rho v k).trans ?_)
  exact (formMatrix_mulVec _ _ (stiffForm_psd B hpos) v k).symm

theorem vMv_eq (h : B.WF) (hpos : B.PositiveMeasure) (rho : Fin B.cells.length → ℝ) (v : Fin (totalDofs B.fes) → ℝ) :
    vAv (problemM B) (column rho) v = dotProduct v ((mass B rho).mulVec v) := by
  refine (vAv_eq (problemM B) (column rho) v).trans (Finset.sum_congr rfl fun k _ => ?_)
  refine congrArg (fun t : ℝ => v k * t) ((residualM_entry B h rho v k).trans ?_)
  exact (formMatrix_mulVec _ _ (massForm_psd B hpos) v k).symm

end JaxFem.Modal
