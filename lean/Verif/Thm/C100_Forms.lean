import Verif.Thm.C100_Linear
import Verif.Thm.C92_Design

/-!
# C100: forms of the source identification (helper lemmas)
-/

namespace JaxFem.Inverse

open scoped BigOperators

variable {nq nfq nn dim : Nat} (P : Problem1 ℝ nq nfq nn 1 dim) (bcs : List (List (BCEntry ℝ)))

/-- Value at a quadrature point as a linear map. -/
noncomputable def valueL (c : Fin P.cells.length) (q : Fin nq) : (Fin (totalDofs P.fes) → ℝ) →ₗ[ℝ] ℝ :=
  IsLinearMap.mk' (fun x => valueAt P x c q) (by
    have hl : ∀ (a : ℝ) x y, valueAt P (a • x + y) c q = a * valueAt P x c q + valueAt P y c q := fun a x y => by
      rw [valueAt, vecField_lin, interp_lin]; rfl
    have h0 : valueAt P 0 c q = 0 := by
      have := hl 1 0 0
      rw [one_smul, one_mul, add_zero] at this
      linarith
    refine ⟨fun x y => ?_, fun a x => ?_⟩
    · have := hl 1 x y
      rwa [one_smul, one_mul] at this
    · have := hl a x 0
      rwa [add_zero, h0, add_zero] at this)

/-- Gradient at a quadrature point as a linear map. -/
noncomputable def gradL (c : Fin P.cells.length) (q : Fin nq) :
    (Fin (totalDofs P.fes) → ℝ) →ₗ[ℝ] (Fin 1 → Fin dim → ℝ) :=
  IsLinearMap.mk' (fun x => P.gradAt (P.vecField x) c q) (by
    have hl : ∀ (a : ℝ) x y, P.gradAt (P.vecField (a • x + y)) c q
        = a • P.gradAt (P.vecField x) c q + P.gradAt (P.vecField y) c q := fun a x y => by
      rw [vecField_lin]
      exact gradient_lin P a (P.vecField x) (P.vecField y) _ q
    have h0 : P.gradAt (P.vecField 0) c q = 0 := by
      have := hl 1 0 0
      rw [one_smul, one_smul, add_zero] at this
      simpa using this
    refine ⟨fun x y => ?_, fun a x => ?_⟩
    · have := hl 1 x y
      rwa [one_smul, one_smul] at this
    · have := hl a x 0
      rwa [add_zero, h0, add_zero] at this)

theorem valueL_apply (c : Fin P.cells.length) (q : Fin nq) (x : Fin (totalDofs P.fes) → ℝ) :
    valueL P c q x = valueAt P x c q := rfl

theorem dirichlet_eq (x y : Fin (totalDofs P.fes) → ℝ) :
    dirichletForm P x y = ∑ c, ∑ q, contract (gradL P c q x) (gradL P c q y) * P.measureAt c q := rfl

/-- The Dirichlet form as a bilinear map. -/
noncomputable def dirichletB : (Fin (totalDofs P.fes) → ℝ) →ₗ[ℝ] (Fin (totalDofs P.fes) → ℝ) →ₗ[ℝ] ℝ :=
  LinearMap.mk₂ ℝ (dirichletForm P)
    (fun x y z => by
      simp only [dirichlet_eq, map_add, contract, Pi.add_apply, add_mul, Finset.sum_add_distrib])
    (fun a x z => by
      simp only [dirichlet_eq, map_smul, contract, Pi.smul_apply, smul_eq_mul, mul_assoc, Finset.mul_sum, Finset.sum_mul])
    (fun x y z => by
      simp only [dirichlet_eq, map_add, contract, Pi.add_apply, mul_add, add_mul, Finset.sum_add_distrib])
    (fun a x z => by
      simp only [dirichlet_eq, map_smul, contract, Pi.smul_apply, smul_eq_mul, Finset.mul_sum, Finset.sum_mul]
      refine Finset.sum_congr rfl fun c _ => Finset.sum_congr rfl fun q _ => Finset.sum_congr rfl fun i _ =>
        Finset.sum_congr rfl fun j _ => ?_
      ring)

/-- The mass product as a bilinear map. -/
noncomputable def massB : (Fin (totalDofs P.fes) → ℝ) →ₗ[ℝ] (Fin (totalDofs P.fes) → ℝ) →ₗ[ℝ] ℝ :=
  LinearMap.mk₂ ℝ (massProduct P)
    (fun x y z => by
      simp only [massProduct, ← valueL_apply, map_add, add_mul, Finset.sum_add_distrib])
    (fun a x z => by
      simp only [massProduct, ← valueL_apply, map_smul, smul_eq_mul, mul_assoc, Finset.mul_sum])
    (fun x y z => by
      simp only [massProduct, ← valueL_apply, map_add, mul_add, add_mul, Finset.sum_add_distrib])
    (fun a x z => by
      simp only [massProduct, ← valueL_apply, map_smul, smul_eq_mul, Finset.mul_sum]
      refine Finset.sum_congr rfl fun c _ => Finset.sum_congr rfl fun q _ => ?_
      ring)

/-- The work of the source as a bilinear map. -/
noncomputable def sourceB :
    (Fin P.cells.length → Fin nq → ℝ) →ₗ[ℝ] (Fin (totalDofs P.fes) → ℝ) →ₗ[ℝ] ℝ :=
  LinearMap.mk₂ ℝ (sourceWork P)
    (fun x y z => by
      simp only [sourceWork, Pi.add_apply, add_mul, Finset.sum_add_distrib])
    (fun a x z => by
      simp only [sourceWork, Pi.smul_apply, smul_eq_mul, mul_assoc, Finset.mul_sum])
    (fun x y z => by
      simp only [sourceWork, ← valueL_apply, map_add, mul_add, add_mul, Finset.sum_add_distrib])
    (fun a x z => by
      simp only [sourceWork, ← valueL_apply, map_smul, smul_eq_mul, Finset.mul_sum]
      refine Finset.sum_congr rfl fun c _ => Finset.sum_congr rfl fun q _ => ?_
      ring)

theorem dirichletB_apply (x y : Fin (totalDofs P.fes) → ℝ) : dirichletB P x y = dirichletForm P x y := rfl
theorem massB_apply (x y : Fin (totalDofs P.fes) → ℝ) : massB P x y = massProduct P x y := rfl
theorem sourceB_apply (θ : Fin P.cells.length → Fin nq → ℝ) (y : Fin (totalDofs P.fes) → ℝ) :
    sourceB P θ y = sourceWork P θ y := rfl

theorem dirichlet_symm (x y : Fin (totalDofs P.fes) → ℝ) : dirichletForm P x y = dirichletForm P y x := by
  simp only [dirichletForm, contract, mul_comm]

theorem mass_symm (x y : Fin (totalDofs P.fes) → ℝ) : massProduct P x y = massProduct P y x := by
  simp only [massProduct, mul_comm]

variable {P bcs}

theorem mass_nonneg (hpos : P.PositiveMeasure) (x : Fin (totalDofs P.fes) → ℝ) : 0 ≤ massProduct P x x :=
  Finset.sum_nonneg fun c _ => Finset.sum_nonneg fun q _ =>
    mul_nonneg (mul_self_nonneg _) (hpos _ (List.getElem_mem _) q).le

theorem value_zero_of_mass (hpos : P.PositiveMeasure) (x : Fin (totalDofs P.fes) → ℝ) (h : massProduct P x x = 0)
    (c : Fin P.cells.length) (q : Fin nq) : valueAt P x c q = 0 := by
  have hn : ∀ c q, 0 ≤ valueAt P x c q * valueAt P x c q * P.measureAt c q := fun c q =>
    mul_nonneg (mul_self_nonneg _) (hpos _ (List.getElem_mem _) q).le
  have h1 := (Finset.sum_eq_zero_iff_of_nonneg fun c _ => Finset.sum_nonneg fun q _ => hn c q).1 h c (Finset.mem_univ _)
  have h2 := (Finset.sum_eq_zero_iff_of_nonneg fun q _ => hn c q).1 h1 q (Finset.mem_univ _)
  rcases mul_eq_zero.1 h2 with h3 | h3
  · exact mul_self_eq_zero.1 h3
  · exact absurd h3 (hpos _ (List.getElem_mem _) q).ne'

/-- A field in `vanishing` vanishes at the constrained nodes. -/
theorem vanishing_nodes (hb : WFBC P.fes bcs) {x : Fin (totalDofs P.fes) → ℝ} (hx : x ∈ vanishing P.fes bcs) (n : Nat)
    (c : Fin 1) (hf : ¬ FreeDof (bcs.getD 0 []) n c) : P.vecField x n c = 0 := by
  by_cases hlt : n * 1 + c < totalDofs P.fes
  · have hn : n < P.numTotalNodes := by
      rw [totalDofs_single] at hlt
      omega
    obtain ⟨es, hes⟩ : ∃ es, bcs[0]? = some es := by
      have := hb.len
      simp only [Problem1.fes, List.length_singleton] at this
      exact ⟨bcs[0], List.getElem?_eq_getElem (by omega)⟩
    have hes' : bcs.getD 0 [] = es := by rw [List.getD_eq_getElem?_getD, hes]; rfl
    rw [hes'] at hf
    rcases free_or_last es n c with hf' | ⟨v, hv⟩
    · exact absurd hf' hf
    · have hp : Prescribed P.fes bcs (n * 1 + c) (some v) :=
        .fixed 0 n c _ es v rfl hes hn c.2 (dofNum_single P n c).symm hv
      have := hx ⟨n * 1 + c, hlt⟩ v hp
      simp only [Problem1.vecField, dif_pos hlt, this]
  · simp only [Problem1.vecField, dif_neg hlt]

theorem vecField_zero_iff (x : Fin (totalDofs P.fes) → ℝ) (h : ∀ n < P.numTotalNodes, ∀ c, P.vecField x n c = 0) :
    x = 0 := by
  refine vecField_eq_iff P x 0 fun n hn c => ?_
  rw [h n hn c]
  simp [Problem1.vecField]

theorem dirichlet_definite (h : P.WF) (hpos : P.PositiveMeasure) (hdet : P.el.Determines) (hb : WFBC P.fes bcs)
    (hanch : P.Anchored fun n c => FreeDof (bcs.getD 0 []) n c) {x : Fin (totalDofs P.fes) → ℝ}
    (hx : x ∈ vanishing P.fes bcs) (h0 : dirichletForm P x x = 0) : x = 0 := by
  have hc0 : ∀ c q, 0 ≤ contract (P.gradAt (P.vecField x) c q) (P.gradAt (P.vecField x) c q) := fun c q =>
    Finset.sum_nonneg fun i _ => Finset.sum_nonneg fun j _ => mul_self_nonneg _
  have hn : ∀ c q, 0 ≤ contract (P.gradAt (P.vecField x) c q) (P.gradAt (P.vecField x) c q) * P.measureAt c q :=
    fun c q => mul_nonneg (hc0 c q) (hpos _ (List.getElem_mem _) q).le
  have hg : ∀ c q, P.gradAt (P.vecField x) c q = 0 := by
    intro c q
    have h1 := (Finset.sum_eq_zero_iff_of_nonneg fun c _ => Finset.sum_nonneg fun q _ => hn c q).1 h0 c (Finset.mem_univ _)
    have h2 := (Finset.sum_eq_zero_iff_of_nonneg fun q _ => hn c q).1 h1 q (Finset.mem_univ _)
    rcases mul_eq_zero.1 h2 with h3 | h3
    · funext i j
      have h4 := (Finset.sum_eq_zero_iff_of_nonneg fun i _ => Finset.sum_nonneg fun j _ => mul_self_nonneg _).1 h3 i
        (Finset.mem_univ _)
      exact mul_self_eq_zero.1 ((Finset.sum_eq_zero_iff_of_nonneg fun j _ => mul_self_nonneg _).1 h4 j (Finset.mem_univ _))
    · exact absurd h3 (hpos _ (List.getElem_mem _) q).ne'
  refine vecField_zero_iff x fun n hn c => ?_
  refine (field_unique P h hpos hdet _ hanch (P.vecField x) (fun _ _ => 0) (fun cell hc q => ?_) (fun n c hf => ?_) n hn c)
  · obtain ⟨i, hi, rfl⟩ := List.mem_iff_getElem.1 hc
    refine (hg ⟨i, hi⟩ q).trans ?_
    funext i j
    rw [gradient_eq]
    simp
  · exact vanishing_nodes hb hx n c hf

/-- Values at the quadrature points determine a field that vanishes at the constrained nodes. -/
theorem zero_of_values (h : P.WF) (hval : ValuesDetermine P.el) (hb : WFBC P.fes bcs)
    (hanch : P.Anchored fun n c => FreeDof (bcs.getD 0 []) n c) {x : Fin (totalDofs P.fes) → ℝ}
    (hx : x ∈ vanishing P.fes bcs) (h0 : ∀ c q, valueAt P x c q = 0) : x = 0 := by
  refine vecField_zero_iff x fun n hn c => ?_
  obtain ⟨m, hm, -, hpath⟩ := hanch n hn c
  have hc0 : c = 0 := Subsingleton.elim _ _
  rcases hpath.cases_tail with rfl | ⟨b, -, cell, hcell, -, hmem⟩
  · exact vanishing_nodes hb hx _ c hm
  · obtain ⟨cs, hcs, rfl⟩ := List.mem_map.1 hcell
    obtain ⟨i, hi, rfl⟩ := List.mem_iff_getElem.1 hcs
    obtain ⟨a, ha, rfl⟩ := List.mem_iff_getElem.1 hmem
    have hlen := h.cell_length _ hcs
    have := congrFun (hval (fun a => P.vecField x ((P.cells[i]).nodes.getD a 0) 0) fun q => h0 ⟨i, hi⟩ q) ⟨a, hlen ▸ ha⟩
    rw [hc0]
    simpa only [List.getD_eq_getElem _ _ ha, Pi.zero_apply] using this

/-- Matrix of the Dirichlet form. -/
noncomputable def stiffMatrix (P : Problem1 ℝ nq nfq nn 1 dim) :
    Matrix (Fin (totalDofs P.fes)) (Fin (totalDofs P.fes)) ℝ :=
  Matrix.of fun k l => dirichletForm P (Pi.single l 1) (Pi.single k 1)

theorem bilin_expand {N : Nat} (B : (Fin N → ℝ) →ₗ[ℝ] (Fin N → ℝ) →ₗ[ℝ] ℝ) (x y : Fin N → ℝ) :
    B x y = ∑ k, y k * B x (Pi.single k 1) := by
  refine (congrArg (fun z => B x z) (pi_eq_sum_univ' y)).trans ?_
  simp only [map_sum, map_smul, smul_eq_mul]

theorem stiffMatrix_mulVec (x : Fin (totalDofs P.fes) → ℝ) (k : Fin (totalDofs P.fes)) :
    (stiffMatrix P).mulVec x k = dirichletForm P x (Pi.single k 1) := by
  rw [dirichlet_symm, ← dirichletB_apply, bilin_expand]
  simp only [Matrix.mulVec, dotProduct, stiffMatrix, Matrix.of_apply]
  refine Finset.sum_congr rfl fun l _ => ?_
  rw [dirichletB_apply, dirichlet_symm, mul_comm]

theorem single_mem_vanishing {fes : List FE} (hb : WFBC fes bcs) (k : Fin (totalDofs fes)) (hk : Prescribed fes bcs k none) :
    (Pi.single k 1 : Fin (totalDofs fes) → ℝ) ∈ vanishing fes bcs := by
  intro j v hv
  by_cases hjk : j = k
  · subst hjk
    have := prescribed_unique fes bcs hb j _ _ hk hv
    cases this
  · rw [Pi.single_eq_of_ne hjk]

/-- Weak equations with all admissible test fields are the equations at the free degrees of freedom. -/
theorem weak_iff {fes : List FE} (hb : WFBC fes bcs) (φ : (Fin (totalDofs fes) → ℝ) →ₗ[ℝ] ℝ) :
    (∀ y ∈ vanishing fes bcs, φ y = 0) ↔
      ∀ k : Fin (totalDofs fes), Prescribed fes bcs k none → φ (Pi.single k 1) = 0 := by
  constructor
  · exact fun h k hk => h _ (single_mem_vanishing hb k hk)
  · intro h y hy
    refine (congrArg φ (pi_eq_sum_univ' y)).trans ?_
    rw [map_sum]
    refine Finset.sum_eq_zero fun k _ => ?_
    obtain ⟨o, ho⟩ := prescribed_exists fes bcs hb k k.2
    rw [map_smul]
    cases o with
    | none => rw [h k ho, smul_zero]
    | some v => rw [hy k v ho, zero_smul]

theorem stiff_regular (h : P.WF) (hpos : P.PositiveMeasure) (hdet : P.el.Determines) (hb : WFBC P.fes bcs)
    (hanch : P.Anchored fun n c => FreeDof (bcs.getD 0 []) n c) : (elimRows P.fes bcs (stiffMatrix P)).det ≠ 0 := by
  intro hz
  obtain ⟨x, hx0, hx⟩ := Matrix.exists_mulVec_eq_zero_iff.2 hz
  apply hx0
  have hrow : ∀ k : Fin (totalDofs P.fes), (Prescribed P.fes bcs k none → dirichletB P x (Pi.single k 1) = 0) ∧
      ∀ v, Prescribed P.fes bcs k (some v) → x k = 0 := by
    intro k
    have e := congrFun hx k
    obtain ⟨e1, e2⟩ := mulVec_elim P.fes bcs hb (stiffMatrix P) x k
    exact ⟨fun hp => by rw [dirichletB_apply, ← stiffMatrix_mulVec, ← e1 hp]; exact e,
      fun v hp => by rw [← e2 v hp]; exact e⟩
  have hxm : x ∈ vanishing P.fes bcs := fun k v hp => (hrow k).2 v hp
  exact dirichlet_definite h hpos hdet hb hanch hxm
    ((weak_iff hb (dirichletB P x)).2 (fun k hk => (hrow k).1 hk) x hxm)

/-- Weak problems are solvable. -/
theorem weak_exists (h : P.WF) (hpos : P.PositiveMeasure) (hdet : P.el.Determines) (hb : WFBC P.fes bcs)
    (hanch : P.Anchored fun n c => FreeDof (bcs.getD 0 []) n c) (φ : (Fin (totalDofs P.fes) → ℝ) →ₗ[ℝ] ℝ) :
    ∃ x ∈ vanishing P.fes bcs, ∀ y ∈ vanishing P.fes bcs, dirichletForm P x y = φ y := by
  classical
  set A := elimRows P.fes bcs (stiffMatrix P) with hA
  have hu : IsUnit A.det := isUnit_iff_ne_zero.2 (stiff_regular h hpos hdet hb hanch)
  let b : Fin (totalDofs P.fes) → ℝ := fun k => if Prescribed P.fes bcs k none then φ (Pi.single k 1) else 0
  have hAx : A.mulVec (A⁻¹.mulVec b) = b := by
    rw [Matrix.mulVec_mulVec, Matrix.mul_nonsing_inv A hu, Matrix.one_mulVec]
  set x := A⁻¹.mulVec b
  refine ⟨x, fun k v hp => ?_, ?_⟩
  · have e := congrFun hAx k
    rw [(mulVec_elim P.fes bcs hb (stiffMatrix P) x k).2 v hp] at e
    rw [e]
    refine if_neg fun hn => ?_
    have := prescribed_unique P.fes bcs hb k _ _ hn hp
    cases this
  · have := (weak_iff hb (dirichletB P x - φ)).2 fun k hk => ?_
    · intro y hy
      have := this y hy
      rw [LinearMap.sub_apply, sub_eq_zero] at this
      exact this
    · have e := congrFun hAx k
      rw [(mulVec_elim P.fes bcs hb (stiffMatrix P) x k).1 hk, stiffMatrix_mulVec] at e
      rw [LinearMap.sub_apply, dirichletB_apply, e]
      exact sub_eq_zero.2 (if_pos hk)

/-- `compute_l2_error` is the mass product of the difference. -/
theorem l2Error_eq (x y : Fin (totalDofs P.fes) → ℝ) :
    l2Error P (P.solArray x) (P.solArray y) = massProduct P (x - y) (x - y) := by
  have hs : ∀ z : Fin (totalDofs P.fes) → ℝ, fieldOf 1 (P.solArray z) = P.vecField z := by
    intro z
    obtain ⟨sol, e1, e2, e3⟩ := unravel_single P z
    rw [← e3, Problem1.solArray, e1]
    rfl
  have hv : ∀ (z : Fin (totalDofs P.fes) → ℝ) (c : Fin P.cells.length) q,
      convertFromDofToQuad P.el 1 (P.solArray z) (P.cells[c]).nodes q 0 = valueAt P z c q := by
    intro z c q
    rw [valueAt, ← hs z]
    simp only [convertFromDofToQuad, interp, restrict, Matrix.of_apply, fieldOf]
    exact Finset.sum_congr rfl fun a _ => mul_comm _ _
  rw [l2Error, list_sum_eq_fin]
  refine Finset.sum_congr rfl fun c _ => Finset.sum_congr rfl fun q _ => ?_
  rw [Fin.sum_univ_one, hv, hv, ← valueL_apply, ← valueL_apply, ← map_sub, valueL_apply, sq]
  congr 1

end JaxFem.Inverse
