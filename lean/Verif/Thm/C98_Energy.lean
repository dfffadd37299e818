import Verif.Spec.Homogenize
import Verif.Thm.C88_Problem

/-!
# C98: homogenisation — energy, nodal forces and macroscopic stress
-/

namespace JaxFem.Rve

open Fracture (conL con_single con_add con_add' con_smul con_smul' con_sub quad quad_add quad_smul quad_congr)
open Hyper (grad grad_of_deriv psi_deriv hasFDerivAt_list gradient_add gradient_mul gradient_position)
open Matrix

variable {nq nfq nn : Nat} (P : Problem1 (ℝ × ℝ) nq nfq nn 3 3)

/-! ### Helper lemmas -/

theorem fieldOf_solOf {N : Nat} (u : Fin N → Fin 3 → ℝ) : fieldOf 3 (solOf u) = extend u := by
  funext n c
  rw [fieldOf, extend]
  by_cases h : n < N
  · have h1 : (solOf u).getD n [] = List.ofFn (u ⟨n, h⟩) := by
      rw [List.getD_eq_getElem _ _ (show n < (solOf u).length by simpa [solOf] using h)]
      simp only [solOf, List.getElem_ofFn]
    rw [dif_pos h, h1, List.getD_eq_getElem _ _ (by simp), List.getElem_ofFn]
  · have h1 : (solOf u).getD n [] = [] :=
      List.getD_eq_default _ _ (by simpa [solOf] using h)
    rw [dif_neg h, h1]
    rfl

theorem solOf_shapes {N : Nat} (u : Fin N → Fin 3 → ℝ) : HasShapes [(N, 3)] [solOf u] := by
  refine ⟨solOf u, [], rfl, by simp [solOf], ?_, rfl⟩
  intro r hr
  rw [solOf, List.mem_ofFn] at hr
  obtain ⟨n, rfl⟩ := hr
  simp

/-- Deformation gradient as an array. -/
noncomputable def dfm (H : Tensor) (w : Nat → Fin 3 → ℝ) (c : CellSpec (ℝ × ℝ) nq) (q : Fin nq) : Tensor :=
  fun i j => deformation P H w c.nodes q i j

theorem dfm_apply (H : Tensor) (w : Nat → Fin 3 → ℝ) (c : CellSpec (ℝ × ℝ) nq) (q : Fin nq) (i j : Fin 3) :
    dfm P H w c q i j = (if i = j then 1 else 0) + H i j + P.gradient w c.nodes q i j := by
  rw [← one_apply]
  rfl

theorem solToGrad_eq (sol : List (List ℝ)) (cell : List Nat) (q : Fin nq) (i j : Fin 3) :
    solToGrad P.el 3 P.points sol cell q i j = P.gradient (fieldOf 3 sol) cell q i j := by
  rw [gradient_eq]
  rfl

theorem energy_rve (H : Tensor) (sol : List (List ℝ)) :
    computeEnergy (.rve H) P sol = quad P fun c q => psi (c.iv q) (dfm P H (fieldOf 3 sol) c q) := by
  rw [computeEnergy, quad]
  congr 1
  refine List.map_congr_left fun c _ => ?_
  rw [cellIntegral]
  refine Finset.sum_congr rfl fun q _ => ?_
  rw [← cellJxW_eq]
  congr 1
  rw [energy]
  congr 1
  funext i j
  rw [dfm_apply, ← solToGrad_eq]
  ring

theorem energy_dns (sol : List (List ℝ)) :
    computeEnergy .dns P sol = quad P fun c q => psi (c.iv q) (dfm P 0 (fieldOf 3 sol) c q) := by
  rw [computeEnergy, quad]
  congr 1
  refine List.map_congr_left fun c _ => ?_
  rw [cellIntegral]
  refine Finset.sum_congr rfl fun q _ => ?_
  rw [← cellJxW_eq]
  congr 1
  rw [energy]
  congr 1
  funext i j
  rw [dfm_apply, ← solToGrad_eq]
  show _ = _ + (0 : ℝ) + _
  ring

theorem problem_WF (m : Mode) (h : P.WF) : (problem m P).WF :=
  ⟨h.nonempty, h.points, h.cell_length, h.cell_lt, fun s hs => absurd hs (by simp [problem])⟩

theorem psi_grad (iv : ℝ × ℝ) (F : Tensor) (h : 0 < (of F).det) :
    HasFDerivAt (psi iv) (conL fun i j => neoHookePiola 3 (iv.1 / (2 * (1 + iv.2))) (iv.1 / (3 * (1 - 2 * iv.2))) (of F) i j) F :=
  psi_deriv 3 _ _ F (.inl h)

theorem stress_rve (H : Tensor) (w : Nat → Fin 3 → ℝ) (c : CellSpec (ℝ × ℝ) nq) (q : Fin nq)
    (h : 0 < (deformation P H w c.nodes q).det) :
    stress (.rve H) (c.iv q) (P.gradient w c.nodes q) = fun i j => piola P H w c q i j := by
  have e : (fun i j => P.gradient w c.nodes q i j + (if i = j then (1 : ℝ) else 0) + H i j) = dfm P H w c q := by
    funext i j
    rw [dfm_apply]
    ring
  show grad (psi (c.iv q)) (fun i j => P.gradient w c.nodes q i j + (if i = j then (1 : ℝ) else 0) + H i j) = _
  rw [e, grad_of_deriv (psi_grad (c.iv q) (dfm P H w c q) h)]
  rfl

/-- Work of the nodal forces. -/
theorem work_rve (h : P.WF) (H : Tensor) (sol : List (List ℝ)) (hs : HasShapes [(P.numTotalNodes, 3)] [sol])
    (hadm : Admissible P H (fieldOf 3 sol)) :
    ∃ R, (problem (.rve H) P).residual [sol] = .ok R ∧ HasShapes [(P.numTotalNodes, 3)] R ∧ ∀ w : Nat → Fin 3 → ℝ,
      ∑ n ∈ Finset.range P.numTotalNodes, ∑ c : Fin 3, w n c * at3 R 0 n c
        = quad P fun c q => contract (fun i j => piola P H (fieldOf 3 sol) c q i j) (P.gradient w c.nodes q) := by
  obtain ⟨R, r1, r2, r3⟩ := C72_weak_form (problem (.rve H) P) (problem_WF P _ h) sol hs
  refine ⟨R, r1, r2, fun w => (r3 w).trans ?_⟩
  rw [Problem1.virtualWork]
  have hsf : (problem (.rve H) P).surfaceWork (fieldOf 3 sol) w = 0 := by simp [Problem1.surfaceWork, problem]
  have ht : (problem (.rve H) P).tensorWork (fieldOf 3 sol) w
      = quad P fun c q => contract (stress (.rve H) (c.iv q) (P.gradient (fieldOf 3 sol) c.nodes q)) (P.gradient w c.nodes q) := rfl
  rw [hsf, ht]
  show _ + 0 + 0 = _
  rw [add_zero, add_zero]
  exact quad_congr P fun c hc q => by rw [stress_rve P H _ c q (hadm c hc q)]

theorem gradient_eval (c : List Nat) (q : Fin nq) (u : Nat → Fin 3 → ℝ) (t : ℝ) (v : Nat → Fin 3 → ℝ) :
    (P.gradient (fun n c => t * u n c + v n c) c q : Tensor) = t • (P.gradient u c q : Tensor) + (P.gradient v c q : Tensor) := by
  rw [gradient_lin]
  rfl

/-- Gradient of nodal values as a linear map. -/
noncomputable def gradU (c : CellSpec (ℝ × ℝ) nq) (q : Fin nq) : (Fin P.numTotalNodes → Fin 3 → ℝ) →L[ℝ] Tensor :=
  LinearMap.toContinuousLinearMap
    { toFun := fun u => P.gradient (extend u) c.nodes q
      map_add' := fun u v => by
        have := gradient_eval P c.nodes q (extend u) 1 (extend v)
        rw [one_smul] at this
        refine Eq.trans ?_ this
        show P.gradient _ _ _ = P.gradient _ _ _
        congr 1
        funext n i
        simp only [extend]
        split_ifs <;> simp
      map_smul' := fun t u => by
        have h0 : (P.gradient (fun _ _ => (0 : ℝ)) c.nodes q : Tensor) = 0 := by
          funext i j
          show P.gradient _ c.nodes q i j = 0
          rw [gradient_eq]
          simp
        have := gradient_eval P c.nodes q (extend u) t (fun _ _ => 0)
        rw [h0, add_zero] at this
        rw [RingHom.id_apply]
        refine Eq.trans ?_ this
        show P.gradient _ _ _ = P.gradient _ _ _
        congr 1
        funext n i
        simp only [extend]
        split_ifs <;> simp }

theorem gradU_apply (c : CellSpec (ℝ × ℝ) nq) (q : Fin nq) (u : Fin P.numTotalNodes → Fin 3 → ℝ) :
    gradU P c q u = P.gradient (extend u) c.nodes q := rfl

theorem dfm_eq (H : Tensor) (u : Fin P.numTotalNodes → Fin 3 → ℝ) (c : CellSpec (ℝ × ℝ) nq) (q : Fin nq) :
    dfm P H (extend u) c q = (fun i j => (1 : Matrix (Fin 3) (Fin 3) ℝ) i j) + (gradU P c q u + H) := by
  funext i j
  rw [dfm_apply, ← one_apply]
  show _ = (1 : Matrix (Fin 3) (Fin 3) ℝ) i j + (P.gradient (extend u) c.nodes q i j + H i j)
  ring

theorem quad_contract (S : CellSpec (ℝ × ℝ) nq → Fin nq → Tensor) (H : Tensor) :
    quad P (fun c q => contract (S c q) H) = contract (fun i j => quad P fun c q => S c q i j) H := by
  have h1 : ∀ (T : CellSpec (ℝ × ℝ) nq → Fin nq → ℝ) (x : ℝ), quad P (fun c q => T c q * x) = quad P T * x := by
    intro T x
    rw [mul_comm, ← quad_smul]
    exact quad_congr P fun c _ q => mul_comm _ _
  have h2 : ∀ (f : Fin 3 → CellSpec (ℝ × ℝ) nq → Fin nq → ℝ), quad P (fun c q => ∑ i, f i c q) = ∑ i, quad P (f i) := by
    intro f
    simp only [Fin.sum_univ_three]
    rw [quad_add, quad_add]
  simp only [contract]
  rw [h2]
  refine Finset.sum_congr rfl fun i _ => ?_
  rw [h2]
  exact Finset.sum_congr rfl fun j _ => h1 _ _

theorem total_eq (H : Tensor) (w : Nat → Fin 3 → ℝ) (dH : Tensor) :
    contract (totalStress P H w) dH = quad P fun c q => contract (fun i j => piola P H w c q i j) dH :=
  (quad_contract P (fun c q i j => piola P H w c q i j) dH).symm

/-- Derivative of the energy in fluctuation and macroscopic gradient. -/
theorem energy_deriv (u : Fin P.numTotalNodes → Fin 3 → ℝ) (H : Tensor) (hadm : Admissible P H (extend u)) :
    ∃ L : ((Fin P.numTotalNodes → Fin 3 → ℝ) × Tensor) →L[ℝ] ℝ,
      HasFDerivAt (fun z : (Fin P.numTotalNodes → Fin 3 → ℝ) × Tensor => computeEnergy (.rve z.2) P (solOf z.1)) L (u, H) ∧
      ∀ du dH, L (du, dH) = quad P fun c q => contract (fun i j => piola P H (extend u) c q i j) (gradU P c q du + dH) := by
  let G (c : CellSpec (ℝ × ℝ) nq) (q : Fin nq) : ((Fin P.numTotalNodes → Fin 3 → ℝ) × Tensor) →L[ℝ] Tensor :=
    (gradU P c q).comp (ContinuousLinearMap.fst ℝ _ _) + ContinuousLinearMap.snd ℝ _ _
  let A (c : CellSpec (ℝ × ℝ) nq) (q : Fin nq) : Tensor := fun i j => piola P H (extend u) c q i j
  let w (c : CellSpec (ℝ × ℝ) nq) (q : Fin nq) : ℝ :=
    (mapJacobian (coords nn P.points c.nodes) (Matrix.of (P.el.shapeGradsRef q))).det * P.el.quadWeights q
  refine ⟨(P.cells.map fun c => ∑ q, w c q • (conL (A c q)).comp (G c q)).sum, ?_, fun du dH => ?_⟩
  · have e : (fun z : (Fin P.numTotalNodes → Fin 3 → ℝ) × Tensor => computeEnergy (.rve z.2) P (solOf z.1))
        = fun z => (P.cells.map fun c => ∑ q, psi (c.iv q)
            ((fun i j => (1 : Matrix (Fin 3) (Fin 3) ℝ) i j) + G c q z) * w c q).sum := by
      funext z
      rw [energy_rve, fieldOf_solOf, quad]
      congr 1
      refine List.map_congr_left fun c _ => ?_
      rw [cellIntegral]
      refine Finset.sum_congr rfl fun q _ => ?_
      rw [dfm_eq]
      rfl
    rw [e]
    refine hasFDerivAt_list P.cells (fun c z => ∑ q, psi (c.iv q)
      ((fun i j => (1 : Matrix (Fin 3) (Fin 3) ℝ) i j) + G c q z) * w c q) _ (u, H) fun c hc => ?_
    refine HasFDerivAt.fun_sum fun q _ => ?_
    have h1 : HasFDerivAt (fun z => (fun i j => (1 : Matrix (Fin 3) (Fin 3) ℝ) i j) + G c q z) (G c q) (u, H) :=
      (G c q).hasFDerivAt.const_add _
    have h2 : HasFDerivAt (psi (c.iv q)) (conL (A c q))
        ((fun i j => (1 : Matrix (Fin 3) (Fin 3) ℝ) i j) + G c q (u, H)) := by
      have e2 : (fun i j => (1 : Matrix (Fin 3) (Fin 3) ℝ) i j) + G c q (u, H) = dfm P H (extend u) c q :=
        (dfm_eq P H u c q).symm
      rw [e2]
      exact psi_grad (c.iv q) (dfm P H (extend u) c q) (hadm c hc q)
    exact (h2.comp (u, H) h1).mul_const _
  · have hl2 : ∀ (l : List (((Fin P.numTotalNodes → Fin 3 → ℝ) × Tensor) →L[ℝ] ℝ)) z, l.sum z = (l.map fun f => f z).sum := by
      intro l z
      induction l with
      | nil => simp
      | cons a t ih => simp [ih]
    rw [hl2, List.map_map, quad]
    congr 1
    refine List.map_congr_left fun c _ => ?_
    simp only [Function.comp_apply, cellIntegral]
    rw [_root_.sum_apply]
    refine Finset.sum_congr rfl fun q _ => ?_
    rw [_root_.smul_apply, ContinuousLinearMap.comp_apply, smul_eq_mul, mul_comm]
    rfl

theorem field_congr (c : List Nat) (hn : c.length = nn) (q : Fin nq) (u v : Nat → Fin 3 → ℝ) (h : ∀ a ∈ c, u a = v a) :
    P.gradient u c q = P.gradient v c q := by
  ext i j
  rw [gradient_eq, gradient_eq]
  refine Finset.sum_congr rfl fun a _ => ?_
  rw [h]
  rw [List.getD_eq_getElem _ _ (by rw [hn]; exact a.2)]
  exact List.getElem_mem _

theorem gradient_affine (c : List Nat) (q : Fin nq) (H : Matrix (Fin 3) (Fin 3) ℝ) (w : Nat → Fin 3 → ℝ)
    (h : (mapJacobian (coords nn P.points c) (Matrix.of (P.el.shapeGradsRef q))).det ≠ 0) :
    P.gradient (fun a i => (∑ k, H i k * P.points.getD a 0 k) + w a i) c q = H + P.gradient w c q := by
  rw [gradient_add, gradient_mul]
  congr 1
  have := gradient_position P (fun _ _ => 0) c q h
  simp only [add_zero] at this
  have h0 : P.gradient (fun _ _ => (0 : ℝ)) c q = 0 := by
    ext i j
    rw [gradient_eq]
    simp
  rw [this, Problem1.defGrad, h0, add_zero, mul_one]

theorem fieldOf_disp (H : Tensor) (sol : List (List ℝ)) (hl : P.points.length = sol.length) (n : Nat) (hn : n < sol.length)
    (i : Fin 3) : fieldOf 3 (flucToDisp H P.points sol) n i = (∑ k, H i k * P.points.getD n 0 k) + fieldOf 3 sol n i := by
  have h1 : n < P.points.length := hl ▸ hn
  have h2 : n < (flucToDisp H P.points sol).length := by
    rw [flucToDisp, List.length_zipWith, hl, min_self]
    exact hn
  rw [fieldOf, List.getD_eq_getElem _ _ h2]
  simp only [flucToDisp, List.getElem_zipWith]
  rw [List.getD_eq_getElem _ _ (by simp), List.getElem_ofFn, fieldOf, List.getD_eq_getElem _ _ h1,
    List.getD_eq_getElem _ _ hn]

end JaxFem.Rve
