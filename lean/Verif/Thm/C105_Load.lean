import Verif.Model.Traction
import Verif.Spec.Traction
import Verif.Thm.C104_Gradient

/-!
# C105: traction force identification: load and misfit
-/

namespace JaxFem.Traction

open scoped BigOperators Topology
open Inverse (l2Error)

variable {nq nfq nn : Nat}

/-! ### Helper lemmas -/

section

variable (numTotalNodes : Nat) (points : List (Fin 3 → ℝ)) (cells : List (List Nat)) (el : RefElement ℝ nq nn 3)
  (fc : RefFaces ℝ nfq nn 3) (faces : List (Nat × Nat))

local notation "𝒫" => problem numTotalNodes points cells el fc faces

theorem setParams_WF (P : Problem1 ℝ nq nfq nn 3 3) (h : P.WF) {F : Nat} (θ : Fin F → Fin nfq → ℝ) : (setParams P θ).WF where
  nonempty := h.nonempty
  points := h.points
  cell_length := h.cell_length
  cell_lt := h.cell_lt
  face_lt := by
    intro s hs f hf
    obtain ⟨s', hs', rfl⟩ := List.mem_map.1 hs
    obtain ⟨i, hi, rfl⟩ := List.mem_mapIdx.1 hf
    exact h.face_lt s' hs' s'.faces[i] (List.getElem_mem hi)

theorem setParams_dead (θ : Fin faces.length → Fin nfq → ℝ) : (setParams 𝒫 θ).DeadLoads := by
  intro s hs iv u u' x
  obtain ⟨s', hs', rfl⟩ := List.mem_map.1 hs
  have hs'' : s' ∈ [(⟨surfaceMap, faces.map fun f => ⟨f.1, f.2, fun _ => 0⟩⟩ : Surface ℝ ℝ nfq 3 3)] := hs'
  rw [List.mem_singleton] at hs''
  subst hs''
  rfl

theorem setParams_surfaceWork (θ : Fin faces.length → Fin nfq → ℝ) (u v : Nat → Fin 3 → ℝ) :
    (setParams 𝒫 θ).surfaceWork u v = -tractionWork 𝒫 faces θ v := by
  have e : (setParams 𝒫 θ).surfaces = [⟨surfaceMap, (faces.map fun f => (⟨f.1, f.2, fun _ => 0⟩ : FaceSpec ℝ nfq)).mapIdx fun i f =>
      { f with iv := fun q => if h : i < faces.length then θ ⟨i, h⟩ q else f.iv q }⟩] := rfl
  rw [Problem1.surfaceWork, e]
  simp only [List.map_cons, List.map_nil, List.sum_cons, List.sum_nil, add_zero]
  rw [list_sum_eq_fin, tractionWork, ← Finset.sum_neg_distrib]
  have hlen : ((faces.map fun f => (⟨f.1, f.2, fun _ => 0⟩ : FaceSpec ℝ nfq)).mapIdx fun i f =>
      ({ f with iv := fun q => if h : i < faces.length then θ ⟨i, h⟩ q else f.iv q } : FaceSpec ℝ nfq)).length = faces.length := by
    simp
  refine Fintype.sum_equiv (finCongr hlen) _ _ fun i => ?_
  rw [← Finset.sum_neg_distrib]
  refine Finset.sum_congr rfl fun q _ => ?_
  have hi : i.1 < faces.length := lt_of_lt_of_eq i.2 hlen
  have hf : ((faces.map fun f => (⟨f.1, f.2, fun _ => 0⟩ : FaceSpec ℝ nfq)).mapIdx fun i f =>
      ({ f with iv := fun q => if h : i < faces.length then θ ⟨i, h⟩ q else f.iv q } : FaceSpec ℝ nfq))[i]
      = ⟨(faces[i.1]).1, (faces[i.1]).2, fun q => θ ⟨i.1, hi⟩ q⟩ := by
    simp [hi]
  rw [hf]
  have hsum : ∀ w : Fin 3 → ℝ, (∑ c, surfaceMap (θ ⟨i.1, hi⟩ q) 0 0 c * w c) = -(θ ⟨i.1, hi⟩ q * w 1) := by
    intro w
    rw [Fin.sum_univ_three]
    simp [surfaceMap]
  have hm : ∀ a b : Fin 3 → ℝ, surfaceMap (θ ⟨i.1, hi⟩ q) a b = surfaceMap (θ ⟨i.1, hi⟩ q) 0 0 := fun _ _ => rfl
  simp only [hm, hsum, vertical, area]
  rw [neg_mul]
  rfl

theorem tensorWork_setParams (P : Problem1 ℝ nq nfq nn 3 3) {F : Nat} (θ : Fin F → Fin nfq → ℝ) (u v : Nat → Fin 3 → ℝ) :
    (setParams P θ).tensorWork u v = P.tensorWork u v := rfl

theorem tensorWork_eq (P : Problem1 ℝ nq nfq nn 3 3) (u v : Nat → Fin 3 → ℝ) : P.tensorWork u v
    = ∑ c : Fin P.cells.length, ∑ q, contract (P.tensorMap ((P.cells[c]).iv q) (P.gradAt u c q)) (P.gradAt v c q) * P.measureAt c q := by
  rw [Problem1.tensorWork, list_sum_eq_fin]
  refine Finset.sum_congr rfl fun c _ => Finset.sum_congr rfl fun q _ => ?_
  simp only [contract, Problem1.gradAt, Problem1.measureAt]

/-- One entry of the residual. -/
theorem res_entry (h : (𝒫).WF) (θ : Fin faces.length → Fin nfq → ℝ) (u : Fin (totalDofs (𝒫).fes) → ℝ)
    (k : Fin (totalDofs (𝒫).fes)) :
    (setParams 𝒫 θ).flat u k = (∑ c : Fin (𝒫).cells.length, ∑ q,
      contract (Hyper.firstPK energy ((𝒫).gradAt ((𝒫).vecField u) c q)) ((𝒫).gradAt ((𝒫).vecField (Pi.single k 1)) c q)
        * (𝒫).measureAt c q) - tractionWork 𝒫 faces θ ((𝒫).vecField (Pi.single k 1)) := by
  have h1 := flat_entry (setParams 𝒫 θ) (setParams_WF _ h θ) u k
  refine h1.trans ?_
  have hm : (setParams 𝒫 θ).massMap = none := rfl
  rw [Problem1.virtualWork, hm, setParams_surfaceWork, tensorWork_setParams, tensorWork_eq]
  show _ + 0 + _ = _
  rw [add_zero, sub_eq_add_neg]
  rfl

end

variable (P : Problem1 ℝ nq nfq nn 3 3)

/-- Values at a quadrature point as a linear map. -/
noncomputable def fieldL (c : Fin P.cells.length) (q : Fin nq) (i : Fin 3) : (Fin (totalDofs P.fes) → ℝ) →L[ℝ] ℝ :=
  LinearMap.toContinuousLinearMap (IsLinearMap.mk' (fun x => fieldAt P (P.vecField x) c q i) (by
    have hl : ∀ (a : ℝ) x y, fieldAt P (P.vecField (a • x + y)) c q i
        = a * fieldAt P (P.vecField x) c q i + fieldAt P (P.vecField y) c q i := fun a x y => by
      rw [fieldAt, vecField_lin, interp_lin]
      rfl
    have h0 : fieldAt P (P.vecField 0) c q i = 0 := by
      have := hl 1 0 0
      rw [one_smul, one_mul, add_zero] at this
      linarith
    refine ⟨fun x y => ?_, fun a x => ?_⟩
    · have := hl 1 x y
      rwa [one_smul, one_mul] at this
    · have := hl a x 0
      rwa [add_zero, h0, add_zero] at this))

theorem fieldL_apply (c : Fin P.cells.length) (q : Fin nq) (i : Fin 3) (x : Fin (totalDofs P.fes) → ℝ) :
    fieldL P c q i x = fieldAt P (P.vecField x) c q i := rfl

theorem l2Error_fields (x y : Fin (totalDofs P.fes) → ℝ) : l2Error P (P.solArray x) (P.solArray y)
    = ∑ c, ∑ q, ∑ i, (fieldL P c q i x - fieldL P c q i y) ^ 2 * P.measureAt c q := by
  have hs : ∀ z : Fin (totalDofs P.fes) → ℝ, fieldOf 3 (P.solArray z) = P.vecField z := by
    intro z
    obtain ⟨sol, e1, e2, e3⟩ := unravel_single P z
    rw [← e3, Problem1.solArray, e1]
    rfl
  have hv : ∀ (z : Fin (totalDofs P.fes) → ℝ) (c : Fin P.cells.length) q i,
      convertFromDofToQuad P.el 3 (P.solArray z) (P.cells[c]).nodes q i = fieldL P c q i z := by
    intro z c q i
    rw [fieldL_apply, fieldAt, ← hs z]
    simp only [convertFromDofToQuad, interp, restrict, Matrix.of_apply, fieldOf]
    exact Finset.sum_congr rfl fun a _ => mul_comm _ _
  rw [l2Error, list_sum_eq_fin]
  refine Finset.sum_congr rfl fun c _ => Finset.sum_congr rfl fun q _ => Finset.sum_congr rfl fun i _ => ?_
  rw [hv, hv]
  rfl

theorem l2Error_derivative (x y : Fin (totalDofs P.fes) → ℝ) :
    HasFDerivAt (fun x => l2Error P (P.solArray x) (P.solArray y))
      (∑ c, ∑ q, ∑ i, (2 * (fieldL P c q i x - fieldL P c q i y) * P.measureAt c q) • fieldL P c q i) x := by
  have e : (fun x => l2Error P (P.solArray x) (P.solArray y))
      = fun x => ∑ c, ∑ q, ∑ i, (fieldL P c q i x - fieldL P c q i y) ^ 2 * P.measureAt c q :=
    funext fun x => l2Error_fields P x y
  rw [e]
  refine HasFDerivAt.fun_sum fun c _ => HasFDerivAt.fun_sum fun q _ => HasFDerivAt.fun_sum fun i _ => ?_
  have h := (((fieldL P c q i).hasFDerivAt (x := x)).sub_const (fieldL P c q i y)).pow 2
  refine (h.mul_const (P.measureAt c q)).congr_fderiv ?_
  ext z
  simp
  ring

/-! ### Property theorems -/

/-- **C105 (load).** The work of the residual on any displacement `v` is the work of the neo-Hookean stress minus the work of
the vertical tractions: a positive entry of `params` pulls upwards, the load does not depend on the displacement and
depends linearly on `params`. -/
theorem C105_load (numTotalNodes : Nat) (points : List (Fin 3 → ℝ)) (cells : List (List Nat)) (el : RefElement ℝ nq nn 3)
    (fc : RefFaces ℝ nfq nn 3) (faces : List (Nat × Nat)) :
    let P := problem numTotalNodes points cells el fc faces
    P.WF → ∀ (θ : Fin faces.length → Fin nfq → ℝ) (u v : Fin (totalDofs P.fes) → ℝ),
      (∑ k, v k * (setParams P θ).flat u k) = (∑ c : Fin P.cells.length, ∑ q,
        contract (Hyper.firstPK (Hyper.psi 3 (Hyper.muOf 1000000 (3 / 10)) (Hyper.kappaOf 1000000 (3 / 10)))
          (P.gradAt (P.vecField u) c q)) (P.gradAt (P.vecField v) c q) * P.measureAt c q)
        - tractionWork P faces θ (P.vecField v) := by
  intro P h θ u v
  have h1 := flat_virtualWork (setParams P θ) (setParams_WF _ h θ) u v
  refine h1.trans ?_
  have hm : (setParams P θ).massMap = none := rfl
  have hE : (energy : (Fin 3 → Fin 3 → ℝ) → ℝ) = Hyper.psi 3 (Hyper.muOf 1000000 (3 / 10)) (Hyper.kappaOf 1000000 (3 / 10)) := by
    funext F
    rw [energy]
    norm_num
  rw [Problem1.virtualWork, hm, setParams_surfaceWork, tensorWork_setParams, tensorWork_eq, ← hE]
  show _ + 0 + _ = _
  rw [add_zero, sub_eq_add_neg]
  rfl

/-- **C105 (reference).** The reference traction is the bell curve `10^5 exp(-(x - Lx/2)^2/(0.08 Lx^2))` of the text (for
`Lx = 1`) at the positions of the quadrature points; its values lie between 0 and `10^5`. -/
theorem C105_reference (faces : List (Nat × Nat)) (Lx : ℝ) (i : Fin faces.length) (q : Fin nfq) :
    tractionTrue P faces Lx i q = 100000 * Real.exp (-((positionIn (P.fc.shapeVals (faces[i]).2 q)
      (coords nn P.points (P.conn.getD (faces[i]).1 [])) 0 - Lx / 2) ^ 2 / (8 / 100 * Lx ^ 2))) ∧
    0 < tractionTrue P faces Lx i q ∧ tractionTrue P faces Lx i q ≤ 100000 ∧
    tractionIni (F := faces.length) i q = 100000 := by
  have e : tractionTrue P faces Lx i q = 100000 * Real.exp (-((positionIn (P.fc.shapeVals (faces[i]).2 q)
      (coords nn P.points (P.conn.getD (faces[i]).1 [])) 0 - Lx / 2) ^ 2 / (8 / 100 * Lx ^ 2))) := by
    have hp : surfaceQuadPoints P faces[i] q = positionIn (P.fc.shapeVals (faces[i]).2 q)
        (coords nn P.points (P.conn.getD (faces[i]).1 [])) := rfl
    rw [tractionTrue, hp]
    have e1 : (10 : ℝ) ^ 5 = 100000 := by norm_num
    have e2 : 2 * (Lx / 5) ^ 2 = 8 / 100 * Lx ^ 2 := by ring
    rw [e1, e2, neg_div]
  refine ⟨e, ?_, ?_, by norm_num [tractionIni]⟩
  · rw [e]
    positivity
  · rw [e]
    have : Real.exp (-((positionIn (P.fc.shapeVals (faces[i]).2 q)
        (coords nn P.points (P.conn.getD (faces[i]).1 [])) 0 - Lx / 2) ^ 2 / (8 / 100 * Lx ^ 2))) ≤ 1 :=
      Real.exp_le_one_iff.2 (neg_nonpos.2 (by positivity))
    linarith

/-- **C105 (misfit).** `compute_l2_error` is the squared integral distance of the displacements; it is not negative if the
measures of the quadrature points are not, and for positive measures it vanishes exactly if the displacements agree at all
quadrature points. -/
theorem C105_misfit (x y : Fin (totalDofs P.fes) → ℝ) :
    l2Error P (P.solArray x) (P.solArray y) = product P (P.vecField (x - y)) (P.vecField (x - y)) ∧
    ((∀ c q, 0 ≤ P.measureAt c q) → 0 ≤ l2Error P (P.solArray x) (P.solArray y)) ∧
    ((∀ c q, 0 < P.measureAt c q) → (l2Error P (P.solArray x) (P.solArray y) = 0 ↔
      ∀ c q i, fieldAt P (P.vecField x) c q i = fieldAt P (P.vecField y) c q i)) := by
  refine ⟨?_, ?_, ?_⟩
  · rw [l2Error_fields, product]
    refine Finset.sum_congr rfl fun c _ => Finset.sum_congr rfl fun q _ => ?_
    rw [Finset.sum_mul]
    refine Finset.sum_congr rfl fun i _ => ?_
    rw [← fieldL_apply, map_sub, sq]
  · intro hm
    rw [l2Error_fields]
    exact Finset.sum_nonneg fun c _ => Finset.sum_nonneg fun q _ => Finset.sum_nonneg fun i _ =>
      mul_nonneg (sq_nonneg _) (hm c q)
  · intro hm
    rw [l2Error_fields]
    constructor
    · intro h0 c q i
      have h1 := (Finset.sum_eq_zero_iff_of_nonneg fun c _ => Finset.sum_nonneg fun q _ => Finset.sum_nonneg fun i _ =>
        mul_nonneg (sq_nonneg _) (hm c q).le).1 h0 c (Finset.mem_univ c)
      have h2 := (Finset.sum_eq_zero_iff_of_nonneg fun q _ => Finset.sum_nonneg fun i _ =>
        mul_nonneg (sq_nonneg _) (hm c q).le).1 h1 q (Finset.mem_univ q)
      have h3 := (Finset.sum_eq_zero_iff_of_nonneg fun i _ => mul_nonneg (sq_nonneg _) (hm c q).le).1 h2 i (Finset.mem_univ i)
      have h4 := (mul_eq_zero.1 h3).resolve_right (hm c q).ne'
      exact sub_eq_zero.1 (pow_eq_zero_iff two_ne_zero |>.1 h4)
    · intro h0
      refine Finset.sum_eq_zero fun c _ => Finset.sum_eq_zero fun q _ => Finset.sum_eq_zero fun i _ => ?_
      rw [fieldL_apply, fieldL_apply, h0 c q i]
      ring

end JaxFem.Traction
