import Verif.Model.Scalability
import Verif.Spec.Scalability
import Verif.Thm.C88_Problem
import Verif.Thm.C121_Box

/-!
# C122: the scalability example
-/

namespace JaxFem.Scalability

open ElasticBench (Body)
open Hyper (muOf kappaOf psi psiInverse firstPK)

variable {nq nfq nn n : Nat}

theorem neo_scale (d mu kappa r : ℝ) (F : Matrix (Fin n) (Fin n) ℝ) (i j : Fin n) :
    neoHookePiola d (r * mu) (r * kappa) F i j = r * neoHookePiola d mu kappa F i j := by
  simp only [neoHookePiola, Matrix.add_apply, Matrix.smul_apply, smul_eq_mul]
  ring

/-- **C122 (density).** Where the determinant of the deformation gradient exceeds the floor `1e-14`, the stress of
`HyperElasticityInverse` is the density times the neo-Hookean stress for `E`. Below the floor the determinant is a constant for
`jax.grad`: the stress is a multiple of the deformation gradient itself, and nothing is left of the resistance to compression. -/
theorem C122_density (E nu r : ℝ) (G : Fin n → Fin n → ℝ) :
    (1 / 10 ^ 14 < (1 + Matrix.of G).det → ∀ i j, firstPK (psiInverse E nu r) G i j
      = r * neoHookePiola 3 (E / (2 * (1 + nu))) (E / (3 * (1 - 2 * nu))) (1 + Matrix.of G) i j) ∧
    ((1 + Matrix.of G).det < 1 / 10 ^ 14 → ∀ i j, firstPK (psiInverse E nu r) G i j
      = r * (E / (2 * (1 + nu))) * (1 / 10 ^ 14 : ℝ) ^ (-2 / 3 : ℝ) * (1 + Matrix.of G) i j) := by
  have hmu : muOf (E * r) nu = r * (E / (2 * (1 + nu))) := by rw [muOf]; ring
  have hka : kappaOf (E * r) nu = r * (E / (3 * (1 - 2 * nu))) := by rw [kappaOf]; ring
  constructor
  · intro h i j
    rw [Hyper.firstPK_inverse E nu r G h, Hyper.firstPK_psi 3 _ _ G (.inl (lt_trans (by norm_num) h)), hmu, hka]
    exact neo_scale _ _ _ _ _ i j
  · intro h i j
    set F : Fin n → Fin n → ℝ := fun i j => (1 + Matrix.of G : Matrix (Fin n) (Fin n) ℝ) i j with hF
    set c : ℝ := (1 / 10 ^ 14 : ℝ) ^ (-2 / 3 : ℝ) with hc
    have hd : HasFDerivAt (psiInverse E nu r) (Fracture.conL fun i j => muOf (E * r) nu * c * F i j) F := by
      have hs := Hyper.hasFDerivAt_sq F
      have h1 : HasFDerivAt (fun x : Fin n → Fin n → ℝ => muOf (E * r) nu / 2 * (c * (∑ i, ∑ j, x i j ^ 2) - 3)
          + kappaOf (E * r) nu / 2 * ((1 / 10 ^ 14 : ℝ) - 1) ^ 2)
          ((muOf (E * r) nu / 2) • (c • Fracture.conL fun i j => 2 * F i j)) F :=
        (((hs.const_mul c).sub_const 3).const_mul (muOf (E * r) nu / 2)).add_const _
      have h2 : (muOf (E * r) nu / 2) • (c • Fracture.conL fun i j => 2 * F i j)
          = Fracture.conL fun i j => muOf (E * r) nu * c * F i j := by
        ext H
        simp only [ContinuousLinearMap.smul_apply, smul_eq_mul]
        simp only [Fracture.conL, contract, LinearMap.coe_toContinuousLinearMap', LinearMap.coe_mk, AddHom.coe_mk, Finset.mul_sum]
        exact Finset.sum_congr rfl fun i _ => Finset.sum_congr rfl fun j _ => by ring
      rw [h2] at h1
      refine h1.congr_of_eventuallyEq ?_
      have hcont : ContinuousAt (fun x : Fin n → Fin n → ℝ => (Matrix.of x).det) F :=
        (contDiffAt_det (fun x : Fin n → Fin n → ℝ => Matrix.of x) _ fun i j =>
          contDiffAt_pi.1 (contDiffAt_pi.1 contDiffAt_id i) j).continuousAt
      have : (Matrix.of F).det < (1 / 10 ^ 14 : ℝ) := h
      filter_upwards [hcont.eventually (gt_mem_nhds this)] with x hx
      simp only [psiInverse, max_eq_right hx.le, Hyper.trace_eq, Matrix.of_apply, hc]
    rw [firstPK, Hyper.shift_eq, Hyper.grad_of_deriv hd, hmu]

section

variable (M : Body nq nfq nn) (faces : List (Nat × Nat)) (rho : List (Fin nq → ℝ))

local notation "𝒞" => classic M.points M.cells M.el M.fc faces
local notation "ℐ" => inverse M.points M.cells M.el M.fc faces rho

theorem conn_classic : (𝒞).conn = M.cells := by
  simp [classic, Problem1.conn, Function.comp_def]

theorem conn_zip {α : Type} (l : List (List Nat)) (r : List α) (h : r.length = l.length) : (l.zip r).map Prod.fst = l :=
  List.map_fst_zip h.ge

theorem conn_inverse (hr : rho.length = M.cells.length) : (ℐ).conn = M.cells := by
  rw [Problem1.conn, inverse, List.map_map]
  exact conn_zip M.cells rho hr

theorem zip_map_self {α β : Type} (l : List α) (f : α → β) : l.zip (l.map f) = l.map fun c => (c, f c) := by
  induction l with
  | nil => rfl
  | cons a l ih => rw [List.map_cons, List.zip_cons_cons, ih]; rfl

/-- Work of the surface map of the example. -/
theorem surface_eq {IV : Type} (P : Problem1 IV nq nfq nn 3 3) (iv : IV) (h1 : P.conn = M.cells) (h2 : P.points = M.points)
    (h3 : P.fc = M.fc) (h4 : P.surfaces = [⟨fun _ _ _ => surfaceMap, faces.map fun a => ⟨a.1, a.2, fun _ => iv⟩⟩])
    (u v : Nat → Fin 3 → ℝ) : P.surfaceWork u v = -M.facePower faces (fun _ => ![0, -(1 / 1000), 0]) v := by
  rw [Problem1.surfaceWork, Body.facePower, h1, h2, h3, h4]
  simp only [List.map_cons, List.map_nil, List.sum_cons, List.sum_nil, add_zero, List.map_map]
  rw [← ElasticBench.sum_map_neg']
  refine congrArg List.sum (List.map_congr_left fun a _ => ?_)
  simp only [Function.comp_apply]
  rw [← Finset.sum_neg_distrib]
  refine Finset.sum_congr rfl fun q _ => ?_
  rw [← neg_mul, ← Finset.sum_neg_distrib]
  congr 1
  refine Finset.sum_congr rfl fun i _ => ?_
  rw [← neg_mul]
  congr 1
  fin_cases i <;> simp [surfaceMap]

theorem work_inverse (hr : rho.length = M.cells.length) (u v : Nat → Fin 3 → ℝ)
    (hu : ∀ c ∈ M.cells, ∀ q, 1 / 10 ^ 14 < (deformation M u c q).det) :
    (ℐ).virtualWork u v = internalPower M rho u v - M.facePower faces (fun _ => ![0, -(1 / 1000), 0]) v := by
  have e1 : (ℐ).tensorWork u v = internalPower M rho u v := by
    rw [Problem1.tensorWork, internalPower]
    simp only [inverse, List.map_map]
    refine congrArg List.sum (List.map_congr_left fun cr hc => ?_)
    show cellIntegral M.el M.points cr.1 _ = cellIntegral M.el M.points cr.1 _
    congr 1
    funext q
    show contract (firstPK (psiInverse 10 0.3 (cr.2 q)) (M.grad u cr.1 q)) (M.grad v cr.1 q) = _
    simp only [contract]
    rw [Finset.mul_sum]
    refine Finset.sum_congr rfl fun i _ => ?_
    rw [Finset.mul_sum]
    refine Finset.sum_congr rfl fun j _ => ?_
    rw [(C122_density 10 0.3 (cr.2 q) (M.grad u cr.1 q)).1 (hu cr.1 (List.of_mem_zip hc).1 q), ← mul_assoc]
    norm_num [deformation]
  rw [Problem1.virtualWork, e1, surface_eq M faces (ℐ) 0 (conn_inverse M faces rho hr) rfl rfl rfl u v]
  show _ + 0 + _ = _
  ring

theorem work_classic (u v : Nat → Fin 3 → ℝ) (hu : ∀ c ∈ M.cells, ∀ q, 0 < (deformation M u c q).det) :
    (𝒞).virtualWork u v = internalPower M (M.cells.map fun _ _ => 1) u v - M.facePower faces (fun _ => ![0, -(1 / 1000), 0]) v := by
  have e1 : (𝒞).tensorWork u v = internalPower M (M.cells.map fun _ _ => 1) u v := by
    rw [Problem1.tensorWork, internalPower]
    have hz : M.cells.zip (M.cells.map fun _ (_ : Fin nq) => (1 : ℝ)) = M.cells.map fun c => (c, fun _ => 1) := by
      exact zip_map_self _ _
    rw [hz]
    simp only [classic, List.map_map]
    refine congrArg List.sum (List.map_congr_left fun c hc => ?_)
    show cellIntegral M.el M.points c _ = cellIntegral M.el M.points c _
    congr 1
    funext q
    show contract (firstPK (psi 3 (muOf 10 0.3) (kappaOf 10 0.3)) (M.grad u c q)) (M.grad v c q) = _
    rw [Hyper.firstPK_psi 3 _ _ _ (.inl (hu c hc q)), one_mul, deformation]
    norm_num [muOf, kappaOf]
  rw [Problem1.virtualWork, e1, surface_eq M faces (𝒞) () (conn_classic M faces) rfl rfl rfl u v]
  show _ + 0 + _ = _
  ring

theorem wf_classic (hM : M.Sound) (hf : ∀ a ∈ faces, a.1 < M.cells.length) : (𝒞).WF where
  nonempty := by simpa [classic] using hM.nonempty
  points := rfl
  cell_length := by
    intro c hc
    obtain ⟨c', hc', rfl⟩ := List.mem_map.1 hc
    exact hM.length c' hc'
  cell_lt := by
    intro c hc
    obtain ⟨c', hc', rfl⟩ := List.mem_map.1 hc
    exact fun n hn => (hM.valid c' hc' n hn).trans_eq hM.points.symm
  face_lt := by
    intro s hs f hfs
    obtain rfl : s = _ := by simpa [classic] using hs
    obtain ⟨a, ha, rfl⟩ := List.mem_map.1 hfs
    simpa [classic] using hf a ha

theorem wf_inverse (hM : M.Sound) (hr : rho.length = M.cells.length) (hf : ∀ a ∈ faces, a.1 < M.cells.length) : (ℐ).WF where
  nonempty := by
    intro h
    have := congrArg List.length h
    simp only [inverse, List.length_map, List.length_zip, hr, min_self, List.length_nil, List.length_eq_zero_iff] at this
    exact hM.nonempty this
  points := rfl
  cell_length := by
    intro c hc
    obtain ⟨c', hc', rfl⟩ := List.mem_map.1 hc
    exact hM.length c'.1 (List.of_mem_zip hc').1
  cell_lt := by
    intro c hc
    obtain ⟨c', hc', rfl⟩ := List.mem_map.1 hc
    exact fun n hn => (hM.valid c'.1 (List.of_mem_zip hc').1 n hn).trans_eq hM.points.symm
  face_lt := by
    intro s hs f hfs
    obtain rfl : s = _ := by simpa [inverse] using hs
    obtain ⟨a, ha, rfl⟩ := List.mem_map.1 hfs
    simpa [inverse, hr] using hf a ha

end

/-- **C122 (traction).** A displacement that turns no cell inside out solves `HyperElasticityClassic` (zero residual away from the
held faces) if and only if it is in equilibrium with the traction `-1e-3` in the direction `y`, the negative of the
`t = [0, T_LATERAL, 0]` that `example_inverse_timing.py` prints. -/
theorem C122_classic (M : Body nq nfq nn) (hM : M.Sound) (faces : List (Nat × Nat)) (hf : ∀ a ∈ faces, a.1 < M.cells.length)
    (sol : List (List ℝ)) (hs : HasShapes [(M.numNodes, 3)] [sol])
    (hu : ∀ c ∈ M.cells, ∀ q, 0 < (deformation M (fieldOf 3 sol) c q).det) :
    IsSolution (classic M.points M.cells M.el M.fc faces) (fun n _ => ¬ OnEnds M n) sol ↔
      Balanced M (M.cells.map fun _ _ => 1) faces ![0, -(1 / 1000), 0] (fieldOf 3 sol) := by
  have hs' : HasShapes [((classic M.points M.cells M.el M.fc faces).numTotalNodes, 3)] [sol] := by
    rw [show (classic M.points M.cells M.el M.fc faces).numTotalNodes = M.numNodes from hM.points]
    exact hs
  rw [C72_galerkin _ (wf_classic M faces hM hf) sol hs', Balanced]
  simp only [work_classic M faces _ _ hu, not_not, sub_eq_zero]
  exact forall_congr' fun v => ⟨fun h hv => h fun n c ho => hv n ho c, fun h hv => h fun n ho c => hv n c ho⟩

/-- **C122 (inverse problem).** The same for `HyperElasticityInverse`, with the stresses multiplied by the density, if all determinants
exceed the floor. In particular density one gives the solutions of `HyperElasticityClassic`. -/
theorem C122_inverse (M : Body nq nfq nn) (hM : M.Sound) (faces : List (Nat × Nat)) (hf : ∀ a ∈ faces, a.1 < M.cells.length)
    (rho : List (Fin nq → ℝ)) (hr : rho.length = M.cells.length)
    (sol : List (List ℝ)) (hs : HasShapes [(M.numNodes, 3)] [sol])
    (hu : ∀ c ∈ M.cells, ∀ q, 1 / 10 ^ 14 < (deformation M (fieldOf 3 sol) c q).det) :
    (IsSolution (inverse M.points M.cells M.el M.fc faces rho) (fun n _ => ¬ OnEnds M n) sol ↔
      Balanced M rho faces ![0, -(1 / 1000), 0] (fieldOf 3 sol)) ∧
    (rho = M.cells.map (fun _ _ => 1) → (IsSolution (inverse M.points M.cells M.el M.fc faces rho) (fun n _ => ¬ OnEnds M n) sol ↔
      IsSolution (classic M.points M.cells M.el M.fc faces) (fun n _ => ¬ OnEnds M n) sol)) := by
  have key : IsSolution (inverse M.points M.cells M.el M.fc faces rho) (fun n _ => ¬ OnEnds M n) sol ↔
      Balanced M rho faces ![0, -(1 / 1000), 0] (fieldOf 3 sol) := by
    have hs' : HasShapes [((inverse M.points M.cells M.el M.fc faces rho).numTotalNodes, 3)] [sol] := by
      rw [show (inverse M.points M.cells M.el M.fc faces rho).numTotalNodes = M.numNodes from hM.points]
      exact hs
    rw [C72_galerkin _ (wf_inverse M faces rho hM hr hf) sol hs', Balanced]
    simp only [work_inverse M faces rho hr _ _ hu, not_not, sub_eq_zero]
    exact forall_congr' fun v => ⟨fun h hv => h fun n c ho => hv n ho c, fun h hv => h fun n ho c => hv n c ho⟩
  refine ⟨key, ?_⟩
  rintro rfl
  rw [key, C122_classic M hM faces hf sol hs fun c hc q => lt_trans (by norm_num) (hu c hc q)]

theorem internalPower_sub (M : Body nq nfq nn) (rho : List (Fin nq → ℝ)) (u v v' : Nat → Fin 3 → ℝ) :
    internalPower M rho u (fun n i => v n i - v' n i) = internalPower M rho u v - internalPower M rho u v' := by
  rw [internalPower, internalPower, internalPower, ← ElasticBench.sum_map_sub']
  refine congrArg List.sum (List.map_congr_left fun cr _ => ?_)
  rw [cellIntegral, cellIntegral, cellIntegral, ← Finset.sum_sub_distrib]
  refine Finset.sum_congr rfl fun q _ => ?_
  rw [← sub_mul, ← mul_sub]
  congr 2
  simp only [contract, ElasticBench.grad_sub, mul_sub, Finset.sum_sub_distrib]

/-- **C122 (forces at the ends).** In every equilibrium the held faces together exert the force `-t` times the loaded area. -/
theorem C122_forces (M : Body nq nfq nn) (hu : M.el.Unity) (hfu : M.fc.Unity) (rho : List (Fin nq → ℝ)) (faces : List (Nat × Nat))
    (t : Fin 3 → ℝ) (u : Nat → Fin 3 → ℝ) (h : Balanced M rho faces t u) (w : Fin 3 → ℝ) :
    endForce M rho faces t u w = -((∑ i, t i * w i) * M.area faces) := by
  classical
  rw [endForce]
  set v' : Nat → Fin 3 → ℝ := fun n i => if OnEnds M n then w i else 0 with hv'
  have hd := h (fun n i => w i - v' n i) fun n ho i => by
    simp only [hv']
    rw [if_pos ho, sub_self]
  have hz : internalPower M rho u (fun _ i => w i) = 0 := by
    rw [internalPower]
    refine List.sum_eq_zero fun x hx => ?_
    obtain ⟨cr, -, rfl⟩ := List.mem_map.1 hx
    rw [cellIntegral]
    refine Finset.sum_eq_zero fun q _ => ?_
    have : M.grad (fun _ i => w i) cr.1 q = 0 := Hyper.gradient_const (classic M.points M.cells M.el M.fc faces) hu w cr.1 q
    rw [this]
    simp [contract]
  rw [internalPower_sub, ElasticBench.facePower_sub, hz, ElasticBench.facePower_const M hfu] at hd
  simp only [hv'] at hd ⊢
  linarith

theorem grad_spin (M : Body nq nfq nn) (hel : M.el.Unity) (u : Nat → Fin 3 → ℝ) (W : Matrix (Fin 3) (Fin 3) ℝ) (c : List Nat)
    (hc : c.length = nn) (q : Fin nq)
    (hdet : (mapJacobian (coords nn M.points c) (Matrix.of (M.el.shapeGradsRef q))).det ≠ 0) :
    Matrix.of (M.grad (spin M u W) c q) = W * deformation M u c q := by
  have h1 : M.grad (fun n i => M.pos n i) c q = (1 : Matrix (Fin 3) (Fin 3) ℝ) :=
    affine_gradient (classic M.points M.cells M.el M.fc []) hel c hc (fun n i => M.pos n i) (1 : Matrix (Fin 3) (Fin 3) ℝ) 0
      (fun n _ i => by
        show M.pos n i = _
        simp only [Matrix.one_apply, ite_mul, one_mul, zero_mul, Finset.sum_ite_eq, Finset.mem_univ, if_true, Pi.zero_apply, add_zero]
        rfl) q hdet
  have e : restrict nn (spin M u W) c = (restrict nn (fun n i => M.pos n i) c + restrict nn u c) * W.transpose := by
    ext a i
    rw [Matrix.mul_apply]
    show ∑ j, W i j * (M.pos (c.getD a 0) j + u (c.getD a 0) j) = ∑ j, (M.pos (c.getD a 0) j + u (c.getD a 0) j) * W i j
    exact Finset.sum_congr rfl fun j _ => mul_comm _ _
  have h2 : Matrix.of (M.grad (spin M u W) c q)
      = W * (Matrix.of (M.grad (fun n i => M.pos n i) c q) + Matrix.of (M.grad u c q)) := by
    show physGrad _ _ (restrict nn (spin M u W) c) = W * (physGrad _ _ _ + physGrad _ _ _)
    rw [e, physGrad, physGrad, physGrad, Matrix.transpose_mul, Matrix.transpose_transpose, Matrix.transpose_add]
    simp only [Matrix.mul_add, Matrix.add_mul, Matrix.mul_assoc]
  rw [h2, h1]
  rfl

/-- Stresses do no work in rotations of the deformed body. -/
theorem contract_spin (mu kappa : ℝ) (F W : Matrix (Fin 3) (Fin 3) ℝ) (hF : F.det ≠ 0) (hW : W.transpose = -W) :
    contract (neoHookePiola 3 mu kappa F) (W * F) = 0 := by
  have hs : (neoHookePiola 3 mu kappa F * F.transpose).IsSymm := by
    rw [Hyper.kirchhoff_eq 3 mu kappa F hF]
    simp only [Matrix.IsSymm, Matrix.transpose_add, Matrix.transpose_smul, Matrix.transpose_sub, Matrix.transpose_mul,
      Matrix.transpose_transpose, Matrix.transpose_one]
  set S := neoHookePiola 3 mu kappa F * F.transpose with hS
  have h1 : contract (neoHookePiola 3 mu kappa F) (W * F) = ∑ i, ∑ k, S i k * W i k := by
    simp only [contract, hS, Matrix.mul_apply, Matrix.transpose_apply, Finset.mul_sum, Finset.sum_mul]
    refine Finset.sum_congr rfl fun i _ => ?_
    rw [Finset.sum_comm]
    exact Finset.sum_congr rfl fun k _ => Finset.sum_congr rfl fun j _ => by ring
  have h2 : ∑ i, ∑ k, S i k * W i k = -∑ i, ∑ k, S i k * W i k := by
    conv_lhs => rw [Finset.sum_comm]
    rw [← Finset.sum_neg_distrib]
    refine Finset.sum_congr rfl fun i _ => ?_
    rw [← Finset.sum_neg_distrib]
    refine Finset.sum_congr rfl fun k _ => ?_
    have a : S k i = S i k := congrFun (congrFun hs i) k
    have b : W k i = -W i k := congrFun (congrFun hW i) k
    rw [a, b]
    ring
  rw [h1]
  linarith

/-- **C122 (moments at the ends).** In every equilibrium without inverted cells the moments that the held faces exert on the deformed
body balance the moment of the traction, which acts at the deformed positions. -/
theorem C122_moments (M : Body nq nfq nn) (hM : M.Sound) (hel : M.el.Unity) (rho : List (Fin nq → ℝ)) (faces : List (Nat × Nat))
    (t : Fin 3 → ℝ) (u : Nat → Fin 3 → ℝ) (hu : ∀ c ∈ M.cells, ∀ q, 0 < (deformation M u c q).det)
    (h : Balanced M rho faces t u) (W : Matrix (Fin 3) (Fin 3) ℝ) (hW : W.transpose = -W) :
    endMoment M rho faces t u W = -M.facePower faces (fun _ => t) (spin M u W) := by
  classical
  rw [endMoment]
  set v' : Nat → Fin 3 → ℝ := fun n i => if OnEnds M n then spin M u W n i else 0 with hv'
  have hd := h (fun n i => spin M u W n i - v' n i) fun n ho i => by
    simp only [hv']
    rw [if_pos ho, sub_self]
  have hz : internalPower M rho u (fun n i => spin M u W n i) = 0 := by
    rw [internalPower]
    refine List.sum_eq_zero fun x hx => ?_
    obtain ⟨cr, hcr, rfl⟩ := List.mem_map.1 hx
    have hc := (List.of_mem_zip hcr).1
    rw [cellIntegral]
    refine Finset.sum_eq_zero fun q _ => ?_
    have hg : M.grad (fun n i => spin M u W n i) cr.1 q = W * deformation M u cr.1 q :=
      grad_spin M hel u W cr.1 (hM.length _ hc) q (left_ne_zero_of_mul (hM.positive _ hc q).ne')
    rw [hg, contract_spin _ _ _ W (hu _ hc q).ne' hW]
    simp
  rw [internalPower_sub, ElasticBench.facePower_sub, hz] at hd
  simp only [hv'] at hd ⊢
  linarith

/-- **C122 (density of the script).** With `rho = 0.5` the solutions are those of the unscaled body under twice the traction, and the
objective is the sum of the squares of all nodal displacements. -/
theorem C122_half (M : Body nq nfq nn) (hM : M.Sound) (faces : List (Nat × Nat)) (hf : ∀ a ∈ faces, a.1 < M.cells.length)
    (sol : List (List ℝ)) (hs : HasShapes [(M.numNodes, 3)] [sol])
    (hu : ∀ c ∈ M.cells, ∀ q, 1 / 10 ^ 14 < (deformation M (fieldOf 3 sol) c q).det) :
    (IsSolution (inverse M.points M.cells M.el M.fc faces (rhoHalf M.cells)) (fun n _ => ¬ OnEnds M n) sol ↔
      Balanced M (M.cells.map fun _ _ => 1) faces ![0, -(2 / 1000), 0] (fieldOf 3 sol)) ∧
    objective sol = ∑ n ∈ Finset.range M.numNodes, ∑ i, fieldOf 3 sol n i ^ 2 := by
  constructor
  · rw [(C122_inverse M hM faces hf (rhoHalf M.cells) (by simp [rhoHalf]) sol hs hu).1, Balanced, Balanced]
    have e1 : ∀ v, internalPower M (rhoHalf M.cells) (fieldOf 3 sol) v
        = 1 / 2 * internalPower M (M.cells.map fun _ _ => 1) (fieldOf 3 sol) v := by
      intro v
      rw [internalPower, internalPower, rhoHalf, zip_map_self, zip_map_self, List.map_map, List.map_map,
        ← ElasticBench.sum_map_const_mul]
      refine congrArg List.sum (List.map_congr_left fun c _ => ?_)
      simp only [Function.comp_apply]
      rw [cellIntegral, cellIntegral, Finset.mul_sum]
      exact Finset.sum_congr rfl fun q _ => by ring
    have e2 : ∀ v, M.facePower faces (fun _ => ![0, -(2 / 1000), 0]) v
        = 2 * M.facePower faces (fun _ => ![0, -(1 / 1000), 0]) v := by
      intro v
      rw [Body.facePower, Body.facePower, ← ElasticBench.sum_map_const_mul]
      refine congrArg List.sum (List.map_congr_left fun a _ => ?_)
      rw [Finset.mul_sum]
      refine Finset.sum_congr rfl fun q _ => ?_
      rw [← mul_assoc, Finset.mul_sum]
      congr 1
      refine Finset.sum_congr rfl fun i _ => ?_
      fin_cases i <;> norm_num [← mul_assoc]
    refine forall_congr' fun v => ⟨fun h hv => ?_, fun h hv => ?_⟩
    · have := h hv
      rw [e1] at this
      rw [e2]
      linarith
    · have := h hv
      rw [e2] at this
      rw [e1]
      linarith
  · obtain ⟨a, t, h1, h2, h3, -⟩ := hs
    obtain ⟨rfl, -⟩ := List.cons.inj h1
    rw [objective, ← h2]
    clear h1 h2 hu
    induction sol with
    | nil => simp
    | cons r l ih =>
      rw [List.map_cons, List.sum_cons, List.length_cons, Finset.sum_range_succ', ih fun r hr => h3 r (List.mem_cons_of_mem _ hr),
        add_comm]
      congr 1
      have hr := h3 r List.mem_cons_self
      match r, hr with
      | [a, b, c], _ => simp [fieldOf, Fin.sum_univ_three]; ring

/-- Both branches of the density theorem: the undeformed body, and a body reflected at the origin. -/
example : (1 / 10 ^ 14 : ℝ) < (1 + Matrix.of (0 : Fin 3 → Fin 3 → ℝ)).det ∧
    (1 + Matrix.of (fun i j : Fin 3 => if i = j then (-2 : ℝ) else 0)).det < 1 / 10 ^ 14 := by
  constructor
  · rw [show (1 + Matrix.of (0 : Fin 3 → Fin 3 → ℝ) : Matrix (Fin 3) (Fin 3) ℝ) = 1 from add_zero _, Matrix.det_one]
    norm_num
  · rw [Matrix.det_fin_three]
    simp
    norm_num

end JaxFem.Scalability
