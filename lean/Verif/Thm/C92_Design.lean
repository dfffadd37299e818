import Verif.Thm.C82_Elasticity
import Verif.Thm.C84_MeshGradient
import Verif.Spec.TopOpt

/-!
# C92: helper lemmas on design-dependent stiffness

An abstract part (sums of scaled positive semidefinite forms) and the translation of the discrete problem.
-/

namespace JaxFem

open scoped BigOperators

/-! ### Scaled energies -/

section abstract

variable {ι V : Type} [Fintype ι] [AddCommGroup V] [Module ℝ V]

/-- Symmetric positive semidefinite bilinear forms. -/
structure PSD (B : V → V → ℝ) : Prop where
  add : ∀ x y z, B (x + y) z = B x z + B y z
  smul : ∀ (a : ℝ) x z, B (a • x) z = a * B x z
  symm : ∀ x y, B x y = B y x
  nonneg : ∀ x, 0 ≤ B x x

theorem PSD.sub {B : V → V → ℝ} (h : PSD B) (x y z : V) : B (x - y) z = B x z - B y z := by
  rw [sub_eq_add_neg, h.add, ← neg_one_smul ℝ y, h.smul]; ring

theorem PSD.sub_right {B : V → V → ℝ} (h : PSD B) (x y z : V) : B z (x - y) = B z x - B z y := by
  rw [h.symm, h.sub, h.symm x, h.symm y]

/-- `2 a B(x, y) ≤ (a²/E) B(x, x) + E B(y, y)`. -/
theorem PSD.young {B : V → V → ℝ} (h : PSD B) (a E : ℝ) (hE : 0 < E) (x y : V) :
    2 * (a * B x y) ≤ a ^ 2 / E * B x x + E * B y y := by
  have := h.nonneg ((a / E) • x - y)
  rw [h.sub, h.sub_right, h.sub_right, h.smul, h.smul, h.symm y ((a / E) • x), h.smul,
    h.symm x ((a / E) • x), h.smul] at this
  have e : 0 ≤ E * (a / E * (a / E * B x x) - a / E * B x y - (a / E * B x y - B y y)) := mul_nonneg hE.le this
  have e2 : E * (a / E * (a / E * B x x) - a / E * B x y - (a / E * B x y - B y y))
      = a ^ 2 / E * B x x + E * B y y - 2 * (a * B x y) := by
    field_simp
    ring
  linarith

/-- The work of a load `l` on its response grows at least like the first-order prediction when the stiffness is
changed from `E` to `E'`, and the excess is of second order. -/
theorem compliance_expand (B : ι → V → V → ℝ) (hB : ∀ i, PSD (B i)) (l : V → ℝ) (S : Submodule ℝ V)
    (E E' : ι → ℝ) (hE' : ∀ i, 0 < E' i) (u u' : V) (hu : u ∈ S) (hu' : u' ∈ S)
    (h : ∀ v ∈ S, ∑ i, E i * B i u v = l v) (h' : ∀ v ∈ S, ∑ i, E' i * B i u' v = l v) :
    0 ≤ l u' - l u + ∑ i, (E' i - E i) * B i u u ∧
    l u' - l u + ∑ i, (E' i - E i) * B i u u ≤ ∑ i, (E' i - E i) ^ 2 / E' i * B i u u := by
  set d := u' - u with hd
  have e1 : l u' = ∑ i, E i * B i u u' := (h u' hu').symm
  have e2 : l u = ∑ i, E' i * B i u' u := (h' u hu).symm
  have e3 : l u' = ∑ i, E' i * B i u' u' := (h' u' hu').symm
  have e4 : l u = ∑ i, E i * B i u u := (h u hu).symm
  have ed : l u' - l u + ∑ i, (E' i - E i) * B i u u = ∑ i, E' i * B i d d := by
    have : ∀ i, E' i * B i d d = E' i * B i u' u' - 2 * (E' i * B i u' u) + E' i * B i u u := by
      intro i
      rw [hd, (hB i).sub, (hB i).sub_right, (hB i).sub_right, (hB i).symm u u']
      ring
    simp only [this, Finset.sum_add_distrib, Finset.sum_sub_distrib, ← Finset.mul_sum, sub_mul]
    linarith
  have em : ∑ i, E' i * B i d d = ∑ i, -(E' i - E i) * B i u d := by
    have : ∀ i, -(E' i - E i) * B i u d
        = E i * B i u u' - E i * B i u u - E' i * B i u' u + E' i * B i u u := by
      intro i
      rw [hd, (hB i).sub_right, (hB i).symm u' u]
      ring
    have t : ∀ i, E' i * B i d d = E' i * B i u' u' - 2 * (E' i * B i u' u) + E' i * B i u u := by
      intro i
      rw [hd, (hB i).sub, (hB i).sub_right, (hB i).sub_right, (hB i).symm u u']
      ring
    simp only [this, t, Finset.sum_add_distrib, Finset.sum_sub_distrib, ← Finset.mul_sum]
    linarith
  have hpos : 0 ≤ ∑ i, E' i * B i d d :=
    Finset.sum_nonneg fun i _ => mul_nonneg (hE' i).le ((hB i).nonneg d)
  refine ⟨ed ▸ hpos, ?_⟩
  rw [ed]
  have key : 2 * ∑ i, E' i * B i d d
      ≤ ∑ i, (E' i - E i) ^ 2 / E' i * B i u u + ∑ i, E' i * B i d d := by
    conv_lhs => rw [em]
    rw [Finset.mul_sum, ← Finset.sum_add_distrib]
    refine Finset.sum_le_sum fun i _ => ?_
    have := (hB i).young (-(E' i - E i)) (E' i) (hE' i) u d
    rw [neg_sq] at this
    exact this
  linarith

/-- A stiffer structure is less compliant. -/
theorem compliance_mono (B : ι → V → V → ℝ) (hB : ∀ i, PSD (B i)) (l : V → ℝ) (S : Submodule ℝ V)
    (E E' : ι → ℝ) (hE : ∀ i, 0 ≤ E i) (hle : ∀ i, E i ≤ E' i) (u u' : V) (hu : u ∈ S) (hu' : u' ∈ S)
    (h : ∀ v ∈ S, ∑ i, E i * B i u v = l v) (h' : ∀ v ∈ S, ∑ i, E' i * B i u' v = l v) : l u' ≤ l u := by
  have e1 : l u' = ∑ i, E i * B i u u' := (h u' hu').symm
  have e3 : l u' = ∑ i, E' i * B i u' u' := (h' u' hu').symm
  have e4 : l u = ∑ i, E i * B i u u := (h u hu).symm
  have hs : 0 ≤ ∑ i, E i * B i (u - u') (u - u') :=
    Finset.sum_nonneg fun i _ => mul_nonneg (hE i) ((hB i).nonneg _)
  have hd : ∑ i, E i * B i (u - u') (u - u') = l u - 2 * l u' + ∑ i, E i * B i u' u' := by
    have : ∀ i, E i * B i (u - u') (u - u') = E i * B i u u - 2 * (E i * B i u u') + E i * B i u' u' := by
      intro i
      rw [(hB i).sub, (hB i).sub_right, (hB i).sub_right, (hB i).symm u' u]
      ring
    simp only [this, Finset.sum_add_distrib, Finset.sum_sub_distrib, ← Finset.mul_sum]
    linarith
  have hm : ∑ i, E i * B i u' u' ≤ ∑ i, E' i * B i u' u' :=
    Finset.sum_le_sum fun i _ => mul_le_mul_of_nonneg_right (hle i) ((hB i).nonneg _)
  linarith

end abstract

/-! ### The discrete problem -/

variable {IV : Type} {nq nfq nn vec dim : Nat}

theorem atIv_conn (P : Problem1 IV nq nfq nn vec dim) (iv : Nat → Fin nq → IV) : (P.atIv iv).conn = P.conn := by
  simp only [Problem1.conn, Problem1.atIv]
  refine List.ext_getElem (by simp) fun i h1 h2 => ?_
  simp

theorem atIv_fes (P : Problem1 IV nq nfq nn vec dim) (iv : Nat → Fin nq → IV) : (P.atIv iv).fes = P.fes := by
  simp only [Problem1.fes, atIv_conn]
  rfl

theorem atIv_WF (P : Problem1 IV nq nfq nn vec dim) (h : P.WF) (iv : Nat → Fin nq → IV) : (P.atIv iv).WF where
  nonempty := by
    intro hz
    apply h.nonempty
    have := congrArg List.length hz
    simp only [Problem1.atIv, List.length_mapIdx, List.length_nil] at this
    exact List.length_eq_zero_iff.1 this
  points := h.points
  cell_length := by
    intro c hc
    obtain ⟨i, hi, rfl⟩ := List.mem_mapIdx.1 hc
    exact h.cell_length P.cells[i] (List.getElem_mem hi)
  cell_lt := by
    intro c hc
    obtain ⟨i, hi, rfl⟩ := List.mem_mapIdx.1 hc
    exact h.cell_lt P.cells[i] (List.getElem_mem hi)
  face_lt := by
    intro s hs f hf
    have := h.face_lt s hs f hf
    simpa [Problem1.atIv] using this

theorem list_sum_eq_fin {α : Type} (l : List α) (g : α → ℝ) : (l.map g).sum = ∑ c : Fin l.length, g l[c] := by
  rw [← List.sum_ofFn]
  congr 1
  refine List.ext_getElem (by simp) fun i h1 h2 => ?_
  simp

theorem atIv_tensorWork (P : Problem1 IV nq nfq nn vec dim) (iv : Nat → Fin nq → IV) (u v : Nat → Fin vec → ℝ) :
    (P.atIv iv).tensorWork u v = ∑ c : Fin P.cells.length, ∑ q,
      contract (P.tensorMap (iv c q) (P.gradAt u c q)) (P.gradAt v c q)
        * P.measureAt c q := by
  have e2 : ∀ (g : Nat → CellSpec IV nq → CellSpec IV nq) (f : CellSpec IV nq → ℝ),
      ((P.cells.mapIdx g).map f).sum = ∑ c : Fin P.cells.length, f (g c P.cells[c]) := by
    intro g f
    rw [← List.sum_ofFn]
    congr 1
    refine List.ext_getElem (by simp) fun i h1 h2 => ?_
    simp
  rw [Problem1.tensorWork]
  exact e2 _ _

theorem atIv_surfaceWork (P : Problem1 IV nq nfq nn vec dim) (iv : Nat → Fin nq → IV) (u v : Nat → Fin vec → ℝ) :
    (P.atIv iv).surfaceWork u v = P.surfaceWork u v := by
  rw [Problem1.surfaceWork, Problem1.surfaceWork, atIv_conn]
  rfl

/-- Energy form of one quadrature point. -/
noncomputable def Problem1.pointForm (P : Problem1 IV nq nfq nn dim dim)
    (C : (Fin dim → Fin dim → ℝ) →ₗ[ℝ] (Fin dim → Fin dim → ℝ)) (i : Fin P.cells.length × Fin nq)
    (u v : Nat → Fin dim → ℝ) : ℝ :=
  contract (C (P.gradAt u i.1 i.2)) (P.gradAt v i.1 i.2) * P.measureAt i.1 i.2

theorem contract_add_left (S T H : Fin dim → Fin dim → ℝ) : contract (S + T) H = contract S H + contract T H := by
  simp only [contract, Pi.add_apply, add_mul, Finset.sum_add_distrib]

theorem contract_smul_left (a : ℝ) (S H : Fin dim → Fin dim → ℝ) : contract (a • S) H = a * contract S H := by
  simp only [contract, Pi.smul_apply, smul_eq_mul, mul_assoc, Finset.mul_sum]

theorem pointForm_psd (P : Problem1 IV nq nfq nn dim dim) (hpos : P.PositiveMeasure) (e : IV → ℝ)
    (C : (Fin dim → Fin dim → ℝ) →ₗ[ℝ] (Fin dim → Fin dim → ℝ)) (hC : P.Scaled e C)
    (i : Fin P.cells.length × Fin nq) : PSD (P.pointForm C i) where
  add := fun x y z => by
    have : P.gradAt (x + y) i.1 i.2 = P.gradAt x i.1 i.2 + P.gradAt y i.1 i.2 := by
      have := gradient_lin P 1 x y (P.cells[i.1]).nodes i.2
      simp only [one_mul] at this
      exact this
    rw [Problem1.pointForm, this, C.map_add, contract_add_left, add_mul]
    rfl
  smul := fun a x z => by
    have : P.gradAt (a • x) i.1 i.2 = a • P.gradAt x i.1 i.2 := by
      have := gradient_lin P a x 0 (P.cells[i.1]).nodes i.2
      have z0 : P.gradient 0 (P.cells[i.1]).nodes i.2 = (0 : Fin dim → Fin dim → ℝ) := by
        funext i j; rw [gradient_eq]; simp
      rw [z0] at this
      simp only [Pi.zero_apply, add_zero] at this
      exact this
    rw [Problem1.pointForm, this, C.map_smul, contract_smul_left, mul_assoc]
    rfl
  symm := fun x y => by rw [Problem1.pointForm, hC.symm]; rfl
  nonneg := fun x => mul_nonneg (hC.nonneg _) (hpos _ (List.getElem_mem _) _).le

theorem atIv_work_scaled (P : Problem1 IV nq nfq nn dim dim) (e : IV → ℝ)
    (C : (Fin dim → Fin dim → ℝ) →ₗ[ℝ] (Fin dim → Fin dim → ℝ)) (hC : P.Scaled e C) (iv : Nat → Fin nq → IV)
    (u v : Nat → Fin dim → ℝ) :
    (P.atIv iv).tensorWork u v = ∑ i : Fin P.cells.length × Fin nq, e (iv i.1 i.2) * P.pointForm C i u v := by
  rw [atIv_tensorWork, Fintype.sum_prod_type]
  refine Finset.sum_congr rfl fun c _ => Finset.sum_congr rfl fun q _ => ?_
  have : P.tensorMap (iv c q) (P.gradAt u c q) = e (iv c q) • C (P.gradAt u c q) := by
    funext i j
    exact hC.map _ _ i j
  rw [this, contract_smul_left, Problem1.pointForm, mul_assoc]

/-- Work of the surface load on a field. -/
noncomputable def Problem1.loadWork (P : Problem1 IV nq nfq nn dim dim) (v : Nat → Fin dim → ℝ) : ℝ :=
  -P.surfaceWork 0 v

theorem deadLoad_surfaceWork (P : Problem1 IV nq nfq nn dim dim) (hl : P.DeadLoad) (u w v : Nat → Fin dim → ℝ) :
    P.surfaceWork u v = P.surfaceWork w v := by
  obtain ⟨s, hs, hm⟩ := hl.surface
  rw [Problem1.surfaceWork, Problem1.surfaceWork, hs]
  simp only [List.map_cons, List.map_nil]
  refine congrArg (fun t : ℝ => [t].sum) (congrArg List.sum (List.map_congr_left fun f _ =>
    Finset.sum_congr rfl fun q _ => congrArg (fun t : ℝ => t * _) (Finset.sum_congr rfl fun c _ => ?_)))
  rw [hm]

theorem atIv_virtualWork (P : Problem1 IV nq nfq nn dim dim) (hl : P.DeadLoad) (e : IV → ℝ)
    (C : (Fin dim → Fin dim → ℝ) →ₗ[ℝ] (Fin dim → Fin dim → ℝ)) (hC : P.Scaled e C) (iv : Nat → Fin nq → IV)
    (u v : Nat → Fin dim → ℝ) :
    (P.atIv iv).virtualWork u v
      = ∑ i : Fin P.cells.length × Fin nq, e (iv i.1 i.2) * P.pointForm C i u v - P.loadWork v := by
  have hm : (P.atIv iv).massMap = none := hl.mass
  rw [Problem1.virtualWork, atIv_work_scaled P e C hC, atIv_surfaceWork, hm, Problem1.loadWork,
    deadLoad_surfaceWork P hl u 0]
  ring

/-- The residual with the given internal variables, on the degrees of freedom of `P`. -/
noncomputable def Problem1.flatIv (P : Problem1 IV nq nfq nn vec dim) (iv : Nat → Fin nq → IV)
    (u : Fin (totalDofs P.fes) → ℝ) : Fin (totalDofs P.fes) → ℝ := (P.atIv iv).flat u

theorem vecField_atIv (P : Problem1 IV nq nfq nn vec dim) (iv : Nat → Fin nq → IV) (u : Fin (totalDofs P.fes) → ℝ) :
    (P.atIv iv).vecField u = P.vecField u := rfl

/-- Vectors of degrees of freedom that vanish where values are prescribed. -/
def vanishing (fes : List FE) (bcs : List (List (BCEntry ℝ))) : Submodule ℝ (Fin (totalDofs fes) → ℝ) where
  carrier := {y | ∀ (k : Fin (totalDofs fes)) v, Prescribed fes bcs k (some v) → y k = 0}
  add_mem' := fun {a b} ha hb k v h => by simp [ha k v h, hb k v h]
  zero_mem' := fun k v _ => rfl
  smul_mem' := fun a x hx k v h => by simp [hx k v h]

theorem mem_vanishing (fes : List FE) (bcs : List (List (BCEntry ℝ))) (hz : ZeroValues bcs)
    (u : Fin (totalDofs fes) → ℝ) (hu : SatisfiesBC fes bcs u) : u ∈ vanishing fes bcs := by
  intro k v hp
  have hv0 : v = 0 := by
    cases hp with
    | fixed i n c fe es v h1 h2 h3 h4 h5 hv =>
      obtain ⟨b, e, a, he, ⟨k, -, -, hk⟩, -⟩ := hv
      exact hz es (List.mem_of_getElem? h2) e (by rw [he]; simp) v (List.mem_of_getElem? hk)
  rw [hu k v hp, hv0]

/-- A solution of the boundary value problem does no virtual work on fields that vanish at the constrained degrees of
freedom. -/
theorem solves_virtualWork (P : Problem1 IV nq nfq nn vec dim) (h : P.WF) (bcs : List (List (BCEntry ℝ)))
    (hb : WFBC P.fes bcs) (iv : Nat → Fin nq → IV) (u y : Fin (totalDofs P.fes) → ℝ)
    (hu : SolvesBVP P.fes bcs (P.flatIv iv) u) (hy : y ∈ vanishing P.fes bcs) :
    (P.atIv iv).virtualWork (P.vecField u) (P.vecField y) = 0 := by
  refine (flat_virtualWork (P.atIv iv) (atIv_WF P h iv) u y).symm.trans (Finset.sum_eq_zero fun k _ => ?_)
  obtain ⟨o, ho⟩ := prescribed_exists P.fes bcs hb k k.2
  cases o with
  | none =>
    have := hu.2 k ho
    rw [Problem1.flatIv] at this
    rw [this, mul_zero]
  | some v =>
    have := hy k v ho
    rw [this, zero_mul]

/-- Energy form of one quadrature point on vectors of degrees of freedom. -/
noncomputable def Problem1.dofForm (P : Problem1 IV nq nfq nn dim dim)
    (C : (Fin dim → Fin dim → ℝ) →ₗ[ℝ] (Fin dim → Fin dim → ℝ)) (i : Fin P.cells.length × Fin nq)
    (x y : Fin (totalDofs P.fes) → ℝ) : ℝ := P.pointForm C i (P.vecField x) (P.vecField y)

theorem dofForm_psd (P : Problem1 IV nq nfq nn dim dim) (hpos : P.PositiveMeasure) (e : IV → ℝ)
    (C : (Fin dim → Fin dim → ℝ) →ₗ[ℝ] (Fin dim → Fin dim → ℝ)) (hC : P.Scaled e C)
    (i : Fin P.cells.length × Fin nq) : PSD (P.dofForm C i) where
  add := fun x y z => by
    have := vecField_lin P 1 x y
    rw [one_smul] at this
    simp only [one_mul] at this
    rw [Problem1.dofForm, this]
    exact (pointForm_psd P hpos e C hC i).add _ _ _
  smul := fun a x z => by
    have := vecField_lin P a x 0
    have z0 : ∀ n c, P.vecField 0 n c = 0 := by
      intro n c
      simp [Problem1.vecField]
    rw [add_zero] at this
    simp only [z0, add_zero] at this
    rw [Problem1.dofForm, this]
    exact (pointForm_psd P hpos e C hC i).smul _ _ _
  symm := fun x y => (pointForm_psd P hpos e C hC i).symm _ _
  nonneg := fun x => (pointForm_psd P hpos e C hC i).nonneg _

/-- The equations that a solution satisfies. -/
theorem solves_forms (P : Problem1 IV nq nfq nn dim dim) (h : P.WF) (hl : P.DeadLoad) (e : IV → ℝ)
    (C : (Fin dim → Fin dim → ℝ) →ₗ[ℝ] (Fin dim → Fin dim → ℝ)) (hC : P.Scaled e C)
    (bcs : List (List (BCEntry ℝ))) (hb : WFBC P.fes bcs) (iv : Nat → Fin nq → IV) (u : Fin (totalDofs P.fes) → ℝ)
    (hu : SolvesBVP P.fes bcs (P.flatIv iv) u) :
    ∀ y ∈ vanishing P.fes bcs,
      ∑ i : Fin P.cells.length × Fin nq, e (iv i.1 i.2) * P.dofForm C i u y = P.loadWork (P.vecField y) := by
  intro y hy
  have := solves_virtualWork P h bcs hb iv u y hu hy
  rw [atIv_virtualWork P hl e C hC] at this
  exact sub_eq_zero.1 this

/-- What `compute_compliance` returns is the work of the load. -/
theorem computeCompliance_eq (P : Problem1 IV nq nfq nn dim dim) (hl : P.DeadLoad) (iv : Nat → Fin nq → IV)
    (u : Fin (totalDofs P.fes) → ℝ) :
    TopOpt.computeCompliance (P.atIv iv) (P.solArray u) = .ok (P.loadWork (P.vecField u)) := by
  obtain ⟨s, hs, hm⟩ := hl.surface
  obtain ⟨sol, e1, e2, e3⟩ := unravel_single P u
  have hsol : P.solArray u = sol := by rw [Problem1.solArray, e1]; rfl
  have hs' : (P.atIv iv).surfaces = [s] := hs
  rw [TopOpt.computeCompliance, hs', hsol, Problem1.loadWork, Problem1.surfaceWork, hs, ← e3]
  simp only [List.map_cons, List.map_nil, List.sum_cons, List.sum_nil, add_zero]
  congr 1
  have neg : ∀ (l : List (FaceSpec IV nfq)) (f g : FaceSpec IV nfq → ℝ), (∀ x, f x = -g x) →
      (l.map f).sum = -(l.map g).sum := by
    intro l f g hfg
    induction l with
    | nil => simp
    | cons a l ih => simp only [List.map_cons, List.sum_cons, ih, hfg]; ring
  refine neg _ _ _ fun f => ?_
  rw [atIv_conn, ← Finset.sum_neg_distrib]
  refine Finset.sum_congr rfl fun q _ => ?_
  have hi : convertFromDofToFaceQuad (P.atIv iv).fc dim sol P.conn (f.cell, f.face) q
      = interp (P.fc.shapeVals f.face q) (restrict nn (fieldOf dim sol) (P.conn.getD f.cell [])) := by
    funext c
    simp only [convertFromDofToFaceQuad, interp, restrict, Matrix.of_apply, fieldOf]
    exact Finset.sum_congr rfl fun a _ => mul_comm _ _
  rw [← neg_mul, ← Finset.sum_neg_distrib, Finset.sum_mul]
  refine Finset.sum_congr rfl fun c _ => ?_
  rw [hi, hm _ _ (interp (P.fc.shapeVals f.face q) (restrict nn 0 (P.conn.getD f.cell []))), neg_mul]
  rfl

end JaxFem
