import Verif.Thm.C88_Material
import Verif.Thm.C87_Solution
import Mathlib.Analysis.Calculus.FDeriv.Symmetric
import Mathlib.Topology.Algebra.Module.FiniteDimension

/-!
# C88: neo-Hookean solids — boundary value problems
-/

namespace JaxFem.Hyper

open Fracture (conL con_single con_add con_smul con_sub quad quad_add quad_congr grd grd_lin)
open Topology

variable {IV : Type} {nq nfq nn n : Nat}

/-! ### Helper lemmas -/

theorem linear_contract (L : (Fin n → Fin n → ℝ) →L[ℝ] ℝ) (H : Fin n → Fin n → ℝ) :
    L H = contract (fun i j => L (Pi.single i (Pi.single j 1))) H := by
  have e : H = ∑ i, ∑ j, H i j • (Pi.single i (Pi.single j (1 : ℝ)) : Fin n → Fin n → ℝ) := by
    funext a b
    simp only [Finset.sum_apply, Pi.smul_apply, smul_eq_mul]
    rw [Finset.sum_eq_single a, Finset.sum_eq_single b]
    · simp
    · intro j _ hj
      simp [hj.symm]
    · simp
    · intro i _ hi
      refine Finset.sum_eq_zero fun j _ => ?_
      simp [hi.symm]
    · simp
  conv_lhs => rw [e]
  simp only [map_sum, map_smul, smul_eq_mul, contract]
  exact Finset.sum_congr rfl fun i _ => Finset.sum_congr rfl fun j _ => mul_comm _ _

/-- The gradient at a quadrature point as a linear function of the vector of unknowns. -/
noncomputable def gradL (P : Problem1 IV nq nfq nn n n) (c : CellSpec IV nq) (q : Fin nq) :
    (Fin (totalDofs P.fes) → ℝ) →L[ℝ] (Fin n → Fin n → ℝ) :=
  LinearMap.toContinuousLinearMap
    { toFun := fun y => grd P (P.vecField y) c q
      map_add' := fun x y => by
        have h1 := vecField_lin P 1 x y
        have h2 := grd_lin P 1 (P.vecField x) (P.vecField y) c q
        rw [← h1, one_smul, one_smul, sub_eq_iff_eq_add] at h2
        exact h2
      map_smul' := fun a x => by
        have h0 : grd P (P.vecField 0) c q = 0 := by
          have h1 := vecField_lin P 1 (0 : Fin (totalDofs P.fes) → ℝ) 0
          have h2 := grd_lin P 1 (P.vecField 0) (P.vecField 0) c q
          rw [← h1, one_smul, one_smul, add_zero, sub_self] at h2
          exact h2.symm
        have h1 := vecField_lin P a x 0
        have h2 := grd_lin P a (P.vecField x) (P.vecField 0) c q
        rw [← h1, add_zero, h0, sub_zero] at h2
        exact h2 }

theorem gradL_apply (P : Problem1 IV nq nfq nn n n) (c : CellSpec IV nq) (q : Fin nq) (y : Fin (totalDofs P.fes) → ℝ) :
    gradL P c q y = grd P (P.vecField y) c q := rfl

/-- Deformation gradient as a function. -/
noncomputable def defg (P : Problem1 IV nq nfq nn n n) (u : Nat → Fin n → ℝ) (c : CellSpec IV nq) (q : Fin nq) :
    Fin n → Fin n → ℝ := fun i j => P.defGrad u c.nodes q i j

theorem defg_eq (P : Problem1 IV nq nfq nn n n) (y : Fin (totalDofs P.fes) → ℝ) (c : CellSpec IV nq) (q : Fin nq) :
    defg P (P.vecField y) c q = (fun i j => (1 : Matrix (Fin n) (Fin n) ℝ) i j) + gradL P c q y := rfl

theorem firstPK_defg (P : Problem1 IV nq nfq nn n n) (W : (Fin n → Fin n → ℝ) → ℝ) (u : Nat → Fin n → ℝ)
    (c : CellSpec IV nq) (q : Fin nq) : firstPK W (grd P u c q) = grad W (defg P u c q) := by
  have : (fun i j => grd P u c q i j + if i = j then (1 : ℝ) else 0) = defg P u c q := by
    funext i j
    rw [defg, Problem1.defGrad, Matrix.add_apply, Matrix.one_apply, add_comm]
    rfl
  rw [firstPK, this]

theorem hasFDerivAt_list {E α : Type*} [NormedAddCommGroup E] [NormedSpace ℝ E] (l : List α) (f : α → E → ℝ)
    (f' : α → E →L[ℝ] ℝ) (x : E) (h : ∀ a ∈ l, HasFDerivAt (f a) (f' a) x) :
    HasFDerivAt (fun y => (l.map fun a => f a y).sum) ((l.map f').sum) x := by
  induction l with
  | nil => simpa using hasFDerivAt_const (0 : ℝ) x
  | cons a t ih =>
    simp only [List.map_cons, List.sum_cons]
    exact (h a (by simp)).add (ih fun b hb => h b (by simp [hb]))

theorem contDiffAt_sumlist {E α : Type*} [NormedAddCommGroup E] [NormedSpace ℝ E] {m : WithTop ℕ∞} (l : List α) (f : α → E → ℝ)
    (x : E) (h : ∀ a ∈ l, ContDiffAt ℝ m (f a) x) : ContDiffAt ℝ m (fun y => (l.map fun a => f a y).sum) x := by
  induction l with
  | nil => simpa using contDiffAt_const
  | cons a t ih =>
    simp only [List.map_cons, List.sum_cons]
    exact (h a (by simp)).add (ih fun b hb => h b (by simp [hb]))

/-- Work of dead loads as a linear function of the unknowns. -/
theorem loads_linear (P : Problem1 IV nq nfq nn n n) (h : P.WF) :
    ∃ l : Fin (totalDofs P.fes) → ℝ, ∀ y, P.surfaceWork 0 (P.vecField y) = ∑ k, y k * l k := by
  let P0 : Problem1 IV nq nfq nn n n := { P with tensorMap := fun _ _ => 0, massMap := none }
  have h0 : P0.WF := ⟨h.nonempty, h.points, h.cell_length, h.cell_lt, h.face_lt⟩
  refine ⟨P0.flat 0, fun y => ?_⟩
  have := flat_virtualWork P0 h0 0 y
  have e : P0.virtualWork (P0.vecField 0) (P0.vecField y) = P.surfaceWork 0 (P.vecField y) := by
    have z : P0.vecField 0 = 0 := by
      funext a c
      simp [Problem1.vecField]
    have t : P0.tensorWork (P0.vecField 0) (P0.vecField y) = 0 := by
      rw [Problem1.tensorWork]
      refine List.sum_eq_zero fun r hr => ?_
      obtain ⟨c, -, rfl⟩ := List.mem_map.1 hr
      simp [cellIntegral, contract, P0]
    rw [Problem1.virtualWork, t, z]
    show 0 + 0 + P.surfaceWork 0 (P.vecField y) = _
    ring
  rw [← e, ← this]
  rfl

/-- The assembled residual as a function of the vector of unknowns. -/
noncomputable def res (P : Problem1 IV nq nfq nn n n) (W : IV → (Fin n → Fin n → ℝ) → ℝ) :
    (Fin (totalDofs P.fes) → ℝ) → Fin (totalDofs P.fes) → ℝ := (withEnergy P W).flat

theorem work_withEnergy (P : Problem1 IV nq nfq nn n n) (W : IV → (Fin n → Fin n → ℝ) → ℝ) (hl : P.DeadLoads)
    (u v : Nat → Fin n → ℝ) :
    (withEnergy P W).virtualWork u v
      = quad P (fun c q => contract (grad (W (c.iv q)) (defg P u c q)) (grd P v c q)) + P.surfaceWork 0 v := by
  have hs : P.surfaceWork u v = P.surfaceWork 0 v := by
    rw [Problem1.surfaceWork, Problem1.surfaceWork]
    congr 1
    refine List.map_congr_left fun s hs => ?_
    congr 1
    refine List.map_congr_left fun f _ => ?_
    refine Finset.sum_congr rfl fun q _ => ?_
    congr 1
    refine Finset.sum_congr rfl fun c _ => ?_
    rw [hl s hs (f.iv q) _ (interp (P.fc.shapeVals f.face q) (restrict nn 0 (P.conn.getD f.cell [])))]
  have hq : (withEnergy P W).tensorWork u v
      = quad P (fun c q => contract (grad (W (c.iv q)) (defg P u c q)) (grd P v c q)) := by
    have : (withEnergy P W).tensorWork u v
      = quad P (fun c q => contract (firstPK (W (c.iv q)) (grd P u c q)) (grd P v c q)) := rfl
    rw [this]
    exact quad_congr P fun c _ q => by rw [firstPK_defg]
  rw [Problem1.virtualWork, hq, ← hs]
  show _ + 0 + P.surfaceWork u v = _
  ring

theorem potential_deriv (P : Problem1 IV nq nfq nn n n) (h : P.WF) (W : IV → (Fin n → Fin n → ℝ) → ℝ) (hl : P.DeadLoads)
    (x : Fin (totalDofs P.fes) → ℝ)
    (hW : ∀ c ∈ P.cells, ∀ q, DifferentiableAt ℝ (W (c.iv q)) (defg P (P.vecField x) c q)) :
    HasFDerivAt (fun y => P.potential W (P.vecField y))
      (∑ k, res P W x k • ContinuousLinearMap.proj (R := ℝ) (φ := fun _ : Fin (totalDofs P.fes) => ℝ) k) x := by
  have hw : (withEnergy P W).WF := ⟨h.nonempty, h.points, h.cell_length, h.cell_lt, h.face_lt⟩
  obtain ⟨l, hload⟩ := loads_linear P h
  -- stored energy
  have h1 : HasFDerivAt (fun y => P.integral (fun iv _ G => W iv fun i j => (1 : Matrix (Fin n) (Fin n) ℝ) i j + G i j) (P.vecField y))
      ((P.cells.map fun c => ∑ q, ((mapJacobian (coords nn P.points c.nodes) (Matrix.of (P.el.shapeGradsRef q))).det
          * P.el.quadWeights q) • ((fderiv ℝ (W (c.iv q)) (defg P (P.vecField x) c q)).comp (gradL P c q))).sum) x := by
    refine hasFDerivAt_list P.cells (fun c y => cellIntegral P.el P.points c.nodes fun q =>
      W (c.iv q) fun i j => (1 : Matrix (Fin n) (Fin n) ℝ) i j + P.gradient (P.vecField y) c.nodes q i j) _ x fun c hc => ?_
    simp only [cellIntegral]
    refine HasFDerivAt.fun_sum fun q _ => ?_
    have ha : HasFDerivAt (fun y => (fun i j => (1 : Matrix (Fin n) (Fin n) ℝ) i j) + gradL P c q y) (gradL P c q) x :=
      (gradL P c q).hasFDerivAt.const_add _
    exact ((hW c hc q).hasFDerivAt.comp x ha).mul_const _
  have h2 : HasFDerivAt (fun y => P.surfaceWork 0 (P.vecField y))
      (∑ k, l k • ContinuousLinearMap.proj (R := ℝ) (φ := fun _ : Fin (totalDofs P.fes) => ℝ) k) x := by
    have e : (fun y => P.surfaceWork 0 (P.vecField y))
        = ⇑(∑ k, l k • ContinuousLinearMap.proj (R := ℝ) (φ := fun _ : Fin (totalDofs P.fes) => ℝ) k) := by
      funext y
      rw [hload]
      simp [mul_comm]
    rw [e]
    exact ContinuousLinearMap.hasFDerivAt _
  refine (h1.add h2).congr_fderiv ?_
  ext1 v
  have h3 : ∑ k, v k * res P W x k = (withEnergy P W).virtualWork ((withEnergy P W).vecField x) ((withEnergy P W).vecField v) :=
    flat_virtualWork (withEnergy P W) hw x v
  have e1 : (withEnergy P W).vecField x = P.vecField x := rfl
  have e2 : (withEnergy P W).vecField v = P.vecField v := rfl
  rw [e1, e2, work_withEnergy P W hl, hload] at h3
  have e3 : (∑ k, res P W x k • ContinuousLinearMap.proj (R := ℝ) (φ := fun _ : Fin (totalDofs P.fes) => ℝ) k) v
      = ∑ k, v k * res P W x k := by
    simp [mul_comm]
  rw [e3]
  refine Eq.trans ?_ h3.symm
  rw [add_apply]
  congr 1
  · have hl2 : ∀ (L : List ((Fin (totalDofs P.fes) → ℝ) →L[ℝ] ℝ)), L.sum v = (L.map fun f => f v).sum := by
      intro L
      induction L with
      | nil => simp
      | cons a t ih => simp [ih]
    rw [hl2, List.map_map, quad]
    congr 1
    refine List.map_congr_left fun c _ => ?_
    simp only [Function.comp_apply, cellIntegral]
    rw [ContinuousLinearMap.sum_apply]
    refine Finset.sum_congr rfl fun q _ => ?_
    rw [smul_apply, ContinuousLinearMap.comp_apply, linear_contract, smul_eq_mul, mul_comm]
    rfl
  · simp [mul_comm]

theorem potential_smooth (P : Problem1 IV nq nfq nn n n) (h : P.WF) (W : IV → (Fin n → Fin n → ℝ) → ℝ)
    (x : Fin (totalDofs P.fes) → ℝ)
    (hW : ∀ c ∈ P.cells, ∀ q, ContDiffAt ℝ 2 (W (c.iv q)) (defg P (P.vecField x) c q)) :
    ContDiffAt ℝ 2 (fun y => P.potential W (P.vecField y)) x := by
  obtain ⟨l, hload⟩ := loads_linear P h
  refine ContDiffAt.add ?_ ?_
  · refine contDiffAt_sumlist P.cells (fun c y => cellIntegral P.el P.points c.nodes fun q =>
      W (c.iv q) fun i j => (1 : Matrix (Fin n) (Fin n) ℝ) i j + P.gradient (P.vecField y) c.nodes q i j) x fun c hc => ?_
    simp only [cellIntegral]
    refine ContDiffAt.sum fun q _ => ContDiffAt.mul ?_ contDiffAt_const
    have ha : ContDiffAt ℝ 2 (fun y => (fun i j => (1 : Matrix (Fin n) (Fin n) ℝ) i j) + gradL P c q y) x :=
      contDiffAt_const.add (gradL P c q).contDiff.contDiffAt
    exact ContDiffAt.comp x (hW c hc q) ha
  · simp only [hload]
    exact ContDiffAt.sum fun k _ => (contDiffAt_pi.1 contDiffAt_id k).mul contDiffAt_const

theorem detsmooth {m : WithTop ℕ∞} : ContDiff ℝ m fun F : Fin n → Fin n → ℝ => (Matrix.of F).det := by
  simp only [Matrix.det_apply]
  refine ContDiff.sum fun σ _ => ContDiff.const_smul _ (contDiff_prod fun i _ => ?_)
  simp only [Matrix.of_apply]
  exact contDiff_apply_apply ℝ ℝ _ _

theorem psi_smooth {m : WithTop ℕ∞} (d mu kappa : ℝ) (F : Fin n → Fin n → ℝ)
    (h : 0 < (Matrix.of F).det ∨ (d = 2 ∧ (Matrix.of F).det ≠ 0)) : ContDiffAt ℝ m (psi d mu kappa) F := by
  have h0 : (Matrix.of F).det ≠ 0 := h.elim ne_of_gt And.right
  have e : psi (n := n) d mu kappa = fun F => mu / 2 * ((Matrix.of F).det ^ (-2 / d) * (∑ i, ∑ j, F i j ^ 2) - d)
      + kappa / 2 * ((Matrix.of F).det - 1) ^ 2 := funext fun F => psi_eq d mu kappa F
  rw [e]
  have hdet : ContDiffAt ℝ m (fun F : Fin n → Fin n → ℝ => (Matrix.of F).det) F := detsmooth.contDiffAt
  have hp : ContDiffAt ℝ m (fun F : Fin n → Fin n → ℝ => (Matrix.of F).det ^ (-2 / d)) F :=
    ContDiffAt.comp F (Real.contDiffAt_rpow_const_of_ne h0) hdet
  have hs : ContDiffAt ℝ m (fun F : Fin n → Fin n → ℝ => ∑ i, ∑ j, F i j ^ 2) F :=
    ContDiffAt.sum fun i _ => ContDiffAt.sum fun j _ => ((contDiff_apply_apply ℝ ℝ i j).contDiffAt).pow 2
  exact (contDiffAt_const.mul ((hp.mul hs).sub contDiffAt_const)).add
    (contDiffAt_const.mul ((hdet.sub contDiffAt_const).pow 2))

theorem plane_smooth {m : WithTop ℕ∞} (mu kappa : ℝ) (F : Fin 2 → Fin 2 → ℝ) (h : 0 < (Matrix.of F).det) :
    ContDiffAt ℝ m (psiPlane mu kappa) F := by
  refine ContDiffAt.comp F (psi_smooth 3 mu kappa (embed F) (.inl (by rwa [det_embed]))) ?_
  have : (embed : (Fin 2 → Fin 2 → ℝ) → Fin 3 → Fin 3 → ℝ) = fun F => embedL F + ![![0, 0, 0], ![0, 0, 0], ![0, 0, 1]] :=
    funext embed_eq
  rw [this]
  exact (embedL.contDiff.contDiffAt).add contDiffAt_const

/-! ### Property theorems -/

/-- **C88 (smoothness).** The energies are as smooth as one likes at admissible deformation gradients. -/
theorem C88_smooth (mu kappa : ℝ) (m : WithTop ℕ∞) :
    (∀ (n : Nat) (d : ℝ) (F : Fin n → Fin n → ℝ), 0 < (Matrix.of F).det ∨ (d = 2 ∧ (Matrix.of F).det ≠ 0) →
      ContDiffAt ℝ m (psi d mu kappa) F) ∧
    (∀ F : Fin 2 → Fin 2 → ℝ, 0 < (Matrix.of F).det → ContDiffAt ℝ m (psiPlane mu kappa) F) ∧
    (∀ (n : Nat) (E nu rho : ℝ) (F : Fin n → Fin n → ℝ), 1 / 10 ^ 14 < (Matrix.of F).det →
      ContDiffAt ℝ m (psiInverse E nu rho) F) := by
  refine ⟨fun n d F h => psi_smooth d mu kappa F h, fun F h => plane_smooth mu kappa F h, fun n E nu rho F h => ?_⟩
  refine (psi_smooth 3 (muOf (E * rho) nu) (kappaOf (E * rho) nu) F (.inl (lt_trans (by norm_num) h))).congr_of_eventuallyEq ?_
  have hc : ContinuousAt (fun F : Fin n → Fin n → ℝ => (Matrix.of F).det) F := (detsmooth (m := 0)).continuous.continuousAt
  filter_upwards [hc.eventually (lt_mem_nhds h)] with G hG
  rw [psiInverse, psi, max_eq_left hG.le]

/-- **C88 (potential).** For a twice continuously differentiable energy and dead loads, the assembled residual is the
gradient of the total energy, its Jacobian exists and every matrix that is its Jacobian is symmetric. -/
theorem C88_potential (P : Problem1 IV nq nfq nn n n) (h : P.WF) (W : IV → (Fin n → Fin n → ℝ) → ℝ) (hl : P.DeadLoads)
    (x : Fin (totalDofs P.fes) → ℝ)
    (hW : ∀ c ∈ P.cells, ∀ q, ContDiffAt ℝ 2 (W (c.iv q)) (fun i j => P.defGrad (P.vecField x) c.nodes q i j)) :
    HasFDerivAt (fun y => P.potential W (P.vecField y))
      (∑ k, res P W x k • ContinuousLinearMap.proj (R := ℝ) (φ := fun _ : Fin (totalDofs P.fes) => ℝ) k) x ∧
    (∃ K, HasJacobianAt (res P W) K x) ∧
    (∀ K, HasJacobianAt (res P W) K x → K.transpose = K) := by
  set Pot : (Fin (totalDofs P.fes) → ℝ) → ℝ := fun y => P.potential W (P.vecField y) with hPot
  have hW' : ∀ c ∈ P.cells, ∀ q, ContDiffAt ℝ 2 (W (c.iv q)) (defg P (P.vecField x) c q) := hW
  have hs : ContDiffAt ℝ 2 Pot x := potential_smooth P h W x hW'
  -- near `x` the gradient of the energy is the residual
  have hev : ∀ᶠ y in 𝓝 x, ∀ k, fderiv ℝ Pot y (Pi.single k 1) = res P W y k := by
    have h1 : ∀ᶠ y in 𝓝 x, ∀ c ∈ P.cells, ∀ q, DifferentiableAt ℝ (W (c.iv q)) (defg P (P.vecField y) c q) := by
      have : ∀ l : List (CellSpec IV nq), (∀ c ∈ l, c ∈ P.cells) →
          ∀ᶠ y in 𝓝 x, ∀ c ∈ l, ∀ q, DifferentiableAt ℝ (W (c.iv q)) (defg P (P.vecField y) c q) := by
        intro l
        induction l with
        | nil => intro _; simp
        | cons a t ih =>
          intro hl
          have ha : ∀ᶠ y in 𝓝 x, ∀ q, DifferentiableAt ℝ (W (a.iv q)) (defg P (P.vecField y) a q) := by
            refine Filter.eventually_all.2 fun q => ?_
            have e1 := (hW' a (hl a (by simp)) q).eventually (by simp)
            have e2 : ContinuousAt (fun y => defg P (P.vecField y) a q) x := by
              simp only [defg_eq]
              exact (continuous_const.add (gradL P a q).continuous).continuousAt
            filter_upwards [e2.eventually e1] with y hy
            exact hy.differentiableAt (by norm_num)
          filter_upwards [ha, ih fun c hc => hl c (by simp [hc])] with y h1 h2 c hc
          rcases List.mem_cons.1 hc with rfl | hc
          · exact h1
          · exact h2 c hc
      exact this P.cells fun _ h => h
    filter_upwards [h1] with y hy k
    rw [(potential_deriv P h W hl y hy).fderiv, ContinuousLinearMap.sum_apply, Finset.sum_eq_single k]
    · simp
    · intro b _ hb
      simp [hb]
    · simp
  have hdd : DifferentiableAt ℝ (fderiv ℝ Pot) x :=
    (hs.fderiv_right (m := 1) (by norm_num)).differentiableAt (by norm_num)
  have hsym := hs.isSymmSndFDerivAt (by simp)
  have hflat : ∀ k, HasFDerivAt (fun y => res P W y k)
      ((ContinuousLinearMap.apply ℝ ℝ (Pi.single k 1)).comp (fderiv ℝ (fderiv ℝ Pot) x)) x := by
    intro k
    have h1 : HasFDerivAt (fun y => fderiv ℝ Pot y (Pi.single k 1))
        ((ContinuousLinearMap.apply ℝ ℝ (Pi.single k 1)).comp (fderiv ℝ (fderiv ℝ Pot) x)) x :=
      (ContinuousLinearMap.apply ℝ ℝ (Pi.single k (1 : ℝ) : Fin (totalDofs P.fes) → ℝ)).hasFDerivAt.comp x hdd.hasFDerivAt
    exact h1.congr_of_eventuallyEq (by filter_upwards [hev] with y hy using (hy k).symm)
  refine ⟨potential_deriv P h W hl x fun c hc q => (hW' c hc q).differentiableAt (by norm_num),
    ⟨Matrix.of fun k l => fderiv ℝ (fderiv ℝ Pot) x (Pi.single l 1) (Pi.single k 1), ?_⟩, ?_⟩
  · refine hasFDerivAt_pi'.2 fun k => (hflat k).congr_fderiv ?_
    refine ContinuousLinearMap.ext fun v => ?_
    have e : v = ∑ l, v l • (Pi.single l (1 : ℝ) : Fin (totalDofs P.fes) → ℝ) := by
      funext b
      rw [Finset.sum_apply, Finset.sum_eq_single b]
      · simp
      · intro a _ ha
        simp [ha.symm]
      · simp
    have e1 : ((ContinuousLinearMap.apply ℝ ℝ (Pi.single k 1)).comp (fderiv ℝ (fderiv ℝ Pot) x)) v
        = ∑ l, v l * fderiv ℝ (fderiv ℝ Pot) x (Pi.single l 1) (Pi.single k 1) := by
      conv_lhs => rw [e]
      simp
    rw [e1]
    show _ = Matrix.mulVec _ v k
    rw [Matrix.mulVec, dotProduct]
    exact Finset.sum_congr rfl fun l _ => mul_comm _ _
  · intro K hK
    ext k l
    have hk : ∀ k, HasFDerivAt (fun y => res P W y k)
      ((ContinuousLinearMap.proj (R := ℝ) (φ := fun _ : Fin (totalDofs P.fes) => ℝ) k).comp (matCLM K)) x := fun k =>
        (ContinuousLinearMap.proj (R := ℝ) (φ := fun _ : Fin (totalDofs P.fes) => ℝ) k).hasFDerivAt.comp x hK
    have hent : ∀ k l, K k l = fderiv ℝ (fderiv ℝ Pot) x (Pi.single l 1) (Pi.single k 1) := by
      intro k l
      have := congrArg (fun L => L (Pi.single l 1)) ((hk k).unique (hflat k))
      simpa [matCLM] using this
    rw [Matrix.transpose_apply, hent, hent]
    exact hsym _ _

/-! Balance of moments and rotated configurations. -/

theorem gradient_position (P : Problem1 IV nq nfq nn n n) (u : Nat → Fin n → ℝ) (c : List Nat) (q : Fin nq)
    (h : (mapJacobian (coords nn P.points c) (Matrix.of (P.el.shapeGradsRef q))).det ≠ 0) :
    P.gradient (fun a i => P.points.getD a 0 i + u a i) c q = P.defGrad u c q := by
  have e : restrict nn (fun a i => P.points.getD a 0 i + u a i) c = coords nn P.points c + restrict nn u c := rfl
  rw [Problem1.gradient, Problem1.defGrad, Problem1.gradient, physGrad, physGrad, e, Matrix.transpose_add, Matrix.add_mul,
    Matrix.add_mul]
  congr 1
  exact Matrix.mul_nonsing_inv _ h.isUnit

/-- Gradient of a nodal field that is transformed by a matrix at every node. -/
theorem gradient_mul (P : Problem1 IV nq nfq nn n n) (A : Matrix (Fin n) (Fin n) ℝ) (u : Nat → Fin n → ℝ) (c : List Nat) (q : Fin nq) :
    P.gradient (fun a i => ∑ k, A i k * u a k) c q = A * P.gradient u c q := by
  have e : restrict nn (fun a i => ∑ k, A i k * u a k) c = restrict nn u c * A.transpose := by
    ext a i
    rw [Matrix.mul_apply]
    show ∑ k, A i k * u (c.getD a 0) k = ∑ k, u (c.getD a 0) k * A i k
    exact Finset.sum_congr rfl fun k _ => mul_comm (A i k) (u (c.getD a 0) k)
  rw [Problem1.gradient, Problem1.gradient, physGrad, physGrad, e, Matrix.transpose_mul, Matrix.transpose_transpose,
    Matrix.mul_assoc, Matrix.mul_assoc, Matrix.mul_assoc]

/-- Constant fields have no gradient. -/
theorem gradient_const (P : Problem1 IV nq nfq nn n n) (hu : P.el.Unity) (b : Fin n → ℝ) (c : List Nat) (q : Fin nq) :
    P.gradient (fun _ => b) c q = 0 := by
  have e : (restrict nn (fun _ => b) c).transpose * Matrix.of (P.el.shapeGradsRef q) = 0 := by
    ext i j
    rw [Matrix.mul_apply]
    have := (hu q).2 j
    simp only [restrict, Matrix.transpose_apply, Matrix.of_apply, ← Finset.mul_sum, this, mul_zero, Matrix.zero_apply]
  rw [Problem1.gradient, physGrad, e, Matrix.zero_mul]

theorem gradient_add (P : Problem1 IV nq nfq nn n n) (u v : Nat → Fin n → ℝ) (c : List Nat) (q : Fin nq) :
    P.gradient (fun a i => u a i + v a i) c q = P.gradient u c q + P.gradient v c q := by
  have e : restrict nn (fun a i => u a i + v a i) c = restrict nn u c + restrict nn v c := rfl
  rw [Problem1.gradient, Problem1.gradient, Problem1.gradient, physGrad, physGrad, physGrad, e, Matrix.transpose_add,
    Matrix.add_mul, Matrix.add_mul]

/-- Deformation gradient of a moved configuration. -/
theorem defGrad_moved (P : Problem1 IV nq nfq nn n n) (hu : P.el.Unity) (Q : Matrix (Fin n) (Fin n) ℝ) (b : Fin n → ℝ)
    (u u' : Nat → Fin n → ℝ) (c : List Nat) (hn : c.length = nn) (q : Fin nq)
    (h : (mapJacobian (coords nn P.points c) (Matrix.of (P.el.shapeGradsRef q))).det ≠ 0)
    (hmv : ∀ a ∈ c, ∀ i, P.points.getD a 0 i + u' a i = ∑ k, Q i k * (P.points.getD a 0 k + u a k) + b i) :
    P.defGrad u' c q = Q * P.defGrad u c q := by
  rw [← gradient_position P u' c q h, ← gradient_position P u c q h, ← gradient_mul]
  have h1 : P.gradient (fun a i => P.points.getD a 0 i + u' a i) c q
      = P.gradient (fun a i => (∑ k, Q i k * (P.points.getD a 0 k + u a k)) + b i) c q := by
    have : restrict nn (fun a i => P.points.getD a 0 i + u' a i) c
        = restrict nn (fun a i => (∑ k, Q i k * (P.points.getD a 0 k + u a k)) + b i) c := by
      ext a i
      have ha : c.getD a 0 ∈ c := by
        have ha : (a : Nat) < c.length := by rw [hn]; exact a.2
        rw [List.getD_eq_getElem _ _ ha]
        exact List.getElem_mem ha
      exact hmv _ ha i
    rw [Problem1.gradient, Problem1.gradient, this]
  rw [h1]
  have h2 := gradient_add P (fun a i => ∑ k, Q i k * (P.points.getD a 0 k + u a k)) (fun _ => b) c q
  rw [gradient_const P hu, add_zero] at h2
  exact h2

theorem moment_generic (P : Problem1 IV nq nfq nn n n) (h : P.WF) (W : IV → (Fin n → Fin n → ℝ) → ℝ) (hs : P.surfaces = [])
    (hreg : P.el.Regular P.points P.conn) (sol : List (List ℝ)) (hsol : HasShapes [(P.numTotalNodes, n)] [sol])
    (hK : ∀ c ∈ P.cells, ∀ q, let F := P.defGrad (fieldOf n sol) c.nodes q
      let S := Matrix.of (firstPK (W (c.iv q)) (P.gradient (fieldOf n sol) c.nodes q))
      (S * F.transpose).transpose = S * F.transpose) :
    ∃ R, (withEnergy P W).residual [sol] = .ok R ∧ ∀ i j : Fin n,
      ∑ a ∈ Finset.range P.numTotalNodes, ((P.points.getD a 0 i + fieldOf n sol a i) * at3 R 0 a j
        - (P.points.getD a 0 j + fieldOf n sol a j) * at3 R 0 a i) = 0 := by
  have hw : (withEnergy P W).WF := ⟨h.nonempty, h.points, h.cell_length, h.cell_lt, h.face_lt⟩
  obtain ⟨R, r1, -, r2⟩ := C72_weak_form (withEnergy P W) hw sol hsol
  refine ⟨R, r1, fun i j => ?_⟩
  have hl : P.DeadLoads := by
    intro s hs'
    rw [hs] at hs'
    cases hs'
  have key : ∀ i j : Fin n, ∑ a ∈ Finset.range P.numTotalNodes, (P.points.getD a 0 i + fieldOf n sol a i) * at3 R 0 a j
      = quad P fun c q => (Matrix.of (firstPK (W (c.iv q)) (P.gradient (fieldOf n sol) c.nodes q))
          * (P.defGrad (fieldOf n sol) c.nodes q).transpose) j i := by
    intro i j
    have h1 := r2 fun a k => if k = j then P.points.getD a 0 i + fieldOf n sol a i else 0
    have e1 : ∑ a ∈ Finset.range (withEnergy P W).numTotalNodes, ∑ c : Fin n,
        (if c = j then P.points.getD a 0 i + fieldOf n sol a i else 0) * at3 R 0 a c
        = ∑ a ∈ Finset.range P.numTotalNodes, (P.points.getD a 0 i + fieldOf n sol a i) * at3 R 0 a j := by
      refine Finset.sum_congr rfl fun a _ => ?_
      rw [Finset.sum_eq_single j]
      · simp
      · intro c _ hc
        simp [hc]
      · simp
    refine (e1.symm.trans h1).trans ?_
    rw [work_withEnergy P W hl, Problem1.surfaceWork, hs]
    simp only [List.map_nil, List.sum_nil, add_zero]
    refine quad_congr P fun c hc q => ?_
    have hdet := hreg c.nodes (List.mem_map_of_mem hc) q
    have e2 : grd P (fun a k => if k = j then P.points.getD a 0 i + fieldOf n sol a i else 0) c q
        = fun k l => if k = j then P.defGrad (fieldOf n sol) c.nodes q i l else 0 := by
      have := gradient_mul P (Matrix.of fun k l => if k = j ∧ l = i then 1 else 0)
        (fun a i => P.points.getD a 0 i + fieldOf n sol a i) c.nodes q
      rw [gradient_position P _ _ _ hdet] at this
      have e3 : (fun (a : Nat) (k : Fin n) => ∑ l, (Matrix.of fun k l => if k = j ∧ l = i then (1 : ℝ) else 0) k l
          * (P.points.getD a 0 l + fieldOf n sol a l))
          = fun a k => if k = j then P.points.getD a 0 i + fieldOf n sol a i else 0 := by
        funext a k
        by_cases hk : k = j
        · simp [hk]
        · simp [hk]
      rw [e3] at this
      funext k l
      have := congrFun (congrFun this k) l
      refine this.trans ?_
      rw [Matrix.mul_apply]
      by_cases hk : k = j
      · simp [hk]
      · simp [hk]
    rw [e2, ← firstPK_defg, contract, Finset.sum_eq_single j, Matrix.mul_apply]
    · refine Finset.sum_congr rfl fun l _ => ?_
      rw [if_pos rfl, Matrix.transpose_apply]
      rfl
    · intro k _ hk
      simp [hk]
    · simp
  rw [Finset.sum_sub_distrib, key i j, key j i, sub_eq_zero]
  refine quad_congr P fun c hc q => ?_
  have := congrFun (congrFun (hK c hc q) i) j
  rwa [Matrix.transpose_apply] at this

theorem rotated_generic (P : Problem1 IV nq nfq nn n n) (h : P.WF) (W : IV → (Fin n → Fin n → ℝ) → ℝ) (hs : P.surfaces = [])
    (Q : Matrix (Fin n) (Fin n) ℝ) (sol sol' : List (List ℝ)) (hsol : HasShapes [(P.numTotalNodes, n)] [sol])
    (hsol' : HasShapes [(P.numTotalNodes, n)] [sol'])
    (hK : ∀ c ∈ P.cells, ∀ q, Matrix.of (firstPK (W (c.iv q)) (P.gradient (fieldOf n sol') c.nodes q))
      = Q * Matrix.of (firstPK (W (c.iv q)) (P.gradient (fieldOf n sol) c.nodes q))) :
    ∃ R R', (withEnergy P W).residual [sol] = .ok R ∧ (withEnergy P W).residual [sol'] = .ok R' ∧
      ∀ a < P.numTotalNodes, ∀ i : Fin n, at3 R' 0 a i = ∑ k : Fin n, Q i k * at3 R 0 a k := by
  have hw : (withEnergy P W).WF := ⟨h.nonempty, h.points, h.cell_length, h.cell_lt, h.face_lt⟩
  obtain ⟨R, r1, -, r2⟩ := C72_weak_form (withEnergy P W) hw sol hsol
  obtain ⟨R', r1', -, r2'⟩ := C72_weak_form (withEnergy P W) hw sol' hsol'
  refine ⟨R, R', r1, r1', fun a ha i => ?_⟩
  have hl : P.DeadLoads := by
    intro s hs'
    rw [hs] at hs'
    cases hs'
  have pick : ∀ (T : Nat → Fin n → ℝ) (w : Fin n → ℝ), ∑ m ∈ Finset.range P.numTotalNodes, ∑ c : Fin n,
      (if m = a then w c else 0) * T m c = ∑ c, w c * T a c := by
    intro T w
    rw [Finset.sum_eq_single a]
    · simp
    · intro m _ hm
      simp [hm]
    · intro hm
      exact absurd (Finset.mem_range.2 ha) hm
  -- test with the unit vector and with its back rotation
  have t1 := (pick (fun m c => at3 R' 0 m c) (Pi.single i 1)).symm.trans (r2' fun m c => if m = a then Pi.single (M := fun _ => ℝ) i 1 c else 0)
  have t2 := (pick (fun m c => at3 R 0 m c) (fun k => Q i k)).symm.trans (r2 fun m c => if m = a then Q i c else 0)
  have e1 : ∑ c : Fin n, Pi.single (M := fun _ => ℝ) i 1 c * at3 R' 0 a c = at3 R' 0 a i := by
    rw [Finset.sum_eq_single i]
    · simp
    · intro c _ hc
      simp [hc]
    · simp
  rw [e1] at t1
  rw [t1, t2, work_withEnergy P W hl, work_withEnergy P W hl, Problem1.surfaceWork, Problem1.surfaceWork, hs]
  simp only [List.map_nil, List.sum_nil, add_zero]
  refine quad_congr P fun c hc q => ?_
  have e2 : P.gradient (fun m k => if m = a then Q i k else 0) c.nodes q
      = Q.transpose * P.gradient (fun m k => if m = a then Pi.single (M := fun _ => ℝ) i 1 k else 0) c.nodes q := by
    rw [← gradient_mul]
    congr 1
    funext m k
    by_cases hm : m = a
    · simp only [if_pos hm, Matrix.transpose_apply]
      rw [Finset.sum_eq_single i]
      · simp
      · intro l _ hl
        simp [hl]
      · simp
    · simp [hm]
  rw [← firstPK_defg, ← firstPK_defg]
  have hc1 : ∀ A B : Matrix (Fin n) (Fin n) ℝ, contract (fun i j => A i j) (fun i j => B i j) = (A * B.transpose).trace := by
    intro A B
    simp only [contract, Matrix.trace, Matrix.diag_apply, Matrix.mul_apply, Matrix.transpose_apply]
  have h1 := hc1 (Matrix.of (firstPK (W (c.iv q)) (P.gradient (fieldOf n sol') c.nodes q)))
    (P.gradient (fun m k => if m = a then Pi.single (M := fun _ => ℝ) i 1 k else 0) c.nodes q)
  have h2 := hc1 (Matrix.of (firstPK (W (c.iv q)) (P.gradient (fieldOf n sol) c.nodes q)))
    (P.gradient (fun m k => if m = a then Q i k else 0) c.nodes q)
  refine h1.trans (Eq.trans ?_ h2.symm)
  rw [hK c hc q, e2, Matrix.transpose_mul, Matrix.transpose_transpose, Matrix.mul_assoc, Matrix.trace_mul_comm, ← Matrix.mul_assoc]

/-- **C88 (balance).** Without loads, at an admissible displacement: the nodal forces of the neo-Hookean solid have no
moment about the origin in the deformed configuration; if the deformed configuration is moved rigidly, the nodal forces
are rotated. The same holds in plane strain. -/
theorem C88_balance (P : Problem1 IV nq nfq nn n n) (h : P.WF) (hs : P.surfaces = [])
    (hreg : P.el.Regular P.points P.conn) (W : IV → (Fin n → Fin n → ℝ) → ℝ) (mu kappa : IV → ℝ)
    (hW : (∃ d, ∀ iv, W iv = psi d (mu iv) (kappa iv)) ∨
      ∃ e : n = 2, ∀ iv, W iv = fun F => psiPlane (mu iv) (kappa iv) fun i j => F (Fin.cast e.symm i) (Fin.cast e.symm j))
    (sol : List (List ℝ)) (hsol : HasShapes [(P.numTotalNodes, n)] [sol]) (hadm : P.Admissible (fieldOf n sol)) :
    ∃ R, (withEnergy P W).residual [sol] = .ok R ∧
      (∀ i j : Fin n, ∑ a ∈ Finset.range P.numTotalNodes, ((P.points.getD a 0 i + fieldOf n sol a i) * at3 R 0 a j
        - (P.points.getD a 0 j + fieldOf n sol a j) * at3 R 0 a i) = 0) ∧
      ∀ (Q : Matrix (Fin n) (Fin n) ℝ) (b : Fin n → ℝ) (sol' : List (List ℝ)), IsRotation Q → P.el.Unity →
        HasShapes [(P.numTotalNodes, n)] [sol'] →
        (∀ a < P.numTotalNodes, ∀ i, P.points.getD a 0 i + fieldOf n sol' a i
          = ∑ k, Q i k * (P.points.getD a 0 k + fieldOf n sol a k) + b i) →
        ∃ R', (withEnergy P W).residual [sol'] = .ok R' ∧
          ∀ a < P.numTotalNodes, ∀ i : Fin n, at3 R' 0 a i = ∑ k : Fin n, Q i k * at3 R 0 a k := by
  -- the two facts about the stress
  have hst : ∀ iv (G : Fin n → Fin n → ℝ), 0 < (1 + Matrix.of G).det →
      ((Matrix.of (firstPK (W iv) G) * (1 + Matrix.of G).transpose).transpose
        = Matrix.of (firstPK (W iv) G) * (1 + Matrix.of G).transpose) ∧
      ∀ (Q : Matrix (Fin n) (Fin n) ℝ) (G' : Fin n → Fin n → ℝ), IsRotation Q → 1 + Matrix.of G' = Q * (1 + Matrix.of G) →
        Matrix.of (firstPK (W iv) G') = Q * Matrix.of (firstPK (W iv) G) := by
    intro iv G hG
    rcases hW with ⟨d, hd⟩ | ⟨rfl, hd⟩
    · rw [hd iv]
      have := C88_stress d (mu iv) (kappa iv) G (.inl hG)
      exact ⟨this.2.2.1, fun Q G' hQ hG' => ((this.2.2.2 Q hQ).1 G' hG').2⟩
    · have hd' : W iv = psiPlane (mu iv) (kappa iv) := hd iv
      rw [hd']
      exact plane_facts (mu iv) (kappa iv) G hG
  have hsym : ∀ c ∈ P.cells, ∀ q, let F := P.defGrad (fieldOf n sol) c.nodes q
      let S := Matrix.of (firstPK (W (c.iv q)) (P.gradient (fieldOf n sol) c.nodes q))
      (S * F.transpose).transpose = S * F.transpose := fun c hc q =>
    (hst (c.iv q) (P.gradient (fieldOf n sol) c.nodes q) (hadm c hc q)).1
  obtain ⟨R, r1, r2⟩ := moment_generic P h W hs hreg sol hsol hsym
  refine ⟨R, r1, r2, ?_⟩
  intro Q b sol' hQ hu hsol' hmv
  obtain ⟨R1, R', q1, q2, q3⟩ := rotated_generic P h W hs Q sol sol' hsol hsol' fun c hc q =>
    (hst (c.iv q) (P.gradient (fieldOf n sol) c.nodes q) (hadm c hc q)).2 Q (P.gradient (fieldOf n sol') c.nodes q) hQ
      (defGrad_moved P hu Q b _ _ c.nodes (h.cell_length c hc) q (hreg c.nodes (List.mem_map_of_mem hc) q)
        fun a ha i => hmv a (h.cell_lt c hc a ha) i)
  rw [r1] at q1
  cases q1
  exact ⟨R', q2, q3⟩

/-! ### Non-vacuity -/

/-- A quarter turn. -/
noncomputable def quarter : Matrix (Fin 2) (Fin 2) ℝ := Matrix.of ![![0, -1], ![1, 0]]

theorem quarter_rotation : IsRotation quarter := by
  refine ⟨?_, ?_⟩
  · ext i j
    fin_cases i <;> fin_cases j <;> simp [quarter, Matrix.mul_apply, Fin.sum_univ_two]
  · simp [quarter, Matrix.det_fin_two]

/-- Energy and stress of a stretch by the factor two. -/
example : psi 2 1 1 (![![2, 0], ![0, 1]] : Fin 2 → Fin 2 → ℝ) = 3 / 4 ∧
    firstPK (psi 2 1 1) (![![1, 0], ![0, 0]] : Fin 2 → Fin 2 → ℝ) 0 0 = 11 / 8 := by
  have hd : (Matrix.of (![![2, 0], ![0, 1]] : Fin 2 → Fin 2 → ℝ)).det = 2 := by simp [Matrix.det_fin_two]
  have hF : 1 + Matrix.of (![![1, 0], ![0, 0]] : Fin 2 → Fin 2 → ℝ) = Matrix.of ![![2, 0], ![0, 1]] := by
    ext i j
    fin_cases i <;> fin_cases j <;> simp <;> norm_num
  have hp : (2 : ℝ) ^ (-2 / 2 : ℝ) = 1 / 2 := by
    rw [show (-2 / 2 : ℝ) = -1 by norm_num, Real.rpow_neg_one]
    norm_num
  constructor
  · rw [psi_eq, hd, hp]
    simp [Fin.sum_univ_two]
    norm_num
  · rw [firstPK_psi 2 1 1 _ (.inl (by rw [hF, hd]; norm_num)), hF]
    have hinv : (Matrix.of (![![2, 0], ![0, 1]] : Fin 2 → Fin 2 → ℝ))⁻¹ = Matrix.of ![![1/2, 0], ![0, 1]] := by
      refine Matrix.inv_eq_right_inv ?_
      ext i j
      fin_cases i <;> fin_cases j <;> simp [Matrix.mul_apply, Fin.sum_univ_two]
    rw [neoHookePiola, hd, hp, hinv]
    simp [Fin.sum_univ_two]
    norm_num

/-- The rectangle of 2 × 2 bilinear cells. -/
noncomputable def exSolid : Problem1 Unit 4 1 4 2 2 where
  numTotalNodes := 9
  points := (rectangleMesh 2 2 4 6).1
  cells := (rectangleMesh 2 2 (4 : ℝ) 6).2.map fun c => ⟨c, fun _ => ()⟩
  el := tabulate quad4N quad4G exPts (fun _ => 1/4)
  fc := ⟨fun _ _ => quad4N ![1/2, 0], fun _ _ => quad4G ![1/2, 0], fun _ _ => 1, fun _ => ![0, -1]⟩
  tensorMap := fun _ G => G
  massMap := none
  surfaces := []

theorem exSolid_rect : OnRectangle exSolid 2 2 4 6 exPts (fun _ => 1/4) where
  el := rfl
  points := rfl
  conn := by simp [Problem1.conn, exSolid, List.map_map, Function.comp_def]
  nodes := rfl
  Nx_pos := by decide
  Ny_pos := by decide
  Lx_pos := by norm_num
  Ly_pos := by norm_num
  faces := by intro s hs; simp [exSolid] at hs

theorem exSolid_regular : exSolid.el.Regular exSolid.points exSolid.conn := by
  intro cell hc q
  rw [exSolid_rect.jac _ hc, Matrix.det_fin_two_of, mul_zero, sub_zero]
  exact mul_ne_zero exSolid_rect.hx.1.ne' exSolid_rect.hx.2.ne'

theorem exSolid_unity : exSolid.el.Unity := by
  intro q
  constructor
  · simp only [SumsToOne, exSolid, tabulate, quad4N, Fin.sum_univ_four]
    simp
    ring
  · intro j
    fin_cases j <;>
    · simp [exSolid, tabulate, quad4G, Fin.sum_univ_four]
      try ring

/-- Stretch by one half in the first direction. -/
noncomputable def exStretch : List (List ℝ) := exSolid.points.map fun x => [x 0 / 2, 0]

theorem exStretch_field (a : Nat) (i : Fin 2) :
    exSolid.points.getD a 0 i + fieldOf 2 exStretch a i
      = ∑ k, Matrix.of ![![3/2, 0], ![0, 1]] i k * (exSolid.points.getD a 0 k + (0 : Nat → Fin 2 → ℝ) a k) + (0 : Fin 2 → ℝ) i := by
  have h : exStretch.getD a [] = if a < exSolid.points.length then [exSolid.points.getD a 0 0 / 2, 0] else [] := by
    by_cases ha : a < exSolid.points.length
    · rw [if_pos ha, List.getD_eq_getElem _ _ (by simpa [exStretch] using ha), List.getD_eq_getElem _ _ ha]
      simp [exStretch]
    · rw [if_neg ha, List.getD_eq_default _ _ (by simpa [exStretch] using ha)]
  by_cases ha : a < exSolid.points.length
  · rw [fieldOf, h, if_pos ha]
    fin_cases i
    · simp [Fin.sum_univ_two]
      ring
    · simp [Fin.sum_univ_two]
  · rw [fieldOf, h, if_neg ha, List.getD_eq_default _ _ (by omega)]
    fin_cases i <;> simp

/-- The stretched rectangle meets the hypotheses of `C88_balance` and `C88_potential`. -/
theorem exStretch_admissible : exSolid.WF ∧ exSolid.surfaces = [] ∧ HasShapes [(exSolid.numTotalNodes, 2)] [exStretch] ∧
    exSolid.Admissible (fieldOf 2 exStretch) := by
  refine ⟨exSolid_rect.wf, rfl, ⟨_, _, rfl, ?_, ?_, rfl⟩, ?_⟩
  · rw [exStretch, List.length_map]
    exact exSolid_rect.wf.points
  · intro r hr
    obtain ⟨x, -, rfl⟩ := List.mem_map.1 hr
    rfl
  · intro c hc q
    rw [defGrad_moved exSolid exSolid_unity (Matrix.of ![![3/2, 0], ![0, 1]]) 0 0 (fieldOf 2 exStretch) c.nodes
      (exSolid_rect.wf.cell_length c hc) q (exSolid_regular c.nodes (List.mem_map_of_mem hc) q) fun a _ i => exStretch_field a i]
    have : exSolid.defGrad 0 c.nodes q = 1 := by
      have := gradient_const exSolid exSolid_unity 0 c.nodes q
      rw [Problem1.defGrad]
      exact (congrArg (1 + ·) this).trans (add_zero _)
    rw [this, Matrix.mul_one, Matrix.det_fin_two]
    norm_num

/-- Balance for the stretched rectangle, in plane strain. -/
example : ∃ R, (withEnergy exSolid fun _ => psiPlane 1 1).residual [exStretch] = .ok R ∧
    ∀ i j : Fin 2, ∑ a ∈ Finset.range 9, ((exSolid.points.getD a 0 i + fieldOf 2 exStretch a i) * at3 R 0 a j
      - (exSolid.points.getD a 0 j + fieldOf 2 exStretch a j) * at3 R 0 a i) = 0 := by
  obtain ⟨h1, h2, h3, h4⟩ := exStretch_admissible
  obtain ⟨R, r1, r2, -⟩ := C88_balance exSolid h1 h2 exSolid_regular (fun _ => psiPlane 1 1) (fun _ => 1) (fun _ => 1)
    (.inr ⟨rfl, fun _ => rfl⟩) exStretch h3 h4
  exact ⟨R, r1, r2⟩

end JaxFem.Hyper
