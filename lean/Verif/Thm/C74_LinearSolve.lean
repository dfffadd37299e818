import Verif.Thm.C73_WellPosed
import Verif.Thm.C05_Tangent
import Verif.Thm.C20_NewtonLoop
import Mathlib.LinearAlgebra.Matrix.ToLin

/-!
# C74: linear monotone problems are solved
-/

namespace JaxFem

variable {IV : Type} {nq nfq nn vec dim : Nat}

/-! ### Helper lemmas -/

/-- The flattened residual of the problem (`flatResidual` of its kernels). -/
noncomputable def Problem1.flat (P : Problem1 IV nq nfq nn vec dim) :
    (Fin (totalDofs P.fes) → ℝ) → Fin (totalDofs P.fes) → ℝ :=
  flatResidual P.fes P.bs (cellKernel P.el P.tensorMap P.massMap)
    (P.cells.map fun c => cellData P.el P.points c.nodes c.iv)
    (P.surfaces.map fun s => surfaceKernel s.map)
    (P.surfaces.map fun s => s.faces.map fun f =>
      faceData P.fc P.points P.conn (f.cell, f.face) f.iv)

theorem totalDofs_single (P : Problem1 IV nq nfq nn vec dim) :
    totalDofs P.fes = P.numTotalNodes * vec := by
  simp [totalDofs, Problem1.fes]

theorem dofNum_single (P : Problem1 IV nq nfq nn vec dim) (n c : Nat) :
    dofNum P.fes 0 n c = n * vec + c := by
  simp [dofNum, Problem1.fes]

theorem solShapes_single (P : Problem1 IV nq nfq nn vec dim) :
    solShapes P.fes = [(P.numTotalNodes, vec)] := by
  simp [solShapes, Problem1.fes]

theorem sum_range_grid (N v : Nat) (g : Nat → ℝ) :
    ∑ k ∈ Finset.range (N * v), g k = ∑ n ∈ Finset.range N, ∑ c : Fin v, g (n * v + c) := by
  induction N with
  | zero => simp
  | succ N ih =>
    rw [Nat.succ_mul, Finset.sum_range_add, ih, Finset.sum_range_succ,
      Finset.sum_range (fun x => g (N * v + x))]

/-- The solution array of a flattened vector. -/
theorem unravel_single (P : Problem1 IV nq nfq nn vec dim) (x : Fin (totalDofs P.fes) → ℝ) :
    ∃ sol, unravelSol (solShapes P.fes) (List.ofFn x) = [sol] ∧
      HasShapes [(P.numTotalNodes, vec)] [sol] ∧ fieldOf vec sol = P.vecField x := by
  have hlen : (List.ofFn x).length = totalSize (solShapes P.fes) := by
    simp [totalDofs_eq]
  have hsh := unravelSol_hasShapes (solShapes P.fes) (List.ofFn x) hlen
  have hrav := ravelSol_unravelSol (solShapes P.fes) (List.ofFn x) hlen
  generalize unravelSol (solShapes P.fes) (List.ofFn x) = s at hsh hrav
  rw [solShapes_single] at hsh
  obtain ⟨sol, t, rfl, h1, h2, h3⟩ := hsh
  cases h3
  refine ⟨sol, rfl, ⟨_, _, rfl, h1, h2, rfl⟩, ?_⟩
  funext n c
  have hs : HasShapes (solShapes P.fes) [sol] := by
    rw [solShapes_single]; exact ⟨_, _, rfl, h1, h2, rfl⟩
  by_cases hn : n < P.numTotalNodes
  · have := ravelSol_dofNum P.fes [sol] hs (i := 0) (n := n) (c := c) (by simp [Problem1.fes])
      (by simpa [Problem1.fes] using hn) (by simpa [Problem1.fes] using c.2)
    rw [dofNum_single, hrav] at this
    have hlt : n * vec + c < totalDofs P.fes := by
      rw [totalDofs_single]; exact gridNode_lt hn c.2
    rw [Problem1.vecField, dif_pos hlt, fieldOf]
    refine Eq.trans this.symm ?_
    exact ofFn_getD x ⟨_, hlt⟩
  · have hlt : ¬ n * vec + c < totalDofs P.fes := by
      rw [totalDofs_single]
      have := Nat.mul_le_mul_right vec (Nat.le_of_not_lt hn)
      omega
    rw [Problem1.vecField, dif_neg hlt, fieldOf, List.getD_eq_default sol _ (by omega)]
    simp

/-- Testing the flattened residual with a vector gives the virtual work. -/
theorem flat_virtualWork (P : Problem1 IV nq nfq nn vec dim) (h : P.WF)
    (x y : Fin (totalDofs P.fes) → ℝ) :
    ∑ k, y k * P.flat x k = P.virtualWork (P.vecField x) (P.vecField y) := by
  obtain ⟨sol, e1, e2, e3⟩ := unravel_single P x
  obtain ⟨R, r1, r2, r3⟩ := C72_weak_form P h sol e2
  have hR : HasShapes (solShapes P.fes) R := by rw [solShapes_single]; exact r2
  have hflat : ∀ k, P.flat x k = (ravelSol R).getD k 0 := by
    intro k
    have r1' := r1
    rw [Problem1.residual] at r1'
    simp only [Problem1.flat, flatResidual, e1, r1']
  rw [← e3, ← r3]
  have hy : ∀ k : Fin (totalDofs P.fes), y k * P.flat x k
      = (fun k : Nat => (List.ofFn y).getD k 0 * (ravelSol R).getD k 0) k := by
    intro k
    rw [hflat k]
    dsimp only
    rw [ofFn_getD]
  rw [Finset.sum_congr rfl fun k _ => hy k, ← Finset.sum_range
    (f := fun k : Nat => (List.ofFn y).getD k 0 * (ravelSol R).getD k 0)]
  have hgrid := sum_range_grid P.numTotalNodes vec
    (fun k : Nat => (List.ofFn y).getD k 0 * (ravelSol R).getD k 0)
  rw [← totalDofs_single] at hgrid
  rw [hgrid]
  refine Finset.sum_congr rfl fun n hn => Finset.sum_congr rfl fun c _ => ?_
  have hn := Finset.mem_range.1 hn
  have hlt : n * vec + c < totalDofs P.fes := by
    rw [totalDofs_single]; exact gridNode_lt hn c.2
  have := ravelSol_dofNum P.fes R hR (i := 0) (n := n) (c := c) (by simp [Problem1.fes])
      (by simpa [Problem1.fes] using hn) (by simpa [Problem1.fes] using c.2)
  rw [dofNum_single] at this
  rw [this, Problem1.vecField, dif_pos hlt]
  congr 1
  exact ofFn_getD y ⟨_, hlt⟩

theorem vecField_sub (P : Problem1 IV nq nfq nn vec dim) (x y : Fin (totalDofs P.fes) → ℝ) :
    P.vecField (x - y) = fun n c => P.vecField x n c - P.vecField y n c := by
  funext n c
  by_cases h : n * vec + c < totalDofs P.fes
  · simp [Problem1.vecField, h]
  · simp [Problem1.vecField, h]

theorem vecField_lin (P : Problem1 IV nq nfq nn vec dim) (a : ℝ) (x y : Fin (totalDofs P.fes) → ℝ) :
    P.vecField (a • x + y) = fun n c => a * P.vecField x n c + P.vecField y n c := by
  funext n c
  by_cases h : n * vec + c < totalDofs P.fes
  · simp [Problem1.vecField, h]
  · simp [Problem1.vecField, h]

theorem vecField_eq_iff (P : Problem1 IV nq nfq nn vec dim) (x y : Fin (totalDofs P.fes) → ℝ)
    (h : ∀ n < P.numTotalNodes, ∀ c, P.vecField x n c = P.vecField y n c) : x = y := by
  funext k
  obtain ⟨i, n, c, hi, hn, hc, e⟩ := exists_dofNum P.fes k k.2
  have hi0 : i = 0 := by simp [Problem1.fes] at hi; exact hi
  subst hi0
  simp only [Problem1.fes, List.getElem_cons_zero] at hn hc
  have e' : (k : Nat) = n * vec + c := by rw [e, dofNum_single]
  have := h n hn ⟨c, hc⟩
  have hlt : n * vec + c < totalDofs P.fes := by rw [← e']; exact k.2
  simp only [Problem1.vecField, dif_pos hlt] at this
  have hk : k = ⟨n * vec + c, hlt⟩ := Fin.ext e'
  rw [hk]
  exact this

theorem gradient_lin (P : Problem1 IV nq nfq nn vec dim) (a : ℝ) (u w : Nat → Fin vec → ℝ)
    (cell : List Nat) (q : Fin nq) :
    P.gradient (fun n c => a * u n c + w n c) cell q
      = (fun i j => a * P.gradient u cell q i j + P.gradient w cell q i j) := by
  funext i j
  rw [gradient_eq, gradient_eq, gradient_eq, Finset.mul_sum, ← Finset.sum_add_distrib]
  exact Finset.sum_congr rfl fun a _ => by ring

theorem interp_lin (N : Fin nn → ℝ) (a : ℝ) (u w : Nat → Fin vec → ℝ) (cell : List Nat) :
    interp N (restrict nn (fun n c => a * u n c + w n c) cell)
      = a • interp N (restrict nn u cell) + interp N (restrict nn w cell) := by
  funext c
  simp only [interp, restrict, Matrix.of_apply, Pi.add_apply, Pi.smul_apply, smul_eq_mul,
    Finset.mul_sum, ← Finset.sum_add_distrib]
  exact Finset.sum_congr rfl fun a _ => by ring

/-- A function with `F (a x + y) - F y = a (F x - F 0)`. -/
def AffineFn {α β : Type*} [AddCommGroup α] [Module ℝ α] [AddCommGroup β] [Module ℝ β] (F : α → β) : Prop :=
  ∀ (a : ℝ) x y, F (a • x + y) = a • (F x - F 0) + F y

theorem affineFn_of {α β : Type*} [AddCommGroup α] [Module ℝ α] [AddCommGroup β] [Module ℝ β] {F : α → β}
    (h : ∃ C : α →ₗ[ℝ] β, ∀ x, F x = C x + F 0) : AffineFn F := by
  obtain ⟨C, hC⟩ := h
  intro a x y
  rw [hC (a • x + y), hC x, hC y, map_add, map_smul]
  simp [add_assoc]

theorem list_sum_affine {α : Type} (l : List α) (a : ℝ) (F Fx F0 Fy : α → ℝ)
    (h : ∀ b ∈ l, F b = a * (Fx b - F0 b) + Fy b) :
    (l.map F).sum = a * ((l.map Fx).sum - (l.map F0).sum) + (l.map Fy).sum := by
  induction l with
  | nil => simp
  | cons b l ih =>
    simp only [List.map_cons, List.sum_cons]
    rw [h b (by simp), ih fun b hb => h b (by simp [hb])]
    ring

theorem fin_sum_affine {ι : Type*} (s : Finset ι) (a : ℝ) (F Fx F0 Fy : ι → ℝ)
    (h : ∀ b, F b = a * (Fx b - F0 b) + Fy b) :
    ∑ b ∈ s, F b = a * (∑ b ∈ s, Fx b - ∑ b ∈ s, F0 b) + ∑ b ∈ s, Fy b := by
  rw [← Finset.sum_sub_distrib, Finset.mul_sum, ← Finset.sum_add_distrib]
  exact Finset.sum_congr rfl fun b _ => h b

/-- The virtual work of an affine problem is affine in the field. -/
theorem virtualWork_affine (P : Problem1 IV nq nfq nn vec dim) (haff : P.Affine) (a : ℝ)
    (u w v : Nat → Fin vec → ℝ) :
    P.virtualWork (fun n c => a * u n c + w n c) v
      = a * (P.virtualWork u v - P.virtualWork (fun _ _ => 0) v) + P.virtualWork w v := by
  have g0 : ∀ cell q, P.gradient (fun _ _ => 0) cell q = (0 : Fin vec → Fin dim → ℝ) := by
    intro cell q; funext i j; rw [gradient_eq]; simp
  have i0 : ∀ (N : Fin nn → ℝ) (cell : List Nat),
      interp N (restrict nn (fun (_ : Nat) (_ : Fin vec) => (0 : ℝ)) cell) = 0 := by
    intro N cell; funext c; simp [interp, restrict]
  have ht : P.tensorWork (fun n c => a * u n c + w n c) v
      = a * (P.tensorWork u v - P.tensorWork (fun _ _ => 0) v) + P.tensorWork w v := by
    refine list_sum_affine _ a _ _ _ _ fun cell _ => ?_
    refine fin_sum_affine _ a _ _ _ _ fun q => ?_
    have e : P.tensorMap (cell.iv q)
        (fun i j => a * P.gradient u cell.nodes q i j + P.gradient w cell.nodes q i j)
        = a • (P.tensorMap (cell.iv q) (P.gradient u cell.nodes q) - P.tensorMap (cell.iv q) 0)
          + P.tensorMap (cell.iv q) (P.gradient w cell.nodes q) :=
      affineFn_of (haff.tensor (cell.iv q)) a (P.gradient u cell.nodes q) (P.gradient w cell.nodes q)
    dsimp only
    rw [gradient_lin, g0]
    rw [e]
    simp only [contract]
    rw [fin_sum_affine _ a _
      (fun i => ∑ j, P.tensorMap (cell.iv q) (P.gradient u cell.nodes q) i j
        * P.gradient v cell.nodes q i j)
      (fun i => ∑ j, P.tensorMap (cell.iv q) 0 i j * P.gradient v cell.nodes q i j)
      (fun i => ∑ j, P.tensorMap (cell.iv q) (P.gradient w cell.nodes q) i j
        * P.gradient v cell.nodes q i j) (fun i => fin_sum_affine _ a _ _ _ _ fun j => by
          simp only [Pi.add_apply, Pi.smul_apply, Pi.sub_apply, smul_eq_mul]
          ring)]
    ring
  have hm : ∀ m, P.massMap = some m → P.massWork m (fun n c => a * u n c + w n c) v
      = a * (P.massWork m u v - P.massWork m (fun _ _ => 0) v) + P.massWork m w v := by
    intro m hm
    refine list_sum_affine _ a _ _ _ _ fun cell _ => ?_
    refine fin_sum_affine _ a _ _ _ _ fun q => ?_
    dsimp only
    rw [interp_lin, i0]
    have e := affineFn_of (haff.mass m hm (cell.iv q)
      (positionIn (P.el.shapeVals q) (coords nn P.points cell.nodes))) a
      (interp (P.el.shapeVals q) (restrict nn u cell.nodes))
      (interp (P.el.shapeVals q) (restrict nn w cell.nodes))
    rw [e, fin_sum_affine _ a _ _ _ _ (fun c => by
      simp only [Pi.add_apply, Pi.smul_apply, Pi.sub_apply, smul_eq_mul]
      rw [add_mul, mul_assoc, sub_mul])]
    ring
  have hsf : P.surfaceWork (fun n c => a * u n c + w n c) v
      = a * (P.surfaceWork u v - P.surfaceWork (fun _ _ => 0) v) + P.surfaceWork w v := by
    refine list_sum_affine _ a _ _ _ _ fun s hs => ?_
    refine list_sum_affine _ a _ _ _ _ fun f _ => ?_
    refine fin_sum_affine _ a _ _ _ _ fun q => ?_
    rw [interp_lin, i0]
    have e := affineFn_of (haff.surface s hs (f.iv q)
      (positionIn (P.fc.shapeVals f.face q) (coords nn P.points (P.conn.getD f.cell [])))) a
      (interp (P.fc.shapeVals f.face q) (restrict nn u (P.conn.getD f.cell [])))
      (interp (P.fc.shapeVals f.face q) (restrict nn w (P.conn.getD f.cell [])))
    rw [e, fin_sum_affine _ a _ _ _ _ (fun c => by
      simp only [Pi.add_apply, Pi.smul_apply, Pi.sub_apply, smul_eq_mul]
      rw [add_mul, mul_assoc, sub_mul])]
    ring
  rw [Problem1.virtualWork, Problem1.virtualWork, Problem1.virtualWork, Problem1.virtualWork, ht, hsf]
  cases hmm : P.massMap with
  | none => dsimp only; ring
  | some m => dsimp only; rw [hm m hmm]; ring

theorem matrix_of_affine {N : Nat} (F : (Fin N → ℝ) → Fin N → ℝ) (h : AffineFn F) :
    ∃ (T : Matrix (Fin N) (Fin N) ℝ) (f : Fin N → ℝ), ∀ x, F x = T.mulVec x - f := by
  let L : (Fin N → ℝ) →ₗ[ℝ] (Fin N → ℝ) :=
    { toFun := fun x => F x - F 0
      map_add' := fun x y => by
        have := h 1 x y
        rw [one_smul, one_smul] at this
        rw [this]; abel
      map_smul' := fun a x => by
        have := h a x 0
        rw [add_zero] at this
        rw [this]; simp }
  refine ⟨LinearMap.toMatrix' L, - F 0, fun x => ?_⟩
  rw [LinearMap.toMatrix'_mulVec, sub_neg_eq_add]
  exact (sub_add_cancel (F x) (F 0)).symm

/-! ### Property theorems -/

/-- **C74 (affine residual).** If all maps are affine in the solution, the residual is `T u - f`. -/
theorem C74_affine (P : Problem1 IV nq nfq nn vec dim) (h : P.WF) (haff : P.Affine) :
    ∃ (T : Matrix (Fin (totalDofs P.fes)) (Fin (totalDofs P.fes)) ℝ) (f : Fin (totalDofs P.fes) → ℝ),
      ∀ x, P.flat x = T.mulVec x - f := by
  refine matrix_of_affine P.flat fun a x y => ?_
  have e : ∀ (z : Fin (totalDofs P.fes) → ℝ) (k : Fin (totalDofs P.fes)),
      P.flat z k = P.virtualWork (P.vecField z) (P.vecField (Pi.single k 1)) := by
    intro z k
    rw [← flat_virtualWork P h]
    rw [Finset.sum_eq_single k]
    · simp
    · intro b _ hb; simp [hb]
    · simp
  funext k
  have z0 : P.vecField (0 : Fin (totalDofs P.fes) → ℝ) = fun _ _ => 0 := by
    funext n c; simp [Problem1.vecField]
  simp only [Pi.add_apply, Pi.smul_apply, Pi.sub_apply, smul_eq_mul, e, vecField_lin, z0]
  exact virtualWork_affine P haff a _ _ _

/-- Fields with the same virtual work on their difference and the same values at constrained degrees of freedom
are equal. -/
def Problem1.UniqueField (P : Problem1 IV nq nfq nn vec dim) (free : Nat → Fin vec → Prop) : Prop :=
  ∀ u w : Nat → Fin vec → ℝ,
    P.virtualWork u (fun n c => u n c - w n c) = P.virtualWork w (fun n c => u n c - w n c) →
    (∀ n c, ¬ free n c → u n c = w n c) → ∀ n < P.numTotalNodes, ∀ c, u n c = w n c

theorem uniqueField_of_monotone (P : Problem1 IV nq nfq nn vec dim) (h : P.WF) (hpos : P.PositiveMeasure)
    (hdet : P.el.Determines) (hmono : P.StrictlyMonotone) (hmass : P.MassMonotone)
    (hsm : P.SurfaceMonotone) (free : Nat → Fin vec → Prop) (hanch : P.Anchored free) : P.UniqueField free :=
  fun u w hvw hbc => field_unique P h hpos hdet _ hanch _ _ (gradient_unique P hpos hmono hmass hsm u w hvw) hbc

theorem regular_of_unique (P : Problem1 IV nq nfq nn vec dim) (h : P.WF)
    (bcs : List (List (BCEntry ℝ))) (hb : WFBC P.fes bcs)
    (huniq : P.UniqueField fun n c => FreeDof (bcs.getD 0 []) n c)
    (T : Matrix (Fin (totalDofs P.fes)) (Fin (totalDofs P.fes)) ℝ) (f : Fin (totalDofs P.fes) → ℝ)
    (hT : ∀ x, P.flat x = T.mulVec x - f) : (elimRows P.fes bcs T).det ≠ 0 := by
  intro hz
  obtain ⟨x, hx0, hx⟩ := Matrix.exists_mulVec_eq_zero_iff.2 hz
  apply hx0
  have hrow : ∀ k : Fin (totalDofs P.fes), (Prescribed P.fes bcs k none → T.mulVec x k = 0) ∧
      ∀ v, Prescribed P.fes bcs k (some v) → x k = 0 := by
    intro k
    have e := congrFun hx k
    obtain ⟨e1, e2⟩ := mulVec_elim P.fes bcs hb T x k
    exact ⟨fun hp => by rw [← e1 hp]; exact e, fun v hp => by rw [← e2 v hp]; exact e⟩
  have hvw : P.virtualWork (P.vecField x) (P.vecField (x - 0))
      = P.virtualWork (P.vecField 0) (P.vecField (x - 0)) := by
    rw [← flat_virtualWork P h, ← flat_virtualWork P h, ← sub_eq_zero, ← Finset.sum_sub_distrib]
    refine Finset.sum_eq_zero fun k _ => ?_
    rw [← mul_sub, hT, hT, Matrix.mulVec_zero, sub_zero]
    obtain ⟨o, ho⟩ := prescribed_exists P.fes bcs hb k k.2
    cases o with
    | none => simp [(hrow k).1 ho]
    | some v => rw [(hrow k).2 v ho, zero_mul]
  rw [vecField_sub] at hvw
  refine vecField_eq_iff P x 0 (huniq _ _ hvw ?_)
  intro n c hf
  by_cases hlt : n * vec + c < totalDofs P.fes
  · have hn : n < P.numTotalNodes := by
      rw [totalDofs_single] at hlt
      by_contra hcon
      have := Nat.mul_le_mul_right vec (Nat.le_of_not_lt hcon)
      omega
    obtain ⟨es, hes⟩ : ∃ es, bcs[0]? = some es := by
      have := hb.len
      simp only [Problem1.fes, List.length_singleton] at this
      exact ⟨bcs[0], List.getElem?_eq_getElem (by omega)⟩
    have hes' : bcs.getD 0 [] = es := by rw [List.getD_eq_getElem?_getD, hes]; rfl
    rw [hes'] at hf
    rcases free_or_last es n c with hf' | ⟨v, hv⟩
    · exact absurd hf' hf
    · have hp : Prescribed P.fes bcs (n * vec + c) (some v) :=
        .fixed 0 n c _ es v rfl hes hn c.2 (dofNum_single P n c).symm hv
      have := (hrow ⟨n * vec + c, hlt⟩).2 v hp
      simp only [Problem1.vecField, dif_pos hlt, this]
      rfl
  · simp only [Problem1.vecField, dif_neg hlt]

theorem matCLM_inj {N : Nat} {A B : Matrix (Fin N) (Fin N) ℝ} (h : matCLM A = matCLM B) : A = B := by
  ext i j
  have := congrFun (congrArg (fun L : (Fin N → ℝ) →L[ℝ] (Fin N → ℝ) => L (Pi.single j 1)) h) i
  simpa [matCLM] using this

theorem solver_of_unique (P : Problem1 IV nq nfq nn vec dim) (h : P.WF) (haff : P.Affine) (bcs : List (List (BCEntry ℝ))) (hb : WFBC P.fes bcs)
    (huniq : P.UniqueField fun n c => FreeDof (bcs.getD 0 []) n c)
    (A : (Fin (totalDofs P.fes) → ℝ) → Matrix (Fin (totalDofs P.fes)) (Fin (totalDofs P.fes)) ℝ)
    (hA : ∀ x, HasJacobianAt P.flat (A x) x) (nu : (Fin (totalDofs P.fes) → ℝ) → ℝ)
    (hnu0 : ∀ r, 0 ≤ nu r) (hnu : ∀ r, nu r = 0 ↔ r = 0)
    (solve : Matrix (Fin (totalDofs P.fes)) (Fin (totalDofs P.fes)) ℝ → (Fin (totalDofs P.fes) → ℝ) →
      (Fin (totalDofs P.fes) → ℝ) → Except Err (Fin (totalDofs P.fes) → ℝ)) (hs : ExactSolver solve)
    (hs' : ∀ A b x0, A.det ≠ 0 → ∃ x, solve A b x0 = .ok x) (ls : Bool) (relTol : ℝ)
    (hrel : relTol < 1) :
    ∃ u, SolvesBVP P.fes bcs P.flat u ∧ (∀ w, SolvesBVP P.fes bcs P.flat w → w = u) ∧
      ∀ (u0 : Fin (totalDofs P.fes) → ℝ) (fuel : Nat), ∃ n ≤ 1,
        newtonSolve (newtonUpdate P.fes bcs P.flat A) (fun rA => .fin (nu rA.1))
          (newtonStep P.fes bcs (fun r => .fin (nu r)) P.flat solve ls) (fun _ => true) 0 relTol u0
          (fuel + 2) = some (.ok (u, n)) := by
  obtain ⟨T, f, hT⟩ := C74_affine P h haff
  have hreg := regular_of_unique P h bcs hb huniq T f hT
  have hflat : P.flat = fun u => T.mulVec u - f := funext hT
  have hAT : A = fun _ => T := by
    funext x
    have h1 : HasFDerivAt P.flat (matCLM T) x := by
      rw [hflat]
      have : (fun u : Fin (totalDofs P.fes) → ℝ => T.mulVec u - f) = fun u => matCLM T u - f := by
        funext u; rfl
      rw [this]
      exact (matCLM T).hasFDerivAt.sub_const f
    exact matCLM_inj ((hA x).unique h1)
  rw [hAT, hflat]
  obtain ⟨u, hu⟩ := C21_independent P.fes bcs hb T f hreg nu hnu0 hnu solve hs hs' ls relTol hrel
  -- the returned vector solves the problem
  obtain ⟨u', n', h1, h2⟩ := C21_linear P.fes bcs hb T f hreg nu hnu0 hnu solve hs hs' ls 0 relTol
    le_rfl 0 0
  obtain ⟨n, hn, h3⟩ := hu 0 0
  rw [h3] at h1
  simp only [Option.some.injEq, Except.ok.injEq, Prod.mk.injEq] at h1
  obtain ⟨rfl, rfl⟩ := h1
  have hsol : SolvesBVP P.fes bcs (fun u => T.mulVec u - f) u := by
    rcases h2 with ⟨-, rfl, h2 | h2⟩ | ⟨-, h2, -⟩
    · have hz := (hnu _).1 (le_antisymm h2 (hnu0 _))
      refine ⟨fun k v hp => ?_, fun k hp => ?_⟩
      · have := congrFun hz k
        rw [(applyBcV_spec P.fes bcs hb 1 _ _ k).2 v hp, mul_one, Pi.zero_apply] at this
        exact sub_eq_zero.1 this
      · have := congrFun hz k
        rwa [(applyBcV_spec P.fes bcs hb 1 _ _ k).1 hp] at this
    · exact absurd hrel (not_lt.2 h2)
    · exact h2
  refine ⟨u, hsol, fun w hw => ?_, hu⟩
  have hd : (elimRows P.fes bcs T).mulVec (w - u) = 0 := by
    funext k
    obtain ⟨o, ho⟩ := prescribed_exists P.fes bcs hb k k.2
    cases o with
    | none =>
      rw [(mulVec_elim P.fes bcs hb T _ k).1 ho, Matrix.mulVec_sub]
      have a1 := hw.2 k ho
      have a2 := hsol.2 k ho
      simp only [Pi.sub_apply, Pi.zero_apply] at a1 a2 ⊢
      linarith
    | some v =>
      rw [(mulVec_elim P.fes bcs hb T _ k).2 v ho, Pi.sub_apply, hw.1 k v ho, hsol.1 k v ho, sub_self]
      rfl
  by_contra hne
  exact hreg (Matrix.exists_mulVec_eq_zero_iff.1 ⟨w - u, sub_ne_zero.2 hne, hd⟩)

/-- **C74 (regular tangent).** The tangent with eliminated rows of an affine monotone problem is
nonsingular when every node is connected with constrained ones. -/
theorem C74_regular (P : Problem1 IV nq nfq nn vec dim) (h : P.WF) (hpos : P.PositiveMeasure)
    (hdet : P.el.Determines) (hmono : P.StrictlyMonotone) (hmass : P.MassMonotone)
    (hsm : P.SurfaceMonotone) (bcs : List (List (BCEntry ℝ))) (hb : WFBC P.fes bcs)
    (hanch : P.Anchored fun n c => FreeDof (bcs.getD 0 []) n c)
    (T : Matrix (Fin (totalDofs P.fes)) (Fin (totalDofs P.fes)) ℝ) (f : Fin (totalDofs P.fes) → ℝ)
    (hT : ∀ x, P.flat x = T.mulVec x - f) : (elimRows P.fes bcs T).det ≠ 0 := 
  regular_of_unique P h bcs hb (uniqueField_of_monotone P h hpos hdet hmono hmass hsm _ hanch) T f hT

/-- **C74 (solver).** For an affine strictly monotone problem whose nodes are all connected with
constrained ones there is exactly one solution of the boundary value problem, and `solver` with an
exact linear solver, the assembled derivative as tangent (C05) and zero tolerance returns it after at most one
Newton step from every initial guess, with or without line search. -/
theorem C74_solver (P : Problem1 IV nq nfq nn vec dim) (h : P.WF) (hpos : P.PositiveMeasure)
    (hdet : P.el.Determines) (hmono : P.StrictlyMonotone) (hmass : P.MassMonotone)
    (hsm : P.SurfaceMonotone) (haff : P.Affine) (bcs : List (List (BCEntry ℝ))) (hb : WFBC P.fes bcs)
    (hanch : P.Anchored fun n c => FreeDof (bcs.getD 0 []) n c)
    (A : (Fin (totalDofs P.fes) → ℝ) → Matrix (Fin (totalDofs P.fes)) (Fin (totalDofs P.fes)) ℝ)
    (hA : ∀ x, HasJacobianAt P.flat (A x) x) (nu : (Fin (totalDofs P.fes) → ℝ) → ℝ)
    (hnu0 : ∀ r, 0 ≤ nu r) (hnu : ∀ r, nu r = 0 ↔ r = 0)
    (solve : Matrix (Fin (totalDofs P.fes)) (Fin (totalDofs P.fes)) ℝ → (Fin (totalDofs P.fes) → ℝ) →
      (Fin (totalDofs P.fes) → ℝ) → Except Err (Fin (totalDofs P.fes) → ℝ)) (hs : ExactSolver solve)
    (hs' : ∀ A b x0, A.det ≠ 0 → ∃ x, solve A b x0 = .ok x) (ls : Bool) (relTol : ℝ)
    (hrel : relTol < 1) :
    ∃ u, SolvesBVP P.fes bcs P.flat u ∧ (∀ w, SolvesBVP P.fes bcs P.flat w → w = u) ∧
      ∀ (u0 : Fin (totalDofs P.fes) → ℝ) (fuel : Nat), ∃ n ≤ 1,
        newtonSolve (newtonUpdate P.fes bcs P.flat A) (fun rA => .fin (nu rA.1))
          (newtonStep P.fes bcs (fun r => .fin (nu r)) P.flat solve ls) (fun _ => true) 0 relTol u0
          (fuel + 2) = some (.ok (u, n)) := 
  solver_of_unique P h haff bcs hb (uniqueField_of_monotone P h hpos hdet hmono hmass hsm _ hanch) A hA nu hnu0 hnu solve
    hs hs' ls relTol hrel

/-- A vector solves the boundary value problem exactly when its array has zero residual at the free
degrees of freedom and the prescribed values at the others. -/
theorem solvesBVP_iff (P : Problem1 IV nq nfq nn vec dim) (h : P.WF) (bcs : List (List (BCEntry ℝ)))
    (hb : WFBC P.fes bcs) (u : Fin (totalDofs P.fes) → ℝ) (sol : List (List ℝ))
    (hsol : unravelSol (solShapes P.fes) (List.ofFn u) = [sol])
    (hs : HasShapes [(P.numTotalNodes, vec)] [sol]) (hf : fieldOf vec sol = P.vecField u) :
    SolvesBVP P.fes bcs P.flat u ↔ IsSolution P (fun n c => FreeDof (bcs.getD 0 []) n c) sol ∧
      ∀ n < P.numTotalNodes, ∀ c v, LastPrescribes (bcs.getD 0 []) n (c : Fin vec) v →
        fieldOf vec sol n c = v := by
  obtain ⟨R, r1, r2, -⟩ := C72_weak_form P h sol hs
  have hR : HasShapes (solShapes P.fes) R := by rw [solShapes_single]; exact r2
  have hflat : ∀ k, P.flat u k = (ravelSol R).getD k 0 := by
    intro k
    have r1' := r1
    rw [Problem1.residual] at r1'
    simp only [Problem1.flat, flatResidual, hsol, r1']
  have hentry : ∀ n c, ∀ (hn : n < P.numTotalNodes) (hc : c < vec) (hlt : n * vec + c < totalDofs P.fes),
      P.flat u ⟨n * vec + c, hlt⟩ = at3 R 0 n c := by
    intro n c hn hc hlt
    have := ravelSol_dofNum P.fes R hR (i := 0) (n := n) (c := c) (by simp [Problem1.fes])
      (by simpa [Problem1.fes] using hn) (by simpa [Problem1.fes] using hc)
    rw [dofNum_single] at this
    rw [hflat, ← this]
  obtain ⟨es, hes⟩ : ∃ es, bcs[0]? = some es := by
    have := hb.len
    simp only [Problem1.fes, List.length_singleton] at this
    exact ⟨bcs[0], List.getElem?_eq_getElem (by omega)⟩
  have hes' : bcs.getD 0 [] = es := by rw [List.getD_eq_getElem?_getD, hes]; rfl
  rw [hes']
  have hfe : P.fes[0]? = some ⟨P.numTotalNodes, vec, nn, P.conn⟩ := rfl
  constructor
  · rintro ⟨h1, h2⟩
    refine ⟨⟨R, r1, fun n hn c hfree => ?_⟩, fun n hn c v hv => ?_⟩
    · have hlt : n * vec + c < totalDofs P.fes := by
        rw [totalDofs_single]; exact gridNode_lt hn c.2
      rw [← hentry n c hn c.2 hlt]
      exact h2 _ (.free 0 n c _ es hfe hes hn c.2 (dofNum_single P n c).symm hfree)
    · have hlt : n * vec + c < totalDofs P.fes := by
        rw [totalDofs_single]; exact gridNode_lt hn c.2
      rw [hf, Problem1.vecField, dif_pos hlt]
      exact h1 _ v (.fixed 0 n c _ es v hfe hes hn c.2 (dofNum_single P n c).symm hv)
  · rintro ⟨⟨R', r1', h1⟩, h2⟩
    rw [r1] at r1'
    cases r1'
    refine ⟨fun k v hp => ?_, fun k hp => ?_⟩
    · cases hp with
      | fixed i n c fe es' v hfe' hes'' hn hc hk hl =>
        have hi : i = 0 := by
          by_contra hcon
          rw [Problem1.fes, List.getElem?_eq_none (by simp; omega)] at hfe'
          cases hfe'
        subst hi
        rw [hfe] at hfe'
        rw [hes] at hes''
        cases hfe'
        cases hes''
        rw [dofNum_single] at hk
        have := h2 n hn ⟨c, hc⟩ v hl
        have hlt : n * vec + c < totalDofs P.fes := by rw [← hk]; exact k.2
        rw [hf, Problem1.vecField, dif_pos hlt] at this
        rw [← this]
        congr 1
        exact Fin.ext hk
    · cases hp with
      | free i n c fe es' hfe' hes'' hn hc hk hl =>
        have hi : i = 0 := by
          by_contra hcon
          rw [Problem1.fes, List.getElem?_eq_none (by simp; omega)] at hfe'
          cases hfe'
        subst hi
        rw [hfe] at hfe'
        rw [hes] at hes''
        cases hfe'
        cases hes''
        rw [dofNum_single] at hk
        have hlt : n * vec + c < totalDofs P.fes := by rw [← hk]; exact k.2
        have e : k = ⟨n * vec + c, hlt⟩ := Fin.ext hk
        rw [e, hentry n c hn hc hlt]
        exact h1 n hn ⟨c, hc⟩ hl

/-- **C74 (patch test of the solver).** On the rectangle mesh with all boundary nodes constrained to
the values of an affine field (and no interior node constrained), an affine strictly monotone law
that is the same everywhere, a quadrature rule that is exact for linear functions and has two distinct points:
`solver` returns the nodal values of the affine field. -/
theorem C74_patch (P : Problem1 IV nq nfq 4 vec 2) {Nx Ny : Nat} {Lx Ly : ℝ}
    {p : Fin nq → Fin 2 → ℝ} {w : Fin nq → ℝ} (h : OnRectangle P Nx Ny Lx Ly p w)
    (hw : ∑ q, w q = 1) (hw0 : ∑ q, w q * p q 0 = 1 / 2) (hw1 : ∑ q, w q * p q 1 = 1 / 2)
    (hpos : ∀ q, 0 < w q) (hp : ∃ q q' k, p q k ≠ p q' k)
    (hiv : ∀ iv iv' G, P.tensorMap iv G = P.tensorMap iv' G) (hmono : P.StrictlyMonotone)
    (hmass : P.massMap = none) (hsurf : P.surfaces = []) (haff : P.Affine)
    (G : Fin vec → Fin 2 → ℝ) (b : Fin vec → ℝ) (bcs : List (List (BCEntry ℝ))) (hb : WFBC P.fes bcs)
    (hfree : ∀ n < P.numTotalNodes, ∀ c : Fin vec, rectInterior Nx Ny n → FreeDof (bcs.getD 0 []) n c)
    (hfix : ∀ n < P.numTotalNodes, ∀ c : Fin vec, ¬ rectInterior Nx Ny n →
      LastPrescribes (bcs.getD 0 []) n c (∑ j, G c j * (P.points.getD n 0) j + b c))
    (A : (Fin (totalDofs P.fes) → ℝ) → Matrix (Fin (totalDofs P.fes)) (Fin (totalDofs P.fes)) ℝ)
    (hA : ∀ x, HasJacobianAt P.flat (A x) x) (nu : (Fin (totalDofs P.fes) → ℝ) → ℝ)
    (hnu0 : ∀ r, 0 ≤ nu r) (hnu : ∀ r, nu r = 0 ↔ r = 0)
    (solve : Matrix (Fin (totalDofs P.fes)) (Fin (totalDofs P.fes)) ℝ → (Fin (totalDofs P.fes) → ℝ) →
      (Fin (totalDofs P.fes) → ℝ) → Except Err (Fin (totalDofs P.fes) → ℝ)) (hs : ExactSolver solve)
    (hs' : ∀ A b x0, A.det ≠ 0 → ∃ x, solve A b x0 = .ok x) (ls : Bool) (relTol : ℝ)
    (hrel : relTol < 1) (u0 : Fin (totalDofs P.fes) → ℝ) (fuel : Nat) :
    ∃ u, ∃ n ≤ 1, newtonSolve (newtonUpdate P.fes bcs P.flat A) (fun rA => .fin (nu rA.1))
        (newtonStep P.fes bcs (fun r => .fin (nu r)) P.flat solve ls) (fun _ => true) 0 relTol u0
        (fuel + 2) = some (.ok (u, n)) ∧
      ∀ n < P.numTotalNodes, ∀ c, P.vecField u n c = ∑ j, G c j * (P.points.getD n 0) j + b c := by
  have hposm : P.PositiveMeasure := by
    intro cell hc q
    rw [h.jac _ (List.mem_map_of_mem hc), Matrix.det_fin_two_of, mul_zero, sub_zero, h.el]
    exact mul_pos (mul_pos h.hx.1 h.hx.2) (hpos q)
  have hdet : P.el.Determines := by
    rw [h.el]; exact (C73_determines w p (fun _ _ => 0)).2.2.1 hp
  have hnot : ∀ n < P.numTotalNodes, ∀ c : Fin vec, ¬ rectInterior Nx Ny n →
      ¬ FreeDof (bcs.getD 0 []) n c := by
    intro n hn c hi hfr
    obtain ⟨before, e, after, h1, h2, -⟩ := hfix n hn c hi
    exact hfr e (by rw [h1]; simp) _ h2
  have hanch : P.Anchored fun n c => FreeDof (bcs.getD 0 []) n c := by
    intro n hn c
    obtain ⟨m, h1, h2, h3⟩ := rect_anchored P h n hn c
    exact ⟨m, hnot m h2 c h1, h2, h3⟩
  obtain ⟨u, h1, -, h2⟩ := C74_solver P h.wf hposm hdet hmono (fun m hm => by rw [hmass] at hm; cases hm)
    (fun s hs => by rw [hsurf] at hs; cases hs) haff bcs hb hanch A hA nu hnu0 hnu solve hs hs' ls
    relTol hrel
  obtain ⟨n, hn, h3⟩ := h2 u0 fuel
  refine ⟨u, n, hn, h3, ?_⟩
  obtain ⟨sol, e1, e2, e3⟩ := unravel_single P u
  obtain ⟨⟨R, r1, r2⟩, h5⟩ := (solvesBVP_iff P h.wf bcs hb u sol e1 e2 e3).1 h1
  have h6 := (C73_patch_solution P h hw hw0 hw1 hpos hp hiv hmono hmass hsurf sol e2 G b
    (fun n hn hi c => h5 n hn c _ (hfix n hn c hi))).1
    ⟨R, r1, fun n hn c hi => r2 n hn c (hfree n hn c hi)⟩
  rw [← e3]
  exact h6

/-! ### Concrete case for the hypotheses of C72–C74

The Laplace equation on a rectangle with 2 × 2 bilinear cells, four quadrature points, boundary
values of the field `x + 2 y + 3`. -/

/-- Quadrature points of the example. -/
noncomputable def exPts : Fin 4 → Fin 2 → ℝ := ![![1/4, 1/4], ![3/4, 1/4], ![3/4, 3/4], ![1/4, 3/4]]

/-- Laplace problem of the example. -/
noncomputable def exLaplace : Problem1 Unit 4 1 4 1 2 where
  numTotalNodes := 9
  points := (rectangleMesh 2 2 4 6).1
  cells := (rectangleMesh 2 2 (4 : ℝ) 6).2.map fun c => ⟨c, fun _ => ()⟩
  el := tabulate quad4N quad4G exPts (fun _ => 1/4)
  fc := ⟨fun _ _ => quad4N ![1/2, 0], fun _ _ => quad4G ![1/2, 0], fun _ _ => 1, fun _ => ![0, -1]⟩
  tensorMap := fun _ G => G
  massMap := none
  surfaces := []

/-- Boundary conditions of the example: all nodes but the one in the middle. -/
noncomputable def exLaplaceBcs : List (List (BCEntry ℝ)) :=
  [[⟨[0, 1, 2, 3, 5, 6, 7, 8], [0, 0, 0, 0, 0, 0, 0, 0], [3, 9, 15, 5, 17, 7, 13, 19]⟩]]

theorem exLaplace_rect : OnRectangle exLaplace 2 2 4 6 exPts (fun _ => 1/4) where
  el := rfl
  points := rfl
  conn := by simp [exLaplace, Problem1.conn, Function.comp_def]
  nodes := rfl
  Nx_pos := by decide
  Ny_pos := by decide
  Lx_pos := by norm_num
  Ly_pos := by norm_num
  faces := by intro s hs; simp [exLaplace] at hs

theorem exLaplace_mono : exLaplace.StrictlyMonotone := by
  intro iv G H hne
  have : 0 < ∑ i : Fin 1, ∑ j : Fin 2, (G i j - H i j) * (G i j - H i j) := by
    refine lt_of_le_of_ne (Finset.sum_nonneg fun i _ => Finset.sum_nonneg fun j _ => mul_self_nonneg _) ?_
    intro h0
    apply hne
    funext i j
    have h1 := (Finset.sum_eq_zero_iff_of_nonneg (fun i _ => Finset.sum_nonneg fun j _ =>
      mul_self_nonneg (G i j - H i j))).1 h0.symm i (Finset.mem_univ i)
    have h2 := (Finset.sum_eq_zero_iff_of_nonneg (fun j _ =>
      mul_self_nonneg (G i j - H i j))).1 h1 j (Finset.mem_univ j)
    exact sub_eq_zero.1 (mul_self_eq_zero.1 h2)
  exact this

example : exLaplace.Affine where
  tensor := fun _ => ⟨LinearMap.id, fun G => by simp [exLaplace]⟩
  mass := by intro m hm; simp [exLaplace] at hm
  surface := by intro s hs; simp [exLaplace] at hs

example : (∑ _q : Fin 4, (1/4 : ℝ) = 1) ∧ (∑ q, 1/4 * exPts q 0 = 1/2) ∧ (∑ q, 1/4 * exPts q 1 = 1/2) ∧
    ∃ q q' k, exPts q k ≠ exPts q' k := by
  refine ⟨by norm_num, ?_, ?_, 0, 1, 0, ?_⟩
  · simp [exPts, Fin.sum_univ_four]; norm_num
  · simp [exPts, Fin.sum_univ_four]; norm_num
  · simp [exPts]; norm_num

example : WFBC exLaplace.fes exLaplaceBcs where
  len := rfl
  comps := by simp [exLaplaceBcs]
  vals := by simp [exLaplaceBcs]
  nodup := by simp [exLaplaceBcs]
  valid := by
    intro i fe es h1 h2 e he
    rcases i with _ | i
    · simp only [exLaplaceBcs, List.getElem?_cons_zero, Option.some.injEq] at h2
      simp only [Problem1.fes, List.getElem?_cons_zero, Option.some.injEq] at h1
      subst h2 h1
      simp only [List.mem_singleton] at he
      subst he
      simp [exLaplace]
    · simp [exLaplaceBcs] at h2

theorem exLaplace_interior (n : Nat) : rectInterior 2 2 n ↔ n = 4 := by
  constructor
  · rintro ⟨i, j, h1, h2, h3, h4, rfl⟩
    obtain rfl : i = 1 := by omega
    obtain rfl : j = 1 := by omega
    rfl
  · rintro rfl
    exact ⟨1, 1, by omega, by omega, by omega, by omega, rfl⟩

example : ∀ n < exLaplace.numTotalNodes, ∀ c : Fin 1, rectInterior 2 2 n →
    FreeDof (exLaplaceBcs.getD 0 []) n c := by
  rintro n _ c hi e he v ⟨k, h1, -, -⟩
  rw [exLaplace_interior] at hi
  subst hi
  simp only [exLaplaceBcs, List.getD_cons_zero, List.mem_singleton] at he
  subst he
  have := List.mem_of_getElem? h1
  simp at this

example : ∀ n < exLaplace.numTotalNodes, ∀ c : Fin 1, ¬ rectInterior 2 2 n →
    LastPrescribes (exLaplaceBcs.getD 0 []) n c
      (∑ j, (![![1, 2]] : Fin 1 → Fin 2 → ℝ) c j * (exLaplace.points.getD n 0) j + 3) := by
  intro n hn c hi
  rw [exLaplace_interior] at hi
  have hpt : ∀ i j, i ≤ 2 → j ≤ 2 → exLaplace.points.getD (i * 3 + j) 0 = ![(i : ℝ) * 2, (j : ℝ) * 3] := by
    intro i j hi hj
    have := rect_point 2 2 (4 : ℝ) 6 i j hi hj
    rw [List.getD_eq_getElem?_getD]
    simp only [exLaplace]
    rw [this]
    norm_num
  refine ⟨[], _, [], rfl, ?_, fun _ h => by cases h⟩
  have hn : n < 9 := hn
  obtain rfl : c = 0 := Subsingleton.elim _ _
  rcases (by omega : n = 0 ∨ n = 1 ∨ n = 2 ∨ n = 3 ∨ n = 5 ∨ n = 6 ∨ n = 7 ∨ n = 8) with
    rfl | rfl | rfl | rfl | rfl | rfl | rfl | rfl
  · refine ⟨0, rfl, rfl, ?_⟩; rw [hpt 0 0 (by omega) (by omega)]; norm_num [Fin.sum_univ_two]
  · refine ⟨1, rfl, rfl, ?_⟩; rw [hpt 0 1 (by omega) (by omega)]; norm_num [Fin.sum_univ_two]
  · refine ⟨2, rfl, rfl, ?_⟩; rw [hpt 0 2 (by omega) (by omega)]; norm_num [Fin.sum_univ_two]
  · refine ⟨3, rfl, rfl, ?_⟩; rw [hpt 1 0 (by omega) (by omega)]; norm_num [Fin.sum_univ_two]
  · refine ⟨4, rfl, rfl, ?_⟩; rw [hpt 1 2 (by omega) (by omega)]; norm_num [Fin.sum_univ_two]
  · refine ⟨5, rfl, rfl, ?_⟩; rw [hpt 2 0 (by omega) (by omega)]; norm_num [Fin.sum_univ_two]
  · refine ⟨6, rfl, rfl, ?_⟩; rw [hpt 2 1 (by omega) (by omega)]; norm_num [Fin.sum_univ_two]
  · refine ⟨7, rfl, rfl, ?_⟩; rw [hpt 2 2 (by omega) (by omega)]; norm_num [Fin.sum_univ_two]

/-- A tangent for the example: the derivative of the (affine) residual. -/
example : ∃ A : (Fin (totalDofs exLaplace.fes) → ℝ) →
      Matrix (Fin (totalDofs exLaplace.fes)) (Fin (totalDofs exLaplace.fes)) ℝ,
    ∀ x, HasJacobianAt exLaplace.flat (A x) x := by
  obtain ⟨T, f, hT⟩ := C74_affine exLaplace exLaplace_rect.wf
    ⟨fun _ => ⟨LinearMap.id, fun G => by simp [exLaplace]⟩, by intro m hm; simp [exLaplace] at hm,
      by intro s hs; simp [exLaplace] at hs⟩
  refine ⟨fun _ => T, fun x => ?_⟩
  have : exLaplace.flat = fun u => matCLM T u - f := by funext u; rw [hT]; rfl
  rw [this]
  exact (matCLM T).hasFDerivAt.sub_const f

end JaxFem
