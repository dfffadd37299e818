import Verif.Thm.C05_Tangent
import Verif.Thm.C79_Dendrite
import Mathlib.Analysis.Calculus.FDeriv.Const
import Mathlib.Analysis.Calculus.Deriv.Comp
import Mathlib.Analysis.Calculus.Deriv.Prod
import Mathlib.Analysis.Calculus.Deriv.Mul

/-!
# Row sums of an assembled linear problem
-/

namespace JaxFem

theorem tested_single {dim : Nat} (vars : List (CVar dim)) (R : List (List (List ℝ))) (i : Nat)
    (hi : i < vars.length) (n : Nat) (hn : n < vars[i].numTotalNodes) (c : Nat) (hc : c < vars[i].vec) :
    tested vars R (fun i' n' c' => if i' = i ∧ n' = n ∧ c' = c then 1 else 0) = at3 R i n c := by
  rw [tested, Finset.sum_eq_single ⟨i, hi⟩, Finset.sum_eq_single n, Finset.sum_eq_single c]
  · simp
  · intro c' _ h'
    simp [h']
  · intro h'
    exact absurd (Finset.mem_range.2 hc) h'
  · intro n' _ h'
    exact Finset.sum_eq_zero fun c' _ => by simp [h']
  · intro h'
    exact absurd (Finset.mem_range.2 hn) h'
  · intro i' _ h'
    have : (i' : Nat) ≠ i := fun e => h' (Fin.ext e)
    exact Finset.sum_eq_zero fun n' _ => Finset.sum_eq_zero fun c' _ => by simp [this]
  · intro h'
    exact absurd (Finset.mem_univ _) h'

namespace Dendrite

theorem jacfwd_getD (f : List ℝ → List ℝ) (n : Nat) (x : List ℝ) (h : x.length = n) (p : Nat)
    (hp : p < (f x).length) (q : Fin n) :
    ((jacfwd f x).getD p []).getD q 0
      = fderiv ℝ (fun s : Fin n → ℝ => (f (List.ofFn s)).getD p 0) (fun i => x.getD i 0) (Pi.single q 1) := by
  subst h
  rw [jacfwd, List.getD_eq_getElem (n := p) _ _ (by simpa using hp),
    List.getD_eq_getElem _ _ (by simp)]
  simp

theorem jacfwd_hasJacobian (f : List ℝ → List ℝ) (n : Nat) (hf : ∀ x, (f x).length = n) (s : Fin n → ℝ)
    (hd : ∀ p, DifferentiableAt ℝ (fun s : Fin n → ℝ => (f (List.ofFn s)).getD p 0) s) :
    HasJacobianAt (fun s' (p : Fin n) => (f (List.ofFn s')).getD p 0)
      (Matrix.of fun p q : Fin n => ((jacfwd f (List.ofFn s)).getD p []).getD q 0) s := by
  refine hasFDerivAt_pi'.2 fun p => ?_
  refine (hd p).hasFDerivAt.congr_fderiv ?_
  ext1 v
  rw [ContinuousLinearMap.comp_apply, ContinuousLinearMap.proj_apply, matCLM_apply]
  have hs : (fun i : Fin n => (List.ofFn s).getD i 0) = s := by
    funext i
    exact ofFn_getD s i
  have : ∀ q : Fin n, Matrix.of (fun p q : Fin n => ((jacfwd f (List.ofFn s)).getD p []).getD q 0) p q
      = fderiv ℝ (fun s : Fin n → ℝ => (f (List.ofFn s)).getD p 0) s (Pi.single q 1) := by
    intro q
    rw [Matrix.of_apply, jacfwd_getD f n _ (by simp) p (by rw [hf]; exact p.2), hs]
  simp only [this]
  conv_lhs => rw [← Finset.univ_sum_single v]
  rw [map_sum]
  refine Finset.sum_congr rfl fun q _ => ?_
  rw [show (Pi.single q (v q) : Fin n → ℝ) = v q • Pi.single q 1 by
    rw [← Pi.single_smul', smul_eq_mul, mul_one], map_smul, smul_eq_mul, mul_comm]

theorem differentiableAt_ofFn {n : Nat} (k : Nat) (s : Fin n → ℝ) :
    DifferentiableAt ℝ (fun s : Fin n → ℝ => (List.ofFn s).getD k 0) s := by
  by_cases h : k < n
  · have : (fun s : Fin n → ℝ => (List.ofFn s).getD k 0) = fun s => s ⟨k, h⟩ := by
      funext s
      exact ofFn_getD s ⟨k, h⟩
    rw [this]
    fun_prop
  · have : (fun s : Fin n → ℝ => (List.ofFn s).getD k 0) = fun _ => 0 := by
      funext s
      exact List.getD_eq_default _ _ (by simpa using h)
    rw [this]
    fun_prop

theorem differentiableAt_valOp (fes : List FE) (i : Nat) (hi : i < fes.length) (h0 : 0 < fes[i].vec)
    (N : Nat → Nat → ℝ) (q : Nat) (s : Fin (localSize fes) → ℝ) :
    DifferentiableAt ℝ (fun s : Fin (localSize fes) → ℝ =>
      valOp fes[i].numNodes ((unravelSol (cellShapes fes) (List.ofFn s)).getD i []) N q 0) s := by
  simp only [valOp]
  refine DifferentiableAt.fun_sum fun a ha => ?_
  have e1 := cellShapes_getD fes i hi
  have : (fun s : Fin (localSize fes) → ℝ =>
      at2 ((unravelSol (cellShapes fes) (List.ofFn s)).getD i []) a 0 * N q a)
      = fun s => (List.ofFn s).getD
        (blockStart (cellShapes fes) i + (((cellShapes fes).getD i (0, 0)).2 * a + 0)) 0 * N q a := by
    funext s
    rw [at2, unravelSol_getD _ _ (by simp [localSize_eq]) i a 0 0 (by simpa [cellShapes] using hi)
      (by rw [e1]; exact Finset.mem_range.1 ha) (by rw [e1]; exact h0)]
  rw [this]
  exact (differentiableAt_ofFn _ s).mul_const _

theorem ravel_two (v w : CVar 2) (F G : Nat → Nat → ℝ) (i : Nat) (hi : i < 2) (a c : Nat)
    (ha : a < ([v, w][i]).nn) (hc : c < ([v, w][i]).vec) :
    (ravelSol [mk2 v.nn v.vec F, mk2 w.nn w.vec G]).getD (localPos ([v, w].map CVar.fe) i a c) 0
      = if i = 0 then F a c else G a c := by
  have hs := hasShapes_two v w F G
  have hi' : i < ([v, w].map CVar.fe).length := by simpa using hi
  have e1 := cellShapes_getD ([v, w].map CVar.fe) i hi'
  have e2 : ([v, w].map CVar.fe)[i] = ([v, w][i]).fe := List.getElem_map ..
  rw [localPos_eq _ i a c hi']
  have := ravelSol_getD hs i a c 0 (by simpa [cellShapes] using hi) (by rw [e1, e2]; exact ha)
    (by rw [e1, e2]; exact hc)
  rw [e1] at this
  refine this.trans ?_
  match i, hi with
  | 0, _ =>
    rw [if_pos rfl]
    exact at2_mk2 v.nn v.vec F a c ha hc
  | 1, _ =>
    rw [if_neg (by decide)]
    exact at2_mk2 w.nn w.vec G a c ha hc

theorem massKernel_differentiable (m : Params) (vp vT : CVar 2) (hp1 : vp.vec = 1) (hT1 : vT.vec = 1)
    (d : PackedCell 2) (p : Nat) (s : Fin (localSize ([vp, vT].map CVar.fe)) → ℝ) :
    DifferentiableAt ℝ (fun s : Fin (localSize ([vp, vT].map CVar.fe)) → ℝ =>
      (massKernel m vp vT (List.ofFn s) d).getD p 0) s := by
  by_cases hp : p < localSize ([vp, vT].map CVar.fe)
  · obtain ⟨i, a, c, hi, ha, hc, rfl⟩ := exists_localPos _ p hp
    have hi2 : i < 2 := by simpa using hi
    have e2 : ([vp, vT].map CVar.fe)[i] = ([vp, vT][i]).fe := List.getElem_map ..
    rw [e2] at ha hc
    simp only [massKernel, ravel_two vp vT _ _ i hi2 a c ha hc]
    by_cases h0 : i = 0
    · simp only [if_pos h0, srcOp]
      refine DifferentiableAt.fun_sum fun q _ => ?_
      have := differentiableAt_valOp ([vp, vT].map CVar.fe) 0 (by simp)
        (by change 0 < vp.vec; omega) vp.shapeVals q s
      exact (((this.const_mul _).mul_const _).mul_const _).mul_const _
    · simp only [if_neg h0, srcOp]
      refine DifferentiableAt.fun_sum fun q _ => ?_
      have := differentiableAt_valOp ([vp, vT].map CVar.fe) 1 (by simp)
        (by change 0 < vT.vec; omega) vT.shapeVals q s
      exact ((this.mul_const _).mul_const _).mul_const _
  · have : (fun s : Fin (localSize ([vp, vT].map CVar.fe)) → ℝ =>
        (massKernel m vp vT (List.ofFn s) d).getD p 0) = fun _ => 0 := by
      funext s
      refine List.getD_eq_default _ _ ?_
      have : (massKernel m vp vT (List.ofFn s) d).length = localSize ([vp, vT].map CVar.fe) :=
        ravelSol_length (hasShapes_two vp vT _ _)
      omega
    rw [this]
    fun_prop

theorem mass_wf (vp vT : CVar 2) (hw : WFVars [vp, vT]) {β : Type} :
    WFArgs (K := ℝ) (β := β) (F := Unit) ([vp, vT].map CVar.fe) []
      (((List.range vp.cells.length).map fun e => packedCell [vp, vT] vp.nq (vp.quadPoint e) e).zip
        (List.replicate vp.cells.length ())) [] [] :=
  { mesh := hw.mesh
    cells := hw.pos vp (by simp)
    boundary := by intro b hb; simp at hb
    data := by simp [numCells, CVar.fe]
    kernels := rfl
    faces := rfl
    face := by intro j hj; simp at hj }

theorem valueAt_nodal {dim : Nat} (v : CVar dim) (hv : v.WF) (u w : Nat → Nat → ℝ) (e q c : Nat)
    (he : e < v.cells.length) (h : ∀ n < v.numTotalNodes, u n c = w n c) :
    v.valueAt u e q c = v.valueAt w e q c := by
  refine Finset.sum_congr rfl fun a _ => ?_
  have hc := hv (v.cells.getD e []) (by rw [List.getD_eq_getElem _ _ he]; exact List.getElem_mem he)
  rw [h _ ?_]
  refine hc.2 _ ?_
  rw [CVar.node, List.getD_eq_getElem (n := (a : Nat)) _ _ (by rw [hc.1]; exact a.2)]
  exact List.getElem_mem _

theorem total_shape {dim : Nat} (v : CVar dim) (f : Nat → Nat → ℝ) (k : ℝ) (n : Nat)
    (hf : ∀ e < v.cells.length, ∀ q < v.nq, f e q = k) :
    v.integral (fun e q => f e q * v.valueAt (fun n' _ => if n' = n then 1 else 0) e q 0)
      = k * v.nodeArea n := by
  rw [CVar.nodeArea, CVar.total, ← v.integral_smul]
  exact v.integral_congr fun e he q hq => by rw [hf e he q hq]

/-- The mass residual of the constant state `t`. -/
theorem mass_constant (m : Params) (vp vT : CVar 2) (hw : WFVars [vp, vT]) (hp1 : vp.vec = 1)
    (hT1 : vT.vec = 1) (hup : vp.Unity) (huT : vT.Unity) (t : ℝ) :
    ∃ R, coupledResidual [vp, vT] (fun x d (_ : Unit) => massKernel m vp vT x d)
        (List.replicate vp.cells.length ())
        (unravelSol (solShapes ([vp, vT].map CVar.fe))
          (List.ofFn fun _ : Fin (totalDofs ([vp, vT].map CVar.fe)) => t)) = .ok R ∧
      HasShapes (solShapes ([vp, vT].map CVar.fe)) R ∧
      (∀ n < vp.numTotalNodes, at3 R 0 n 0 = t * (m.tau / m.dt * vp.nodeArea n)) ∧
      (∀ n < vT.numTotalNodes, at3 R 1 n 0 = t * (1 / m.dt * vT.nodeArea n)) := by
  set fes := [vp, vT].map CVar.fe with hfes
  have hl : (List.ofFn fun _ : Fin (totalDofs fes) => t).length = totalSize (solShapes fes) := by
    rw [List.length_ofFn, totalDofs_eq]
  have hs := unravelSol_hasShapes (solShapes fes) _ hl
  have hval : ∀ i (hi : i < fes.length) n, n < fes[i].numTotalNodes → ∀ c, c < fes[i].vec →
      fieldAt (unravelSol (solShapes fes) (List.ofFn fun _ : Fin (totalDofs fes) => t)) i n c = t := by
    intro i hi n hn c hc
    rw [fieldAt, ← ravelSol_dofNum fes _ hs hi hn hc, ravelSol_unravelSol _ _ hl]
    have hlt : dofNum fes i n c < totalDofs fes := by
      have := C01_in_range fes hi hn hc
      rw [(C01_row_number fes i n c hi).1, numDofs_eq, ← totalDofs_eq] at this
      exact this
    exact ofFn_getD (fun _ : Fin (totalDofs fes) => t) ⟨_, hlt⟩
  have hvp : ∀ e < vp.cells.length, ∀ q < vp.nq, vp.valueAt (fieldAt (unravelSol (solShapes fes)
      (List.ofFn fun _ : Fin (totalDofs fes) => t)) 0) e q 0 = t := by
    intro e he q hq
    rw [valueAt_nodal vp (hw.wf vp (by simp)) _ (fun _ _ => t) e q 0 he (fun n hn =>
      hval 0 (by simp [hfes]) n hn 0 (by change 0 < vp.vec; omega))]
    exact hup.valueAt_const vp t e q 0 hq
  have hvT : ∀ e < vT.cells.length, ∀ q < vT.nq, vT.valueAt (fieldAt (unravelSol (solShapes fes)
      (List.ofFn fun _ : Fin (totalDofs fes) => t)) 1) e q 0 = t := by
    intro e he q hq
    rw [valueAt_nodal vT (hw.wf vT (by simp)) _ (fun _ _ => t) e q 0 he (fun n hn =>
      hval 1 (by simp [hfes]) n hn 0 (by change 0 < vT.vec; omega))]
    exact huT.valueAt_const vT t e q 0 hq
  obtain ⟨R, r1, r2, r3⟩ := mass_weak_form m vp vT hw hp1 hT1 _ hs
  refine ⟨R, r1, r2, fun n hn => ?_, fun n hn => ?_⟩
  · rw [← tested_single [vp, vT] R 0 (by simp) n hn 0 (by change 0 < vp.vec; omega), r3]
    have e1 : vT.integral (fun e q => vT.valueAt (fieldAt (unravelSol (solShapes fes)
        (List.ofFn fun _ : Fin (totalDofs fes) => t)) 1) e q 0 / m.dt
        * vT.valueAt (fun n' c' => if 1 = 0 ∧ n' = n ∧ c' = 0 then 1 else 0) e q 0) = 0 :=
      Finset.sum_eq_zero fun e _ => Finset.sum_eq_zero fun q _ => by simp [CVar.valueAt]
    refine (congrArg (_ + ·) e1).trans ((add_zero _).trans ?_)
    rw [← mul_assoc, ← total_shape vp (fun _ _ => t * (m.tau / m.dt)) _ n (fun _ _ _ _ => rfl)]
    refine vp.integral_congr fun e he q hq => ?_
    rw [hvp e he q hq]
    simp only [CVar.valueAt, true_and, and_true]
    ring
  · rw [← tested_single [vp, vT] R 1 (by simp) n hn 0 (by change 0 < vT.vec; omega), r3]
    have e1 : vp.integral (fun e q => m.tau * vp.valueAt (fieldAt (unravelSol (solShapes fes)
        (List.ofFn fun _ : Fin (totalDofs fes) => t)) 0) e q 0 / m.dt
        * vp.valueAt (fun n' c' => if 0 = 1 ∧ n' = n ∧ c' = 0 then 1 else 0) e q 0) = 0 :=
      Finset.sum_eq_zero fun e _ => Finset.sum_eq_zero fun q _ => by simp [CVar.valueAt]
    refine (congrArg (· + _) e1).trans ((zero_add _).trans ?_)
    rw [← mul_assoc, ← total_shape vT (fun _ _ => t * (1 / m.dt)) _ n (fun _ _ _ _ => rfl)]
    refine vT.integral_congr fun e he q hq => ?_
    rw [hvT e he q hq]
    simp only [CVar.valueAt, true_and, and_true]
    ring

/-- **C79 (lumped mass).** The row sums are the areas attached to the nodes, times `τ/dt` for the phase
and `1/dt` for the temperature. -/
theorem C79_lumped_mass (m : Params) (vp vT : CVar 2) (hw : WFVars [vp, vT]) (hp1 : vp.vec = 1)
    (hT1 : vT.vec = 1) (hup : vp.Unity) (huT : vT.Unity) :
    ∃ M, getMass m vp vT = .ok M ∧ M.length = totalDofs ([vp, vT].map CVar.fe) ∧
      (∀ n < vp.numTotalNodes, M.getD (dofNum ([vp, vT].map CVar.fe) 0 n 0) 0
        = m.tau / m.dt * vp.nodeArea n) ∧
      (∀ n < vT.numTotalNodes, M.getD (dofNum ([vp, vT].map CVar.fe) 1 n 0) 0
        = 1 / m.dt * vT.nodeArea n) := by
  set fes := [vp, vT].map CVar.fe with hfes
  set kj : List ℝ → PackedCell 2 × Unit → List ℝ × List (List ℝ) := fun x d =>
    (massKernel m vp vT x d.1, jacfwd (fun y => massKernel m vp vT y d.1) x) with hkj
  set data := ((List.range vp.cells.length).map fun e => packedCell [vp, vT] vp.nq (vp.quadPoint e) e).zip
        (List.replicate vp.cells.length ()) with hdata
  have hlen : ∀ x d, (massKernel m vp vT x d).length = localSize fes := fun x d =>
    ravelSol_length (hasShapes_two vp vT _ _)
  have hND : numDofs fes = totalDofs fes := by rw [numDofs_eq, totalDofs_eq]
  have hterm : ∀ t ∈ cellTerms kj data ++ faceTerms (F := Unit) [] [] [], ∃ d, t.2 = fun s => kj s d := by
    intro t ht
    simp only [faceTerms, List.append_nil] at ht
    obtain ⟨j, hj, rfl⟩ := List.mem_iff_getElem.1 ht
    simp only [cellTerms, List.getElem_mapIdx]
    exact ⟨_, rfl⟩
  obtain ⟨R, V, n1, -, n3⟩ := C05_tangent_is_derivative fes [] kj data [] [] (mass_wf vp vT hw)
    (by
      intro t ht s hs
      obtain ⟨d, hd⟩ := hterm t ht
      rw [hd]
      refine ⟨hlen _ _, by simp [hkj, jacfwd, hlen], fun r hr => ?_⟩
      simp only [hkj, jacfwd, List.mem_map] at hr
      obtain ⟨_, _, rfl⟩ := hr
      simp [hs])
    (fun _ => 0)
    (by
      intro t ht s _
      obtain ⟨d, hd⟩ := hterm t ht
      rw [hd]
      exact jacfwd_hasJacobian (fun y => massKernel m vp vT y d.1) _ (fun x => hlen x _) s
        (fun p => massKernel_differentiable m vp vT hp1 hT1 d.1 p s))
  have hz : List.ofFn (fun _ : Fin (totalDofs fes) => (0 : ℝ)) = List.replicate (numDofs fes) 0 := by
    rw [hND, List.ofFn_const]
  rw [hz] at n1
  refine ⟨(List.range (numDofs fes)).map fun r => ((List.range (numDofs fes)).map fun c =>
    cooEntry (cooI fes []) (cooJ fes []) V r c).sum, ?_, by simp [hND], ?_⟩
  · rw [getMass, pack_ok [vp, vT] hw (by simp)]
    have n1' : computeNewton (F := Unit) ([vp, vT].map CVar.fe) []
      (fun x (d : PackedCell 2 × Unit) =>
        (massKernel m vp vT x d.1, jacfwd (fun y => massKernel m vp vT y d.1) x))
      (((List.range [vp, vT][0].cells.length).map fun e =>
        packedCell [vp, vT] [vp, vT][0].nq ([vp, vT][0].quadPoint e) e).zip
        (List.replicate vp.cells.length ())) [] []
      (unravelSol (solShapes ([vp, vT].map CVar.fe)) (List.replicate (numDofs ([vp, vT].map CVar.fe)) 0))
        = .ok (R, V) := n1
    simp only [bind, Except.bind, n1']
    rfl
  -- derivative along the constant direction
  have hrow : ∀ (k : Fin (totalDofs fes)) (ck : ℝ),
      (∀ t : ℝ, flatResidual fes [] (fun s d => (kj s d).1) data
        (([] : List (List ℝ → Unit → List ℝ × List (List ℝ))).map fun k s d => (k s d).1) [] (fun _ => t) k
        = t * ck) →
      ((List.range (numDofs fes)).map fun r => ((List.range (numDofs fes)).map fun c =>
        cooEntry (cooI fes []) (cooJ fes []) V r c).sum).getD k 0 = ck := by
    intro k ck hk
    have h1 := hasFDerivAt_pi'.1 n3 k
    have h2 : HasDerivAt (fun t : ℝ => (fun _ : Fin (totalDofs fes) => t)) (fun _ => 1) 0 :=
      hasDerivAt_pi.2 fun _ => hasDerivAt_id 0
    have h3 := HasFDerivAt.comp_hasDerivAt (0 : ℝ) h1 h2
    have h4 : HasDerivAt (fun t : ℝ => t * ck) ck 0 := by
      simpa using (hasDerivAt_id (0 : ℝ)).mul_const ck
    have h5 : ((fun x : Fin (totalDofs fes) → ℝ => flatResidual fes [] (fun s d => (kj s d).1) data
        (([] : List (List ℝ → Unit → List ℝ × List (List ℝ))).map fun k s d => (k s d).1) [] x k)
        ∘ fun t : ℝ => (fun _ : Fin (totalDofs fes) => t)) = fun t : ℝ => t * ck := by
      funext t
      exact hk t
    rw [h5] at h3
    have h6 := h3.unique h4
    rw [ContinuousLinearMap.comp_apply, ContinuousLinearMap.proj_apply, matCLM_apply] at h6
    rw [← h6, List.getD_eq_getElem _ _ (by simp [hND]), List.getElem_map, List.getElem_range, hND]
    rw [list_sum_range, Finset.sum_range]
    simp
  have hflat : ∀ t : ℝ, ∃ R, computeResidual (F := Unit) fes [] (fun s d => (kj s d).1) data [] []
      (unravelSol (solShapes fes) (List.ofFn fun _ : Fin (totalDofs fes) => t)) = .ok R ∧
      HasShapes (solShapes fes) R ∧
      (∀ n < vp.numTotalNodes, at3 R 0 n 0 = t * (m.tau / m.dt * vp.nodeArea n)) ∧
      (∀ n < vT.numTotalNodes, at3 R 1 n 0 = t * (1 / m.dt * vT.nodeArea n)) := by
    intro t
    obtain ⟨R, r1, r2⟩ := mass_constant m vp vT hw hp1 hT1 hup huT t
    rw [coupledResidual, pack_ok [vp, vT] hw (by simp)] at r1
    exact ⟨R, r1, r2⟩
  have hdof : ∀ i (hi : i < fes.length) n, n < fes[i].numTotalNodes → 0 < fes[i].vec →
      dofNum fes i n 0 < totalDofs fes := by
    intro i hi n hn hc
    have := C01_in_range fes hi hn hc
    rwa [(C01_row_number fes i n 0 hi).1, hND] at this
  constructor
  · intro n hn
    have h0 : 0 < vp.vec := by omega
    refine hrow ⟨_, hdof 0 (by simp [hfes]) n hn h0⟩ _ fun t => ?_
    obtain ⟨R, r1, r2, r3, -⟩ := hflat t
    simp only [flatResidual, List.map_nil, r1]
    rw [ravelSol_dofNum fes R r2 (by simp [hfes]) hn h0]
    exact r3 n hn
  · intro n hn
    have h0 : 0 < vT.vec := by omega
    refine hrow ⟨_, hdof 1 (by simp [hfes]) n hn h0⟩ _ fun t => ?_
    obtain ⟨R, r1, r2, -, r3⟩ := hflat t
    simp only [flatResidual, List.map_nil, r1]
    rw [ravelSol_dofNum fes R r2 (by simp [hfes]) hn h0]
    exact r3 n hn

end Dendrite

end JaxFem
