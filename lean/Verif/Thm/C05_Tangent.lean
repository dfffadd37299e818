import Verif.Thm.FlatAssembly
import Verif.Spec.Deriv
import Mathlib.Analysis.Calculus.FDeriv.Add
import Mathlib.Analysis.Calculus.FDeriv.Mul
import Mathlib.Analysis.Calculus.FDeriv.Pi
import Mathlib.Analysis.Calculus.FDeriv.Comp
import Mathlib.Analysis.Calculus.FDeriv.Linear

/-!
# C05: the assembled tangent is the derivative of the assembled residual
-/

namespace JaxFem

universe v
variable {D : Type v} {F : Type v}

/-! ### Helper lemmas -/

theorem matCLM_apply {m n : Type*} [Fintype m] [Fintype n] (A : Matrix m n ℝ) (v : n → ℝ) (i : m) :
    matCLM A v i = ∑ j, A i j * v j := by
  simp [matCLM, Matrix.mulVec, dotProduct]

theorem list_sum_hasFDerivAt {α E G : Type*} [NormedAddCommGroup E] [NormedSpace ℝ E]
    [NormedAddCommGroup G] [NormedSpace ℝ G] (T : List α) (f : α → E → G) (f' : α → E →L[ℝ] G)
    (x : E) (h : ∀ t ∈ T, HasFDerivAt (f t) (f' t) x) :
    HasFDerivAt (fun y => (T.map fun t => f t y).sum) (T.map f').sum x := by
  induction T with
  | nil => simpa using hasFDerivAt_const (0 : G) x
  | cons t T ih =>
    simp only [List.map_cons, List.sum_cons]
    exact (h t (by simp)).add (ih fun t' ht' => h t' (by simp [ht']))

theorem list_sum_clm_apply {α E G : Type*} [NormedAddCommGroup E] [NormedSpace ℝ E]
    [NormedAddCommGroup G] [NormedSpace ℝ G] (T : List α) (f' : α → E →L[ℝ] G) (v : E) :
    (T.map f').sum v = (T.map fun t => f' t v).sum := by
  induction T with
  | nil => simp
  | cons t T ih => simp [ih]

theorem ofFn_getD {n : Nat} (x : Fin n → ℝ) (k : Fin n) : (List.ofFn x).getD k 0 = x k := by
  rw [List.getD_eq_getElem _ _ (by simp)]; simp

/-- A chain rule for a sum of local functions of gathered entries. -/
theorem vecSum_hasFDerivAt {N m : Nat} (g : Nat → Nat → Nat)
    (T : List (Nat × (List ℝ → List ℝ × List (List ℝ))))
    (hg : ∀ t ∈ T, ∀ p < m, g t.1 p < N) (x : Fin N → ℝ)
    (y : (t : Nat × (List ℝ → List ℝ × List (List ℝ))) → (Fin N → ℝ) → (Fin m → ℝ))
    (hy : ∀ t (ht : t ∈ T) z p, y t z p = z ⟨g t.1 p, hg t ht p p.2⟩)
    (hT : ∀ t ∈ T, HasJacobianAt (fun (s : Fin m → ℝ) (p : Fin m) => (t.2 (List.ofFn s)).1.getD p 0)
      (Matrix.of fun p q => ((t.2 (List.ofFn (y t x))).2.getD p []).getD q 0) (y t x)) (k : Nat) :
    HasFDerivAt (fun z => vecSum m g (T.map fun t => (t.1, (t.2 (List.ofFn (y t z))).1)) k)
      (∑ l : Fin N, (matSum m g (T.map fun t => (t.1, (t.2 (List.ofFn (y t x))).2)) k l) •
        ContinuousLinearMap.proj (R := ℝ) (φ := fun _ : Fin N => ℝ) l) x := by
  -- the gather map of a term, as a continuous linear map
  let G : (t : Nat × (List ℝ → List ℝ × List (List ℝ))) → (Fin N → ℝ) →L[ℝ] (Fin m → ℝ) := fun t =>
    ContinuousLinearMap.pi fun p =>
      if h : g t.1 p < N then ContinuousLinearMap.proj (R := ℝ) (φ := fun _ : Fin N => ℝ) ⟨g t.1 p, h⟩
      else 0
  have hG : ∀ t ∈ T, y t = G t := by
    intro t ht; funext z p
    rw [hy t ht z p]
    simp [G, hg t ht p p.2]
  -- derivative of one term
  let d : (t : Nat × (List ℝ → List ℝ × List (List ℝ))) → (Fin N → ℝ) →L[ℝ] ℝ := fun t =>
    ∑ p : Fin m, if g t.1 p = k then (ContinuousLinearMap.proj (R := ℝ) (φ := fun _ : Fin m => ℝ) p).comp
      ((matCLM (Matrix.of fun p q : Fin m => ((t.2 (List.ofFn (y t x))).2.getD p []).getD q 0)).comp (G t))
      else 0
  have h1 : ∀ t ∈ T, HasFDerivAt (fun z => ∑ p ∈ Finset.range m,
      if g t.1 p = k then (t.2 (List.ofFn (y t z))).1.getD p 0 else 0) (d t) x := by
    intro t ht
    have hyd : HasFDerivAt (y t) (G t) x := by rw [hG t ht]; exact (G t).hasFDerivAt
    have hc := HasFDerivAt.comp x (hT t ht) hyd
    simp only [Finset.sum_range]
    have := HasFDerivAt.fun_sum (u := Finset.univ) (x := x)
      (A := fun (p : Fin m) z => if g t.1 p = k then (t.2 (List.ofFn (y t z))).1.getD p 0 else 0)
      (A' := fun p => if g t.1 p = k then
        (ContinuousLinearMap.proj (R := ℝ) (φ := fun _ : Fin m => ℝ) p).comp
      ((matCLM (Matrix.of fun p q : Fin m => ((t.2 (List.ofFn (y t x))).2.getD p []).getD q 0)).comp (G t))
      else 0) (fun p _ => by
        by_cases h : g t.1 p = k
        · simp only [if_pos h]
          exact (hasFDerivAt_pi'.1 hc) p
        · simp only [if_neg h]
          exact hasFDerivAt_const 0 x)
    exact this
  have h2 := list_sum_hasFDerivAt T (fun t z => ∑ p ∈ Finset.range m,
      if g t.1 p = k then (t.2 (List.ofFn (y t z))).1.getD p 0 else 0) d x h1
  have hf : (fun z => vecSum m g (T.map fun t => (t.1, (t.2 (List.ofFn (y t z))).1)) k)
      = fun z => (T.map fun t => ∑ p ∈ Finset.range m,
      if g t.1 p = k then (t.2 (List.ofFn (y t z))).1.getD p 0 else 0).sum := by
    funext z
    simp [vecSum, Function.comp_def]
  rw [hf]
  refine h2.congr_fderiv (Eq.symm ?_)
  ext1 v
  rw [list_sum_clm_apply]
  simp only [sum_apply, smul_apply,
    ContinuousLinearMap.proj_apply, smul_eq_mul, matSum, List.map_map]
  -- exchange the sums
  have e1 : ∀ l : Fin N, ((T.map ((fun t : Nat × List (List ℝ) => ∑ p ∈ Finset.range m,
        ∑ q ∈ Finset.range m, if g t.1 p = k ∧ g t.1 q = ↑l then (t.2.getD p []).getD q 0 else 0) ∘
        fun t => (t.1, (t.2 (List.ofFn (y t x))).2)))).sum * v l
      = (T.map fun t => ∑ p ∈ Finset.range m, ∑ q ∈ Finset.range m,
          (if g t.1 p = k ∧ g t.1 q = ↑l then
            ((t.2 (List.ofFn (y t x))).2.getD p []).getD q 0 * v l else 0)).sum := by
    intro l
    rw [← List.sum_map_mul_right]
    congr 1
    refine List.map_congr_left fun t _ => ?_
    simp only [Function.comp_apply, Finset.sum_mul, ite_mul, zero_mul]
  simp only [e1]
  have e2 : ∀ (T : List (Nat × (List ℝ → List ℝ × List (List ℝ)))) (f : Fin N → _ → ℝ),
      (∑ l : Fin N, (T.map fun t => f l t).sum) = (T.map fun t => ∑ l : Fin N, f l t).sum := by
    intro T f
    induction T with
    | nil => simp
    | cons t T ih => simp [Finset.sum_add_distrib, ih]
  rw [e2]
  congr 1
  refine List.map_congr_left fun t ht => ?_
  simp only [d, sum_apply]
  rw [Finset.sum_comm, Finset.sum_range]
  refine Finset.sum_congr rfl fun p _ => ?_
  by_cases h : g t.1 p = k
  · simp only [h, true_and, if_true]
    simp only [ContinuousLinearMap.comp_apply, ContinuousLinearMap.proj_apply, matCLM_apply,
      Matrix.of_apply]
    rw [Finset.sum_comm, Finset.sum_range]
    refine Finset.sum_congr rfl fun q _ => ?_
    have hq := hg t ht q q.2
    have : G t v q = v ⟨g t.1 q, hq⟩ := by simp [G, hq]
    rw [this, Finset.sum_eq_single (⟨g t.1 q, hq⟩ : Fin N)]
    · simp
    · intro b _ hb
      refine if_neg fun h' => hb (Fin.ext h'.symm)
    · intro hb; exact absurd (Finset.mem_univ _) hb
  · simp [h]

/-! ### Property theorems -/

/-- The flattened residual as a function of the flattened solution (what Newton's method drives to
zero): unflatten, assemble, flatten.  If the assembly raises the value is irrelevant; the theorem
below shows that it does not. -/
noncomputable def flatResidual (fes : List FE) (bs : List BoundaryInds)
    (kernel : List ℝ → D → List ℝ) (data : List D) (ks : List (List ℝ → F → List ℝ))
    (dss : List (List F)) (x : Fin (totalDofs fes) → ℝ) : Fin (totalDofs fes) → ℝ := fun k =>
  match computeResidual fes bs kernel data ks dss (unravelSol (solShapes fes) (List.ofFn x)) with
  | .ok R => (ravelSol R).getD k 0
  | .error _ => 0

/-- **C05.** If at the current state every cell kernel and every face kernel returns, together with
its value, the Jacobian matrix of that value with respect to the cell's local solution, then the
matrix described by the triplets is the Jacobian matrix of the flattened global residual. -/
theorem C05_tangent_is_derivative (fes : List FE) (bs : List BoundaryInds)
    (kernelJac : List ℝ → D → List ℝ × List (List ℝ)) (data : List D)
    (ks : List (List ℝ → F → List ℝ × List (List ℝ))) (dss : List (List F))
    (wf : WFArgs fes bs data ks dss)
    (hk : JacOk fes (cellTerms kernelJac data ++ faceTerms bs ks dss))
    (x : Fin (totalDofs fes) → ℝ)
    (hjac : ∀ t ∈ cellTerms kernelJac data ++ faceTerms bs ks dss,
      ∀ s : Fin (localSize fes) → ℝ,
        IsLocal fes (unravelSol (solShapes fes) (List.ofFn x)) t.1 (List.ofFn s) →
        HasJacobianAt (fun s' (p : Fin (localSize fes)) => (t.2 (List.ofFn s')).1.getD p 0)
          (Matrix.of fun p q : Fin (localSize fes) => ((t.2 (List.ofFn s)).2.getD p []).getD q 0) s) :
    ∃ R V, computeNewton fes bs kernelJac data ks dss
        (unravelSol (solShapes fes) (List.ofFn x)) = .ok (R, V) ∧
      (∀ k : Fin (totalDofs fes), flatResidual fes bs (fun s d => (kernelJac s d).1) data
        (ks.map fun k s d => (k s d).1) dss x k = (ravelSol R).getD k 0) ∧
      HasJacobianAt (flatResidual fes bs (fun s d => (kernelJac s d).1) data
          (ks.map fun k s d => (k s d).1) dss)
        (Matrix.of fun r c : Fin (totalDofs fes) => cooEntry (cooI fes bs) (cooJ fes bs) V r c) x := by
  set T := cellTerms kernelJac data ++ faceTerms bs ks dss with hT
  let g : Nat → Nat → Nat := fun e p => (cellInds fes e).getD p 0
  have hg : IsGlobal fes g := isGlobal_cellInds fes wf.mesh
  have hND : numDofs fes = totalDofs fes := by rw [numDofs_eq, totalDofs_eq]
  have hgl : ∀ t ∈ T, ∀ p < localSize fes, g t.1 p < totalDofs fes := fun t ht p hp => by
    have := hg.lt wf.mesh (wf.term_lt t ht) hp
    omega
  have hsh : ∀ z : Fin (totalDofs fes) → ℝ,
      HasShapes (solShapes fes) (unravelSol (solShapes fes) (List.ofFn z)) := fun z =>
    unravelSol_hasShapes _ _ (by simp [totalDofs_eq])
  have hrav : ∀ z : Fin (totalDofs fes) → ℝ,
      ravelSol (unravelSol (solShapes fes) (List.ofFn z)) = List.ofFn z := fun z =>
    ravelSol_unravelSol _ _ (by simp [totalDofs_eq])
  let y : (t : Nat × (List ℝ → List ℝ × List (List ℝ))) → (Fin (totalDofs fes) → ℝ) →
      (Fin (localSize fes) → ℝ) := fun t z p =>
    (cellSolFlat fes (unravelSol (solShapes fes) (List.ofFn z)) t.1).getD p 0
  have hy : ∀ t (ht : t ∈ T) z p, y t z p = z ⟨g t.1 p, hgl t ht p p.2⟩ := by
    intro t ht z p
    simp only [y]
    rw [cellSolFlat_flat fes wf.mesh _ (hsh z) g hg (wf.term_lt t ht) p.2, hrav]
    exact ofFn_getD z ⟨g t.1 p, hgl t ht p p.2⟩
  have hyl : ∀ t ∈ T, ∀ z, List.ofFn (y t z)
      = cellSolFlat fes (unravelSol (solShapes fes) (List.ofFn z)) t.1 := by
    intro t ht z
    have hlen := (isLocal_cellSolFlat fes wf.mesh _ (hsh z) t.1 (wf.term_lt t ht)).1
    refine List.ext_getElem (by simp [hlen]) fun k h1 h2 => ?_
    simp only [List.getElem_ofFn, y]
    rw [List.getD_eq_getElem _ _ h2]
  -- value kernels
  have hval : (cellTerms (fun s d => (kernelJac s d).1) data ++
      faceTerms bs (ks.map fun k s d => (k s d).1) dss) = T.map fun t => (t.1, fun s => (t.2 s).1) := by
    rw [hT, List.map_append]
    congr 1
    · exact List.ext_getElem (by simp [cellTerms]) fun j h1 h2 => by simp [cellTerms]
    · clear hT wf hk hjac hgl hy hyl y T
      induction bs generalizing ks dss with
      | nil => simp [faceTerms]
      | cons b bs ih =>
        cases ks with
        | nil => simp [faceTerms]
        | cons k ks =>
          cases dss with
          | nil => simp [faceTerms]
          | cons ds dss =>
            simp only [List.map_cons, faceTerms, List.map_append, ih ks dss, List.map_zipWith]
  have wf' : WFArgs fes bs data (ks.map fun k s d => (k s d).1) dss :=
    ⟨wf.mesh, wf.cells, wf.boundary, wf.data, by simpa using wf.kernels, wf.faces, wf.face⟩
  have hkv : KernelOk fes (cellTerms (fun s d => (kernelJac s d).1) data ++
      faceTerms bs (ks.map fun k s d => (k s d).1) dss) := by
    rw [hval]
    intro t ht s hs
    obtain ⟨t0, ht0, rfl⟩ := List.mem_map.1 ht
    exact (hk t0 ht0 s hs).1
  -- the residual function
  have hres : ∀ z k, flatResidual fes bs (fun s d => (kernelJac s d).1) data
        (ks.map fun k s d => (k s d).1) dss z k
      = vecSum (localSize fes) g (T.map fun t => (t.1, (t.2 (List.ofFn (y t z))).1)) k := by
    intro z k
    obtain ⟨R, r1, -, r3⟩ := residual_flat fes bs (fun s d => (kernelJac s d).1) data
      (ks.map fun k s d => (k s d).1) dss wf' hkv _ (hsh z) _
      (isLocal_cellSolFlat fes wf.mesh _ (hsh z)) g hg
    simp only [flatResidual, r1]
    rw [r3 k k.2, hval, List.map_map]
    congr 1
    refine List.map_congr_left fun t ht => ?_
    simp only [Function.comp_apply]
    rw [hyl t ht z]
  obtain ⟨R, V, n1, n2, -, -, -, -, n3⟩ := C04_triplets fes bs kernelJac data ks dss wf hk _ (hsh x) _
    (isLocal_cellSolFlat fes wf.mesh _ (hsh x)) g hg
  refine ⟨R, V, n1, fun k => by simp only [flatResidual, n2], ?_⟩
  refine hasFDerivAt_pi'.2 fun k => ?_
  have hfun : (fun z => flatResidual fes bs (fun s d => (kernelJac s d).1) data
        (ks.map fun k s d => (k s d).1) dss z k)
      = fun z => vecSum (localSize fes) g (T.map fun t => (t.1, (t.2 (List.ofFn (y t z))).1)) k :=
    funext fun z => hres z k
  rw [hfun]
  have key := vecSum_hasFDerivAt g T hgl x y hy (fun t ht => hjac t ht (y t x) (by
    rw [hyl t ht x]
    exact isLocal_cellSolFlat fes wf.mesh _ (hsh x) t.1 (wf.term_lt t ht))) k
  refine key.congr_fderiv (Eq.symm ?_)
  ext1 v
  simp only [ContinuousLinearMap.comp_apply, ContinuousLinearMap.proj_apply, matCLM_apply,
    Matrix.of_apply, sum_apply, smul_apply, smul_eq_mul]
  refine Finset.sum_congr rfl fun l _ => ?_
  rw [n3 k l]
  congr 2
  refine List.map_congr_left fun t ht => ?_
  rw [hyl t ht x]

/-! Non-vacuity: on the two-cell mesh, the nonlinear kernel "square every entry" with its diagonal
Jacobian meets the hypotheses at every state, with a face term of the same kind. -/

/-- Kernel squaring every local entry, with its Jacobian. -/
noncomputable def sqKernel (s : List ℝ) (_ : Unit) : List ℝ × List (List ℝ) :=
  (s.map (· ^ 2), (List.range s.length).map fun p =>
    (List.range s.length).map fun q => if p = q then 2 * s.getD p 0 else 0)

example : JacOk exFes (cellTerms sqKernel [(), ()] ++ faceTerms [[(1, 0)]] [sqKernel] [[()]]) := by
  intro t ht s hs
  simp [cellTerms, faceTerms] at ht
  rcases ht with rfl | rfl | rfl <;> simp [sqKernel, hs]

example : ∀ t ∈ cellTerms sqKernel [(), ()] ++ faceTerms [[(1, 0)]] [sqKernel] [[()]],
    ∀ s : Fin (localSize exFes) → ℝ,
      HasJacobianAt (fun s' (p : Fin (localSize exFes)) => (t.2 (List.ofFn s')).1.getD p 0)
        (Matrix.of fun p q : Fin (localSize exFes) => ((t.2 (List.ofFn s)).2.getD p []).getD q 0) s := by
  have key : ∀ s : Fin (localSize exFes) → ℝ,
      HasJacobianAt (fun s' (p : Fin (localSize exFes)) => (sqKernel (List.ofFn s') ()).1.getD p 0)
        (Matrix.of fun p q : Fin (localSize exFes) =>
          ((sqKernel (List.ofFn s) ()).2.getD p []).getD q 0) s := by
    intro s
    have e1 : (fun s' (p : Fin (localSize exFes)) => (sqKernel (List.ofFn s') ()).1.getD p 0)
        = fun (s' : Fin (localSize exFes) → ℝ) p => s' p * s' p := by
      funext s' p
      simp [sqKernel, pow_two]
    rw [e1, HasJacobianAt]
    refine hasFDerivAt_pi'.2 fun p => ?_
    have h := (ContinuousLinearMap.proj (R := ℝ) (φ := fun _ : Fin (localSize exFes) => ℝ)
      p).hasFDerivAt (x := s)
    refine (h.mul h).congr_fderiv ?_
    ext1 v
    have e2 : ∀ q : Fin (localSize exFes), ((sqKernel (List.ofFn s) ()).2.getD p []).getD q 0
        = if p = q then 2 * s p else 0 := by
      intro q
      simp [sqKernel, Fin.ext_iff]
    simp only [ContinuousLinearMap.comp_apply, ContinuousLinearMap.proj_apply, matCLM_apply,
      Matrix.of_apply, e2]
    simp
    ring
  intro t ht s
  simp [cellTerms, faceTerms] at ht
  rcases ht with rfl | rfl | rfl <;> exact key s

end JaxFem
