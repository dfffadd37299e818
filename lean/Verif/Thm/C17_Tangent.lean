import Verif.Thm.C16_BC
import Verif.Thm.C05_Tangent

/-!
# C17: the row-eliminated matrix
-/

namespace JaxFem

universe u
variable {K : Type u}

/-! ### Helper lemmas -/

theorem elimRows_apply [Zero K] [One K] {N : Nat} (fes : List FE) (bcs : List (List (BCEntry K)))
    (A : Matrix (Fin N) (Fin N) K) (r c : Fin N) :
    elimRows fes bcs A r c = if (∃ rows ∈ bcRowLists fes bcs, (r : Nat) ∈ rows) then
      (if r = c then 1 else 0) else A r c := by
  rw [elimRows]
  generalize bcRowLists fes bcs = L
  induction L generalizing A with
  | nil => simp
  | cons rows L ih =>
    rw [List.foldl_cons, ih]
    by_cases h1 : ∃ rows ∈ L, (r : Nat) ∈ rows
    · obtain ⟨rows', h2, h3⟩ := h1
      have a1 : ∃ rows ∈ L, (r : Nat) ∈ rows := ⟨rows', h2, h3⟩
      have a2 : ∃ rows' ∈ rows :: L, (r : Nat) ∈ rows' := ⟨rows', by simp [h2], h3⟩
      rw [if_pos a1, if_pos a2]
    · rw [if_neg h1]
      simp only [zeroRows, Matrix.of_apply]
      by_cases h2 : (r : Nat) ∈ rows
      · have a2 : ∃ rows' ∈ rows :: L, (r : Nat) ∈ rows' := ⟨rows, by simp, h2⟩
        rw [if_pos h2, if_pos a2]
      · rw [if_neg h2, if_neg]
        rintro ⟨rows', h3, h4⟩
        rcases List.mem_cons.1 h3 with rfl | h3
        · exact h2 h4
        · exact h1 ⟨rows', h3, h4⟩

theorem mem_bcRowLists (fes : List FE) (bcs : List (List (BCEntry K))) (h : WFBC fes bcs) (k : Nat) :
    (∃ rows ∈ bcRowLists fes bcs, k ∈ rows) ↔ ∃ v, Prescribed fes bcs k (some v) := by
  constructor
  · rintro ⟨rows, hr, hk⟩
    simp only [bcRowLists, List.mem_flatMap, List.mem_range, List.mem_map] at hr
    obtain ⟨i, hi, e, he, rfl⟩ := hr
    obtain ⟨p, hp, rfl⟩ := List.mem_map.1 hk
    have hes : bcs[i]? = some (bcs.getD i []) := by
      rw [List.getD_eq_getElem _ _ (by rw [h.len]; exact hi)]
      exact List.getElem?_eq_getElem _
    have hfe : fes[i]? = some fes[i] := List.getElem?_eq_getElem hi
    obtain ⟨v1, v2⟩ := h.valid i _ _ hfe hes e he
    have hn := v1 p.1 (List.of_mem_zip (a := p.1) (b := p.2) hp).1
    have hc := v2 p.2 (List.of_mem_zip (a := p.1) (b := p.2) hp).2
    have hrow := (C01_row_number fes i p.1 p.2 hi).1
    simp only [bcRow] at hrow
    rcases free_or_last (bcs.getD i []) p.1 p.2 with hf | ⟨v, hv⟩
    · obtain ⟨v, hv⟩ := (prescribes_of_mem e (h.entry hes e he) p.1 p.2).1 hp
      exact absurd hv (hf e he v)
    · exact ⟨v, .fixed i p.1 p.2 _ _ v hfe hes hn hc hrow hv⟩
  · rintro ⟨v, hp⟩
    cases hp with
    | fixed i n c fe es v a1 a2 a3 a4 a5 a6 =>
      obtain ⟨b, e, a, rfl, hp, -⟩ := a6
      have hi := (List.getElem?_eq_some_iff.1 a1).1
      have hrow := (C01_row_number fes i n c hi).1
      simp only [bcRow] at hrow
      refine ⟨(e.nodes.zip e.comps).map fun p =>
        p.1 * ((fes.map FE.vec).getD i 0) + p.2 + (offsets fes).getD i 0, ?_, ?_⟩
      · simp only [bcRowLists, List.mem_flatMap, List.mem_range, List.mem_map]
        exact ⟨i, hi, e, by rw [getD_some a2]; simp, rfl⟩
      · rw [List.mem_map]
        exact ⟨(n, c), (prescribes_of_mem e (h.entry a2 e (by simp)) n c).2 ⟨v, hp⟩,
          by rw [a5, ← hrow]⟩

theorem not_prescribed_of_none (fes : List FE) (bcs : List (List (BCEntry K))) (h : WFBC fes bcs)
    {k : Nat} (hp : Prescribed fes bcs k none) : ¬∃ v, Prescribed fes bcs k (some v) := by
  rintro ⟨v, hv⟩
  exact absurd (prescribed_unique fes bcs h k _ _ hp hv) (by simp)

theorem elimRows_spec [Zero K] [One K] {N : Nat} (fes : List FE) (bcs : List (List (BCEntry K)))
    (h : WFBC fes bcs) (A : Matrix (Fin N) (Fin N) K) (r c : Fin N) :
    (Prescribed fes bcs r none → elimRows fes bcs A r c = A r c) ∧
    (∀ v, Prescribed fes bcs r (some v) → elimRows fes bcs A r c = if r = c then 1 else 0) := by
  rw [elimRows_apply]
  constructor
  · intro hp
    rw [if_neg]
    rw [mem_bcRowLists fes bcs h]
    exact not_prescribed_of_none fes bcs h hp
  · intro v hp
    rw [if_pos ((mem_bcRowLists fes bcs h r).2 ⟨v, hp⟩)]

/-! Vector forms of C16. -/

theorem applyBcV_spec [Ring K] (fes : List FE) (bcs : List (List (BCEntry K))) (h : WFBC fes bcs)
    (scale : K) (r u : Fin (totalDofs fes) → K) (k : Fin (totalDofs fes)) :
    (Prescribed fes bcs k none → applyBcV fes bcs scale r u k = r k) ∧
    (∀ v, Prescribed fes bcs k (some v) → applyBcV fes bcs scale r u k = u k - v * scale) := by
  have := ((C16_residual fes bcs h scale (List.ofFn r) (List.ofFn u) (by simp) (by simp)).2 k k.2)
  have er : (List.ofFn r).getD k 0 = r k := by rw [List.getD_eq_getElem _ _ (by simp)]; simp
  have eu : (List.ofFn u).getD k 0 = u k := by rw [List.getD_eq_getElem _ _ (by simp)]; simp
  rw [er, eu] at this
  exact this

theorem assignBcV_spec [Zero K] (fes : List FE) (bcs : List (List (BCEntry K))) (h : WFBC fes bcs)
    (u : Fin (totalDofs fes) → K) (k : Fin (totalDofs fes)) :
    (Prescribed fes bcs k none → assignBcV fes bcs u k = u k) ∧
    (∀ v, Prescribed fes bcs k (some v) → assignBcV fes bcs u k = v) := by
  have := ((C16_assign fes bcs h (List.ofFn u) (by simp)).2 k k.2)
  have eu : (List.ofFn u).getD k 0 = u k := by rw [List.getD_eq_getElem _ _ (by simp)]; simp
  rw [eu] at this
  exact this

theorem assignZerosBcV_spec [Zero K] (fes : List FE) (bcs : List (List (BCEntry K)))
    (h : WFBC fes bcs) (u : Fin (totalDofs fes) → K) (k : Fin (totalDofs fes)) :
    (Prescribed fes bcs k none → assignZerosBcV fes bcs u k = u k) ∧
    (∀ v, Prescribed fes bcs k (some v) → assignZerosBcV fes bcs u k = 0) := by
  have := ((assignConst_spec 0 fes bcs h (List.ofFn u) (by simp) _ rfl).2 k k.2)
  have eu : (List.ofFn u).getD k 0 = u k := by rw [List.getD_eq_getElem _ _ (by simp)]; simp
  rw [eu] at this
  exact this

theorem copyBcV_spec [Ring K] (fes : List FE) (bcs : List (List (BCEntry K))) (h : WFBC fes bcs)
    (u : Fin (totalDofs fes) → K) (k : Fin (totalDofs fes)) :
    (Prescribed fes bcs k none → copyBcV fes bcs u k = 0) ∧
    (∀ v, Prescribed fes bcs k (some v) → copyBcV fes bcs u k = u k) := by
  have := ((C16_copy fes bcs h (List.ofFn u) (by simp)).2 k k.2)
  have eu : (List.ofFn u).getD k 0 = u k := by rw [List.getD_eq_getElem _ _ (by simp)]; simp
  rw [eu] at this
  exact this

/-! ### Property theorems -/

/-- **C17 (rows).** The matrix of `get_A` has rows of the identity at constrained degrees of freedom
and the summed triplets elsewhere. -/
theorem C17_rows [Ring K] (fes : List FE) (bs : List BoundaryInds) (V : List K)
    (bcs : List (List (BCEntry K))) (h : WFBC fes bcs) (r c : Fin (totalDofs fes)) :
    (Prescribed fes bcs r none →
      tangentMat (totalDofs fes) fes bs V bcs r c = cooEntry (cooI fes bs) (cooJ fes bs) V r c) ∧
    (∀ v, Prescribed fes bcs r (some v) →
      tangentMat (totalDofs fes) fes bs V bcs r c = if r = c then 1 else 0) :=
  elimRows_spec fes bcs h _ r c

/-- **C17 (derivative, any residual).** If `A` is the derivative of the unconstrained residual `R` at
`x`, the row-eliminated matrix is the derivative of the residual with boundary conditions at `x`,
for every load factor `scale`. -/
theorem C17_derivative (fes : List FE) (bcs : List (List (BCEntry ℝ))) (h : WFBC fes bcs)
    (scale : ℝ) (R : (Fin (totalDofs fes) → ℝ) → Fin (totalDofs fes) → ℝ)
    (A : Matrix (Fin (totalDofs fes)) (Fin (totalDofs fes)) ℝ) (x : Fin (totalDofs fes) → ℝ)
    (hA : HasJacobianAt R A x) :
    HasJacobianAt (fun u => applyBcV fes bcs scale (R u) u) (elimRows fes bcs A) x := by
  unfold HasJacobianAt at hA ⊢
  rw [hasFDerivAt_pi'] at hA ⊢
  intro k
  obtain ⟨o, ho⟩ := prescribed_exists fes bcs h k k.2
  cases o with
  | none =>
    have e : (fun u => applyBcV fes bcs scale (R u) u k) = fun u => R u k := by
      funext u
      exact (applyBcV_spec fes bcs h scale (R u) u k).1 ho
    rw [e]
    refine (hA k).congr_fderiv ?_
    ext1 v
    simp only [ContinuousLinearMap.comp_apply, ContinuousLinearMap.proj_apply, matCLM_apply]
    refine Finset.sum_congr rfl fun j _ => ?_
    rw [(elimRows_spec fes bcs h A k j).1 ho]
  | some w =>
    have e : (fun u => applyBcV fes bcs scale (R u) u k) = fun u => u k - w * scale := by
      funext u
      exact (applyBcV_spec fes bcs h scale (R u) u k).2 w ho
    rw [e]
    have hd : HasFDerivAt (fun u : Fin (totalDofs fes) → ℝ => u k - w * scale)
        (ContinuousLinearMap.proj (R := ℝ) (φ := fun _ : Fin (totalDofs fes) => ℝ) k) x :=
      ((ContinuousLinearMap.proj (R := ℝ) (φ := fun _ : Fin (totalDofs fes) => ℝ) k).hasFDerivAt
        (x := x)).sub_const (w * scale)
    refine hd.congr_fderiv ?_
    ext1 v
    simp only [ContinuousLinearMap.comp_apply, ContinuousLinearMap.proj_apply, matCLM_apply]
    rw [Finset.sum_eq_single k]
    · rw [(elimRows_spec fes bcs h A k k).2 w ho]; simp
    · intro j _ hj
      rw [(elimRows_spec fes bcs h A k j).2 w ho, if_neg (Ne.symm hj), zero_mul]
    · intro hk; exact absurd (Finset.mem_univ _) hk

/-- **C17.** For a problem whose kernels return the Jacobians of their values, `newton_update`
followed by `get_A` gives the derivative of the flattened residual with boundary conditions. -/
theorem C17_tangent {D F : Type} (fes : List FE) (bs : List BoundaryInds)
    (kernelJac : List ℝ → D → List ℝ × List (List ℝ)) (data : List D)
    (ks : List (List ℝ → F → List ℝ × List (List ℝ))) (dss : List (List F))
    (wf : WFArgs fes bs data ks dss)
    (hk : JacOk fes (cellTerms kernelJac data ++ faceTerms bs ks dss))
    (bcs : List (List (BCEntry ℝ))) (h : WFBC fes bcs) (scale : ℝ)
    (x : Fin (totalDofs fes) → ℝ)
    (hjac : ∀ t ∈ cellTerms kernelJac data ++ faceTerms bs ks dss,
      ∀ s : Fin (localSize fes) → ℝ,
        IsLocal fes (unravelSol (solShapes fes) (List.ofFn x)) t.1 (List.ofFn s) →
        HasJacobianAt (fun s' (p : Fin (localSize fes)) => (t.2 (List.ofFn s')).1.getD p 0)
          (Matrix.of fun p q : Fin (localSize fes) => ((t.2 (List.ofFn s)).2.getD p []).getD q 0) s) :
    ∃ R V, computeNewton fes bs kernelJac data ks dss
        (unravelSol (solShapes fes) (List.ofFn x)) = .ok (R, V) ∧
      HasJacobianAt (fun u => applyBcV fes bcs scale (flatResidual fes bs
          (fun s d => (kernelJac s d).1) data (ks.map fun k s d => (k s d).1) dss u) u)
        (tangentMat (totalDofs fes) fes bs V bcs) x := by
  obtain ⟨R, V, h1, -, h3⟩ := C05_tangent_is_derivative fes bs kernelJac data ks dss wf hk x hjac
  exact ⟨R, V, h1, C17_derivative fes bcs h scale _ _ x h3⟩

/-! Concrete case for the hypotheses: `exBcFes`, `exBcs` of C16 (8 degrees of freedom, 4 of them
constrained, one twice); the rows of a full matrix of twos. -/

example : (elimRows (N := 8) exBcFes exBcs (Matrix.of fun _ _ => 2)) 2 = ![0, 0, 1, 0, 0, 0, 0, 0] ∧
    (elimRows (N := 8) exBcFes exBcs (Matrix.of fun _ _ => 2)) 3 = ![2, 2, 2, 2, 2, 2, 2, 2] := by
  decide

end JaxFem
