import Verif.Thm.C106_Problem

/-!
# C106: computing gradients: the backward pass with boundary values that depend on the parameters
-/

namespace JaxFem.Gradients

open scoped BigOperators Topology

section

variable {E : Type} [NormedAddCommGroup E] [NormedSpace ℝ E] {fes : List FE}

local notation "V" => Fin (totalDofs fes) → ℝ

/-! ### Helper lemmas -/

/-- Boundary conditions whose values depend on the parameters: `val k` is the value at degree of freedom `k`, if there is
one. -/
structure Values (fes : List FE) (bcs : E → List (List (BCEntry ℝ))) (val : Fin (totalDofs fes) → Option (E →L[ℝ] ℝ)) : Prop where
  wf : ∀ p, WFBC fes (bcs p)
  spec : ∀ p (k : Fin (totalDofs fes)), Prescribed fes (bcs p) k ((val k).map fun v => v p)

variable {bcs : E → List (List (BCEntry ℝ))} {val : Fin (totalDofs fes) → Option (E →L[ℝ] ℝ)}

theorem Values.row (hv : Values fes bcs val) (res : E → V → V) (u : V) (p : E) (k : Fin (totalDofs fes)) :
    constraintFn fes bcs res u p k = match val k with
      | none => res p u k
      | some v => u k - v p := by
  have h1 := hv.spec p k
  have h2 := applyBcV_spec fes (bcs p) (hv.wf p) 1 (res p u) u k
  rcases hval : val k with _ | v
  · rw [hval] at h1
    exact h2.1 h1
  · rw [hval] at h1
    exact (h2.2 _ h1).trans (by rw [mul_one])

theorem Values.contDiff (hv : Values fes bcs val) (res : E → V → V) (u : V) (p : E)
    (h : ContDiffAt ℝ 1 (fun up : V × E => res up.2 up.1) (u, p)) :
    ContDiffAt ℝ 1 (fun up : V × E => constraintFn fes bcs res up.1 up.2) (u, p) := by
  rw [contDiffAt_pi]
  intro k
  simp only [hv.row]
  rcases val k with _ | v
  · exact contDiffAt_pi.1 h k
  · refine ContDiffAt.sub ?_ (v.contDiff.contDiffAt.comp (u, p) contDiffAt_snd)
    exact ((contDiff_apply ℝ ℝ k).comp contDiff_fst).contDiffAt

theorem Values.deriv (hv : Values fes bcs val) (res : E → V → V) (u : V) (p : E)
    (hr : DifferentiableAt ℝ (fun p => res p u) p) (l : V) (d : E) :
    (-jaxVjp (fun p => constraintFn fes bcs res u p) p l) d
      = ∑ k, l k * (match val k with
        | none => -fderiv ℝ (fun p => res p u k) p d
        | some v => v d) := by
  have hrow : ∀ k, HasFDerivAt (fun p => constraintFn fes bcs res u p k) (match val k with
      | none => fderiv ℝ (fun p => res p u k) p
      | some v => -v) p := by
    intro k
    simp only [hv.row]
    rcases val k with _ | v
    · exact (differentiableAt_pi.1 hr k).hasFDerivAt
    · exact v.hasFDerivAt.const_sub (u k)
  have hall := hasFDerivAt_pi.2 hrow
  show -dotProduct l (fderiv ℝ (fun p => constraintFn fes bcs res u p) p d) = _
  rw [hall.fderiv, dotProduct, ← Finset.sum_neg_distrib]
  refine Finset.sum_congr rfl fun k _ => ?_
  rw [← mul_neg]
  congr 1
  show -((match val k with
      | none => fderiv ℝ (fun p => res p u k) p
      | some v => -v) d) = _
  rcases val k with _ | v
  · rfl
  · show -(-v d) = v d
    rw [neg_neg]

/-- The adjoint system, split into an adjoint displacement `w` and the reactions at the constrained degrees of freedom. -/
theorem Values.adjoint (hv : Values fes bcs val) (p : E) (A : Matrix (Fin (totalDofs fes)) (Fin (totalDofs fes)) ℝ) (l b : V)
    (hl : (elimRows fes (bcs p) A).transpose.mulVec l = b) :
    let w : V := fun k => if val k = none then l k else 0
    ∀ k, (val k = none → ∑ r, A r k * w r = b k) ∧ (val k ≠ none → l k = b k - ∑ r, A r k * w r) := by
  intro w k
  have h1 : ∀ r c, elimRows fes (bcs p) A r c = if val r = none then A r c else if r = c then 1 else 0 := by
    intro r c
    have h2 := hv.spec p r
    rcases hval : val r with _ | v
    · rw [hval] at h2
      rw [if_pos rfl]
      exact (elimRows_spec fes (bcs p) (hv.wf p) A r c).1 h2
    · rw [hval] at h2
      rw [if_neg (by simp)]
      exact (elimRows_spec fes (bcs p) (hv.wf p) A r c).2 _ h2
  have h3 := congrFun hl k
  have h4 : (elimRows fes (bcs p) A).transpose.mulVec l k
      = ∑ r, A r k * w r + if val k = none then 0 else l k := by
    rw [Matrix.mulVec, dotProduct]
    have h5 : (if val k = none then 0 else l k) = ∑ r, if r = k then (if val k = none then 0 else l k) else 0 := by
      simp
    rw [h5, ← Finset.sum_add_distrib]
    refine Finset.sum_congr rfl fun r _ => ?_
    rw [Matrix.transpose_apply, h1]
    show _ = A r k * (if val r = none then l r else 0) + _
    by_cases hr : val r = none
    · rw [if_pos hr, if_pos hr]
      by_cases hrk : r = k
      · rw [if_pos hrk, if_pos (by rw [← hrk]; exact hr), add_zero]
      · rw [if_neg hrk, add_zero]
    · rw [if_neg hr, if_neg hr, mul_zero, zero_add]
      by_cases hrk : r = k
      · subst hrk
        rw [if_pos rfl, if_pos rfl, if_neg hr, one_mul]
      · rw [if_neg hrk, if_neg hrk, zero_mul]
  rw [h4] at h3
  constructor
  · intro hk
    rw [if_pos hk, add_zero] at h3
    exact h3
  · intro hk
    rw [if_neg hk] at h3
    linarith

end

end JaxFem.Gradients
