import Verif.Model.Mpc
import Verif.Thm.C18_Newton
import Verif.Thm.C20_NewtonLoop

/-!
# C36: multi-point constraints
-/

namespace JaxFem

universe u

/-! ### Specification -/

/-- The matrix that copies entry `sel i` of the reduced vector to entry `i` of the full vector (one 1
per row). -/
def selMat {K : Type u} [Zero K] [One K] {N M : Nat} (sel : Fin N → Fin M) : Matrix (Fin N) (Fin M) K :=
  Matrix.of fun i j => if sel i = j then 1 else 0

/-- The constrained set is closed under the pairing, with equal values. -/
def ClosedBC {K : Type u} (fes : List FE) (bcs : List (List (BCEntry K))) {N M : Nat}
    (sel : Fin N → Fin M) : Prop :=
  ∀ i i' : Fin N, sel i = sel i' → ∀ o, Prescribed fes bcs i o → Prescribed fes bcs i' o

/-! ### Helper lemmas -/

section
variable {K : Type u} [Field K] [LinearOrder K] {N M : Nat}

omit [LinearOrder K] in
theorem selMat_mulVec (sel : Fin N → Fin M) (x : Fin M → K) (i : Fin N) :
    (selMat sel).mulVec x i = x (sel i) := by
  simp [selMat, Matrix.mulVec, dotProduct]

omit [LinearOrder K] in
theorem selMat_transpose_mulVec (sel : Fin N → Fin M) (r : Fin N → K) (j : Fin M) :
    (selMat sel).transpose.mulVec r j = ∑ i, if sel i = j then r i else 0 := by
  simp [selMat, Matrix.mulVec, dotProduct, Matrix.transpose_apply]

omit [LinearOrder K] in
theorem class_sum_const [CharZero K] (sel : Fin N → Fin M) (k : Fin N) (c : K)
    (h : ∑ i, (if sel i = sel k then c else 0) = 0) : c = 0 := by
  rw [← Finset.sum_filter, Finset.sum_const, nsmul_eq_mul] at h
  rcases mul_eq_zero.1 h with h | h
  · rw [Nat.cast_eq_zero, Finset.card_eq_zero] at h
    have hk : k ∈ Finset.univ.filter fun a => sel a = sel k := Finset.mem_filter.2 ⟨Finset.mem_univ k, rfl⟩
    rw [h] at hk
    cases hk
  · exact h

end

/-! ### Property theorems -/

/-- **C36 (derivative).** For every `P`: if `tan` is the derivative of the residual, the reduced matrix
is the derivative of the reduced residual. -/
theorem C36_derivative {M : Nat} (fes : List FE) (bcs : List (List (BCEntry ℝ))) (h : WFBC fes bcs)
    (P : Matrix (Fin (totalDofs fes)) (Fin M) ℝ)
    (res : (Fin (totalDofs fes) → ℝ) → Fin (totalDofs fes) → ℝ)
    (tan : (Fin (totalDofs fes) → ℝ) → Matrix (Fin (totalDofs fes)) (Fin (totalDofs fes)) ℝ)
    (x : Fin M → ℝ) (ht : HasJacobianAt res (tan (P.mulVec x)) (P.mulVec x)) :
    HasJacobianAt (mpcResidual P fes bcs res) (mpcMatrix P fes bcs tan x) x := by
  have h1 := C17_derivative fes bcs h 1 res _ _ ht
  have h2 : HasFDerivAt (fun x => P.mulVec x) (matCLM P) x := (matCLM P).hasFDerivAt
  have h3 : ∀ y, HasFDerivAt (fun y => P.transpose.mulVec y) (matCLM P.transpose) y :=
    fun y => (matCLM P.transpose).hasFDerivAt
  have h4 := (h3 _).comp x (h1.comp x h2)
  refine (h4.congr_fderiv ?_ : _)
  ext1 v
  simp only [ContinuousLinearMap.comp_apply]
  show P.transpose.mulVec ((elimRows fes bcs (tan (P.mulVec x))).mulVec (P.mulVec v)) =
    (P.transpose * (elimRows fes bcs (tan (P.mulVec x)) * P)).mulVec v
  rw [Matrix.mulVec_mulVec, Matrix.mulVec_mulVec, Matrix.mul_assoc]

section
variable {K : Type u} [Field K] [LinearOrder K] [IsStrictOrderedRing K] {M : Nat}

omit [IsStrictOrderedRing K] in
/-- **C36 (range).** Whatever the solver does, the returned full vector is in the range of `P`; for
a selection matrix, entries with the same reduced entry are equal. -/
theorem C36_range {N : Nat} (sel : Fin N → Fin M) (fes : List FE) (bcs : List (List (BCEntry K)))
    (res : (Fin N → K) → Fin N → K) (tan : (Fin N → K) → Matrix (Fin N) (Fin N) K)
    (solve : Matrix (Fin M) (Fin M) K → (Fin M → K) → (Fin M → K) → Except Err (Fin M → K))
    (norm : (Fin M → K) → Flt K) (tol relTol : K) (ls : Bool) (guess : Option (Fin M → K))
    (fuel : Nat) (u : Fin N → K) (n : Nat)
    (hu : mpcSolve (selMat sel) fes bcs res tan solve norm tol relTol ls guess fuel = some (.ok (u, n)))
    (i i' : Fin N) (hi : sel i = sel i') : u i = u i' := by
  rw [mpcSolve] at hu
  obtain ⟨r, -, hr⟩ := Option.map_eq_some_iff.1 hu
  rcases r with e | ⟨d, n'⟩
  · cases hr
  · cases hr
    rw [selMat_mulVec, selMat_mulVec, hi]

/-- **C36 (Dirichlet values).** If the constrained set is closed under the pairing with equal values
and the linear solver is exact, then after any positive number of Newton steps the expanded vector has
the prescribed values, whatever the starting vector. -/
theorem C36_dirichlet (fes : List FE) (bcs : List (List (BCEntry K))) (h : WFBC fes bcs)
    (sel : Fin (totalDofs fes) → Fin M) (hsel : ClosedBC fes bcs sel)
    (res : (Fin (totalDofs fes) → K) → Fin (totalDofs fes) → K)
    (tan : (Fin (totalDofs fes) → K) → Matrix (Fin (totalDofs fes)) (Fin (totalDofs fes)) K)
    (solve : Matrix (Fin M) (Fin M) K → (Fin M → K) → (Fin M → K) → Except Err (Fin M → K))
    (hs : ExactSolver solve) (ls : Bool) (u0 u : Fin M → K) (n : Nat) (rA)
    (hp : NewtonPath (mpcUpdate (selMat sel) fes bcs res tan) (mpcStep (selMat sel) fes bcs solve ls)
      u0 (n + 1) u rA) : SatisfiesBC fes bcs ((selMat sel).mulVec u) := by
  cases hp with
  | next _ d _ r _ hp hstep hup =>
    have hr : mpcUpdate (selMat sel) fes bcs res tan d = .ok r := by
      cases hp with
      | start _ h => exact h
      | next _ _ _ _ _ _ _ h => exact h
    cases hr
    simp only [mpcStep] at hstep
    rcases hx : solve (mpcMatrix (selMat sel) fes bcs tan d) (-mpcResidual (selMat sel) fes bcs res d)
      (mpcX0 (selMat sel) fes bcs d) with e | inc
    · rw [hx] at hstep; cases hstep
    rw [hx] at hstep
    cases ls with
    | true => cases hstep
    | false =>
      have hu : u = d + inc := (Except.ok.inj hstep).symm
      intro k v hk
      rw [selMat_mulVec, hu, Pi.add_apply]
      have hj := congrFun (hs _ _ _ _ hx) (sel k)
      rw [Pi.neg_apply, mpcMatrix, mpcResidual, ← Matrix.mulVec_mulVec, ← Matrix.mulVec_mulVec,
        selMat_transpose_mulVec, selMat_transpose_mulVec] at hj
      have e1 : ∀ i, (if sel i = sel k then (elimRows fes bcs (tan ((selMat sel).mulVec d))).mulVec
          ((selMat sel).mulVec inc) i else 0) = if sel i = sel k then inc (sel k) else 0 := by
        intro i
        split
        · rename_i hi
          rw [(mulVec_elim fes bcs h _ _ i).2 v (hsel k i hi.symm _ hk), selMat_mulVec, hi]
        · rfl
      have e2 : ∀ i, (if sel i = sel k then applyBcV fes bcs 1 (res ((selMat sel).mulVec d))
          ((selMat sel).mulVec d) i else 0) = if sel i = sel k then d (sel k) - v else 0 := by
        intro i
        split
        · rename_i hi
          rw [(applyBcV_spec fes bcs h 1 _ _ i).2 v (hsel k i hi.symm _ hk), selMat_mulVec, hi, mul_one]
        · rfl
      rw [Finset.sum_congr rfl fun i _ => e1 i, Finset.sum_congr rfl fun i _ => e2 i,
        ← add_eq_zero_iff_eq_neg, ← Finset.sum_add_distrib] at hj
      have hz := class_sum_const sel k (inc (sel k) + (d (sel k) - v)) (by
        refine Eq.trans (Finset.sum_congr rfl fun i _ => ?_) hj
        split <;> simp)
      linear_combination hz

/-- **C36 (meaning of convergence).** If the reduced residual vanishes and the constrained set is
closed, then the prescribed values hold and for every class of free degrees of freedom the residuals
of its members sum to zero (the periodic problem). -/
theorem C36_converged (fes : List FE) (bcs : List (List (BCEntry K))) (h : WFBC fes bcs)
    (sel : Fin (totalDofs fes) → Fin M) (hsel : ClosedBC fes bcs sel)
    (res : (Fin (totalDofs fes) → K) → Fin (totalDofs fes) → K) (x : Fin M → K)
    (hx : mpcResidual (selMat sel) fes bcs res x = 0) :
    SatisfiesBC fes bcs ((selMat sel).mulVec x) ∧
      ∀ k : Fin (totalDofs fes), Prescribed fes bcs k none →
        ∑ i, (if sel i = sel k then res ((selMat sel).mulVec x) i else 0) = 0 := by
  constructor
  · intro k v hk
    have hj := congrFun hx (sel k)
    rw [mpcResidual, selMat_transpose_mulVec, Pi.zero_apply] at hj
    have e2 : ∀ i, (if sel i = sel k then applyBcV fes bcs 1 (res ((selMat sel).mulVec x))
        ((selMat sel).mulVec x) i else 0) = if sel i = sel k then x (sel k) - v else 0 := by
      intro i
      split
      · rename_i hi
        rw [(applyBcV_spec fes bcs h 1 _ _ i).2 v (hsel k i hi.symm _ hk), selMat_mulVec, hi, mul_one]
      · rfl
    rw [Finset.sum_congr rfl fun i _ => e2 i] at hj
    rw [selMat_mulVec]
    exact sub_eq_zero.1 (class_sum_const sel k _ hj)
  · intro k hk
    have hj := congrFun hx (sel k)
    rw [mpcResidual, selMat_transpose_mulVec, Pi.zero_apply] at hj
    refine Eq.trans (Finset.sum_congr rfl fun i _ => ?_) hj
    split
    · rename_i hi
      rw [(applyBcV_spec fes bcs h 1 _ _ i).1 (hsel k i hi.symm _ hk)]
    · rfl

/-- **C36 (result).** What the solver returns: a full vector that copies the entries of a reduced vector, with the
prescribed values if at least one step was made, and with a small reduced residual, the sum over each class of the
residuals of its members (the deviation from the prescribed value at constrained ones). -/
theorem C36_solution (fes : List FE) (bcs : List (List (BCEntry K))) (h : WFBC fes bcs)
    (sel : Fin (totalDofs fes) → Fin M) (hsel : ClosedBC fes bcs sel)
    (res : (Fin (totalDofs fes) → K) → Fin (totalDofs fes) → K)
    (tan : (Fin (totalDofs fes) → K) → Matrix (Fin (totalDofs fes)) (Fin (totalDofs fes)) K)
    (solve : Matrix (Fin M) (Fin M) K → (Fin M → K) → (Fin M → K) → Except Err (Fin M → K))
    (hs : ExactSolver solve) (norm : (Fin M → K) → Flt K) (hnorm : ∀ r x, norm r = .fin x → 0 ≤ x)
    (tol relTol : K) (ls : Bool) (guess : Option (Fin M → K)) (fuel : Nat)
    (u : Fin (totalDofs fes) → K) (n : Nat)
    (hu : mpcSolve (selMat sel) fes bcs res tan solve norm tol relTol ls guess fuel = some (.ok (u, n)))
    (R : (Fin (totalDofs fes) → K) → Fin (totalDofs fes) → K)
    (hR : ∀ u (k : Fin (totalDofs fes)), (Prescribed fes bcs k none → R u k = res u k) ∧
      ∀ v, Prescribed fes bcs k (some v) → R u k = u k - v) :
    (∃ x : Fin M → K, (∀ i, u i = x (sel i)) ∧ (n = 0 → x = guess.getD 0)) ∧
    (0 < n → SatisfiesBC fes bcs u) ∧
    ∃ y, norm (fun j => ∑ i, if sel i = j then R u i else 0) = .fin y ∧
      (y ≤ tol ∨ ∃ y0, norm (fun j => ∑ i, if sel i = j then R (fun i => guess.getD 0 (sel i)) i else 0) = .fin y0 ∧
        y ≤ relTol * y0) := by
  have hred : ∀ x : Fin M → K, mpcResidual (selMat sel) fes bcs res x =
      fun j => ∑ i, if sel i = j then R (fun i => x (sel i)) i else 0 := by
    intro x
    have hx : (selMat sel).mulVec x = fun i => x (sel i) := funext (selMat_mulVec sel x)
    funext j
    rw [mpcResidual, selMat_transpose_mulVec, hx]
    refine Finset.sum_congr rfl fun i _ => ?_
    split
    · obtain ⟨o, ho⟩ := prescribed_exists fes bcs h i i.2
      cases o with
      | none => rw [(applyBcV_spec fes bcs h 1 _ _ i).1 ho, (hR _ i).1 ho]
      | some v => rw [(applyBcV_spec fes bcs h 1 _ _ i).2 v ho, (hR _ i).2 v ho, mul_one]
    · rfl
  rw [mpcSolve] at hu
  obtain ⟨r, hr, hr2⟩ := Option.map_eq_some_iff.1 hu
  rcases r with e | ⟨d, n'⟩
  · cases hr2
  have e1 : (selMat sel).mulVec d = u ∧ n' = n := by
    have := Except.ok.inj hr2
    exact Prod.mk.inj this
  obtain ⟨hd, rfl⟩ := e1
  have hd2 : u = fun i => d (sel i) := hd.symm.trans (funext (selMat_mulVec sel d))
  obtain ⟨r0, r, x, h0, hp, hup, hx, -, hconv⟩ := C20_converged (hnorm := fun r x => hnorm r.1 x) (h := hr)
  cases h0
  cases hup
  refine ⟨⟨d, fun i => by rw [hd2], ?_⟩, ?_, x, ?_, ?_⟩
  · intro hn
    subst hn
    cases hp
    rfl
  · intro hn
    obtain ⟨m, rfl⟩ : ∃ m, n' = m + 1 := ⟨n' - 1, by omega⟩
    rw [← hd]
    exact C36_dirichlet fes bcs h sel hsel res tan solve hs ls _ d m _ hp
  · rw [← hx]
    dsimp only
    rw [hred, hd2]
  · rcases hconv with hc | ⟨x0, hx0, hc⟩
    · exact Or.inl hc
    · right
      refine ⟨x0, ?_, hc⟩
      rw [← hx0]
      dsimp only
      rw [hred]

omit [LinearOrder K] [IsStrictOrderedRing K] in
/-- **C36 (line search).** Line search is not available with constraints: the first step raises. -/
theorem C36_line_search {N : Nat} (P : Matrix (Fin N) (Fin M) K) (fes : List FE)
    (bcs : List (List (BCEntry K)))
    (solve : Matrix (Fin M) (Fin M) K → (Fin M → K) → (Fin M → K) → Except Err (Fin M → K))
    (rA) (d d' : Fin M → K) : mpcStep P fes bcs solve true rA d ≠ .ok d' := by
  rw [mpcStep]
  rcases solve rA.2 (-rA.1) (mpcX0 P fes bcs d) with e | x <;> intro hc <;> cases hc

end

/-! ### The closure condition is necessary

Two nodes identified with each other, only node 0 constrained to the value 1; residual `u1` at the
free node. The reduced residual vanishes at `1/2`, the prescribed value is not attained. -/

/-- Example problem. -/
def mpcExFes : List FE := [⟨2, 1, 2, [[0, 1]]⟩]

/-- Example boundary data. -/
def mpcExBcs : List (List (BCEntry ℚ)) := [[⟨[0], [0], [1]⟩]]

/-- Example boundary data closed under the pairing. -/
def mpcExBcs2 : List (List (BCEntry ℚ)) := [[⟨[0, 1], [0, 0], [1, 1]⟩]]

theorem mpcEx_wf (bcs : List (List (BCEntry ℚ))) (h : bcs = mpcExBcs ∨ bcs = mpcExBcs2) :
    WFBC mpcExFes bcs := by
  rcases h with rfl | rfl
  · refine ⟨rfl, by decide +kernel, by decide +kernel, by decide +kernel, ?_⟩
    intro i fe es h1 h2
    cases i with
    | zero => cases h1; cases h2; decide +kernel
    | succ i => cases h1
  · refine ⟨rfl, by decide +kernel, by decide +kernel, by decide +kernel, ?_⟩
    intro i fe es h1 h2
    cases i with
    | zero => cases h1; cases h2; decide +kernel
    | succ i => cases h1

/-- **C36 (not closed).** Without the closure condition a vector with zero reduced residual can violate
the Dirichlet condition. -/
theorem C36_not_closed :
    mpcResidual (N := 2) (M := 1) (selMat fun _ => 0) mpcExFes mpcExBcs (fun u i => u i) (fun _ => 1 / 2)
      = 0 ∧
    Prescribed mpcExFes mpcExBcs 0 (some 1) ∧
    (selMat (N := 2) (M := 1) fun _ => 0).mulVec (fun _ => (1 / 2 : ℚ)) 0 ≠ 1 := by
  refine ⟨?_, ?_, ?_⟩
  · funext j
    rw [mpcResidual, selMat_transpose_mulVec]
    fin_cases j
    decide +kernel
  · exact .fixed 0 0 0 ⟨2, 1, 2, [[0, 1]]⟩ [⟨[0], [0], [1]⟩] _ rfl rfl (by decide) (by decide)
      (by decide) ⟨[], _, [], rfl, ⟨0, rfl, rfl, rfl⟩, fun e he => by cases he⟩
  · rw [selMat_mulVec]
    norm_num

/-- A case meeting the hypotheses of `C36_converged`. -/
example : ClosedBC mpcExFes mpcExBcs2 (fun _ : Fin 2 => (0 : Fin 1)) ∧
    mpcResidual (N := 2) (M := 1) (selMat fun _ => 0) mpcExFes mpcExBcs2 (fun u i => u i) (fun _ => 1)
      = 0 := by
  constructor
  · have fixed : ∀ i : Fin 2, Prescribed mpcExFes mpcExBcs2 i (some 1) := by
      intro i
      fin_cases i
      · exact .fixed 0 0 0 ⟨2, 1, 2, [[0, 1]]⟩ [⟨[0, 1], [0, 0], [1, 1]⟩] _ rfl rfl (by decide) (by decide)
          (by decide) ⟨[], _, [], rfl, ⟨0, rfl, rfl, rfl⟩, fun e he => by cases he⟩
      · exact .fixed 0 1 0 ⟨2, 1, 2, [[0, 1]]⟩ [⟨[0, 1], [0, 0], [1, 1]⟩] _ rfl rfl (by decide) (by decide)
          (by decide) ⟨[], _, [], rfl, ⟨1, rfl, rfl, rfl⟩, fun e he => by cases he⟩
    intro i i' _ o ho
    have := prescribed_unique mpcExFes mpcExBcs2 (mpcEx_wf _ (Or.inr rfl)) i _ _ ho (fixed i)
    rw [this]
    exact fixed i'
  · funext j
    rw [mpcResidual, selMat_transpose_mulVec]
    fin_cases j
    decide +kernel

end JaxFem
