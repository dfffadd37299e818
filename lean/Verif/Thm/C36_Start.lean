import Verif.Thm.C36_Mpc

/-!
# C36: start vector of the linear solver with constraints
-/

namespace JaxFem

open scoped BigOperators

variable {K : Type} [Field K] {M : Nat}

/-- **C36 (start vector).** With constraints the linear solver of every Newton step is started with a vector that is zero in free
classes and, in constrained classes, the deviation from the prescribed value times the number of members of the class. -/
theorem C36_start (fes : List FE) (bcs : List (List (BCEntry K))) (h : WFBC fes bcs)
    (sel : Fin (totalDofs fes) → Fin M) (hsel : ClosedBC fes bcs sel)
    (solve : Matrix (Fin M) (Fin M) K → (Fin M → K) → (Fin M → K) → Except Err (Fin M → K))
    (rA : (Fin M → K) × Matrix (Fin M) (Fin M) K) (d : Fin M → K) :
    ∃ x0 : Fin M → K, mpcStep (selMat sel) fes bcs solve false rA d = (solve rA.2 (-rA.1) x0).map (fun inc => d + inc) ∧
      ∀ k : Fin (totalDofs fes), (Prescribed fes bcs k none → x0 (sel k) = 0) ∧
        ∀ v, Prescribed fes bcs k (some v) →
          x0 (sel k) = ((Finset.univ.filter fun i => sel i = sel k).card : K) * (v - d (sel k)) := by
  refine ⟨mpcX0 (selMat sel) fes bcs d, ?_, fun k => ⟨fun hk => ?_, fun v hk => ?_⟩⟩
  · unfold mpcStep
    cases solve rA.2 (-rA.1) (mpcX0 (selMat sel) fes bcs d) <;> rfl
  · rw [mpcX0, selMat_transpose_mulVec]
    refine Finset.sum_eq_zero fun i _ => ?_
    split_ifs with hi
    · have hp := hsel k i hi.symm none hk
      rw [Pi.sub_apply, (assignBcV_spec fes bcs h 0 i).1 hp, (copyBcV_spec fes bcs h _ i).1 hp]
      simp
    · rfl
  · rw [mpcX0, selMat_transpose_mulVec]
    have e : ∀ i, (if sel i = sel k then (assignBcV fes bcs 0 - copyBcV fes bcs ((selMat sel).mulVec d) : Fin (totalDofs fes) → K) i else 0)
        = if sel i = sel k then v - d (sel k) else 0 := by
      intro i
      split_ifs with hi
      · have hp := hsel k i hi.symm (some v) hk
        rw [Pi.sub_apply, (assignBcV_spec fes bcs h 0 i).2 v hp, (copyBcV_spec fes bcs h _ i).2 v hp, selMat_mulVec, hi]
      · rfl
    rw [Finset.sum_congr rfl fun i _ => e i, ← Finset.sum_filter, Finset.sum_const, nsmul_eq_mul]

/-- **C36 (wrong start).** So the remark "x0 will always be correct at boundary locations" fails: if a constrained degree of freedom is
identified with another one, and its value is not yet attained, then adding the start vector does not give the prescribed value. -/
theorem C36_start_wrong [CharZero K] (fes : List FE) (bcs : List (List (BCEntry K))) (h : WFBC fes bcs)
    (sel : Fin (totalDofs fes) → Fin M) (hsel : ClosedBC fes bcs sel) (d : Fin M → K) (k k' : Fin (totalDofs fes)) (hne : k ≠ k')
    (hk : sel k = sel k') (v : K) (hv : Prescribed fes bcs k (some v)) (hd : d (sel k) ≠ v) :
    ∃ x0 : Fin M → K, (∀ (solve : Matrix (Fin M) (Fin M) K → (Fin M → K) → (Fin M → K) → Except Err (Fin M → K)) rA,
        mpcStep (selMat sel) fes bcs solve false rA d = (solve rA.2 (-rA.1) x0).map (fun inc => d + inc)) ∧
      (d + x0) (sel k) ≠ v := by
  obtain ⟨x0, h1, h2⟩ := C36_start fes bcs h sel hsel (fun _ _ x => .ok x) (0, 0) d
  have hx : x0 = mpcX0 (selMat sel) fes bcs d := by
    have : (Except.ok (d + mpcX0 (selMat sel) fes bcs d) : Except Err (Fin M → K)) = .ok (d + x0) := h1
    exact (add_left_cancel (Except.ok.inj this)).symm
  refine ⟨x0, fun solve rA => ?_, ?_⟩
  · rw [hx]
    unfold mpcStep
    cases solve rA.2 (-rA.1) (mpcX0 (selMat sel) fes bcs d) <;> rfl
  · rw [Pi.add_apply, (h2 k).2 v hv]
    intro he
    have hcard : 2 ≤ (Finset.univ.filter fun i => sel i = sel k).card := by
      have : ({k, k'} : Finset (Fin (totalDofs fes))) ⊆ Finset.univ.filter fun i => sel i = sel k := by
        intro i hi
        rcases Finset.mem_insert.1 hi with rfl | hi
        · simp
        · rw [Finset.mem_singleton.1 hi]
          simp [hk]
      simpa [Finset.card_pair hne] using Finset.card_le_card this
    have h0 : (((Finset.univ.filter fun i => sel i = sel k).card : K) - 1) * (v - d (sel k)) = 0 := by linear_combination he
    rcases mul_eq_zero.1 h0 with h3 | h3
    · have : ((Finset.univ.filter fun i => sel i = sel k).card : K) = 1 := by linear_combination h3
      rw [Nat.cast_eq_one] at this
      omega
    · exact hd (by linear_combination -h3)

/-- Two identified nodes with the prescribed value 1: from zero, the start vector is 2. -/
example : mpcX0 (N := 2) (M := 1) (selMat fun _ => 0) mpcExFes mpcExBcs2 0 0 = 2 := by
  rw [mpcX0, selMat_transpose_mulVec]
  decide +kernel

end JaxFem
