import Verif.Thm.C87_Staggered

/-!
# C87: phase-field fracture — constants, start, end of the staggered loop
-/

namespace JaxFem.Fracture

variable {nq nfq nn dim : Nat}

/-- **C87 (constants).** The moduli are those of a body with Young's modulus `E` and Poisson's ratio `nu`: under the strains
`(e, -nu e, -nu e)` the only stress is `E e` in the first direction, and the shear modulus is `E / (2 (1 + nu))`. -/
theorem C87_constants (Gc E nu l e : ℝ) (h1 : 1 + nu ≠ 0) (h2 : 1 - 2 * nu ≠ 0) :
    (material Gc E nu l).lam * (e - nu * e - nu * e) + 2 * (material Gc E nu l).mu * e = E * e
    ∧ (material Gc E nu l).lam * (e - nu * e - nu * e) + 2 * (material Gc E nu l).mu * (-nu * e) = 0
    ∧ 2 * (1 + nu) * (material Gc E nu l).mu = E ∧ (material Gc E nu l).Gc = Gc ∧ (material Gc E nu l).l = l := by
  have hl : E * nu / ((1 + nu) * (1 - 2 * nu)) * (e - nu * e - nu * e) = E * nu / (1 + nu) * e := by
    rw [show e - nu * e - nu * e = (1 - 2 * nu) * e by ring, ← div_div, ← mul_assoc, div_mul_cancel₀ _ h2]
  refine ⟨?_, ?_, ?_, rfl, rfl⟩
  · show E * nu / ((1 + nu) * (1 - 2 * nu)) * (e - nu * e - nu * e) + 2 * (E / (2 * (1 + nu))) * e = E * e
    rw [hl]
    field_simp
    ring
  · show E * nu / ((1 + nu) * (1 - 2 * nu)) * (e - nu * e - nu * e) + 2 * (E / (2 * (1 + nu))) * (-nu * e) = 0
    rw [hl]
    field_simp
    ring
  · show 2 * (1 + nu) * (E / (2 * (1 + nu))) = E
    field_simp

/-- The script (`example.py:180-183`). -/
example : (1 : ℝ) + 0.3 ≠ 0 ∧ (1 : ℝ) - 2 * 0.3 ≠ 0 := by norm_num

theorem gt_cases {tol : ℝ} {u u0 d d0 : List (List ℝ)}
    (h : (Settled tol u u0 ∧ Settled tol d d0) ∨ (arrSq u = 0 ∧ diffSq u u0 = 0) ∨ (arrSq d = 0 ∧ diffSq d d0 = 0)) :
    (fmax (relChange u u0) (relChange d d0)).gt (.fin tol) = false := by
  have nan : ∀ a b, arrSq a = 0 → diffSq a b = 0 → relChange a b = .nan := by
    intro a b h1 h2
    rw [relChange, arrNorm_sub, arrNorm_eq, h1, h2]
    simp [Flt.div]
  have sett : ∀ a b, Settled tol a b → relChange a b = .nan ∨ ∃ x, relChange a b = .fin x ∧ x ≤ tol := by
    intro a b hs
    unfold Settled at hs
    rw [relChange, arrNorm_sub, arrNorm_eq, Flt.div]
    by_cases h1 : Real.sqrt (arrSq a) = 0
    · rw [h1, mul_zero] at hs
      left
      rw [if_pos h1, if_pos (le_antisymm hs (Real.sqrt_nonneg _))]
    · right
      rw [if_neg h1]
      have hp : 0 < Real.sqrt (arrSq a) := lt_of_le_of_ne (Real.sqrt_nonneg _) (Ne.symm h1)
      exact ⟨_, rfl, (div_le_iff₀ hp).2 hs⟩
  have left_nan : ∀ b : Flt ℝ, (fmax (.nan : Flt ℝ) b).gt (.fin tol) = false := by
    intro b; simp [fmax, Flt.isNaN, Flt.gt]
  have right_nan : ∀ a : Flt ℝ, (fmax a (.nan : Flt ℝ)).gt (.fin tol) = false := by
    intro a; simp [fmax, Flt.isNaN, Flt.gt]
  rcases h with ⟨hu, hd⟩ | ⟨h1, h2⟩ | ⟨h1, h2⟩
  · rcases sett u u0 hu with e | ⟨x, e, hx⟩
    · rw [e]; exact left_nan _
    · rcases sett d d0 hd with e' | ⟨y, e', hy⟩
      · rw [e']; exact right_nan _
      · rw [e, e']
        simp only [fmax, Flt.isNaN, Flt.gt, Bool.or_self, Bool.false_eq_true, if_false]
        by_cases hxy : x < y
        · simp [hxy, hy]
        · simp [hxy, hx]
  · rw [nan u u0 h1 h2]; exact left_nan _
  · rw [nan d d0 h1 h2]; exact right_nan _

/-- **C87 (end of the staggered loop).** The loop ends after a pass exactly if neither field changed by more than the tolerance in this
pass or one of the fields is zero before and after the pass (whatever the other one did). -/
theorem C87_stops (m : Material) (eigh : Eigh dim) (M : MeshData nq nfq nn dim) (sv : Solvers nq) (tol disp : ℝ)
    (s s' : State nq) (err : Flt ℝ) (h : pass m eigh M sv disp s = .ok (s', err)) :
    inner m eigh M sv tol disp 1 s' err = some (.ok s')
      ↔ (Settled tol s'.solU s.solUOld ∧ Settled tol s'.solD s.solDOld) ∨ (arrSq s'.solU = 0 ∧ diffSq s'.solU s.solUOld = 0)
        ∨ (arrSq s'.solD = 0 ∧ diffSq s'.solD s.solDOld = 0) := by
  have he := (pass_spec h).2.2.2.2.2.2
  constructor
  · intro hi
    refine not_gt_cases ?_
    rw [← he]
    by_contra hg
    have hg' : err.gt (.fin tol) = true := by simpa using hg
    rw [inner, if_pos hg'] at hi
    cases hp : pass m eigh M sv disp s' with
    | error e => rw [hp] at hi; simp at hi
    | ok r => rw [hp] at hi; simp [inner] at hi
  · intro hc
    have := gt_cases hc
    rw [← he] at this
    rw [inner, this, if_neg (by simp)]

/-- **C87 (from rest).** In a run from the initial state the history field saved after load step `k` is the largest of zero and the
tensile energies of the displacements accepted up to then. -/
theorem C87_from_rest (m : Material) (eigh : Eigh dim) (M : MeshData nq nfq nn dim) (sv : Solvers nq) (tol : ℝ)
    (htol : tol < 1) (fuel : Nat) (disps : List ℝ) (outs : List (State nq))
    (h : loads m eigh M sv tol fuel disps (initial M) = some (.ok outs)) :
    outs.length = disps.length ∧
    ∀ (k : Nat) (o : State nq), outs[k]? = some o → ∀ (c : Nat) (hc : c < M.cells.length) (q : Fin nq),
      IsGreatest ({0} ∪ {x | ∃ j ≤ k, ∃ o', outs[j]? = some o' ∧
        x = psiPlus m eigh (strainAt M.el M.points (fieldOf dim o'.solU) M.cells[c] q)}) (o.history.getD c 0 q) := by
  obtain ⟨h1, h2⟩ := C87_history m eigh M sv tol htol fuel disps (initial M) outs (by simp [initial]) ⟨rfl, rfl⟩ h
  refine ⟨h1, fun k o hk c hc q => ?_⟩
  have := h2 k o hk c hc q
  have e : (initial M).historyOld.getD c 0 q = 0 := by
    simp [initial, List.getD_eq_getElem?_getD, hc]
  rwa [e] at this

end JaxFem.Fracture
