import Verif.Thm.C111_Drivers

/-!
# C111: the two load programs
-/

namespace JaxFem
namespace FinitePlasticity

open scoped BigOperators

variable {nq nfq nn : Nat}

section

variable (m : Mat) (numTotalNodes : Nat) (points : List (Fin 3 → ℝ)) (cells : List (List Nat)) (el : RefElement ℝ nq nn 3)
  (fc : RefFaces ℝ nfq nn 3)

local notation "𝒫" => problem m numTotalNodes points cells el fc

/-! ### Helper lemmas -/

theorem simulate_steps (info : ℝ → UserBC.Info (Fin 3 → ℝ) ℝ) (num : Numerics (𝒫).cells.length nq (totalDofs (𝒫).fes))
    (fuel : Nat) (ss : List ℝ) (u : Fin (totalDofs (𝒫).fes) → ℝ) (vars : Vars (𝒫).cells.length nq)
    (l : List (Step (𝒫).cells.length nq (totalDofs (𝒫).fes))) (hl : simulate m 𝒫 info num fuel ss u vars = some (.ok l)) :
    l.length = ss.length ∧ ∀ (i : Nat) s st, ss[i]? = some s → l[i]? = some st →
      loadStep m 𝒫 info num fuel (stateBefore l u vars i).1 (stateBefore l u vars i).2 s = some (.ok st) := by
  induction ss generalizing u vars l with
  | nil =>
    cases hl
    exact ⟨rfl, fun i s st h => by simp at h⟩
  | cons s ss ih =>
    rw [simulate] at hl
    split at hl
    · cases hl
    · cases hl
    · rename_i st hst
      split at hl
      · cases hl
      · cases hl
      · rename_i l' hl'
        cases hl
        obtain ⟨h1, h2⟩ := ih st.sol st.vars l' hl'
        refine ⟨by simp [h1], ?_⟩
        intro i s' st' hs' hst'
        cases i with
        | zero =>
          simp only [List.getElem?_cons_zero, Option.some.injEq] at hs' hst'
          subst hs' hst'
          exact hst
        | succ i =>
          rw [List.getElem?_cons_succ] at hs' hst'
          have := h2 i s' st' hs' hst'
          have e : stateBefore (st :: l') u vars (i + 1) = stateBefore l' st.sol st.vars i := by
            cases i with
            | zero => rfl
            | succ j =>
              rw [stateBefore, stateBefore, List.getElem?_cons_succ]
              have hj : j < l'.length := by
                have := (List.getElem?_eq_some_iff.1 hst').1
                omega
              rw [List.getElem?_eq_getElem hj]
          rw [e]
          exact this

/-! ### Property theorems -/

/-- **C111 (load program).** The loads of `scales` rise from zero to the amplitude in equal parts, the amplitude is applied
twice in a row, and they go back to zero. -/
theorem C111_scales (a : ℝ) (k : Nat) (hk : 2 ≤ k) :
    (scales a k).length = 2 * k ∧
    (∀ i < k, (scales a k)[i]? = some (a * (i / (k - 1))) ∧ (scales a k)[2 * k - 1 - i]? = some (a * (i / (k - 1)))) ∧
    (scales a k)[k - 1]? = some a ∧ (scales a k)[k]? = some a ∧ (scales a k)[0]? = some 0 ∧
    (scales a k)[2 * k - 1]? = some 0 := by
  have hk1 : (k : ℝ) - 1 ≠ 0 := by
    have : (2 : ℝ) ≤ k := by exact_mod_cast hk
    intro h
    linarith
  have e1 : ∀ i < k, (scales a k)[i]? = some (a * (i / (k - 1))) := by
    intro i hi
    have h1 : i < (linspaceAB 0 1 k).length := by simpa [linspaceAB] using hi
    rw [scales, List.getElem?_map, List.getElem?_append_left h1, linspaceAB, List.getElem?_map, List.getElem?_range hi]
    simp only [Option.map_some, Option.some.injEq]
    ring
  have e2 : ∀ i < k, (scales a k)[2 * k - 1 - i]? = some (a * (i / (k - 1))) := by
    intro i hi
    have h0 : (linspaceAB 0 1 k).length = k := by simp [linspaceAB]
    rw [scales, List.getElem?_map, List.getElem?_append_right (by rw [h0]; omega), h0]
    have h2 : 2 * k - 1 - i - k = k - 1 - i := by omega
    rw [h2, linspaceAB, List.getElem?_map, List.getElem?_range (by omega)]
    simp only [Option.map_some, Option.some.injEq]
    have h3 : ((k - 1 - i : ℕ) : ℝ) = k - 1 - i := by
      rw [Nat.cast_sub (by omega), Nat.cast_sub (by omega)]
      simp
    rw [h3]
    field_simp
    ring
  have hc : ((k - 1 : ℕ) : ℝ) = k - 1 := by
    rw [Nat.cast_sub (by omega)]
    simp
  refine ⟨by simp [scales, linspaceAB]; omega, fun i hi => ⟨e1 i hi, e2 i hi⟩, ?_, ?_, ?_, ?_⟩
  · rw [e1 (k - 1) (by omega), hc, div_self hk1, mul_one]
  · have := e2 (k - 1) (by omega)
    rw [hc, div_self hk1, mul_one] at this
    rwa [show 2 * k - 1 - (k - 1) = k by omega] at this
  · rw [e1 0 (by omega)]
    simp
  · have := e2 0 (by omega)
    simpa using this

/-- **C111 (history).** As long as no quadrature point is turned inside out, after every step of a run the internal
variables are good, the stored deformation is that of the solution, and the plastic strain at every quadrature point (hence
the printed maximum) never decreases from step to step. -/
theorem C111_history (hm : m.Ok) (info : ℝ → UserBC.Info (Fin 3 → ℝ) ℝ)
    (num : Numerics (𝒫).cells.length nq (totalDofs (𝒫).fes)) (fuel : Nat) (ss : List ℝ)
    (l : List (Step (𝒫).cells.length nq (totalDofs (𝒫).fes)))
    (hl : simulate m 𝒫 info num fuel ss 0 (initVars (𝒫).cells.length) = some (.ok l))
    (hu : ∀ st ∈ l, Upright 𝒫 st.sol) :
    l.length = ss.length ∧ (∀ st ∈ l, ∀ c q, Good (st.vars c q) ∧ (st.vars c q).F = defAt 𝒫 st.sol c q) ∧
    ∀ (i j : Nat) a b, i ≤ j → l[i]? = some a → l[j]? = some b → ∀ c q, (a.vars c q).alpha ≤ (b.vars c q).alpha := by
  obtain ⟨h1, h2⟩ := simulate_steps m numTotalNodes points cells el fc info num fuel ss 0 _ l hl
  have hss : ∀ (i : Nat) st, l[i]? = some st → ∃ s, ss[i]? = some s := by
    intro i st hst
    have := (List.getElem?_eq_some_iff.1 hst).1
    exact ⟨_, List.getElem?_eq_getElem (h1 ▸ this)⟩
  have good : ∀ (i : Nat) st, l[i]? = some st →
      (∀ c q, Good ((stateBefore l 0 (initVars (𝒫).cells.length) i).2 c q)) := by
    intro i
    induction i with
    | zero => exact fun st _ c q => ⟨by simp [stateBefore, initVars, fInit],
        by simpa [stateBefore, initVars, fInit] using Matrix.PosDef.one, le_refl _⟩
    | succ i ih =>
      intro st hst c q
      have hi : i < l.length := by
        have := (List.getElem?_eq_some_iff.1 hst).1
        omega
      have hp := List.getElem?_eq_getElem hi
      obtain ⟨s, hs⟩ := hss i _ hp
      have hc := C111_step m numTotalNodes points cells el fc hm info num fuel _ _ s _ (h2 i s _ hs hp) (ih _ hp)
        (hu _ (List.getElem_mem hi))
      rw [stateBefore, hp]
      exact (hc.1 c q).1
  have step : ∀ (i : Nat) st, l[i]? = some st → ∀ c q, Good (st.vars c q) ∧ (st.vars c q).F = defAt 𝒫 st.sol c q ∧
      ((stateBefore l 0 (initVars (𝒫).cells.length) i).2 c q).alpha ≤ (st.vars c q).alpha := by
    intro i st hst
    obtain ⟨s, hs⟩ := hss i _ hst
    exact (C111_step m numTotalNodes points cells el fc hm info num fuel _ _ s _ (h2 i s _ hs hst) (good i st hst)
        (hu _ (List.mem_of_getElem? hst))).1
  refine ⟨h1, ?_, ?_⟩
  · intro st hst c q
    obtain ⟨i, hi⟩ := List.getElem?_of_mem hst
    exact ⟨(step i st hi c q).1, (step i st hi c q).2.1⟩
  · intro i j a b hij ha
    induction j, hij using Nat.le_induction generalizing b with
    | base =>
      intro hb c q
      rw [ha] at hb
      cases hb
      exact le_refl _
    | succ j hj ih =>
      intro hb c q
      have hjl : j < l.length := by
        have := (List.getElem?_eq_some_iff.1 hb).1
        omega
      have hp := List.getElem?_eq_getElem hjl
      have h := (step (j + 1) b hb c q).2.2
      rw [stateBefore, hp] at h
      exact le_trans (ih _ hp c q) h

theorem single_proper (s : ℝ) : Proper (SingleCell.info s) := by
  refine ⟨⟨rfl, rfl, ?_⟩, ?_⟩
  · intro loc hloc
    simp at hloc
    rcases hloc with rfl | rfl | rfl | rfl <;> trivial
  · intro it hit
    simp [UserBC.conds, SingleCell.info] at hit
    rcases hit with rfl | rfl | rfl | rfl | rfl <;> simp

theorem plate_proper (s : ℝ) : Proper (ThinPlate.info s) := by
  refine ⟨⟨rfl, rfl, ?_⟩, ?_⟩
  · intro loc hloc
    simp at hloc
    rcases hloc with rfl | rfl <;> trivial
  · intro it hit
    simp [UserBC.conds, ThinPlate.info] at hit
    rcases hit with rfl | rfl | rfl | rfl <;> simp

/-- First step and repeated step of a program whose conditions for zero load demand zeros. -/
theorem program_aux (h : (𝒫).WF) (hm : m.Ok) (info : ℝ → UserBC.Info (Fin 3 → ℝ) ℝ) (hi : ∀ s, Proper (info s))
    (hz : ∀ it ∈ UserBC.conds (info 0), ∀ p, it.2.2 p = 0)
    (num : Numerics (𝒫).cells.length nq (totalDofs (𝒫).fes)) (h0 : 0 ≤ num.tol) (fuel : Nat) (a : ℝ) (k : Nat) (hk : 2 ≤ k)
    (l : List (Step (𝒫).cells.length nq (totalDofs (𝒫).fes)))
    (hl : simulate m 𝒫 info num fuel (scales a k) 0 (initVars (𝒫).cells.length) = some (.ok l))
    (hu : ∀ st ∈ l, Upright 𝒫 st.sol) :
    l.length = 2 * k ∧ l[0]? = some ⟨0, 0, initVars (𝒫).cells.length, 0⟩ ∧
    ∀ st d, l[k - 1]? = some st →
      Misfit 𝒫 (info a) (piolaAt m numTotalNodes points cells el fc st.vars st.sol) st.sol d → euclid d ≤ num.tol →
      l[k]? = some { st with iters := 0 } := by
  obtain ⟨h1, h2⟩ := simulate_steps m numTotalNodes points cells el fc info num fuel _ 0 _ l hl
  obtain ⟨s1, -, s3, s4, s5, -⟩ := C111_scales a k hk
  have hlen : l.length = 2 * k := by rw [h1, s1]
  obtain ⟨-, h3, -⟩ := C111_history m numTotalNodes points cells el fc hm info num fuel _ l hl hu
  have hfuel : ∃ f, fuel = f + 1 := by
    cases fuel with
    | succ f => exact ⟨f, rfl⟩
    | zero =>
      have hp := List.getElem?_eq_getElem (show 0 < l.length by omega)
      obtain ⟨b, -, hn, -, -⟩ := loadStep_cases m numTotalNodes points cells el fc info num 0 _ _ 0 _ (h2 0 0 _ s5 hp)
      cases hn
  obtain ⟨f, rfl⟩ := hfuel
  refine ⟨hlen, ?_, ?_⟩
  · have hp := List.getElem?_eq_getElem (show 0 < l.length by omega)
    have := h2 0 0 _ s5 hp
    have hs := C111_start m numTotalNodes points cells el fc h hm info 0 (hi 0) hz num h0 f
    rw [hp]
    exact congrArg some (Except.ok.inj (Option.some.inj (this.symm.trans hs)))
  · intro st d hst hd ht
    have hstep := h2 (k - 1) a st s3 hst
    have hpk := List.getElem?_eq_getElem (show k < l.length by omega)
    have hnext := h2 k a _ s4 hpk
    have hb : stateBefore l 0 (initVars (𝒫).cells.length) k = (st.sol, st.vars) := by
      obtain ⟨j, rfl⟩ : ∃ j, k = j + 1 := ⟨k - 1, by omega⟩
      rw [stateBefore]
      rw [show j + 1 - 1 = j by omega] at hst
      rw [hst]
    rw [hb] at hnext
    have hg : ∀ c q, Good ((stateBefore l 0 (initVars (𝒫).cells.length) (k - 1)).2 c q) := by
      intro c q
      obtain ⟨j, rfl⟩ : ∃ j, k = j + 2 := ⟨k - 2, by omega⟩
      rw [show j + 2 - 1 = j + 1 by omega, stateBefore, List.getElem?_eq_getElem (show j < l.length by omega)]
      exact (h3 _ (List.getElem_mem _) c q).1
    have hus := hu st (List.mem_of_getElem? hst)
    rw [(C111_step m numTotalNodes points cells el fc hm info num (f + 1) _ _ a st hstep hg hus).2.1] at hd
    have hr := C111_repeat m numTotalNodes points cells el fc h hm info a (hi a) num (f + 1) f _ d _ st hstep hg hus hd ht
    rw [hpk]
    exact congrArg some (Except.ok.inj (Option.some.inj (hnext.symm.trans hr)))

/-- **C111 (`single_cell.py`).** A completed run has 22 steps; the first returns the undeformed stress-free state without
iteration; if the step with the full load ends with a misfit not above `tol`, the following step, with the same load,
makes no iteration and reproduces it. -/
theorem C111_single_cell (h : (𝒫).WF) (hm : m.Ok) (num : Numerics (𝒫).cells.length nq (totalDofs (𝒫).fes))
    (h0 : 0 ≤ num.tol) (fuel : Nat) (l : List (Step (𝒫).cells.length nq (totalDofs (𝒫).fes)))
    (hl : SingleCell.simulation m 𝒫 num fuel = some (.ok l)) (hu : ∀ st ∈ l, Upright 𝒫 st.sol) :
    l.length = 22 ∧ l[0]? = some ⟨0, 0, initVars (𝒫).cells.length, 0⟩ ∧
    ∀ st d, l[10]? = some st →
      Misfit 𝒫 (SingleCell.info 0.01) (piolaAt m numTotalNodes points cells el fc st.vars st.sol) st.sol d →
      euclid d ≤ num.tol → l[11]? = some { st with iters := 0 } :=
  program_aux m numTotalNodes points cells el fc h hm SingleCell.info single_proper (by
    intro it hit p
    simp [UserBC.conds, SingleCell.info] at hit
    rcases hit with rfl | rfl | rfl | rfl | rfl <;> simp [SingleCell.dirichletTop]) { num with lineSearch := false } h0 fuel
    0.01 11 (by norm_num) l hl hu

/-- **C111 (`thin_plate.py`).** The same for the plate with its 10 steps. -/
theorem C111_thin_plate (h : (𝒫).WF) (hm : m.Ok) (num : Numerics (𝒫).cells.length nq (totalDofs (𝒫).fes))
    (h0 : 0 ≤ num.tol) (fuel : Nat) (l : List (Step (𝒫).cells.length nq (totalDofs (𝒫).fes)))
    (hl : ThinPlate.simulation m 𝒫 num fuel = some (.ok l)) (hu : ∀ st ∈ l, Upright 𝒫 st.sol) :
    l.length = 10 ∧ l[0]? = some ⟨0, 0, initVars (𝒫).cells.length, 0⟩ ∧
    ∀ st d, l[4]? = some st →
      Misfit 𝒫 (ThinPlate.info 0.2) (piolaAt m numTotalNodes points cells el fc st.vars st.sol) st.sol d →
      euclid d ≤ num.tol → l[5]? = some { st with iters := 0 } :=
  program_aux m numTotalNodes points cells el fc h hm ThinPlate.info plate_proper (by
    intro it hit p
    simp [UserBC.conds, ThinPlate.info] at hit
    rcases hit with rfl | rfl | rfl | rfl <;> simp [ThinPlate.dirichletTop]) { num with lineSearch := true } h0 fuel
    0.2 5 (by norm_num) l hl hu

end

end FinitePlasticity
end JaxFem
