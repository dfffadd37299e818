import Verif.Model.Amgx
import Mathlib.Tactic.IntervalCases

/-!
# C58: AMGX resources
-/

namespace JaxFem

/-! ### Helper lemmas -/

theorem runCalls_spec (fail : AmgxCall → Option Err) (cs : List AmgxCall) :
    ∃ k ≤ cs.length, (runCalls fail cs).1 = cs.take k ∧ (∀ c ∈ cs.take k, fail c = none) ∧
      (k = cs.length ∧ (runCalls fail cs).2 = none ∨
        ∃ c e, cs[k]? = some c ∧ fail c = some e ∧ (runCalls fail cs).2 = some e) := by
  induction cs with
  | nil => exact ⟨0, le_rfl, rfl, by simp, Or.inl ⟨rfl, rfl⟩⟩
  | cons c cs ih =>
    rw [runCalls]
    cases h : fail c with
    | some e => exact ⟨0, by simp, rfl, by simp, Or.inr ⟨c, e, rfl, h, rfl⟩⟩
    | none =>
      obtain ⟨k, h1, h2, h3, h4⟩ := ih
      refine ⟨k + 1, by simpa using h1, by simp [h2], ?_, ?_⟩
      · intro d hd
        rw [List.take_succ_cons, List.mem_cons] at hd
        rcases hd with rfl | hd
        · exact h
        · exact h3 d hd
      · rcases h4 with ⟨rfl, h4⟩ | ⟨d, e, a, b, c'⟩
        · exact Or.inl ⟨rfl, h4⟩
        · exact Or.inr ⟨d, e, by simpa using a, b, c'⟩

/-- The created objects among the first `k` calls, in order. -/
theorem finally_eq (k : Nat) : (amgxFinally.filter fun o => (amgxTry.take k).contains (.create o)) =
    ([AmgxObj.cfg, .resources, .solver, .A, .b, .x].take k).reverse := by
  by_cases h : k ≤ 13
  · interval_cases k <;> rfl
  · rw [List.take_of_length_le (by simp [amgxTry]; omega), List.take_of_length_le (by simp; omega)]
    rfl

/-! ### Property theorems -/

/-- **C58.** Whatever call of the `try` block fails (or none): if the `destroy` calls succeed, the
successful calls are the calls before the failing one, followed by exactly one `destroy` for every
created object in reverse order of creation; the error of the failing call is propagated, and there is
an error only if a call failed. -/
theorem C58_released_partial (fail : AmgxCall → Option Err) (hd : ∀ o, fail (.destroy o) = none) :
    ∃ k ≤ 13, (amgxHost fail).1 = amgxTry.take k ++
        (([AmgxObj.cfg, .resources, .solver, .A, .b, .x].take k).reverse.map .destroy) ∧
      (∀ c ∈ amgxTry.take k, fail c = none) ∧
      (k = 13 ∧ (amgxHost fail).2 = none ∨
        ∃ c e, amgxTry[k]? = some c ∧ fail c = some e ∧ (amgxHost fail).2 = some e) := by
  obtain ⟨k, h1, h2, h3, h4⟩ := runCalls_spec fail amgxTry
  have hf : ∀ l : List AmgxObj, runCalls fail (l.map .destroy) = (l.map .destroy, none) := by
    intro l
    induction l with
    | nil => rfl
    | cons o l ih => rw [List.map_cons, runCalls, hd o, ih]
  refine ⟨k, h1, ?_, h3, ?_⟩
  · rw [amgxHost]
    dsimp only
    rw [h2, finally_eq, hf]
  · have e : (amgxHost fail).2 = (runCalls fail amgxTry).2 := by
      rw [amgxHost]
      dsimp only
      rw [h2, finally_eq, hf]
    rw [e]
    exact h4

/-- **C58 (exactly once).** Under the same condition every object is destroyed as often as it is
created, at most once, and nothing that was not created is destroyed. -/
theorem C58_balanced_partial (fail : AmgxCall → Option Err) (hd : ∀ o, fail (.destroy o) = none)
    (o : AmgxObj) : (amgxHost fail).1.count (.destroy o) = (amgxHost fail).1.count (.create o) ∧
      (amgxHost fail).1.count (.destroy o) ≤ 1 := by
  obtain ⟨k, h1, h2, -, -⟩ := C58_released_partial fail hd
  rw [h2]
  clear h2
  interval_cases k <;> revert o <;> intro o <;> cases o <;> decide

/-- **C58 (failing destroy).** If a `destroy` call itself raises, later objects leak: with a failing
`x.destroy()` the five other objects are created but not destroyed. -/
theorem C58_destroy_fails_leak : ∃ fail : AmgxCall → Option Err,
    (∀ c, fail c ≠ none → c = .destroy .x) ∧ (amgxHost fail).2 = some .runtime ∧
    AmgxCall.create .cfg ∈ (amgxHost fail).1 ∧ AmgxCall.destroy .cfg ∉ (amgxHost fail).1 := by
  refine ⟨fun c => if c = .destroy .x then some .runtime else none, ?_, by decide, by decide, by decide⟩
  intro c hc
  by_contra h
  simp [h] at hc

/-- **C26 (AMGX).** If `AMGX_solve_host` returns without exception, the uploads, set-up, solution and download have been
done in this order, and after the download the status of the solver has been asked for and found good; if asking raises, and
everything before it and the `destroy` calls succeed, the exception reaches the caller. -/
theorem C26_amgx (fail : AmgxCall → Option Err) :
    ((amgxHost fail).2 = none → [AmgxCall.uploadA, .uploadB, .uploadX, .setup, .solve, .download, .check].Sublist
        (amgxHost fail).1 ∧ fail .check = none) ∧
    ∀ e, fail .check = some e → (∀ c, c ≠ .check → fail c = none) → (amgxHost fail).2 = some e := by
  constructor
  · intro h
    obtain ⟨k, h1, h2, h3, h4⟩ := runCalls_spec fail amgxTry
    rw [amgxHost] at h ⊢
    dsimp only at h ⊢
    have ht : (runCalls fail amgxTry).2 = none := by
      revert h
      split
      · intro h
        cases h
      · exact id
    rcases h4 with ⟨rfl, -⟩ | ⟨d, e, -, -, c'⟩
    · rw [h2, List.take_length]
      refine ⟨List.Sublist.trans ?_ (List.sublist_append_left _ _), h3 _ ?_⟩
      · decide
      · rw [List.take_length]
        decide
    · rw [ht] at c'
      cases c'
  · intro e he ho
    have hd : ∀ l : List AmgxObj, runCalls fail (l.map .destroy) = (l.map .destroy, none) := by
      intro l
      induction l with
      | nil => rfl
      | cons a l ih => simp [runCalls, ho, ih]
    rw [amgxHost]
    dsimp only
    rw [hd]
    simp [amgxTry, runCalls, ho, he]

/-! Concrete case: `setup` raises; nine calls succeeded, then six `destroy` calls. -/

example : amgxHost (fun c => if c = .setup then some .value else none) =
    (amgxTry.take 9 ++ [.destroy .x, .destroy .b, .destroy .A, .destroy .solver, .destroy .resources,
      .destroy .cfg], some .value) := by decide

end JaxFem
