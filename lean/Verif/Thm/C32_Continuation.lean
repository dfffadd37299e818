import Verif.Spec.ArcLength
import Verif.Thm.C29_ArcLength

/-!
# C32: bookkeeping of the arc-length continuation
-/

namespace JaxFem

universe u

section
variable {S U K : Type u} [One K] [LE K] [DecidableLE K]

/-! ### Helper lemmas -/

/-- The records of the states of a run. -/
def recordsOf (get : S → U × K) (l : List S) : List (ArcRecord U K) :=
  l.mapIdx fun i s => ⟨i, (get s).2, (get s).1⟩

omit [One K] [LE K] [DecidableLE K] in
theorem recordsOf_append (get : S → U × K) (l : List S) (t : S) :
    recordsOf get (l ++ [t]) = recordsOf get l ++ [⟨l.length, (get t).2, (get t).1⟩] := by
  rw [recordsOf, List.mapIdx_append]
  simp [recordsOf]

/-- Invariant of the loop. -/
theorem contLoop_spec (correct : Nat → S → Except Err S) (get : S → U × K)
    (callback : Option (Nat → U → K → Except Err Unit)) (s0 : S) :
    ∀ (n : Nat) (l : List S), Calls correct s0 l →
      (∀ (i : Nat) (s : S), l[i]? = some s → ¬ 1 ≤ (get s).2) →
      ∀ (calls : List (ArcRecord U K)),
      calls = (if callback.isSome then recordsOf get l else []) →
      ∀ (s : S) (h c : List (ArcRecord U K)),
      contLoop correct get callback n l.length (l.getLastD s0) (recordsOf get l) calls =
        .ok (s, h, c) →
      ∃ l', Calls correct s0 l' ∧ l'.length ≤ l.length + n ∧ s = l'.getLastD s0 ∧
        h = recordsOf get l' ∧ c = (if callback.isSome then h else []) ∧
        (∀ (i : Nat) (s : S), l'[i]? = some s → i + 1 < l'.length → ¬ 1 ≤ (get s).2) ∧
        (l'.length < l.length + n → ∃ s, l'.getLast? = some s ∧ 1 ≤ (get s).2) := by
  intro n
  induction n with
  | zero =>
    intro l hl hlam calls hc s h c hr
    rw [contLoop] at hr
    cases hr
    exact ⟨l, hl, le_rfl, rfl, rfl, hc, fun i s hi _ => hlam i s hi, fun hlt => by omega⟩
  | succ n ih =>
    intro l hl hlam calls hc s h c hr
    rw [contLoop] at hr
    rcases hcor : correct l.length (l.getLastD s0) with e | t
    · rw [hcor] at hr; cases hr
    rw [hcor] at hr
    dsimp only at hr
    have hl' : Calls correct s0 (l ++ [t]) := .snoc l t hl hcor
    have hlen : (l ++ [t]).length = l.length + 1 := by simp
    have hlast : (l ++ [t]).getLastD s0 = t := by simp
    have hearly : ∀ (i : Nat) (s : S), (l ++ [t])[i]? = some s → i < l.length → ¬ 1 ≤ (get s).2 := by
      intro i s hi hlt
      rw [List.getElem?_append_left hlt] at hi
      exact hlam i s hi
    rw [← recordsOf_append] at hr
    -- the two cases of the callback lead to the same continuation
    have hcalls : ∀ c', c' = (if callback.isSome then recordsOf get (l ++ [t]) else []) →
        ((if 1 ≤ (get t).2 then Except.ok (t, recordsOf get (l ++ [t]), c')
          else contLoop correct get callback n (l.length + 1) t (recordsOf get (l ++ [t])) c') =
            .ok (s, h, c)) →
        ∃ l', Calls correct s0 l' ∧ l'.length ≤ l.length + (n + 1) ∧ s = l'.getLastD s0 ∧
          h = recordsOf get l' ∧ c = (if callback.isSome then h else []) ∧
          (∀ (i : Nat) (s : S), l'[i]? = some s → i + 1 < l'.length → ¬ 1 ≤ (get s).2) ∧
          (l'.length < l.length + (n + 1) → ∃ s, l'.getLast? = some s ∧ 1 ≤ (get s).2) := by
      intro c' hc' h'
      split at h'
      · rename_i hone
        obtain ⟨e1, e2⟩ := Prod.mk.inj (Except.ok.inj h')
        obtain ⟨e2, e3⟩ := Prod.mk.inj e2
        refine ⟨l ++ [t], hl', by omega, by rw [hlast, e1], e2.symm, by rw [← e3, ← e2]; exact hc', ?_, fun _ => ⟨t, by simp, hone⟩⟩
        intro i s hi hlt
        exact hearly i s hi (by omega)
      · rename_i hone
        have := ih (l ++ [t]) hl' (by
          intro i s hi
          by_cases hlt : i < l.length
          · exact hearly i s hi hlt
          · have : i < (l ++ [t]).length := (List.getElem?_eq_some_iff.1 hi).1
            have he : i = l.length := by omega
            subst he
            simp at hi
            subst hi
            exact hone) c' hc' s h c (by rw [hlen, hlast]; exact h')
        obtain ⟨l', a, b, d, e, f, g, k⟩ := this
        refine ⟨l', a, by omega, d, e, f, g, fun hlt => k (by omega)⟩
    cases callback with
    | none =>
      dsimp only at hr
      exact hcalls calls hc hr
    | some f =>
      dsimp only at hr
      rcases hf : f l.length (get t).1 (get t).2 with e | x
      · rw [hf] at hr; cases hr
      · rw [hf] at hr
        dsimp only at hr
        refine hcalls _ ?_ hr
        rw [hc, recordsOf_append]
        rfl

theorem finishArc_spec (polish : U → Except Err U) (get : S → U × K) (s : S)
    (h calls : List (ArcRecord U K)) (control : String) (r : ArcResult U K)
    (hr : finishArc polish get s h calls control = .ok r) :
    r.history = h ∧ r.calls = calls ∧ r.control = control ∧ r.lam = (get s).2 ∧
      (r.polished = true ↔ 1 ≤ (get s).2) ∧ (r.polished = true → polish (get s).1 = .ok r.sol) ∧
      (r.polished = false → r.sol = (get s).1) := by
  rw [finishArc] at hr
  split at hr
  · rename_i h1
    rcases hp : polish (get s).1 with e | v
    · rw [hp] at hr; cases hr
    · rw [hp] at hr
      cases hr
      simp [h1]
  · rename_i h1
    cases hr
    simp [h1]

theorem run_spec (correct : Nat → S → Except Err S) (get : S → U × K) (polish : U → Except Err U)
    (callback : Option (Nat → U → K → Except Err Unit)) (s0 : S) (max : Nat) (control : String)
    (r : ArcResult U K)
    (hr : (do
      let (s, h, calls) ← contLoop correct get callback max 0 s0 [] []
      finishArc polish get s h calls control) = .ok r) :
    r.control = control ∧ ∃ l, ContinuationRun correct get polish max callback.isSome s0 r l := by
  rcases hc : contLoop correct get callback max 0 s0 [] [] with e | ⟨s, h, c⟩
  · rw [hc] at hr; cases hr
  rw [hc] at hr
  obtain ⟨l, h1, h2, h3, h4, h5, h6, h7⟩ := contLoop_spec correct get callback s0 max [] .nil
    (by simp) [] (by simp [recordsOf]) s h c hc
  obtain ⟨k1, k2, k3, k4, k5, k6, k7⟩ := finishArc_spec polish get s h c control r hr
  subst h3
  refine ⟨k3, l, h1, by simpa using h2, ?_, ?_, h6, ?_, k4, ?_, k6, k7⟩
  · rw [k1, h4]
    refine ⟨by simp [recordsOf], fun i s hi => ?_⟩
    rw [recordsOf, List.getElem?_mapIdx, hi]
    rfl
  · rw [k2, h5, k1]
  · intro hlt
    exact h7 (by simpa using hlt)
  · rw [k4]; exact k5

/-! ### Property theorems -/

/-- **C32 (displacement control).** -/
theorem C32_displacement (tenth half : K) (dispCorrect : K → K → S → Except Err S)
    (forceCorrect : U → K → K → S → Except Err S) (polish : U → Except Err U) (get : S → U × K) (s0 : S)
    (cfg : ArcCfg U K) (r : ArcResult U K) (hcfg : cfg.control = some "displacement")
    (hr : solveArcLength tenth half dispCorrect forceCorrect polish get s0 cfg = .ok r) :
    r.control = "displacement" ∧ ∃ l, ContinuationRun
      (fun _ => dispCorrect (cfg.psi.getD 1) (cfg.deltaL.getD tenth)) get polish
      (cfg.maxSteps.getD 600) cfg.callback.isSome s0 r l := by
  rw [solveArcLength, hcfg] at hr
  dsimp only at hr
  rw [if_pos rfl] at hr
  exact run_spec _ get polish cfg.callback s0 _ _ r hr

/-- **C32 (force control).** The `i`-th corrector call uses `Delta_l` if `i < Delta_l_switch_step` and
`Delta_l_late` otherwise. -/
theorem C32_force (tenth half : K) (dispCorrect : K → K → S → Except Err S)
    (forceCorrect : U → K → K → S → Except Err S) (polish : U → Except Err U) (get : S → U × K) (s0 : S)
    (cfg : ArcCfg U K) (r : ArcResult U K) (hcfg : cfg.control = some "force")
    (hr : solveArcLength tenth half dispCorrect forceCorrect polish get s0 cfg = .ok r) :
    ∃ q, cfg.qVecAux = some q ∧ r.control = "force" ∧ ∃ (correct : Nat → S → Except Err S) (l : List S),
      ContinuationRun correct get polish (cfg.maxSteps.getD 500) cfg.callback.isSome s0 r l ∧
      (∀ i, i < cfg.switchStep.getD 200 →
        correct i = forceCorrect q (cfg.psi.getD half) (cfg.deltaL.getD tenth)) ∧
      (∀ i, cfg.switchStep.getD 200 ≤ i →
        correct i = forceCorrect q (cfg.psi.getD half) (cfg.deltaLLate.getD 1)) := by
  rw [solveArcLength, hcfg] at hr
  dsimp only at hr
  rw [if_neg (by decide), if_pos rfl] at hr
  rcases hq : cfg.qVecAux with _ | q
  · rw [hq] at hr; cases hr
  rw [hq] at hr
  dsimp only at hr
  obtain ⟨h1, l, h2⟩ := run_spec _ get polish cfg.callback s0 _ _ r hr
  refine ⟨q, rfl, h1, _, l, h2, fun i hi => ?_, fun i hi => ?_⟩
  · simp only [if_pos hi]
  · simp only [if_neg (not_lt.2 hi)]

/-- **C32 (configuration errors).** -/
theorem C32_errors (tenth half : K) (dispCorrect : K → K → S → Except Err S)
    (forceCorrect : U → K → K → S → Except Err S) (polish : U → Except Err U) (get : S → U × K) (s0 : S)
    (cfg : ArcCfg U K)
    (h : cfg.control ≠ some "displacement" ∧ (cfg.control ≠ some "force" ∨ cfg.qVecAux = none)) :
    solveArcLength tenth half dispCorrect forceCorrect polish get s0 cfg = .error .value := by
  rw [solveArcLength]
  rcases hc : cfg.control with _ | c
  · rfl
  · dsimp only
    rw [hc] at h
    have h1 : c ≠ "displacement" := fun e => h.1 (by rw [e])
    rw [if_neg h1]
    by_cases h2 : c = "force"
    · rw [if_pos h2]
      rcases h.2 with h3 | h3
      · exact absurd (by rw [h2]) h3
      · rw [h3]
    · rw [if_neg h2]

end

/-! ### Concrete cases: `lambda` grows by 2 per step; target `1 : Nat`, and by 0 (never reached) -/

example : (solveArcLength (S := Nat × Nat) (U := Nat) (K := Nat) 0 0
    (fun _ _ s => .ok (s.1 + 1, s.1)) (fun _ _ _ s => .ok s) (fun u => .ok (100 + u)) id (0, 0)
    { control := some "displacement", maxSteps := some 7 }).toOption =
    some ⟨102, 1, true, [⟨0, 0, 1⟩, ⟨1, 1, 2⟩], "displacement", []⟩ := by decide

example : (solveArcLength (S := Nat × Nat) (U := Nat) (K := Nat) 3 0
    (fun _ _ s => .ok s) (fun q _ l s => .ok (s.1 + q + l, 0)) (fun u => .ok (100 + u)) id (0, 0)
    { control := some "force", maxSteps := some 3, switchStep := some 2, qVecAux := some 10,
      callback := some fun _ _ _ => .ok () }).toOption =
    some ⟨37, 0, false, [⟨0, 0, 13⟩, ⟨1, 0, 26⟩, ⟨2, 0, 37⟩], "force",
      [⟨0, 0, 13⟩, ⟨1, 0, 26⟩, ⟨2, 0, 37⟩]⟩ := by decide

end JaxFem
