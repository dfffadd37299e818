import Verif.Thm.C85_SplitVars
import Verif.Thm.C107_UserBC

/-!
# C85: what the conditions of the two scripts say
-/

namespace JaxFem.SplitVars

open UserBC (conds Concerns Demands free_iff demands_prescribed bc_fits)

theorem holds_left (p : Fin 3 → ℝ) (n : Nat) : left.holds p n ↔ |p 0| ≤ 1 / 10 ^ 5 := by
  simp [left, LocFn.holds, isclose]

theorem holds_right (p : Fin 3 → ℝ) (n : Nat) : right.holds p n ↔ |p 0 - 1| ≤ 2 / 10 ^ 5 := by
  simp only [right, LocFn.holds, isclose, decide_eq_true_eq, abs_one, mul_one]
  norm_num

theorem not_both (p : Fin 3 → ℝ) (h0 : |p 0| ≤ 1 / 10 ^ 5) (h1 : |p 0 - 1| ≤ 2 / 10 ^ 5) : False := by
  rw [abs_le] at h0 h1
  norm_num at h0 h1
  linarith [h0.2, h1.1]

theorem concerns_at {points : List (Fin 3 → ℝ)} {n c : Nat} {p : Fin 3 → ℝ} (hp : points[n]? = some p)
    (it : LocFn (Fin 3 → ℝ) × Nat × ((Fin 3 → ℝ) → ℝ)) : Concerns points it n c ↔ it.2.1 = c ∧ it.1.holds p n := by
  constructor
  · rintro ⟨h1, p', h2, h3⟩
    rw [hp] at h2
    cases h2
    exact ⟨h1, h3⟩
  · rintro ⟨h1, h3⟩
    exact ⟨h1, p, hp, h3⟩

theorem supports_one (points : List (Fin 3 → ℝ)) (b) (hb : dirichletBC points (some info) = .ok b) (n : Nat) (p : Fin 3 → ℝ)
    (hp : points[n]? = some p) (c : Nat) (hc : c < 3) :
    (FreeDof (entries b) n c ↔ ¬|p 0| ≤ 1 / 10 ^ 5 ∧ ¬|p 0 - 1| ≤ 2 / 10 ^ 5) ∧
    (|p 0| ≤ 1 / 10 ^ 5 → LastPrescribes (entries b) n c 0) ∧
    (|p 0 - 1| ≤ 2 / 10 ^ 5 → LastPrescribes (entries b) n c (if c = 0 then 1 / 10 else 0)) := by
  have hf : List.Forall₂ (UserBC.Fits points) (conds (some info)) (entries b) := (bc_fits points (some info) b hb).2
  have hl : conds (some info) = [(left, 0, zeroVal), (left, 1, zeroVal), (left, 2, zeroVal), (right, 0, dirichletVal),
      (right, 1, zeroVal), (right, 2, zeroVal)] := rfl
  rw [hl] at hf
  refine ⟨?_, fun h => ?_, fun h => ?_⟩
  · rw [free_iff hf]
    simp only [concerns_at hp, List.forall_mem_cons, holds_left, holds_right]
    interval_cases c <;> simp
  · have h1 : ¬|p 0 - 1| ≤ 2 / 10 ^ 5 := fun h1 => not_both p h h1
    refine demands_prescribed hf n c 0 ?_
    interval_cases c
    · exact .value [] (left, 0, zeroVal) _ p rfl rfl hp ((holds_left p n).2 h) (by
        simp only [concerns_at hp, List.forall_mem_cons, holds_left, holds_right]
        simp [h1])
    · exact .value [(left, 0, zeroVal)] (left, 1, zeroVal) _ p rfl rfl hp ((holds_left p n).2 h) (by
        simp only [concerns_at hp, List.forall_mem_cons, holds_left, holds_right]
        simp [h1])
    · exact .value [(left, 0, zeroVal), (left, 1, zeroVal)] (left, 2, zeroVal) _ p rfl rfl hp ((holds_left p n).2 h) (by
        simp only [concerns_at hp, List.forall_mem_cons, holds_left, holds_right]
        simp [h1])
  · refine demands_prescribed hf n c _ ?_
    have hd : (1 / 10 : ℝ) = dirichletVal p := by
      unfold dirichletVal
      norm_num
    interval_cases c
    · rw [if_pos rfl, hd]
      exact .value [(left, 0, zeroVal), (left, 1, zeroVal), (left, 2, zeroVal)] (right, 0, dirichletVal) _ p rfl rfl hp
        ((holds_right p n).2 h) (by
        simp only [concerns_at hp, List.forall_mem_cons, holds_left, holds_right]
        simp)
    · exact .value [(left, 0, zeroVal), (left, 1, zeroVal), (left, 2, zeroVal), (right, 0, dirichletVal)] (right, 1, zeroVal) _ p rfl
        rfl hp ((holds_right p n).2 h) (by
        simp only [concerns_at hp, List.forall_mem_cons, holds_left, holds_right]
        simp)
    · exact .value [(left, 0, zeroVal), (left, 1, zeroVal), (left, 2, zeroVal), (right, 0, dirichletVal), (right, 1, zeroVal)]
        (right, 2, zeroVal) [] p rfl rfl hp ((holds_right p n).2 h) (by simp)

/-- **C85 (supports).** Both scripts clamp the bar at `x = 0` and pull the end `x = 1` by `0.1` along the axis without sideways
motion, up to the tolerances; everything else is free. -/
theorem C85_supports (points : List (Fin 3 → ℝ)) :
    ∃ b b1 b2, dirichletBC points (some info) = .ok b ∧ dirichletBC points (some info1) = .ok b1 ∧
      dirichletBC points (some info2) = .ok b2 ∧
      ∀ (n : Nat) p, points[n]? = some p →
        ((∀ c < 3, FreeDof (entries b) n c ↔ ¬|p 0| ≤ 1 / 10 ^ 5 ∧ ¬|p 0 - 1| ≤ 2 / 10 ^ 5) ∧
          (FreeDof (entries b1) n 0 ↔ ¬|p 0| ≤ 1 / 10 ^ 5 ∧ ¬|p 0 - 1| ≤ 2 / 10 ^ 5) ∧
          ∀ c < 2, FreeDof (entries b2) n c ↔ ¬|p 0| ≤ 1 / 10 ^ 5 ∧ ¬|p 0 - 1| ≤ 2 / 10 ^ 5) ∧
        (|p 0| ≤ 1 / 10 ^ 5 → (∀ c < 3, LastPrescribes (entries b) n c 0) ∧ LastPrescribes (entries b1) n 0 0 ∧
          ∀ c < 2, LastPrescribes (entries b2) n c 0) ∧
        (|p 0 - 1| ≤ 2 / 10 ^ 5 → LastPrescribes (entries b) n 0 (1 / 10) ∧ LastPrescribes (entries b1) n 0 (1 / 10) ∧
          ∀ c < 2, LastPrescribes (entries b) n (c + 1) 0 ∧ LastPrescribes (entries b2) n c 0) := by
  obtain ⟨b, b1, b2, h, h1, h2, hs1, hs2⟩ := C85_scripts points
  refine ⟨b, b1, b2, h, h1, h2, fun n p hp => ?_⟩
  have key := supports_one points b h n p hp
  refine ⟨⟨fun c hc => (key c hc).1, ?_, fun c hc => ?_⟩, fun hl => ⟨fun c hc => (key c hc).2.1 hl, ?_, fun c hc => ?_⟩,
    fun hr => ⟨?_, ?_, fun c hc => ⟨?_, ?_⟩⟩⟩
  · rw [← (hs1 n).1]
    exact (key 0 (by decide)).1
  · rw [← (hs2 n c).1]
    exact (key (c + 1) (by omega)).1
  · exact ((hs1 n).2 0).1 ((key 0 (by decide)).2.1 hl)
  · exact ((hs2 n c).2 0).1 ((key (c + 1) (by omega)).2.1 hl)
  · simpa using (key 0 (by decide)).2.2 hr
  · exact ((hs1 n).2 _).1 (by simpa using (key 0 (by decide)).2.2 hr)
  · simpa using (key (c + 1) (by omega)).2.2 hr
  · exact ((hs2 n c).2 0).1 (by simpa using (key (c + 1) (by omega)).2.2 hr)

/-- Both cases occur on the unit cube. -/
example : |(![0, 1, 0] : Fin 3 → ℝ) 0| ≤ 1 / 10 ^ 5 ∧ |(![1, 1, 0] : Fin 3 → ℝ) 0 - 1| ≤ 2 / 10 ^ 5 := by
  constructor <;> norm_num

end JaxFem.SplitVars
