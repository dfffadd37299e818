import Verif.Thm.C112_Local

/-!
# C112: the load steps of the scripts
-/

namespace JaxFem.Sensitivity

/-- **C112 (load steps).** `stress_sensitivity.py` makes ten steps of `0.0005` in `0.05` each and `volume_sensitivity.py` two steps
of `0.0005` in `0.05` each: both scripts load at the same rate and, as far as they go, through the same top displacements. -/
theorem C112_schedule : Stress.envs.length = 10 ∧ Volume.envs.length = 2 ∧
    (∀ (i : Nat) (h : i < Stress.envs.length), Stress.envs[i] = ⟨0.0005 * (i + 1), 0.05⟩) ∧
    ∀ (i : Nat) (h : i < Volume.envs.length), Volume.envs[i] = ⟨0.0005 * (i + 1), 0.05⟩ := by
  have key : ∀ (n : Nat) (d t : ℝ) (i : Nat) (h : i < (steps d t n).length),
      (steps d t n)[i] = ⟨((i : ℝ) + 1) * (d / n), t / n⟩ := by
    intro n d t i h
    have hi : i < n := by simpa [steps] using h
    have hn : (n : ℝ) ≠ 0 := by exact_mod_cast (by omega : n ≠ 0)
    simp only [steps, List.getElem_map, List.getElem_range]
    have g : ∀ (a : ℝ) (j : Nat), j < n + 1 → (FinitePlasticity.linspaceAB 0 a (n + 1)).getD j 0 = j * (a / n) := by
      intro a j hj
      simp [FinitePlasticity.linspaceAB, hj]
      try field_simp
    rw [g _ _ (by omega), g _ _ (by omega), g _ _ (by omega)]
    push_cast
    congr 1
    ring
  have l : ∀ (n : Nat) (d t : ℝ), (steps d t n).length = n := fun n d t => by simp [steps]
  refine ⟨l _ _ _, l _ _ _, fun i h => ?_, fun i h => ?_⟩
  · rw [show Stress.envs[i] = _ from key _ _ _ i h]
    congr 1 <;> norm_num <;> ring
  · rw [show Volume.envs[i] = _ from key _ _ _ i h]
    congr 1 <;> norm_num <;> ring

end JaxFem.Sensitivity
