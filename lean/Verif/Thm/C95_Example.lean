import Verif.Thm.C95_Run
import Mathlib.Tactic.IntervalCases

/-!
# C95: a mesh of eight triangles on two ranks
-/

namespace JaxFem
namespace Mpi

open Parallel (globalDof)

/-- The rank with the left half; it owns the vertices on its boundary to the other rank. -/
noncomputable def exLeft : Part :=
  ⟨[[7, 8, 4], [4, 8, 5], [5, 8, 9], [6, 5, 9]], fun v => sqCoords 2 2 (v - 4), fun v => 12 - (v : Int), 4, 10, 3, 9⟩

/-- The rank with the right half; three of its vertices are ghosts. -/
noncomputable def exRight : Part :=
  ⟨[[4, 7, 8], [4, 8, 5], [5, 8, 9], [5, 9, 6]], fun v => sqCoords 2 2 (v - 1),
    fun v => if 6 < v then 9 - (v : Int) else -(10 - (v : Int)), 4, 10, 0, 3⟩

def exGlobal : Part → Nat → Nat := fun p v => if p.rstart = 0 then v - 1 else v - 4

theorem ex_partition : IsPartition (sqCoords 2 2) 9 (sqCells 2 2) (fun v => 8 - v) exGlobal [exLeft, exRight] where
  cells_lt := (C95_square 2 2 (by norm_num) (by norm_num) (by norm_num) (by norm_num)).1
  positive := (C95_square 2 2 (by norm_num) (by norm_num) (by norm_num) (by norm_num)).2.1
  num_lt := by intro v hv; omega
  num_inj := by intro v hv w hw h; omega
  rows := by
    intro p hp
    simp only [List.mem_cons, List.not_mem_nil, or_false] at hp
    rcases hp with rfl | rfl <;> simp [exLeft, exRight]
  verts := by
    intro p hp v h1 h2
    simp only [List.mem_cons, List.not_mem_nil, or_false] at hp
    rcases hp with rfl | rfl <;> simp only [exLeft, exRight] at h1 h2 <;> interval_cases v <;> simp [exLeft, exRight, exGlobal]
  inj := by
    intro p hp v h1 h2 w h3 h4 h
    simp only [List.mem_cons, List.not_mem_nil, or_false] at hp
    rcases hp with rfl | rfl <;> simp [exLeft, exRight, exGlobal] at h1 h2 h3 h4 h <;> omega
  triangles := by
    intro p hp
    simp only [List.mem_cons, List.not_mem_nil, or_false] at hp
    rcases hp with rfl | rfl <;> simp only [exLeft, exRight] <;> decide
  cover := by
    refine ⟨sqCells 2 2, List.Perm.refl _, ?_⟩
    have e : sqCells 2 2 = [fun a : Fin 3 => [0, 3, 4].getD a 0, fun a : Fin 3 => [0, 4, 1].getD a 0, fun a : Fin 3 => [1, 4, 5].getD a 0,
        fun a : Fin 3 => [1, 5, 2].getD a 0, fun a : Fin 3 => [3, 6, 7].getD a 0, fun a : Fin 3 => [3, 7, 4].getD a 0, fun a : Fin 3 => [4, 7, 8].getD a 0,
        fun a : Fin 3 => [4, 8, 5].getD a 0] := rfl
    rw [e]
    simp only [exLeft, exRight, exGlobal, List.flatMap_cons, List.flatMap_nil, List.map_cons, List.map_nil, List.cons_append,
      List.nil_append]
    refine .cons ⟨1, ?_⟩ (.cons ⟨0, ?_⟩ (.cons ⟨0, ?_⟩ (.cons ⟨2, ?_⟩ (.cons ⟨0, ?_⟩ (.cons ⟨0, ?_⟩ (.cons ⟨0, ?_⟩
      (.cons ⟨0, ?_⟩ .nil))))))) <;> intro a <;> fin_cases a <;> rfl
  owner := by
    intro v hv
    by_cases h : v < 6
    · refine ⟨exLeft, List.mem_cons_self, ?_, ?_, v + 4, ?_, ?_, ?_⟩ <;> simp [exLeft, exGlobal] <;> omega
    · refine ⟨exRight, by simp, ?_, ?_, v + 1, ?_, ?_, ?_⟩ <;> simp [exRight, exGlobal] <;> omega
  disjoint := by simp [exLeft, exRight]

/-- The hypotheses of the C95 theorems hold for this distribution: with a solver which succeeds on nonsingular matrices the iteration ends
without error. -/
theorem ex_runs {info : ElementInfo} (h : getElements "TRI3" = .ok info) :
    ∃ solve : Matrix (Fin 9) (Fin 9) ℝ → (Fin 9 → ℝ) → Except Err (Fin 9 → ℝ),
      (∀ A b y, solve A b = .ok y → A.mulVec y = b) ∧
      ∃ x, solution sourceF (tri3 info) [exLeft, exRight] (fun _ => ⟨id, id⟩) solve (1 / 10 ^ 8) (1 / 10 ^ 6) 20 = .ok x := by
  classical
  obtain ⟨-, -, s1, s2, s3⟩ := C95_square 2 2 (by norm_num) (by norm_num) (by norm_num) (by norm_num)
  refine ⟨fun A b => if hy : ∃ y, A.mulVec y = b then .ok hy.choose else .error .runtime, ?_, ?_⟩
  · intro A b y hy
    dsimp only at hy
    split_ifs at hy with hex
    cases hy
    exact hex.choose_spec
  · refine C95_run h ex_partition s2 s3 ?_ ?_ sourceF _ (fun _ l => List.Perm.refl l) (fun _ l => List.Perm.refl l) _ ?_ _ _ _
    · intro p hp
      simp only [List.mem_cons, List.not_mem_nil, or_false] at hp
      rcases hp with rfl | rfl <;> simp [exLeft, exRight]
    · intro p hp
      simp only [List.mem_cons, List.not_mem_nil, or_false] at hp
      rcases hp with rfl | rfl
      · exact ⟨0 * 3 + 0, by norm_num, (s1 0 0 (by norm_num) (by norm_num)).2 (.inl rfl), by simp [exLeft], by simp [exLeft]⟩
      · exact ⟨2 * 3 + 0, by norm_num, (s1 2 0 (by norm_num) (by norm_num)).2 (.inr (.inl rfl)), by simp [exRight], by simp [exRight]⟩
    · intro A b hA
      have hex : ∃ y, A.mulVec y = b := by
        have hinj : Function.Injective (Matrix.mulVecLin A) := by
          rw [← LinearMap.ker_eq_bot, LinearMap.ker_eq_bot']
          intro y hy
          exact hA y hy
        exact LinearMap.surjective_of_injective hinj b
      exact ⟨hex.choose, by rw [dif_pos hex]⟩

end Mpi
end JaxFem
