import Verif.Thm.Lists
import Verif.Model.Assembly

/-!
# C02: batched evaluation gives the same result as one evaluation over all cells
-/

namespace JaxFem

universe u v w
variable {K : Type u} {D : Type v} {β : Type w}

/-! ### Helper lemmas -/

theorem take_append_batches {α : Type u} (xs : List α) (batch m : Nat) :
    ((List.range m).flatMap fun i => slice xs (i * batch) ((i + 1) * batch)) ++ xs.drop (m * batch)
      = xs := by
  induction m with
  | zero => simp
  | succ m ih =>
    rw [List.range_succ, List.flatMap_append, List.append_assoc]
    have : (List.flatMap (fun i => slice xs (i * batch) ((i + 1) * batch)) [m])
        ++ xs.drop ((m + 1) * batch) = xs.drop (m * batch) := by
      simp only [List.flatMap_cons, List.flatMap_nil, List.append_nil, slice]
      have e : (m + 1) * batch = m * batch + batch := by ring
      rw [List.drop_take, e, show m * batch + batch - m * batch = batch by omega,
        ← List.drop_drop, List.take_append_drop]
    rw [this, ih]

theorem zipWith_slice (kernel : List K → D → β) (xs : List (List K)) (ds : List D) (lo hi : Nat) :
    List.zipWith kernel (slice xs lo hi) (slice ds lo hi)
      = slice (List.zipWith kernel xs ds) lo hi := by
  simp [slice, List.take_zipWith, List.drop_zipWith]

theorem batches_eq {α : Type u} (xs : List α) (batch cuts : Nat) (hc : 0 < cuts) :
    ((List.range cuts).flatMap fun i => batchSlice cuts batch i xs) = xs := by
  obtain ⟨m, rfl⟩ : ∃ m, cuts = m + 1 := ⟨cuts - 1, by omega⟩
  rw [List.range_succ, List.flatMap_append]
  have h1 : (List.range m).flatMap (fun i => batchSlice (m + 1) batch i xs)
      = (List.range m).flatMap fun i => slice xs (i * batch) ((i + 1) * batch) := by
    rw [List.flatMap_def, List.flatMap_def]
    congr 1
    refine List.map_congr_left fun i hi => ?_
    rw [batchSlice, if_pos (by simpa using List.mem_range.1 hi)]
  have h2 : List.flatMap (fun i => batchSlice (m + 1) batch i xs) [m] = xs.drop (m * batch) := by
    simp [batchSlice]
  rw [h1, h2, take_append_batches]

/-! ### Property theorems -/

/-- **C02.** For every kernel, every positive number of cells and all per-cell arguments, the
batched evaluation returns the kernel's value on every cell exactly once, in cell order. -/
theorem C02_batching (kernel : List K → D → β) (n : Nat) (hn : 0 < n)
    (sol : List (List K)) (data : List D) :
    splitAndComputeCell kernel n sol data = .ok (List.zipWith kernel sol data) := by
  have hc : 0 < numCuts n := by unfold numCuts; split <;> omega
  unfold splitAndComputeCell
  rw [if_neg (by omega)]
  simp only [Except.ok.injEq]
  rw [← batches_eq (List.zipWith kernel sol data) (n / numCuts n) (numCuts n) hc]
  rw [List.flatMap_def, List.flatMap_def]
  congr 1
  refine List.map_congr_left fun i _ => ?_
  unfold batchSlice
  split
  · exact zipWith_slice kernel sol data _ _
  · simp [List.drop_zipWith]

/-- **C02 (per cell).** Entry `c` of the batched result is the kernel on the arguments of
cell `c`, and there are as many entries as cells. -/
theorem C02_batching_per_cell (kernel : List K → D → β) (n : Nat) (hn : 0 < n)
    (sol : List (List K)) (data : List D) (hs : sol.length = n) (hd : data.length = n) :
    ∃ out, splitAndComputeCell kernel n sol data = .ok out ∧ out.length = n ∧
      ∀ c (hc : c < n), out[c]? = some (kernel (sol[c]'(by omega)) (data[c]'(by omega))) := by
  refine ⟨_, C02_batching kernel n hn sol data, by simp [hs, hd], fun c hc => ?_⟩
  rw [List.getElem?_eq_getElem (by simp [hs, hd]; exact hc)]
  simp

/-- **C02 (no cells).** A mesh without cells is not evaluated to an empty result: the division of
the batch size raises. -/
theorem C02_empty_mesh_raises (kernel : List K → D → β) (sol : List (List K)) (data : List D) :
    splitAndComputeCell kernel 0 sol data = .error .zeroDivision := by
  simp [splitAndComputeCell, numCuts]

/-- Every batch is non-empty: with `n > 0` cells no kernel call gets an empty batch, and no two
batches overlap (they have `n / cuts` cells each, the last one the rest). -/
theorem C02_batches_nonempty (n i : Nat) (xs : List K) (hx : xs.length = n)
    (hi : i < numCuts n) :
    (batchSlice (numCuts n) (n / numCuts n) i xs).length
      = if i < numCuts n - 1 then n / numCuts n else n - (numCuts n - 1) * (n / numCuts n) := by
  have hmul : numCuts n * (n / numCuts n) ≤ n := Nat.mul_div_le n _
  generalize n / numCuts n = b at hmul ⊢
  unfold batchSlice
  split
  · have h1 : (i + 1) * b ≤ n :=
      le_trans (Nat.mul_le_mul_right _ (by omega)) hmul
    have e : (i + 1) * b = i * b + b := by ring
    simp only [slice, List.length_drop, List.length_take, hx]; omega
  · have : i = numCuts n - 1 := by omega
    simp [hx, this]

theorem C02_batch_size_pos (n : Nat) (hn : 0 < n) : 0 < n / numCuts n := by
  have h : numCuts n ≤ n := by unfold numCuts; split <;> omega
  have hc : 0 < numCuts n := by unfold numCuts; split <;> omega
  exact Nat.div_pos h hc

/-- 47 cells: 20 batches, 19 of 2 cells and the last of 9. -/
example : numCuts 47 = 20 ∧ 47 / numCuts 47 = 2 ∧
    splitAndComputeCell (fun (s : List Nat) (d : Nat) => s.sum + d) 3 [[1], [2], [3]] [10, 20, 30]
      = .ok [11, 22, 33] := by decide

end JaxFem
