import Verif.Model.MMA

/-!
# The density filter of the MMA module

`compute_filter_kd_tree` (`mma.py:27-57`). The design cells are given by their centroids;
`KDTree.query` is a parameter with its documented meaning in `Verif.Spec.Filter`.
-/

namespace JaxFem
namespace MMA

open scoped BigOperators

variable {n dim : Nat}

/-- `np.mean(np.take(points, cells, axis=0), axis=1)`, one cell (`mma.py:31`). -/
noncomputable def cellCentroid (points : List (Fin dim → ℝ)) (cell : List Nat) : Fin dim → ℝ :=
  fun i => (cell.map fun a => points.getD a 0 i).sum / cell.length

/-- `rmin` (`mma.py:35-39`): 1.5 times the `dim`-th root of the mean cell volume. -/
noncomputable def filterRadius (totalVolume : ℝ) (numCells dim : Nat) : ℝ :=
  1.5 * (totalVolume / numCells) ^ (1 / (dim : ℝ))

/-- Euclidean distance of two centroids. -/
noncomputable def centroidDist (c : Fin n → Fin dim → ℝ) (i j : Fin n) : ℝ :=
  Real.sqrt (∑ k, (c i k - c j k) ^ 2)

/-- The number of neighbours asked for (`mma.py:46`). -/
def numNbs : Nat := 20

/-- Weight of a neighbour at distance `dd` (`mma.py:49`). -/
noncomputable def filterWeight (rmin dd : ℝ) : ℝ := if rmin - dd > 0 then rmin - dd else 0

/-- The loop and the sparse matrix (`mma.py:45-55`): row `i` holds the weights of the neighbours returned
by the query (duplicate entries are summed by `csc_array`); `np.take` (`mma.py:48`) raises for an index out
of range. Returns `H` and the row sums `Hs`. -/
noncomputable def computeFilter (query : Fin n → List (Nat × ℝ)) (rmin : ℝ) :
    Except Err ((Fin n → Fin n → ℝ) × (Fin n → ℝ)) :=
  if (List.finRange n).all fun i => (query i).all fun p => decide (p.1 < n) then
    let H := fun i j : Fin n => ((query i).map fun p => if p.1 = j.1 then filterWeight rmin p.2 else 0).sum
    .ok (H, fun i => ∑ j, H i j)
  else .error .index

end MMA
end JaxFem
