import Mathlib.Data.Real.Basic
import Mathlib.Data.List.Nodup

/-!
# Nearest neighbours

Documented meaning of `scipy.spatial.KDTree.query(x, k)`: the `k` nearest points; missing neighbours (fewer
than `k` points) are reported with index `n`.
-/

namespace JaxFem
namespace MMA

/-- `res` is a valid answer of the query for the `k` points nearest to one at distances `d` from the `n`
points. -/
structure KdAnswer {n : Nat} (d : Fin n → ℝ) (k : Nat) (res : List (Nat × ℝ)) : Prop where
  length : res.length = k
  index : ∀ p ∈ res, p.1 ≤ n
  nodup : ((res.map Prod.fst).filter fun a => decide (a < n)).Nodup
  dist : ∀ p ∈ res, ∀ h : p.1 < n, p.2 = d ⟨p.1, h⟩
  nearest : ∀ j : Fin n, j.1 ∉ res.map Prod.fst → ∀ p ∈ res, p.1 < n ∧ p.2 ≤ d j

end MMA
end JaxFem
