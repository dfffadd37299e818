import Verif.Spec.Variational

/-!
# C120: strongly monotone problems
-/

namespace JaxFem

variable {IV : Type} {nq nfq nn vec dim : Nat}

/-- The tensor map is strongly monotone. -/
def Problem1.StronglyMonotone (P : Problem1 IV nq nfq nn vec dim) (c : ℝ) : Prop :=
  ∀ iv G H, c * contract (fun i j => G i j - H i j) (fun i j => G i j - H i j)
    ≤ contract (fun i j => P.tensorMap iv G i j - P.tensorMap iv H i j) fun i j => G i j - H i j

end JaxFem
