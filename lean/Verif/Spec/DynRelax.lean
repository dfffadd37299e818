import Verif.Model.DynRelax
import Verif.Spec.BC

/-!
# Specification of dynamic relaxation
-/

namespace JaxFem

universe u
variable {K : Type u} [Field K] [LinearOrder K] {N : Nat}

/-- In the first `n` iterations from `s` the damping estimate is a number (not NaN). -/
def DampingDefined (body : DRState K N → DRState K N) (s : DRState K N) (n : Nat) : Prop :=
  ∀ i < n, (drT (body^[i + 1] s).R (body^[i] s).R (body^[i] s).qdot (body^[i] s).M).isNaN = false

end JaxFem
