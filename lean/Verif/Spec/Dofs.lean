import Verif.Model.Dofs

/-! Independent description of the global numbering. -/

namespace JaxFem

/-- The number of (variable `i`, node `n`, component `c`): all degrees of freedom of the earlier
variables come first, then the earlier nodes of variable `i`, then the earlier components. -/
def dofNum (fes : List FE) (i n c : Nat) : Nat :=
  ((fes.take i).map fun fe => fe.numTotalNodes * fe.vec).sum + n * ((fes.map FE.vec).getD i 0) + c

/-- Total number of degrees of freedom. -/
def totalDofs (fes : List FE) : Nat := (fes.map fun fe => fe.numTotalNodes * fe.vec).sum

end JaxFem
