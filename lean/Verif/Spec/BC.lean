import Verif.Model.BC
import Verif.Spec.Dofs

/-!
# Specification of Dirichlet conditions
-/

namespace JaxFem

universe u
variable {K : Type u}

/-- The entry prescribes value `v` for component `c` at node `n`. -/
def BCEntry.Prescribes (e : BCEntry K) (n c : Nat) (v : K) : Prop :=
  ∃ k : Nat, e.nodes[k]? = some n ∧ e.comps[k]? = some c ∧ e.vals[k]? = some v

/-- No entry of the list prescribes anything for `(n, c)`. -/
def FreeDof (es : List (BCEntry K)) (n c : Nat) : Prop := ∀ e ∈ es, ∀ v, ¬e.Prescribes n c v

/-- The last entry of the list that prescribes something for `(n, c)` prescribes `v`. -/
def LastPrescribes (es : List (BCEntry K)) (n c : Nat) (v : K) : Prop :=
  ∃ before e after, es = before ++ e :: after ∧ e.Prescribes n c v ∧ FreeDof after n c

/-- Well-formed boundary data (what C14 and the array shapes guarantee): one list of entries per
variable; in each entry the three arrays have equal length, indices are valid and no index pair
occurs twice. -/
structure WFBC (fes : List FE) (bcs : List (List (BCEntry K))) : Prop where
  len : bcs.length = fes.length
  comps : ∀ es ∈ bcs, ∀ e ∈ es, e.comps.length = e.nodes.length
  vals : ∀ es ∈ bcs, ∀ e ∈ es, e.vals.length = e.nodes.length
  nodup : ∀ es ∈ bcs, ∀ e ∈ es, (e.nodes.zip e.comps).Nodup
  valid : ∀ (i : Nat) fe es, fes[i]? = some fe → bcs[i]? = some es → ∀ e ∈ es,
    (∀ n ∈ e.nodes, n < fe.numTotalNodes) ∧ ∀ c ∈ e.comps, c < fe.vec

/-- Prescribed value of component `c` at node `n` of variable `i`, if any. -/
inductive Prescribed (fes : List FE) (bcs : List (List (BCEntry K))) (k : Nat) : Option K → Prop
  | free (i n c : Nat) (fe : FE) (es : List (BCEntry K)) : fes[i]? = some fe → bcs[i]? = some es →
      n < fe.numTotalNodes → c < fe.vec → k = dofNum fes i n c → FreeDof es n c →
      Prescribed fes bcs k none
  | fixed (i n c : Nat) (fe : FE) (es : List (BCEntry K)) (v : K) : fes[i]? = some fe →
      bcs[i]? = some es → n < fe.numTotalNodes → c < fe.vec → k = dofNum fes i n c →
      LastPrescribes es n c v → Prescribed fes bcs k (some v)

end JaxFem
