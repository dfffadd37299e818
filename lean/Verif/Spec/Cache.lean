import Verif.Model.Cache
import Verif.Spec.Dofs

/-!
# Histories of updates of a problem object
-/

namespace JaxFem

universe u
variable {K : Type u}

/-- Boundary entries of variable `i` in a per-variable list. -/
def EntryOf (g : List (List (Nat × Nat))) (i : Nat) (p : Nat × Nat) : Prop :=
  ∃ es, g[i]? = some es ∧ p ∈ es

/-- The array at address `a` is referenced by the problem or by the cache. -/
def Referenced (s : CacheState K) (a : Nat) : Prop :=
  (∃ i p, EntryOf s.bcs i p ∧ (a = p.1 ∨ a = p.2)) ∨
  ∃ c, s.cache = some c ∧ ∃ p ∈ c.sources, a = p.1 ∨ a = p.2

/-- What a user may do between two uses of the cache.
* `replace`: assign new boundary lists. Arrays that are still referenced are not written to; all other
  addresses may be released and reused with other contents. An array pair that the problem or the
  cache still refers to may be used again, but only for the variable it belonged to.
* `values`: assemble new values (`newton_update`).
* `use`: `get_A`. -/
inductive CacheStep [Zero K] [One K] [Add K] (N : Nat) (fes : List FE) (bs : List BoundaryInds) :
    CacheState K → CacheState K → Prop
  | replace (s : CacheState K) (heap : Nat → List Nat) (bcs : List (List (Nat × Nat))) :
      bcs.length = s.bcs.length → (∀ a, Referenced s a → heap a = s.heap a) →
      (∀ i j p, EntryOf bcs i p → EntryOf s.bcs j p → i = j) →
      (∀ c, s.cache = some c → ∀ i j p, EntryOf bcs i p → EntryOf c.origin j p → i = j) →
      CacheStep N fes bs s { s with heap := heap, bcs := bcs }
  | values (s : CacheState K) (V : List K) : CacheStep N fes bs s { s with V := V }
  | use (s : CacheState K) : CacheStep N fes bs s (getA N fes bs s).2

/-- Any number of steps from a new problem object whose entries are not shared between variables. -/
inductive CacheHistory [Zero K] [One K] [Add K] (N : Nat) (fes : List FE) (bs : List BoundaryInds) :
    CacheState K → Prop
  | new (s : CacheState K) : s.cache = none → (∀ i j p, EntryOf s.bcs i p → EntryOf s.bcs j p → i = j) →
      CacheHistory N fes bs s
  | step (s t : CacheState K) : CacheHistory N fes bs s → CacheStep N fes bs s t →
      (∀ i j p, EntryOf t.bcs i p → EntryOf t.bcs j p → i = j) → CacheHistory N fes bs t

/-- The updates offered by the library. `update_Dirichlet_boundary_conditions` of variable `i`
(`fe.py:260-269`) computes new arrays, at addresses not referenced before (`fe.py:252-257`); other
unreferenced addresses may be reused meanwhile. -/
inductive ApiStep [Zero K] [One K] [Add K] (N : Nat) (fes : List FE) (bs : List BoundaryInds) :
    CacheState K → CacheState K → Prop
  | update (s : CacheState K) (i : Nat) (es : List (Nat × Nat)) (heap : Nat → List Nat) :
      (∀ a, Referenced s a → heap a = s.heap a) →
      (∀ p ∈ es, ¬Referenced s p.1 ∧ ¬Referenced s p.2) →
      ApiStep N fes bs s { s with heap := heap, bcs := s.bcs.set i es }
  | values (s : CacheState K) (V : List K) : ApiStep N fes bs s { s with V := V }
  | use (s : CacheState K) : ApiStep N fes bs s (getA N fes bs s).2

/-- Any number of library updates and uses of a new problem object. -/
inductive ApiHistory [Zero K] [One K] [Add K] (N : Nat) (fes : List FE) (bs : List BoundaryInds) :
    CacheState K → Prop
  | new (s : CacheState K) : s.cache = none → (∀ i j p, EntryOf s.bcs i p → EntryOf s.bcs j p → i = j) →
      ApiHistory N fes bs s
  | step (s t : CacheState K) : ApiHistory N fes bs s → ApiStep N fes bs s t → ApiHistory N fes bs t

/-- The matrix that belongs to the current arrays and values: the identity row at the row number of
every pair listed in the current index arrays, the summed values elsewhere. -/
def CurrentTangent [Zero K] [One K] [Add K] (N : Nat) (fes : List FE) (bs : List BoundaryInds)
    (s : CacheState K) (A : Matrix (Fin N) (Fin N) K) : Prop :=
  ∀ r c : Fin N,
    ((∃ i p, EntryOf s.bcs i p ∧ i < fes.length ∧ ∃ k n v : Nat, (s.heap p.1)[k]? = some n ∧
        (s.heap p.2)[k]? = some v ∧ (r : Nat) = dofNum fes i n v) →
      A r c = if r = c then 1 else 0) ∧
    ((¬∃ i p, EntryOf s.bcs i p ∧ i < fes.length ∧ ∃ k n v : Nat, (s.heap p.1)[k]? = some n ∧
        (s.heap p.2)[k]? = some v ∧ (r : Nat) = dofNum fes i n v) →
      A r c = cooEntry (cooI fes bs) (cooJ fes bs) s.V r c)

end JaxFem
