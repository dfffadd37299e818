import Verif.Model.BC

/-!
# The cached tangent matrix

`solver.py:469-553` (`_PetscTangentCache`, `_get_petsc_tangent_cache`, `get_A` without `P_mat`).
Index arrays live on a heap; `is` compares addresses. The mesh, and so `I`, `J`, offsets and `vec`,
are fixed.
-/

namespace JaxFem

universe u
variable {K : Type u}

/-- The cache object: `bc_row_inds_list` and `_bc_index_sources` (addresses of the two index arrays of
each entry, one flat tuple over all variables). `origin` is a ghost field, never read by the model:
the per-variable lists `sources` was taken from. -/
structure TangentCache where
  rows : List (List Nat)
  sources : List (Nat × Nat)
  origin : List (List (Nat × Nat))
  deriving DecidableEq

/-- The part of the problem object read by `get_A`: heap of index arrays, per variable the addresses
`(node_inds_list[i], vec_inds_list[i])`, COO values, cache attribute. -/
structure CacheState (K : Type u) where
  heap : Nat → List Nat
  bcs : List (List (Nat × Nat))
  V : List K
  cache : Option TangentCache

/-- `_get_bc_index_sources` (`solver.py:483-492`). -/
def bcIndexSources (bcs : List (List (Nat × Nat))) : List (Nat × Nat) := bcs.flatten

/-- The row index arrays computed from the current arrays (`solver.py:508-518`). -/
def currentRows (fes : List FE) (heap : Nat → List Nat) (bcs : List (List (Nat × Nat))) :
    List (List Nat) :=
  bcRowLists (K := Unit) fes (bcs.map fun es => es.map fun p => ⟨heap p.1, heap p.2, []⟩)

/-- `_refresh_bc_rows_if_needed` (`solver.py:494-521`). -/
def refreshRows (fes : List FE) (s : CacheState K) (c : TangentCache) : TangentCache :=
  let sources := bcIndexSources s.bcs
  let unchanged := sources.length == c.sources.length &&
    (sources.zip c.sources).all fun p => p.1.1 == p.2.1 && p.1.2 == p.2.2
  if unchanged then c else
    { rows := currentRows fes s.heap s.bcs, sources := sources, origin := s.bcs }

/-- `_PetscTangentCache.__init__` (`solver.py:472-481`). -/
def newCache (fes : List FE) (s : CacheState K) : TangentCache :=
  refreshRows fes s { rows := [], sources := [], origin := s.bcs.map fun _ => [] }

/-- `get_A(problem)` (`solver.py:522-544`): the matrix and the new state. -/
def getA [Zero K] [One K] [Add K] (N : Nat) (fes : List FE) (bs : List BoundaryInds)
    (s : CacheState K) : Matrix (Fin N) (Fin N) K × CacheState K :=
  let c := match s.cache with
    | some c => c
    | none => newCache fes s
  let c := refreshRows fes s c
  (c.rows.foldl zeroRows (Matrix.of fun r k => cooEntry (cooI fes bs) (cooJ fes bs) s.V r k),
    { s with cache := some c })

end JaxFem
