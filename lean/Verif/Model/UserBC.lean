import Verif.Model.Boundary
import Verif.Model.BC

/-!
# From `dirichlet_bc_info` to the entries used by the solver

The path of the user's Dirichlet information through `Problem.__post_init__` (`problem.py:57-75`), the constructor of
`FiniteElement` (`fe.py:100`) and `Dirichlet_boundary_conditions` (`fe.py:220-258`) to the three lists over which
`apply_bc_vec` and the row elimination loop (`solver.py:297-301,508-517`).
-/

namespace JaxFem.UserBC

variable {P K : Type}

/-- `[location_fns, vecs, value_fns]` of one variable, or `None` (`fe.py:57-69`). -/
abbrev Info (P K : Type) := Option (List (LocFn P) × List Nat × List (P → K))

/-- The arguments `mesh` and `dirichlet_bc_info` of `Problem`, as far as boundary conditions are concerned: one mesh with its
information, or a list of meshes with `None` or a list of informations (`problem.py:44-52`). A mesh is given by its points. -/
inductive Args (P K : Type) where
  | single (points : List P) (info : Info P K)
  | multi (points : List (List P)) (infos : Option (List (Info P K)))

/-- `self.dirichlet_bc_info[i] if type(self.dirichlet_bc_info) == type([]) else self.dirichlet_bc_info`
(`problem.py:74`); `IndexError` for a list that is too short. -/
def infoOf (infos : Option (List (Info P K))) (i : Nat) : Except Err (Info P K) :=
  match infos with
  | none => .ok none
  | some infos =>
    match infos[i]? with
    | some info => .ok info
    | none => .error .index

/-- The lists `node_inds_list`, `vec_inds_list`, `vals_list` of one variable (`fe.py:100`), indexed by the same `i` in the
loops of the solver (`solver.py:298-300`). -/
def entries (b : List (List Nat) × List (List Nat) × List (List K)) : List (BCEntry K) :=
  List.zipWith (fun n cv => ⟨n, cv.1, cv.2⟩) b.1 (b.2.1.zip b.2.2)

/-- The list comprehension over the variables (`problem.py:68-75`), from variable `i` on, as far as boundary conditions are
concerned. -/
def entriesFrom (infos : Option (List (Info P K))) : Nat → List (List P) → Except Err (List (List (BCEntry K)))
  | _, [] => .ok []
  | i, pts :: rest => do
    let info ← infoOf infos i
    let b ← dirichletBC pts info
    let es ← entriesFrom infos (i + 1) rest
    pure (entries b :: es)

/-- The boundary-condition arrays of all variables after `Problem.__post_init__` (`problem.py:57-75`); a single mesh and its
information are put into lists first (`problem.py:58-64`). -/
def problemBCs : Args P K → Except Err (List (List (BCEntry K)))
  | .single points info => entriesFrom (some [info]) 0 [points]
  | .multi points infos => entriesFrom infos 0 points

end JaxFem.UserBC
