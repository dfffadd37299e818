/-!
# Array primitives

NumPy / JAX array operations used by the modelled code.  A 1-D array is a `List`, a 2-D array of
shape `(n, v)` is a list of `n` rows of length `v`, a "solution list" (one 2-D array per variable,
`problem.py` docstring of `compute_residual`, lines 462-475) is a `List` of 2-D arrays.
-/

namespace JaxFem

universe u
variable {K : Type u}

/-- Python exceptions that the modelled code can raise. -/
inductive Err where
  | zeroDivision
  | assertion
  | value
  | notImplemented
  | type
  | index
  | runtime
  | fileNotFound
  | key
  deriving DecidableEq, Repr

instance {ε α : Type} [DecidableEq ε] [DecidableEq α] : DecidableEq (Except ε α) := fun a b =>
  match a, b with
  | .ok x, .ok y => if h : x = y then isTrue (by rw [h]) else isFalse fun e => h (Except.ok.inj e)
  | .error x, .error y =>
    if h : x = y then isTrue (by rw [h]) else isFalse fun e => h (Except.error.inj e)
  | .ok _, .error _ => isFalse (by intro h; cases h)
  | .error _, .ok _ => isFalse (by intro h; cases h)

/-- `jax.flatten_util.ravel_pytree` of a list of 2-D arrays: every array row-major, arrays one
after the other (used in `problem.py:118`, `solver.py:304,324,374,1307`). -/
def ravelSol (s : List (List (List K))) : List K := (s.map List.flatten).flatten

/-- The first `n` rows of length `v` of a flat list (row-major `reshape(n, v)`). -/
def chunks (v : Nat) : Nat → List K → List (List K)
  | 0, _ => []
  | n + 1, xs => xs.take v :: chunks v n (xs.drop v)

/-- The inverse function returned by `ravel_pytree` for a list of 2-D arrays with the given shapes
(`problem.py:115` `unflatten_fn_dof`, `problem.py:118` `unflatten_fn_sol_list`), on inputs of the
right size. -/
def unravelSol : List (Nat × Nat) → List K → List (List (List K))
  | [], _ => []
  | (n, v) :: rest, xs => chunks v n (xs.take (n * v)) :: unravelSol rest (xs.drop (n * v))

/-- Number of entries of a list of 2-D arrays of the given shapes. -/
def totalSize (shapes : List (Nat × Nat)) : Nat := (shapes.map fun p => p.1 * p.2).sum

/-- `unflatten_fn_*` with the size check: JAX raises when the flat vector has the wrong length. -/
def unravelSol? (shapes : List (Nat × Nat)) (xs : List K) : Except Err (List (List (List K))) :=
  if xs.length = totalSize shapes then .ok (unravelSol shapes xs) else .error .type

/-- `argwhere` of a 1-D boolean array, flattened: the indices holding `true`, in order
(`fe.py:252`). -/
def argwhere (flags : List Bool) : List Nat :=
  (List.range flags.length).filter fun i => flags.getD i false

/-- `argwhere` of a 2-D boolean array: index pairs in row-major order (`fe.py:319`). -/
def argwhere2 (flags : List (List Bool)) : List (Nat × Nat) :=
  (List.range flags.length).flatMap fun i => (argwhere (flags.getD i [])).map fun j => (i, j)

/-- One `x.at[i].set(v)` on a 1-D array with a valid index. -/
def setAt (xs : List K) (i : Nat) (v : K) : List K := xs.set i v

/-- `x[lo:hi]` for `0 ≤ lo`, Python slice semantics on a list. -/
def slice (xs : List K) (lo hi : Nat) : List K := (xs.take hi).drop lo

end JaxFem
