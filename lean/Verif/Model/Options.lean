import Verif.Arr
import Verif.Model.Flt

/-!
# Options and choice of the linear solver

`solver.py:63-134` (`jax_solve`, `scipy_spsolve`, `petsc_solve`), `solver.py:261-284`
(`linear_solver`), `solver.py:1079-1106` (`_resolve_solver_options`) and the places where options are
read (`solver.py:411,416,1271-1297,1405`).

Dictionaries are association lists; a dictionary is used only through lookup and assignment. Mutation
of the caller's dictionary is explicit: functions return the dictionary as it is afterwards.
Simplification: the sub-dictionaries of `linear_solver` must be dictionaries (Python would also accept
e.g. a string that does not contain `'precond'`); anything else is a `TypeError` here.
-/

namespace JaxFem

universe u

/-- Python values that occur in options. `obj` stands for any other object (function, array). -/
inductive PyVal where
  | none
  | bool (b : Bool)
  | num (n : Int)
  | str (s : String)
  | obj (n : Nat)
  | dict (d : List (String × PyVal))

/-- A dictionary with string keys. -/
abbrev Dict := List (String × PyVal)

/-- `d.get(k)`. -/
def Dict.lookup : Dict → String → Option PyVal
  | [], _ => .none
  | (k', v) :: d, k => if k' = k then some v else Dict.lookup d k

/-- `k in d`. -/
def Dict.has (d : Dict) (k : String) : Bool := (d.lookup k).isSome

/-- `d.get(k, default)`. -/
def Dict.getD (d : Dict) (k : String) (v : PyVal) : PyVal := (d.lookup k).getD v

/-- `d[k] = v`. -/
def Dict.set : Dict → String → PyVal → Dict
  | [], k, v => [(k, v)]
  | (k', v') :: d, k, v => if k' = k then (k, v) :: d else (k', v') :: Dict.set d k v

/-- `{k: d[k] for k in keys if k in d}` (`solver.py:1094-1095`). The iteration order of the frozen
sets is not specified in Python; it does not influence lookups. -/
def Dict.restrict (d : Dict) (keys : List String) : Dict :=
  keys.filterMap fun k => (d.lookup k).map fun v => (k, v)

/-- `_METHOD_KEYS` (`solver.py:1079`). -/
def methodKeys : List String := ["newton", "arc_length", "dynamic_relax"]

/-- `_LINEAR_OPTION_KEYS` (`solver.py:1080-1082`). -/
def linearKeys : List String :=
  ["jax_solver", "amgx_solver", "spsolve_solver", "petsc_solver", "custom_solver"]

/-- `_NEWTON_OPTION_KEYS` (`solver.py:1083`). -/
def newtonKeys : List String := ["tol", "rel_tol", "line_search_flag", "initial_guess"]

/-- `_resolve_solver_options(solver_options)` (`solver.py:1088-1106`); `none` is Python's `None`. -/
def resolveOptions (solverOptions : Option Dict) : Except Err (String × Dict) :=
  let opts := solverOptions.getD []
  match methodKeys.filter opts.has with
  | [] =>
    let linear := opts.restrict linearKeys
    let cfg := opts.restrict newtonKeys
    .ok ("newton", if linear.isEmpty then cfg else cfg.set "linear" (.dict linear))
  | [method] =>
    match opts.lookup method with
    | some (.dict d) => .ok (method, d)
    | _ => .error .value
  | _ => .error .value

/-- The backend called by `linear_solver`, with its parameters. -/
inductive Backend where
  | jax (precond : PyVal)
  | amgx (cfgPath : PyVal)
  | spsolve
  | petsc (kspType pcType : PyVal)
  | custom (f : PyVal)

/-- `d[k] if k in d else default` for a nested option dictionary (`solver.py:267,270,275-276`). -/
def subOption (v : Option PyVal) (k : String) (default : PyVal) : Except Err PyVal :=
  match v with
  | some (.dict d) => .ok (Dict.getD d k default)
  | _ => .error .type

/-- `linear_solver(A, b, x0, linear_options)` up to the call of the backend (`solver.py:261-284`):
the chosen backend and the caller's dictionary afterwards. -/
def selectLinear (opts : Dict) : Except Err (Backend × Dict) := do
  let opts := if (linearKeys.filter opts.has).isEmpty then opts.set "jax_solver" (.dict []) else opts
  if opts.has "jax_solver" then
    let precond ← subOption (opts.lookup "jax_solver") "precond" (.bool true)
    return (.jax precond, opts)
  else if opts.has "amgx_solver" then
    let cfgPath ← subOption (opts.lookup "amgx_solver") "cfg_path" .none
    return (.amgx cfgPath, opts)
  else if opts.has "spsolve_solver" then
    return (.spsolve, opts)
  else if opts.has "petsc_solver" then
    let kspType ← subOption (opts.lookup "petsc_solver") "ksp_type" (.str "bcgsl")
    let pcType ← subOption (opts.lookup "petsc_solver") "pc_type" (.str "ilu")
    return (.petsc kspType pcType, opts)
  else if opts.has "custom_solver" then
    return (.custom ((opts.lookup "custom_solver").getD .none), opts)
  else throw .notImplemented

/-- The values the Newton branch reads from its configuration (`solver.py:411,416,1284-1297`):
`cfg.get('tol', 1e-6)`, `cfg.get('rel_tol', 1e-8)`, `newton_cfg.get('line_search_flag', False)`,
`cfg['initial_guess']` if present, `newton_cfg.get('linear', {})`. The two default tolerances are
represented by the strings `"1e-6"`, `"1e-8"`. -/
structure NewtonCfg where
  tol : PyVal
  relTol : PyVal
  lineSearch : PyVal
  initialGuess : Option PyVal
  linear : PyVal

/-- Reading the Newton configuration. -/
def newtonCfg (cfg : Dict) : NewtonCfg where
  tol := cfg.getD "tol" (.str "1e-6")
  relTol := cfg.getD "rel_tol" (.str "1e-8")
  lineSearch := cfg.getD "line_search_flag" (.bool false)
  initialGuess := cfg.lookup "initial_guess"
  linear := cfg.getD "linear" (.dict [])

/-- One call of `linear_solver(..., newton_cfg.get('linear', {}))` (`solver.py:411`) for the Newton
configuration `cfg`: backend and configuration afterwards. If `'linear'` is present the dictionary
passed is the one in `cfg` (same object); otherwise it is a temporary. -/
def newtonLinear (cfg : Dict) : Except Err (Backend × Dict) :=
  match cfg.lookup "linear" with
  | some (.dict l) => do
    let (b, l') ← selectLinear l
    return (b, cfg.set "linear" (.dict l'))
  | some _ => .error .type
  | .none => do
    let (b, _) ← selectLinear []
    return (b, cfg)

/-- The options object of the caller of `solver(problem, solver_options)` after one Newton step, with
the backend used. With a method key the configuration is a sub-dictionary of the caller's object; in
the flat form it is a fresh dictionary. -/
def solverLinear (solverOptions : Dict) : Except Err (Backend × Dict) := do
  let (method, cfg) ← resolveOptions (some solverOptions)
  let (b, cfg') ← newtonLinear cfg
  return (b, if solverOptions.has method then solverOptions.set method (.dict cfg')
    else solverOptions)

/-- `n` linear solves with the same options object: the backends used and the object afterwards. -/
def selectMany : Nat → Dict → Except Err (List Backend × Dict)
  | 0, d => .ok ([], d)
  | n + 1, d => do
    let (b, d') ← selectLinear d
    let (bs, d'') ← selectMany n d'
    return (b :: bs, d'')

/-! ### Backends -/

section
variable {V K : Type u}

/-- The preconditioner argument `M` built by `jax_solve` (`solver.py:69`). The conditional expression
is the body of the lambda, so that `pc` is a function in both cases; `none` is Python's `None`. -/
def jaxPc (mulInvDiag : V → V) (precond : Bool) : Option (V → Option V) :=
  some fun x => if precond then some (mulInvDiag x) else none

/-- `jax_solve` (`solver.py:63-92`): `iter M` is whatever `bicgstab` returns with preconditioner `M`,
`resid x` is `A @ x - b`. The final `np.where(err < 0.1, x, nan)` is the identity after the assert. -/
def jaxSolve [LT K] [DecidableLT K] (bound : K) (resid : V → V) (norm : V → Flt K)
    (iter : Option (V → Option V) → V) (mulInvDiag : V → V) (precond : Bool) : Except Err V :=
  let x := iter (jaxPc mulInvDiag precond)
  let err := norm (resid x)
  if err.lt (.fin bound) then .ok x else .error .assertion

/-- `petsc_solve` (`solver.py:109-134`): `ksp` is whatever `KSP.solve` leaves in `x`. -/
def petscSolve [LT K] [DecidableLT K] (bound : K) (resid : V → V) (norm : V → Flt K) (ksp : V) :
    Except Err V :=
  let err := norm (resid ksp)
  if err.lt (.fin bound) then .ok ksp else .error .assertion

/-- `scipy_spsolve` (`solver.py:94-107`): the result is returned unchecked. -/
def spsolveSolve (x : V) : Except Err V := .ok x

/-- `AMGX_solve` (`solver.py:228-259`): `RuntimeError` without pyamgx, unchecked result otherwise. -/
def amgxSolve (available : Bool) (x : V) : Except Err V :=
  if available then .ok x else .error .runtime

/-- `custom_solver(A, b, x0, linear_options)` (`solver.py:278-280`): unchecked. -/
def customSolve (x : Except Err V) : Except Err V := x

end

end JaxFem
