import Verif.Model.Cache
import Verif.Model.Newton

/-!
# `ad_wrapper` on one mutable problem object

`solver.py:1421-1455` (`ad_wrapper`), `1362-1418` (`implicit_vjp`), Newton branch of `solver`, without
`P_mat`. The object's attributes are threaded through every call; a Python exception leaves the
attributes as they are at that point. `W` is the type of the internal variables; `vars = none` means
that they were never set or are JAX tracers left over from a finished trace, reading which raises
`UnexpectedTracerError`.
-/

namespace JaxFem

variable {E W G K : Type}

/-- The attributes that change. -/
structure AdState (W K : Type) where
  vars : Option W
  cs : CacheState K

/-- What stays fixed: mesh data, Dirichlet values (entry `j` of variable `i`), the user's `set_params`,
residual and triplet values as functions of the internal variables (`compute_newton_vars`), solvers and
tolerances, and the pull-back of `c(u, ·)` by `jax.vjp`. -/
structure AdProblem (E W G K : Type) (N : Nat) where
  fes : List FE
  bs : List BoundaryInds
  vals : Nat → Nat → List K
  setP : E → Option W → Option W
  res : W → (Fin N → K) → Fin N → K
  values : W → (Fin N → K) → List K
  norm : (Fin N → K) → Flt K
  solve : Matrix (Fin N) (Fin N) K → (Fin N → K) → (Fin N → K) → Except Err (Fin N → K)
  adjointSolve : Matrix (Fin N) (Fin N) K → (Fin N → K) → Except Err (Fin N → K)
  vjp : E → (Fin N → K) → (Fin N → K) → G
  finite : (Fin N → K) → Bool
  lineSearch : Bool
  tol : K
  relTol : K
  guess : Fin N → K

/-- The Dirichlet entries given by the current arrays. -/
def bcEntries (vals : Nat → Nat → List K) (heap : Nat → List Nat) (bcs : List (List (Nat × Nat))) :
    List (List (BCEntry K)) :=
  bcs.mapIdx fun i es => es.mapIdx fun j p => ⟨heap p.1, heap p.2, vals i j⟩

/-- `problem.set_params(params)`. -/
def AdProblem.setParams {N : Nat} (P : AdProblem E W G K N) (p : E) (s : AdState W K) : AdState W K :=
  { s with vars := P.setP p s.vars }

section
variable [Field K] [LinearOrder K] {N : Nat}

/-- `newton_update_helper` (`solver.py:1297-1317`): reads the internal variables, overwrites `problem.V`,
uses the tangent cache. -/
def AdProblem.updateS (P : AdProblem E W G K N) (d : Fin N → K) (s : AdState W K) :
    Except Err ((Fin N → K) × Matrix (Fin N) (Fin N) K) × AdState W K :=
  match s.vars with
  | none => (.error .type, s)
  | some w =>
    let s1 : AdState W K := { s with cs := { s.cs with V := P.values w d } }
    let A := getA N P.fes P.bs s1.cs
    (.ok (applyBcV P.fes (bcEntries P.vals s.cs.heap s.cs.bcs) 1 (P.res w d) d, A.1),
      { s1 with cs := A.2 })

/-- `newton_step` (`solver.py:390-421`); line search reads the internal variables. -/
def AdProblem.stepS (P : AdProblem E W G K N) (rA : (Fin N → K) × Matrix (Fin N) (Fin N) K)
    (d : Fin N → K) (s : AdState W K) : Except Err (Fin N → K) :=
  match s.vars with
  | none => .error .type
  | some w => newtonStep P.fes (bcEntries P.vals s.cs.heap s.cs.bcs) P.norm (P.res w) P.solve
      P.lineSearch rA d

/-- The `while` loop (`solver.py:1326-1333`) with the object's state. -/
def AdProblem.loopS (P : AdProblem E W G K N) (resInitial : Flt K) :
    Nat → (Fin N → K) → ((Fin N → K) × Matrix (Fin N) (Fin N) K) → Nat → AdState W K →
      Option (Except Err ((Fin N → K) × ((Fin N → K) × Matrix (Fin N) (Fin N) K) × Nat)) × AdState W K
  | 0, _, _, _, s => (none, s)
  | fuel + 1, dofs, r, n, s =>
    if ((P.norm r.1).div resInitial).gt (.fin P.relTol) && (P.norm r.1).gt (.fin P.tol) then
      match P.stepS r dofs s with
      | .error e => (some (.error e), s)
      | .ok dofs' =>
        match P.updateS dofs' s with
        | (.error e, s) => (some (.error e), s)
        | (.ok r', s) => P.loopS resInitial fuel dofs' r' (n + 1) s
    else (some (.ok (dofs, r, n)), s)

/-- `fwd_pred(params)` (`solver.py:1438-1442`): `set_params`, then the Newton branch of `solver`
(`solver.py:1319-1356`). -/
def AdProblem.forward (P : AdProblem E W G K N) (fuel : Nat) (p : E) (s : AdState W K) :
    Option (Except Err ((Fin N → K) × Nat)) × AdState W K :=
  let s := P.setParams p s
  match P.updateS P.guess s with
  | (.error e, s) => (some (.error e), s)
  | (.ok r, s) =>
    match P.loopS (P.norm r.1) fuel P.guess r 0 s with
    | (none, s) => (none, s)
    | (some (.error e), s) => (some (.error e), s)
    | (some (.ok (d, r, n)), s) =>
      if (P.norm r.1).isFinite then
        if P.finite d then (some (.ok (d, n)), s) else (some (.error .assertion), s)
      else (some (.error .assertion), s)

/-- `f_bwd` (`solver.py:1448-1453`) with `implicit_vjp`: `set_params`, `newton_update`, `get_A`, adjoint
solve, and `jax.vjp`, which calls `set_params` with tracers and so leaves tracers in the object. -/
def AdProblem.backward (P : AdProblem E W G K N) (p : E) (sol v : Fin N → K) (s : AdState W K) :
    Except Err G × AdState W K :=
  let s := P.setParams p s
  match P.updateS sol s with
  | (.error e, s) => (.error e, s)
  | (.ok rA, s) =>
    match P.adjointSolve rA.2.transpose v with
    | .error e => (.error e, s)
    | .ok adjoint => (.ok (P.vjp p sol adjoint), { s with vars := none })

/-- What may happen between two calls of interest: forward and backward calls with any arguments, and
direct use of the object (`set_params` by hand, assembly of new values). Dirichlet data stay. -/
inductive AdCall (E W K : Type) (N : Nat) where
  | forward (fuel : Nat) (p : E)
  | backward (p : E) (sol v : Fin N → K)
  | direct (vars : Option W) (V : List K)

/-- Effect of a call on the object. -/
def AdProblem.run (P : AdProblem E W G K N) (s : AdState W K) : AdCall E W K N → AdState W K
  | .forward fuel p => (P.forward fuel p s).2
  | .backward p sol v => (P.backward p sol v s).2
  | .direct vars V => { vars := vars, cs := { s.cs with V := V } }

end

end JaxFem
