import Verif.Arr

/-!
# Resource handling of the AMGX backend

`solver.py:136-226` (`AMGX_solve_host`): six objects are created inside a `try` block and destroyed in
the `finally` block. Any library call may raise; `fail` says which one raises what.
-/

namespace JaxFem

/-- The AMGX objects, in order of creation (`solver.py:159-190`). -/
inductive AmgxObj where
  | cfg | resources | solver | A | b | x
  deriving DecidableEq, Repr

/-- The library calls of the function. -/
inductive AmgxCall where
  | create (o : AmgxObj)
  | uploadA | uploadB | uploadX | setup | solve | download | check
  | destroy (o : AmgxObj)
  deriving DecidableEq, Repr

/-- The calls of the `try` block in order (`solver.py:158-207`). -/
def amgxTry : List AmgxCall :=
  [.create .cfg, .create .resources, .create .solver, .create .A, .create .b, .create .x,
   .uploadA, .uploadB, .uploadX, .setup, .solve, .download, .check]

/-- The objects in the order of the `finally` block (`solver.py:213-224`). -/
def amgxFinally : List AmgxObj := [.x, .b, .A, .solver, .resources, .cfg]

/-- Execute calls until one raises: the successful calls and the error, if any. -/
def runCalls (fail : AmgxCall → Option Err) : List AmgxCall → List AmgxCall × Option Err
  | [] => ([], none)
  | c :: cs =>
    match fail c with
    | some e => ([], some e)
    | none => let r := runCalls fail cs; (c :: r.1, r.2)

/-- `AMGX_solve_host`: all successful calls in order and the error raised, if any. A variable is not
`None` iff its `create` call returned. An error in the `finally` block replaces an earlier one and
ends the block. -/
def amgxHost (fail : AmgxCall → Option Err) : List AmgxCall × Option Err :=
  let t := runCalls fail amgxTry
  let f := runCalls fail ((amgxFinally.filter fun o => t.1.contains (.create o)).map .destroy)
  (t.1 ++ f.1, match f.2 with | some e => some e | none => t.2)

end JaxFem
