import Verif.Model.BC
import Verif.Model.Boundary
import Mathlib.Analysis.Calculus.FDeriv.Basic
import Mathlib.Analysis.Calculus.FDeriv.Pi
import Mathlib.Data.Matrix.Mul

/-!
# Debugging helpers

`Problem.print_BC_info` (`problem.py:558-612`) and `operator_to_matrix` (`solver.py:379-384`).

Simplified: the report is a list of structured lines in the order of the `print` calls; blank lines and the constant lines
headed "Interpretation:" are left out. Arrays are shown completely (numpy abbreviates long arrays with dots).
-/

namespace JaxFem.Debug

/-- A line of the report. -/
inductive Line (K : Type) where
  /-- `### Surface integral boundary sets are specified` (`problem.py:562`) -/
  | surfaces
  /-- `Surface boundary set {number} information:`, the array and its shape (`problem.py:564-568`) -/
  | surfaceSet (number : Nat) (rows : List (Nat × Nat)) (shape : Nat × Nat)
  /-- `### No surface integral boundary sets found.` (`problem.py:577`) -/
  | noSurfaces
  /-- `### Dirichlet B.C. is specified{var_suffix}` (`problem.py:586`); the suffix is absent or names a variable -/
  | dirichlet (suffix : Option Nat)
  /-- `Dirichlet Boundary part {number} information:`, the array and its shape (`problem.py:588-601`) -/
  | part (number : Nat) (rows : List (List K)) (shape : Nat × Nat)
  /-- `### No Dirichlet B.C. found{var_suffix}.` (`problem.py:612`) -/
  | noDirichlet (suffix : Option Nat)

variable {K : Type}

/-- `onp.zeros((0, 3))` for an empty part, otherwise `onp.stack([node_inds, vec_inds, vals]).T` (`problem.py:589-596`): the
integers become floating-point numbers; `ValueError` if the three arrays differ in shape. -/
def bcArray [NatCast K] [Zero K] (e : BCEntry K) : Except Err (List (List K)) :=
  if e.nodes.length = 0 then .ok []
  else if e.comps.length = e.nodes.length ∧ e.vals.length = e.nodes.length then
    .ok ((List.range e.nodes.length).map fun i =>
      [((e.nodes.getD i 0 : Nat) : K), ((e.comps.getD i 0 : Nat) : K), e.vals.getD i 0])
  else .error .value

/-- The loop over the parts of a variable (`problem.py:587-610`), from index `i` on. -/
def partLines [NatCast K] [Zero K] : Nat → List (BCEntry K) → Except Err (List (Line K))
  | _, [] => .ok []
  | i, e :: es => do
    let a ← bcArray e
    let r ← partLines (i + 1) es
    pure (.part (i + 1) a (a.length, 3) :: r)

/-- `var_suffix` (`problem.py:580-584`). -/
def suffix (numVars i : Nat) : Option Nat := if numVars > 1 then some i else none

/-- The body of the loop over the variables (`problem.py:580-612`). -/
def varLines [NatCast K] [Zero K] (numVars i : Nat) (es : List (BCEntry K)) : Except Err (List (Line K)) :=
  if es.length ≠ 0 then do
    let r ← partLines 0 es
    pure (.dirichlet (suffix numVars i) :: r)
  else .ok [.noDirichlet (suffix numVars i)]

/-- The loop over the variables (`problem.py:579`), from variable `i` on. -/
def varsLines [NatCast K] [Zero K] (numVars : Nat) : Nat → List (List (BCEntry K)) → Except Err (List (Line K))
  | _, [] => .ok []
  | i, es :: rest => do
    let a ← varLines numVars i es
    let r ← varsLines numVars (i + 1) rest
    pure (a ++ r)

/-- The part about surface integrals (`problem.py:560-577`). -/
def surfaceLines (bs : List (List (Nat × Nat))) : List (Line K) :=
  if bs.length ≠ 0 then
    .surfaces :: (List.range bs.length).map fun i => .surfaceSet (i + 1) (bs.getD i []) ((bs.getD i []).length, 2)
  else [.noSurfaces]

/-- `Problem.print_BC_info` (`problem.py:558-612`); `bs` is `boundary_inds_list`, `bcs` holds the three lists of each
variable. -/
def printBCInfo [NatCast K] [Zero K] (bs : List (List (Nat × Nat))) (bcs : List (List (BCEntry K))) :
    Except Err (List (Line K)) := do
  let r ← varsLines bcs.length 0 bcs
  pure (surfaceLines bs ++ r)

/-- `operator_to_matrix` (`solver.py:379-384`): `jax.jacfwd(operator_fn)(zeros)`; column `j` is the derivative in direction
`j` at the origin. -/
noncomputable def operatorToMatrix {N M : Nat} (f : (Fin N → ℝ) → Fin M → ℝ) : Matrix (Fin M) (Fin N) ℝ :=
  Matrix.of fun i j => fderiv ℝ f 0 (Pi.single j 1) i

end JaxFem.Debug
