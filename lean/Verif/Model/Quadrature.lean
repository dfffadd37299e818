import Mathlib.Analysis.SpecialFunctions.Pow.Real
import Verif.Model.Tabulate

/-!
# Quadrature rules of the elements

Model of `_normalize_quadrature_rule` (`basis.py:127-138`), of the choice of the order in `get_shape_vals_and_grads`
(`basis.py:162-171`) and in `get_face_shape_vals_and_grads` (`basis.py:203-210`), and of `basix.make_quadrature` by its
documentation: the default rule is the Gauss–Jacobi rule with `(order + 2) // 2` points in every direction on intervals,
quadrilaterals and hexahedra, and on triangles and tetrahedra a rule with one point for orders 0 and 1, with three and four
points for order 2, and the rules of Xiao and Gimbutas above that.

Simplifications: real arithmetic; the one-dimensional Gauss rules, the rules of Xiao and Gimbutas from order 3 on, the rules that
are not the default, and the table of names are parameters. A rule is a list of points and weights, a point a function of the
coordinate number.
-/

namespace JaxFem.Quadrature

/-- Points and weights. -/
abbrev Rule := List ((Nat → ℝ) × ℝ)

/-- What the argument `quadrature_rule` can be: `None`, a `basix.QuadratureType` (by its number), a string, anything else. -/
inductive RuleArg where
  | none
  | type (t : Nat)
  | str (s : String)
  | other

/-- `basix.QuadratureType.default`. -/
def defaultType : Nat := 0

/-- The external library: one-dimensional Gauss rules by number of points, rules on simplices from order 3 on, rules of
other types, and `basix.quadrature.string_to_type`. -/
structure Basix where
  gauss : Nat → List (ℝ × ℝ)
  xiaoGimbutas : CellType → Nat → Rule
  other : Nat → CellType → Nat → Except Err Rule
  stringToType : String → Except Err Nat

/-- `_normalize_quadrature_rule` (`basis.py:127-138`). -/
def normalizeRule (b : Basix) : RuleArg → Except Err Nat
  | .none => .ok defaultType
  | .type t => .ok t
  | .str s => b.stringToType s
  | .other => .error .type

/-- Point with given coordinates. -/
def point (l : List ℝ) : Nat → ℝ := fun d => l.getD d 0

/-- Product rule (documented: the first coordinate varies slowest). -/
def productRule (g : List (ℝ × ℝ)) : CellType → Rule
  | .quadrilateral => g.flatMap fun a => g.map fun b => (point [a.1, b.1], a.2 * b.2)
  | .hexahedron => g.flatMap fun a => g.flatMap fun b => g.map fun c => (point [a.1, b.1, c.1], a.2 * b.2 * c.2)
  | _ => g.map fun a => (point [a.1], a.2)

/-- `basix.make_quadrature(cell, order)` with the default rule. -/
noncomputable def defaultRule (b : Basix) (cell : CellType) (order : Nat) : Rule :=
  match cell with
  | .triangle =>
    if order ≤ 1 then [(point [1 / 3, 1 / 3], 1 / 2)]
    else if order = 2 then [(point [1 / 6, 1 / 6], 1 / 6), (point [1 / 6, 2 / 3], 1 / 6), (point [2 / 3, 1 / 6], 1 / 6)]
    else b.xiaoGimbutas .triangle order
  | .tetrahedron =>
    if order ≤ 1 then [(point [1 / 4, 1 / 4, 1 / 4], 1 / 6)]
    else if order = 2 then
      let r := (5 + 3 * Real.sqrt 5) / 20
      let s := (5 - Real.sqrt 5) / 20
      [(point [r, s, s], 1 / 24), (point [s, r, s], 1 / 24), (point [s, s, r], 1 / 24), (point [s, s, s], 1 / 24)]
    else b.xiaoGimbutas .tetrahedron order
  | cell => productRule (b.gauss ((order + 2) / 2)) cell

/-- `basix.make_quadrature(cell, order, rule=rule)`. -/
noncomputable def makeQuadrature (b : Basix) (cell : CellType) (order t : Nat) : Except Err Rule :=
  if t = defaultType then .ok (defaultRule b cell order) else b.other t cell order

/-- The rule of `get_shape_vals_and_grads` (`basis.py:162-168`) for an element, with the element's table. -/
noncomputable def cellRule (b : Basix) (eleType : String) (rule : RuleArg) (order : Option Nat) :
    Except Err (ElementInfo × Rule) := do
  let info ← getElements eleType
  let t ← normalizeRule b rule
  let R ← makeQuadrature b info.ele (order.getD info.quadratureOrder) t
  pure (info, R)

/-- The rule of `get_face_shape_vals_and_grads` (`basis.py:203-210`) on the reference facet. -/
noncomputable def facetRule (b : Basix) (eleType : String) (rule : RuleArg) (order : Option Nat) :
    Except Err (ElementInfo × Rule) := do
  let info ← getElements eleType
  let t ← normalizeRule b rule
  let R ← makeQuadrature b info.faceEle (order.getD info.quadratureOrder) t
  pure (info, R)

/-- The tabulated element (`basis.py:169-175`) at the points of a rule. -/
noncomputable def tabulated (info : ElementInfo) (R : Rule) (nn dim : Nat) : RefElement ℝ R.length nn dim :=
  tabulateInfo info (fun q d => (R.get q).1 d) fun q => (R.get q).2

end JaxFem.Quadrature
