import Verif.Model.Tabulate

/-!
# Gradients at the nodes of the cells

Model of `applications/nodal_stress/example.py`, lines 40-86 and 141-146. `element.points` of basix are the positions
of the degrees of freedom of `basixPoints`; this holds for the Lagrange elements. For the serendipity elements basix
puts the integration points of the edge functionals there, so these elements are outside of this model.
-/

namespace JaxFem

variable {K : Type} [Field K] {dim : Nat}

/-- `node_points[p] = element.points[p]` (`applications/nodal_stress/example.py:54`), in the order of basix. -/
def nodePoint (dim : Nat) (info : ElementInfo) (p : Nat) : Fin dim → K :=
  fun d => (((basixPoints info).getD p []).getD d 0 : K) / 2

/-- `get_shape_grads_ref(ele_type)[p, a, d]` (`applications/nodal_stress/example.py:40-58`): the functions are
reordered, the points are not. -/
def nodalShapeGradsRef (nn dim : Nat) (info : ElementInfo) (p : Nat) : Fin nn → Fin dim → K :=
  fun a d => shapeGrad info a (extend (nodePoint dim info p)) d

/-- `get_shape_grads_physical(problem)[cell, p, a, d]` (`applications/nodal_stress/example.py:61-86`). -/
noncomputable def nodalShapeGrads (nn : Nat) (info : ElementInfo) (points : List (Fin dim → K)) (cell : List Nat)
    (p : Nat) : Fin nn → Fin dim → K :=
  shapeGradsPhysical (physicalCoos nn points cell) (nodalShapeGradsRef nn dim info p)

/-- `u_grads[cell, p, c, d]` (`applications/nodal_stress/example.py:141-146`), with `cell_sols = sol[cells]`. -/
noncomputable def nodalGrads (nn : Nat) (info : ElementInfo) (points : List (Fin dim → K)) (cell : List Nat)
    (vec : Nat) (sol : List (List K)) (p : Nat) : Fin vec → Fin dim → K :=
  fun c d => ∑ a : Fin nn, (sol.getD (cell.getD a 0) []).getD c 0 * nodalShapeGrads nn info points cell p a d

end JaxFem
