import Mathlib.Data.Fin.VecNotation
import Mathlib.Data.Real.Basic
import Verif.Model.Kernel

/-!
First-order Lagrange shape functions on the reference cells (unit simplex and unit square / cube), in
the node order of the meshes (VTK / meshio order).  They are used to show that the hypotheses on
tabulated elements hold for the elements the code uses, at any quadrature points.
-/

namespace JaxFem

variable {K : Type} [Field K]

/-- Linear triangle. -/
def tri3N (p : Fin 2 → K) : Fin 3 → K := ![1 - p 0 - p 1, p 0, p 1]
/-- Its gradients. -/
def tri3G (_ : Fin 2 → K) : Fin 3 → Fin 2 → K := ![![-1, -1], ![1, 0], ![0, 1]]

/-- Bilinear quadrilateral, counterclockwise corners. -/
def quad4N (p : Fin 2 → K) : Fin 4 → K :=
  ![(1 - p 0) * (1 - p 1), p 0 * (1 - p 1), p 0 * p 1, (1 - p 0) * p 1]
/-- Its gradients. -/
def quad4G (p : Fin 2 → K) : Fin 4 → Fin 2 → K :=
  ![![-(1 - p 1), -(1 - p 0)], ![1 - p 1, -p 0], ![p 1, p 0], ![-p 1, 1 - p 0]]

/-- Linear tetrahedron. -/
def tet4N (p : Fin 3 → K) : Fin 4 → K := ![1 - p 0 - p 1 - p 2, p 0, p 1, p 2]
/-- Its gradients. -/
def tet4G (_ : Fin 3 → K) : Fin 4 → Fin 3 → K :=
  ![![-1, -1, -1], ![1, 0, 0], ![0, 1, 0], ![0, 0, 1]]

/-- Trilinear hexahedron, bottom corners counterclockwise, then top corners. -/
def hex8N (p : Fin 3 → K) : Fin 8 → K :=
  ![(1 - p 0) * (1 - p 1) * (1 - p 2), p 0 * (1 - p 1) * (1 - p 2), p 0 * p 1 * (1 - p 2),
    (1 - p 0) * p 1 * (1 - p 2), (1 - p 0) * (1 - p 1) * p 2, p 0 * (1 - p 1) * p 2,
    p 0 * p 1 * p 2, (1 - p 0) * p 1 * p 2]
/-- Its gradients. -/
def hex8G (p : Fin 3 → K) : Fin 8 → Fin 3 → K :=
  ![![-((1 - p 1) * (1 - p 2)), -((1 - p 0) * (1 - p 2)), -((1 - p 0) * (1 - p 1))],
    ![(1 - p 1) * (1 - p 2), -(p 0 * (1 - p 2)), -(p 0 * (1 - p 1))],
    ![p 1 * (1 - p 2), p 0 * (1 - p 2), -(p 0 * p 1)],
    ![-(p 1 * (1 - p 2)), (1 - p 0) * (1 - p 2), -((1 - p 0) * p 1)],
    ![-((1 - p 1) * p 2), -((1 - p 0) * p 2), (1 - p 0) * (1 - p 1)],
    ![(1 - p 1) * p 2, -(p 0 * p 2), p 0 * (1 - p 1)],
    ![p 1 * p 2, p 0 * p 2, p 0 * p 1],
    ![-(p 1 * p 2), (1 - p 0) * p 2, (1 - p 0) * p 1]]

/-- Reference positions of the nodes of TRI3. -/
def tri3V : Fin 3 → Fin 2 → K := ![![0, 0], ![1, 0], ![0, 1]]
/-- Reference positions of the nodes of QUAD4. -/
def quad4V : Fin 4 → Fin 2 → K := ![![0, 0], ![1, 0], ![1, 1], ![0, 1]]
/-- Reference positions of the nodes of TET4. -/
def tet4V : Fin 4 → Fin 3 → K := ![![0, 0, 0], ![1, 0, 0], ![0, 1, 0], ![0, 0, 1]]
/-- Reference positions of the nodes of HEX8. -/
def hex8V : Fin 8 → Fin 3 → K := ![![0, 0, 0], ![1, 0, 0], ![1, 1, 0], ![0, 1, 0],
  ![0, 0, 1], ![1, 0, 1], ![1, 1, 1], ![0, 1, 1]]

/-- Point at parameter `θ` on the segment from `u` to `v`. -/
def onSegment {d : Nat} (u v : Fin d → K) (θ : K) : Fin d → K := fun i => (1 - θ) * u i + θ * v i

/-- Tabulation of shape functions at quadrature points. -/
def tabulate {nq nn dim : Nat} (N : (Fin dim → K) → Fin nn → K)
    (G : (Fin dim → K) → Fin nn → Fin dim → K) (pts : Fin nq → Fin dim → K) (w : Fin nq → K) :
    RefElement K nq nn dim :=
  ⟨fun q => N (pts q), fun q => G (pts q), w⟩

end JaxFem
