import Verif.Spec.WeakForm
import Verif.Spec.Dofs

/-!
Independent statement of the discrete variational problem of one variable: gradients of nodal fields,
virtual work of the tensor map, of the mass map and of the surface maps.
-/

namespace JaxFem

variable {IV : Type} {nq nfq nn vec dim : Nat}

/-- Gradient with respect to the physical coordinates of the field with nodal values `U`, at a point
where the shape functions have reference gradients `G`: reference gradient `Uᵀ G` times the inverse of
the Jacobian `Xᵀ G`. -/
noncomputable def physGrad (X G : Matrix (Fin nn) (Fin dim) ℝ) (U : Matrix (Fin nn) (Fin vec) ℝ) :
    Matrix (Fin vec) (Fin dim) ℝ :=
  U.transpose * G * (mapJacobian X G)⁻¹

/-- Values of a nodal field `v` (node number, component) at the nodes of a cell. -/
def restrict (nn : Nat) (v : Nat → Fin vec → ℝ) (cell : List Nat) : Matrix (Fin nn) (Fin vec) ℝ :=
  Matrix.of fun a c => v (cell.getD a 0) c

/-- The nodal field stored in a solution array. -/
def fieldOf (vec : Nat) (sol : List (List ℝ)) : Nat → Fin vec → ℝ := fun n c => (sol.getD n []).getD c 0

/-- Gradient of a nodal field at quadrature point `q` of a cell. -/
noncomputable def Problem1.gradient (P : Problem1 IV nq nfq nn vec dim) (v : Nat → Fin vec → ℝ)
    (cell : List Nat) (q : Fin nq) : Matrix (Fin vec) (Fin dim) ℝ :=
  physGrad (coords nn P.points cell) (Matrix.of (P.el.shapeGradsRef q)) (restrict nn v cell)

/-- Double contraction. -/
def contract (S H : Fin vec → Fin dim → ℝ) : ℝ := ∑ i, ∑ j, S i j * H i j

/-- Virtual work of the tensor map: the integral of `σ(∇u) : ∇v`. -/
noncomputable def Problem1.tensorWork (P : Problem1 IV nq nfq nn vec dim) (u v : Nat → Fin vec → ℝ) : ℝ :=
  (P.cells.map fun cell => cellIntegral P.el P.points cell.nodes fun q =>
    contract (P.tensorMap (cell.iv q) (P.gradient u cell.nodes q)) (P.gradient v cell.nodes q)).sum

/-- Virtual work of a mass map: the integral of `m(u, x) · v`. -/
noncomputable def Problem1.massWork (P : Problem1 IV nq nfq nn vec dim)
    (m : IV → (Fin vec → ℝ) → (Fin dim → ℝ) → Fin vec → ℝ) (u v : Nat → Fin vec → ℝ) : ℝ :=
  (P.cells.map fun cell => cellIntegral P.el P.points cell.nodes fun q =>
    ∑ c, m (cell.iv q) (interp (P.el.shapeVals q) (restrict nn u cell.nodes))
      (positionIn (P.el.shapeVals q) (coords nn P.points cell.nodes)) c
      * interp (P.el.shapeVals q) (restrict nn v cell.nodes) c).sum

/-- Virtual work of the surface maps: the integral of `s(u, x) · v` over all boundary subsets. -/
noncomputable def Problem1.surfaceWork (P : Problem1 IV nq nfq nn vec dim)
    (u v : Nat → Fin vec → ℝ) : ℝ :=
  (P.surfaces.map fun s => (s.faces.map fun f => ∑ q, (∑ c,
    s.map (f.iv q) (interp (P.fc.shapeVals f.face q) (restrict nn u (P.conn.getD f.cell [])))
      (positionIn (P.fc.shapeVals f.face q) (coords nn P.points (P.conn.getD f.cell []))) c
      * interp (P.fc.shapeVals f.face q) (restrict nn v (P.conn.getD f.cell [])) c)
    * nansonScale (coords nn P.points (P.conn.getD f.cell [])) (P.fc.shapeGradsRef f.face q)
        (P.fc.normals f.face) (P.fc.quadWeights f.face q)).sum).sum

/-- Total virtual work. -/
noncomputable def Problem1.virtualWork (P : Problem1 IV nq nfq nn vec dim) (u v : Nat → Fin vec → ℝ) :
    ℝ :=
  P.tensorWork u v + (match P.massMap with | none => 0 | some m => P.massWork m u v)
    + P.surfaceWork u v

/-- The residual of `sol` vanishes at the free degrees of freedom. -/
def IsSolution (P : Problem1 IV nq nfq nn vec dim) (free : Nat → Fin vec → Prop)
    (sol : List (List ℝ)) : Prop :=
  ∃ R, P.residual [sol] = .ok R ∧ ∀ n < P.numTotalNodes, ∀ c : Fin vec, free n c → at3 R 0 n c = 0

/-- The quadrature points determine the gradient of a field of the element: if the reference gradient
vanishes at all of them, all nodal values are equal. -/
def RefElement.Determines (el : RefElement ℝ nq nn dim) : Prop :=
  ∀ U : Fin nn → ℝ, (∀ q j, ∑ a, U a * el.shapeGradsRef q a j = 0) → ∀ a b, U a = U b

/-- Positive measure at every quadrature point of every cell. -/
def Problem1.PositiveMeasure (P : Problem1 IV nq nfq nn vec dim) : Prop :=
  ∀ cell ∈ P.cells, ∀ q, 0 < (mapJacobian (coords nn P.points cell.nodes)
    (Matrix.of (P.el.shapeGradsRef q))).det * P.el.quadWeights q

/-- Two nodes of a common cell. -/
def Linked (cells : List (List Nat)) (n m : Nat) : Prop := ∃ cell ∈ cells, n ∈ cell ∧ m ∈ cell

/-- For every component, every node is connected through cells with a constrained node. -/
def Problem1.Anchored (P : Problem1 IV nq nfq nn vec dim) (free : Nat → Fin vec → Prop) : Prop :=
  ∀ n < P.numTotalNodes, ∀ c, ∃ m, ¬ free m c ∧ m < P.numTotalNodes ∧
    Relation.ReflTransGen (Linked P.conn) m n

/-- The tensor map is strictly monotone. -/
def Problem1.StrictlyMonotone (P : Problem1 IV nq nfq nn vec dim) : Prop :=
  ∀ iv G H, G ≠ H → 0 < contract (fun i j => P.tensorMap iv G i j - P.tensorMap iv H i j)
    fun i j => G i j - H i j

/-- The mass map, if any, is monotone in the solution (for instance independent of it). -/
def Problem1.MassMonotone (P : Problem1 IV nq nfq nn vec dim) : Prop :=
  ∀ m, P.massMap = some m → ∀ iv u w x, 0 ≤ ∑ c, (m iv u x c - m iv w x c) * (u c - w c)

/-- The surface maps are monotone in the solution where the measure is positive.  Maps that do not depend
on the solution (tractions) are, and so are `h (u - u∞)` with `h ≥ 0` (convection). -/
def Problem1.SurfaceMonotone (P : Problem1 IV nq nfq nn vec dim) : Prop :=
  ∀ s ∈ P.surfaces, ∀ f ∈ s.faces, ∀ q u w x,
    0 ≤ (∑ c, (s.map (f.iv q) u x c - s.map (f.iv q) w x c) * (u c - w c))
      * nansonScale (coords nn P.points (P.conn.getD f.cell [])) (P.fc.shapeGradsRef f.face q)
        (P.fc.normals f.face) (P.fc.quadWeights f.face q)

/-- All maps are affine functions of the solution. -/
structure Problem1.Affine (P : Problem1 IV nq nfq nn vec dim) : Prop where
  tensor : ∀ iv, ∃ C : (Fin vec → Fin dim → ℝ) →ₗ[ℝ] (Fin vec → Fin dim → ℝ),
    ∀ G, P.tensorMap iv G = C G + P.tensorMap iv 0
  mass : ∀ m, P.massMap = some m → ∀ iv x, ∃ B : (Fin vec → ℝ) →ₗ[ℝ] (Fin vec → ℝ),
    ∀ u, m iv u x = B u + m iv 0 x
  surface : ∀ s ∈ P.surfaces, ∀ iv x, ∃ B : (Fin vec → ℝ) →ₗ[ℝ] (Fin vec → ℝ),
    ∀ u, s.map iv u x = B u + s.map iv 0 x

/-- Nodal field of a flattened vector: component `c` at node `n` is entry `n vec + c`. -/
noncomputable def Problem1.vecField (P : Problem1 IV nq nfq nn vec dim) (x : Fin (totalDofs P.fes) → ℝ) :
    Nat → Fin vec → ℝ := fun n c =>
  if h : n * vec + c < totalDofs P.fes then x ⟨n * vec + c, h⟩ else 0

end JaxFem
