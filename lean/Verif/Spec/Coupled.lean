import Mathlib.LinearAlgebra.Matrix.NonsingularInverse
import Verif.Model.Coupled
import Verif.Spec.Assembly
import Verif.Spec.Layout

/-!
Independent description of fields of several variables: each variable has its own mesh and tables;
values, gradients with respect to the physical coordinates and the measure at a quadrature point.
-/

namespace JaxFem

variable {dim : Nat}

namespace CVar

variable (v : CVar dim)

/-- Number of local node `a` of cell `e`. -/
def node (e a : Nat) : Nat := (v.cells.getD e []).getD a 0

/-- Coordinates of the nodes of cell `e` (node × direction). -/
def X (e : Nat) : Matrix (Fin v.nn) (Fin dim) ℝ := Matrix.of fun a i => v.points.getD (v.node e a) 0 i

/-- Reference gradients of the shape functions at quadrature point `q` (node × direction). -/
def G (q : Nat) : Matrix (Fin v.nn) (Fin dim) ℝ := Matrix.of fun a j => v.shapeGradsRef q a j

/-- Value of component `c` of the field with nodal values `u`. -/
def valueAt (u : Nat → Nat → ℝ) (e q c : Nat) : ℝ := ∑ a : Fin v.nn, v.shapeVals q a * u (v.node e a) c

/-- Gradient of component `c` with respect to the physical coordinates: the reference gradient times
the inverse of the Jacobian `Xᵀ G`. -/
noncomputable def gradAt (u : Nat → Nat → ℝ) (e q c : Nat) : Fin dim → ℝ :=
  Matrix.vecMul (fun a : Fin v.nn => u (v.node e a) c) (v.G q * ((v.X e).transpose * v.G q)⁻¹)

/-- Measure of a quadrature point. -/
noncomputable def measure (e q : Nat) : ℝ := ((v.X e).transpose * v.G q).det * v.quadWeights q

/-- Position of a quadrature point. -/
def posAt (e q : Nat) : Fin dim → ℝ := fun i => ∑ a : Fin v.nn, v.shapeVals q a * v.X e a i

/-- Rectangular connectivity with valid node numbers. -/
def WF : Prop :=
  ∀ cell ∈ v.cells, cell.length = v.nn ∧ ∀ n ∈ cell, n < v.numTotalNodes

end CVar

/-- Variables that fit together: the same positive number of cells and the same number of quadrature
points. -/
structure WFVars (vars : List (CVar dim)) : Prop where
  nonempty : vars ≠ []
  wf : ∀ v ∈ vars, v.WF
  cells : ∀ v ∈ vars, ∀ w ∈ vars, v.cells.length = w.cells.length
  quads : ∀ v ∈ vars, ∀ w ∈ vars, v.nq = w.nq
  pos : ∀ v ∈ vars, 0 < v.cells.length

/-- Nodal field of variable `i` of a solution list. -/
def fieldAt (sols : List (List (List ℝ))) (i : Nat) : Nat → Nat → ℝ := fun n c => at3 sols i n c

/-- A residual list tested with nodal fields, one per variable. -/
def tested (vars : List (CVar dim)) (R : List (List (List ℝ))) (w : Nat → Nat → Nat → ℝ) : ℝ :=
  ∑ i : Fin vars.length, ∑ n ∈ Finset.range vars[i].numTotalNodes,
    ∑ c ∈ Finset.range vars[i].vec, w i n c * at3 R i n c

end JaxFem

/-! ### Arguments of the constructor and packed arrays -/

namespace JaxFem

/-- The list argument `a` supplies `x` for variable `i`. -/
def ListFor {α : Type} (a : Arg α) (i : Nat) (x : α) : Prop := ∃ l, a = .many l ∧ l[i]? = some x

/-- A list or shared argument supplies `x` for variable `i`. -/
def SharedFor {α : Type} (a : Arg α) (i : Nat) (x : α) : Prop := a = .one x ∨ ListFor a i x

/-- The boundary conditions of variable `i`: none at all, or an entry of the list per variable. -/
def BcFor {L V : Type} (a : BcArg L V) (i : Nat) (x : Option (BcInfo L V)) : Prop :=
  (a = .none ∧ x = none) ∨ ∃ l, a = .perVar l ∧ l[i]? = some x

/-- The element type is one of the table of `get_elements`. -/
def KnownElement (t : String) : Prop :=
  t ∈ ["HEX8", "HEX27", "HEX20", "TET4", "TET10", "QUAD4", "QUAD8", "TRI3", "TRI6"]

/-- Physical gradients of the shape functions of a variable at a point with reference gradients `G`
in cell `e`: `G (Xᵀ G)⁻¹`. -/
noncomputable def CVar.physGrads {dim : Nat} (v : CVar dim) (e : Nat) (G : Matrix (Fin v.nn) (Fin dim) ℝ) :
    Matrix (Fin v.nn) (Fin dim) ℝ := G * ((v.X e).transpose * G)⁻¹

/-- Reference gradients at a face point. -/
def CVar.faceG {dim : Nat} (v : CVar dim) (f q : Nat) : Matrix (Fin v.nn) (Fin dim) ℝ :=
  Matrix.of fun a j => v.faceShapeGradsRef f q a j

/-- The rows of `row` from the number of local nodes of the variables before `i` on, as many as
variable `i` has local nodes, are the rows of `M`. -/
def BlockIs {dim : Nat} {α : Type} (vars : List (CVar dim)) (i : Nat) (row : List α) (n : Nat)
    (M : Fin n → α) : Prop :=
  ∀ a : Fin n, row[((vars.take i).map CVar.nn).sum + a]? = some (M a)

end JaxFem

/-! ### Integrals -/

namespace JaxFem

/-- Sum over all cells and quadrature points with the measure of the variable. -/
noncomputable def CVar.integral {dim : Nat} (v : CVar dim) (f : Nat → Nat → ℝ) : ℝ :=
  ∑ e ∈ Finset.range v.cells.length, ∑ q ∈ Finset.range v.nq, f e q * v.measure e q

/-- Divergence of a plane vector field. -/
noncomputable def CVar.divAt (v : CVar 2) (u : Nat → Nat → ℝ) (e q : Nat) : ℝ :=
  v.gradAt u e q 0 0 + v.gradAt u e q 1 1

/-- `Σ_c Σ_j ∂_j u_c ∂_j w_c`. -/
noncomputable def CVar.gradDot {dim : Nat} (v : CVar dim) (u w : Nat → Nat → ℝ) (e q : Nat) : ℝ :=
  ∑ c ∈ Finset.range v.vec, ∑ j, v.gradAt u e q c j * v.gradAt w e q c j

/-- `Σ_c u_c w_c`. -/
noncomputable def CVar.valDot {dim : Nat} (v : CVar dim) (u w : Nat → Nat → ℝ) (e q : Nat) : ℝ :=
  ∑ c ∈ Finset.range v.vec, v.valueAt u e q c * v.valueAt w e q c

/-- The residual vanishes at all degrees of freedom outside `D`. -/
def FreeZero {dim : Nat} (vars : List (CVar dim)) (D : Nat → Nat → Nat → Prop)
    (R : List (List (List ℝ))) : Prop :=
  ∀ i (hi : i < vars.length), ∀ n < vars[i].numTotalNodes, ∀ c < vars[i].vec, ¬ D i n c → at3 R i n c = 0

/-- Two variables on the same geometry: equal measures at the quadrature points. -/
def SameMeasure {dim : Nat} (v w : CVar dim) : Prop :=
  ∀ e < v.cells.length, ∀ q < v.nq, v.measure e q = w.measure e q

/-- Positive measures at all quadrature points. -/
def CVar.Positive {dim : Nat} (v : CVar dim) : Prop :=
  ∀ e < v.cells.length, ∀ q < v.nq, 0 < v.measure e q

end JaxFem

/-! ### Energies -/

namespace JaxFem

/-- Energy of the wave scheme between two consecutive states:
`∫ ½ |b - a|² + ½ c² dt² |∇b|²`. -/
noncomputable def waveEnergy (c dt : ℝ) (v : CVar 2) (a b : Nat → Nat → ℝ) : ℝ :=
  v.integral fun e q => 1 / 2 * v.valDot (fun n k => b n k - a n k) (fun n k => b n k - a n k) e q
    + 1 / 2 * c ^ 2 * dt ^ 2 * v.gradDot b b e q

/-- Quadratic strain energy density of a plane displacement field,
`½ λ (tr ε)² + μ ε : ε`. -/
noncomputable def strainEnergyAt (lmbda mu : ℝ) (v : CVar 2) (u : Nat → Nat → ℝ) (e q : Nat) : ℝ :=
  let g := v.gradAt u e q
  1 / 2 * lmbda * (g 0 0 + g 1 1) ^ 2
    + mu * (g 0 0 ^ 2 + 2 * ((g 0 1 + g 1 0) / 2) ^ 2 + g 1 1 ^ 2)

/-- Free energy of the thermoelastic body relative to the boundary temperature `θ`:
`∫ ½ ε : C : ε + C / (2 T₀) (T - θ)² - κ θ tr ε`. -/
noncomputable def thermoEnergy (m : ThermoParams) (vu vT : CVar 2) (θ : ℝ) (u T : Nat → Nat → ℝ) : ℝ :=
  vu.integral fun e q => strainEnergyAt m.lmbda m.mu vu u e q
    + m.C / (2 * m.T0) * (vT.valueAt T e q 0 - θ) ^ 2 - m.kappa * θ * vu.divAt u e q

/-- Stress of the specification: `λ tr ε I + 2 μ ε - κ T I`. -/
noncomputable def stressAt (m : ThermoParams) (vu vT : CVar 2) (u T : Nat → Nat → ℝ) (e q : Nat)
    (i j : Fin 2) : ℝ :=
  let g := vu.gradAt u e q
  (m.lmbda * (g 0 0 + g 1 1) - m.kappa * vT.valueAt T e q 0) * (if i = j then 1 else 0)
    + m.mu * (g i j + g j i)

end JaxFem
