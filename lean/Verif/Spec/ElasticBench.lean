import Verif.Spec.Variational
import Verif.Spec.Elastic
import Verif.Spec.Boundary

/-!
# Specification: equilibrium of a discretised elastic body under body forces and tractions
-/

namespace JaxFem.ElasticBench

variable {nq nfq nn : Nat}

/-- Geometry and tables of a mesh. -/
structure Body (nq nfq nn : Nat) where
  numNodes : Nat
  points : List (Fin 3 → ℝ)
  cells : List (List Nat)
  el : RefElement ℝ nq nn 3
  fc : RefFaces ℝ nfq nn 3

variable (M : Body nq nfq nn)

/-- Position of a node. -/
def Body.pos (n : Nat) : Fin 3 → ℝ := M.points.getD n 0

/-- Gradient of a nodal field at a quadrature point. -/
noncomputable def Body.grad (v : Nat → Fin 3 → ℝ) (c : List Nat) (q : Fin nq) : Fin 3 → Fin 3 → ℝ :=
  physGrad (coords nn M.points c) (Matrix.of (M.el.shapeGradsRef q)) (restrict nn v c)

/-- Isotropic material with Young's modulus 70000 and Poisson's ratio 0.3, solved for the strain:
`E ε = (1 + ν) σ - ν tr σ 1`. -/
def Hooke (sig eps : Fin 3 → Fin 3 → ℝ) : Prop :=
  ∀ i j, 70000 * eps i j = (1 + 3 / 10) * sig i j - 3 / 10 * (∑ k, sig k k) * if i = j then 1 else 0

/-- Power of a stress field, `∫ σ : ∇v`. -/
noncomputable def Body.stressPower (S : List Nat → Fin nq → Fin 3 → Fin 3 → ℝ) (v : Nat → Fin 3 → ℝ) : ℝ :=
  (M.cells.map fun c => cellIntegral M.el M.points c fun q => contract (S c q) (M.grad v c q)).sum

/-- Power of a body force, `∫ b · v`. -/
noncomputable def Body.bodyPower (b : (Fin 3 → ℝ) → Fin 3 → ℝ) (v : Nat → Fin 3 → ℝ) : ℝ :=
  (M.cells.map fun c => cellIntegral M.el M.points c fun q =>
    ∑ i, b (positionIn (M.el.shapeVals q) (coords nn M.points c)) i * interp (M.el.shapeVals q) (restrict nn v c) i).sum

/-- Power of a traction on some faces (cell number, number of the face in the cell), `∫ t · v`. -/
noncomputable def Body.facePower (faces : List (Nat × Nat)) (t : (Fin 3 → ℝ) → Fin 3 → ℝ) (v : Nat → Fin 3 → ℝ) : ℝ :=
  (faces.map fun a => ∑ q, (∑ i, t (positionIn (M.fc.shapeVals a.2 q) (coords nn M.points (M.cells.getD a.1 []))) i
      * interp (M.fc.shapeVals a.2 q) (restrict nn v (M.cells.getD a.1 [])) i)
    * nansonScale (coords nn M.points (M.cells.getD a.1 [])) (M.fc.shapeGradsRef a.2 q) (M.fc.normals a.2)
        (M.fc.quadWeights a.2 q)).sum

/-- Faces all of whose vertices lie on some part of the boundary, each once. -/
def Body.FacesOn (faceInds : List (List Nat)) (on : (Fin 3 → ℝ) → Prop) (faces : List (Nat × Nat)) : Prop :=
  faces.Nodup ∧ ∀ c f, (c, f) ∈ faces ↔ ∃ cell face, M.cells[c]? = some cell ∧ faceInds[f]? = some face ∧
    ∀ a ∈ face, ∃ n p, cell[a]? = some n ∧ M.points[n]? = some p ∧ on p

/-- Displacements `u` with stresses `S` that are in equilibrium (virtual powers) with a body force and a traction, where the nodes
of one part of the boundary are displaced by `val` in every direction. -/
structure Body.Equilibrium (on : (Fin 3 → ℝ) → Prop) (val : ℝ) (b t : (Fin 3 → ℝ) → Fin 3 → ℝ) (faces : List (Nat × Nat))
    (u : Nat → Fin 3 → ℝ) (S : List Nat → Fin nq → Fin 3 → Fin 3 → ℝ) : Prop where
  law : ∀ c ∈ M.cells, ∀ q, Hooke (S c q) (symPart (M.grad u c q))
  supports : ∀ n < M.numNodes, on (M.pos n) → ∀ i, u n i = val
  balance : ∀ v, (∀ n < M.numNodes, on (M.pos n) → ∀ i, v n i = 0) →
    M.stressPower S v = M.bodyPower b v + M.facePower faces t v

/-- Sound mesh: at least one cell, one point per node, cells with `nn` valid nodes, positive measures, no zero-strain fields of a
cell other than rigid motions. -/
structure Body.Sound : Prop where
  nonempty : M.cells ≠ []
  points : M.points.length = M.numNodes
  length : ∀ c ∈ M.cells, c.length = nn
  valid : ∀ c ∈ M.cells, ∀ n ∈ c, n < M.numNodes
  positive : ∀ c ∈ M.cells, ∀ q, 0 < (mapJacobian (coords nn M.points c) (Matrix.of (M.el.shapeGradsRef q))).det * M.el.quadWeights q
  rigid : ∀ c ∈ M.cells, M.el.StrainDetermines (coords nn M.points c)

/-- Nodes that cannot move if the nodes on one part of the boundary do not: those nodes, and all nodes of a cell enough nodes of
which cannot move. -/
inductive Held (M : Body nq nfq nn) (on : (Fin 3 → ℝ) → Prop) : Nat → Prop
  | support (n : Nat) (hn : n < M.numNodes) (h : on (M.pos n)) : Held M on n
  | cell (c : List Nat) (hc : c ∈ M.cells) (l : List Nat) (hl : ∀ n ∈ l, n ∈ c) (hh : ∀ n ∈ l, Held M on n)
      (hf : Holds (l.map M.pos)) (m : Nat) (hm : m ∈ c) : Held M on m

/-- Velocity of an infinitesimal rigid motion at the nodes. -/
def Body.rigidField (W : Matrix (Fin 3) (Fin 3) ℝ) (w : Fin 3 → ℝ) : Nat → Fin 3 → ℝ := fun n i => ∑ j, W i j * M.pos n j + w i

/-- Volume of the body. -/
noncomputable def Body.volume : ℝ := (M.cells.map fun c => cellIntegral M.el M.points c fun _ => 1).sum

/-- Area of some faces. -/
noncomputable def Body.area (faces : List (Nat × Nat)) : ℝ :=
  (faces.map fun a => ∑ q, nansonScale (coords nn M.points (M.cells.getD a.1 [])) (M.fc.shapeGradsRef a.2 q) (M.fc.normals a.2)
    (M.fc.quadWeights a.2 q)).sum

/-- A unit velocity of one node in one direction. -/
def unitField (n : Nat) (i : Fin 3) : Nat → Fin 3 → ℝ := fun m j => if m = n ∧ j = i then 1 else 0

open Classical in
/-- Power of the reactions of the supports: what the stresses do on a field that is `v` at the supports and zero elsewhere, less
what the loads do on it. -/
noncomputable def Body.reaction (on : (Fin 3 → ℝ) → Prop) (b t : (Fin 3 → ℝ) → Fin 3 → ℝ) (faces : List (Nat × Nat))
    (S : List Nat → Fin nq → Fin 3 → Fin 3 → ℝ) (v : Nat → Fin 3 → ℝ) : ℝ :=
  let v' := fun n i => if n < M.numNodes ∧ on (M.pos n) then v n i else 0
  M.stressPower S v' - (M.bodyPower b v' + M.facePower faces t v')

end JaxFem.ElasticBench
