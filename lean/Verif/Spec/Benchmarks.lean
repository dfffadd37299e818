import Verif.Spec.Variational
import Verif.Spec.TopOpt
import Verif.Spec.Plasticity
import Verif.Spec.Measure
import Verif.Spec.Boundary

/-!
# Specification: nodal forces, average stress, a stretched bar
-/

namespace JaxFem.Benchmarks

open scoped BigOperators

variable {IV : Type} {nq nfq nn vec dim : Nat}

/-- Displacement of one node in one direction. -/
def unitMove (vec : Nat) (n : Nat) (i : Fin vec) : Nat → Fin vec → ℝ := fun m c => if m = n ∧ c = i then 1 else 0

/-- Force component `i` at node `n` that balances the stresses `S`: their work when the node moves by one. -/
noncomputable def nodalForce (P : Problem1 IV nq nfq nn vec dim) (S : Fin P.cells.length → Fin nq → Matrix (Fin vec) (Fin dim) ℝ)
    (n : Nat) (i : Fin vec) : ℝ :=
  ∑ c, ∑ q, contract (S c q) (P.gradAt (unitMove vec n i) c q) * P.measureAt c q

/-- Volume of the mesh, by the quadrature rule. -/
noncomputable def volume (P : Problem1 IV nq nfq nn vec dim) : ℝ := ∑ c, ∑ q, P.measureAt c q

/-- Every cell is mapped with an invertible Jacobian at every quadrature point. -/
def Unfolded (P : Problem1 IV nq nfq nn vec dim) : Prop :=
  ∀ cell ∈ P.cells, ∀ q, (mapJacobian (coords nn P.points cell.nodes) (Matrix.of (P.el.shapeGradsRef q))).det ≠ 0

/-- Node `n` has height `z` up to the tolerance `t`. -/
def AtHeight (points : List (Fin 3 → ℝ)) (z t : ℝ) (n : Nat) : Prop := ∃ p, points[n]? = some p ∧ |p 2 - z| ≤ t

/-- The end faces of the bar of length 10, as far as the tolerance of the tests can tell. -/
def OnTop (points : List (Fin 3 → ℝ)) (n : Nat) : Prop := AtHeight points 10 (11 / 100000) n

@[inherit_doc OnTop]
def OnBottom (points : List (Fin 3 → ℝ)) (n : Nat) : Prop := AtHeight points 0 (1 / 100000) n

/-- What is wrong with displacements `u` and nodal forces `f`, when the ends are clamped and the top is lifted by `disp`: the
deviation of the displacement at the ends, the force elsewhere. -/
noncomputable def misfit (points : List (Fin 3 → ℝ)) (disp : ℝ) (u f : Nat → Fin 3 → ℝ) (n : Nat) (c : Fin 3) : ℝ :=
  haveI := Classical.propDecidable (OnTop points n)
  haveI := Classical.propDecidable (OnBottom points n)
  if OnTop points n then u n c - (if c = 2 then disp else 0) else if OnBottom points n then u n c else f n c

/-- Euclidean length of nodal values. -/
noncomputable def size (N : Nat) (d : Nat → Fin 3 → ℝ) : ℝ := Real.sqrt (∑ n ∈ Finset.range N, ∑ c, d n c ^ 2)

/-- Hooke's law of the bar: Young's modulus 70000, Poisson's ratio 0.3. -/
noncomputable def barLaw (e : Matrix (Fin 3) (Fin 3) ℝ) : Matrix (Fin 3) (Fin 3) ℝ :=
  Plasticity.hooke (70000 * (3 / 10) / ((1 + 3 / 10) * (1 - 2 * (3 / 10)))) (70000 / (2 * (1 + 3 / 10))) e

/-- Stresses and strains at all quadrature points. -/
abbrev PointField (P : Problem1 IV nq nfq nn 3 3) := Fin P.cells.length → Fin nq → Matrix (Fin 3) (Fin 3) ℝ

/-- One load step of the bar from stresses and strains `sig`, `eps` to displacements `u` and `sig'`, `eps'`: the new stress is
the closest admissible one to the elastic prediction, the new strain that of the displacement, and displacements and nodal
forces fit the conditions to `1e-6`, or to `1e-8` of the misfit of the undisplaced bar. -/
structure BarStep (P : Problem1 IV nq nfq nn 3 3) (disp : ℝ) (sig eps : PointField P) (u : Nat → Fin 3 → ℝ)
    (sig' eps' : PointField P) : Prop where
  ret : ∀ c q, Plasticity.IsReturn 250 (sig c q + barLaw (Plasticity.symPart (Matrix.of (P.gradAt u c q)) - eps c q)) (sig' c q)
  strain : ∀ c q, eps' c q = Plasticity.symPart (Matrix.of (P.gradAt u c q))
  fits : size P.numTotalNodes (misfit P.points disp u (nodalForce P sig')) ≤ 1 / 10 ^ 6 ∨
    ∃ sig0 : PointField P, (∀ c q, Plasticity.IsReturn 250 (sig c q - barLaw (eps c q)) (sig0 c q)) ∧
      size P.numTotalNodes (misfit P.points disp u (nodalForce P sig')) ≤
        1 / 10 ^ 8 * size P.numTotalNodes (misfit P.points disp (fun _ _ => 0) (nodalForce P sig0))

/-- Tables of reference faces in three dimensions: local face `f` is spanned by `t f` and `s f`, has the unit normal of the
table, and its quadrature weights are `w f q` times the area of the parallelogram. -/
def Tabulated (fc : RefFaces ℝ nfq nn 3) (w : Nat → Fin nfq → ℝ) (t s : Nat → Fin 3 → ℝ) : Prop :=
  ∀ f q, fc.normals f ⬝ᵥ fc.normals f = 1 ∧ fc.normals f ⬝ᵥ t f = 0 ∧ fc.normals f ⬝ᵥ s f = 0 ∧
    fc.quadWeights f q = w f q * euclid (crossProduct (t f) (s f))

/-- Jacobian of cell `c` at a quadrature point of its local face `f`. -/
noncomputable def faceJac (P : Problem1 IV nq nfq nn vec dim) (c : Fin P.cells.length) (f : Nat) (q : Fin nfq) : Matrix (Fin dim) (Fin dim) ℝ :=
  mapJacobian (coords nn P.points (P.cells[c]).nodes) (Matrix.of (P.fc.shapeGradsRef f q))

/-- Gradient of a nodal field at a quadrature point of a face. -/
noncomputable def gradOnFace (P : Problem1 IV nq nfq nn vec dim) (u : Nat → Fin vec → ℝ) (c : Fin P.cells.length) (f : Nat)
    (q : Fin nfq) : Matrix (Fin vec) (Fin dim) ℝ :=
  physGrad (coords nn P.points (P.cells[c]).nodes) (Matrix.of (P.fc.shapeGradsRef f q)) (restrict nn u (P.cells[c]).nodes)

/-- Integral over faces, listed as cells and local faces, of a quantity `g` at their quadrature points. -/
noncomputable def faceIntegral (P : Problem1 IV nq nfq nn vec 3) (w : Nat → Fin nfq → ℝ) (t s : Nat → Fin 3 → ℝ)
    (faces : List (Fin P.cells.length × Nat)) (g : Fin P.cells.length → Nat → Fin nfq → ℝ) : ℝ :=
  (faces.map fun a => ∑ q, g a.1 a.2 q * (w a.2 q * mappedArea (faceJac P a.1 a.2 q) (t a.2) (s a.2))).sum

/-- `faces` lists every face all of whose vertices satisfy `loc`, once. -/
def Selects (P : Problem1 IV nq nfq nn vec dim) (faceInds : List (List Nat)) (loc : LocFn (Fin dim → ℝ))
    (faces : List (Fin P.cells.length × Nat)) : Prop :=
  faces.Nodup ∧ ∀ c f, (c, f) ∈ faces ↔ FaceOn P.points (P.cells.map fun cell => cell.nodes) faceInds loc c f

end JaxFem.Benchmarks
