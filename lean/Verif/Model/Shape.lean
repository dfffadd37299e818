import Verif.Model.Inverse
import Verif.Model.Hyper
import Mathlib.Analysis.SpecialFunctions.Complex.Arg

/-!
# Shape optimisation with rotated pores

`docs/source/learn/shape_optimization/example.ipynb` (code cells are counted from 1): the design variables are turned
into angles of square holes, the holes into densities at the quadrature points, the densities into moduli of a
neo-Hookean solid in plane strain.

Exact real arithmetic; `np.arctan2(y, x)` is the argument of the complex number `x + iy` (both are 0 at the origin).
-/

namespace JaxFem.Shape

open scoped BigOperators

variable {nq nfq nn : Nat}

/-- `scaled_sigmoid` (cell 2). -/
noncomputable def scaledSigmoid (x lower upper p : ℝ) : ℝ := lower + (upper - lower) / (1 + Real.exp (-x * p))

/-- `pore_fn` (cell 3); the local variable `porosity = 0.5` is never used. -/
noncomputable def poreFn (x center : Fin 2 → ℝ) (L0 beta : ℝ) : ℝ :=
  let beta := scaledSigmoid beta (-Real.pi / 4) (Real.pi / 4) (1 / 10)
  let theta := Complex.arg ⟨x 0 - center 0, x 1 - center 1⟩
  let r := Real.sqrt (∑ i, (x i - center i) ^ 2)
  let xRel := r * Real.cos (theta - beta)
  let yRel := r * Real.sin (theta - beta)
  let p := 200
  1 / (1 + Real.exp (-(|xRel| + |yRel| - 9 / 10 * L0 / 2) * p))

/-- The two nested loops of `custom_init` (cell 4): `i` outside, `j` inside. -/
def poreGrid (nx ny : Nat) : List (Nat × Nat) :=
  (List.range nx).flatMap fun i => (List.range ny).map fun j => (i, j)

/-- `L0 = Lx/nx` (cell 4). -/
noncomputable def poreSize (Lx : ℝ) (nx : Nat) : ℝ := Lx / nx

/-- `pore_center` (cell 4). -/
noncomputable def poreCenter (L0 : ℝ) (ij : Nat × Nat) : Fin 2 → ℝ := ![ij.1 * L0 + L0 / 2, ij.2 * L0 + L0 / 2]

open Classical in
/-- `quad_inds` (cell 4): `np.argwhere` of the four comparisons, in row-major order. -/
noncomputable def quadInds {C : Nat} (pts : Fin C → Fin nq → Fin 2 → ℝ) (L0 : ℝ) (ij : Nat × Nat) :
    List (Fin C × Fin nq) :=
  ((List.finRange C).flatMap fun c => (List.finRange nq).map fun q => (c, q)).filter fun cq =>
    pts cq.1 cq.2 0 ≥ ij.1 * L0 ∧ pts cq.1 cq.2 0 < (ij.1 + 1) * L0 ∧
      pts cq.1 cq.2 1 ≥ ij.2 * L0 ∧ pts cq.1 cq.2 1 < (ij.2 + 1) * L0

/-- `rhos.at[inds[:, 0], inds[:, 1]].set(vals)` (cell 6), where the values come from a function of the position. -/
def scatter {C : Nat} (rhos : Fin C → Fin nq → ℝ) (inds : List (Fin C × Fin nq)) (val : Fin C × Fin nq → ℝ) :
    Fin C → Fin nq → ℝ :=
  fun c q => if (c, q) ∈ inds then val (c, q) else rhos c q

/-- `beta[i]` (cell 6) for a vector that is not empty; JAX clamps an index that is too large. -/
def betaAt {M : Nat} (beta : Fin (M + 1) → ℝ) (i : Nat) : ℝ := beta ⟨min i M, by omega⟩

/-- `set_params` (cell 6), the array `rhos`: ones, then for every pore its densities at its quadrature points. -/
noncomputable def rhos {C M : Nat} (pts : Fin C → Fin nq → Fin 2 → ℝ) (L0 : ℝ) (nx ny : Nat) (beta : Fin (M + 1) → ℝ) :
    Fin C → Fin nq → ℝ :=
  (poreGrid nx ny).zipIdx.foldl (fun rho ijk =>
    scatter rho (quadInds pts L0 ijk.1) fun cq =>
      poreFn (pts cq.1 cq.2) (poreCenter L0 ijk.1) L0 (betaAt beta ijk.2)) fun _ _ => 1

/-- `E = Emin + (Emax - Emin)*rho` (cell 5) with `Emax = 1e6` and `Emin = 1e-3*Emax`. -/
noncomputable def young (rho : ℝ) : ℝ :=
  let Emax := 10 ^ 6
  let Emin := 1 / 10 ^ 3 * Emax
  Emin + (Emax - Emin) * rho

/-- `psi` (cell 5): the plane strain energy with `nu = 0.3`. -/
noncomputable def energy (rho : ℝ) (F : Fin 2 → Fin 2 → ℝ) : ℝ :=
  Hyper.psiPlane (Hyper.muOf (young rho) (3 / 10)) (Hyper.kappaOf (young rho) (3 / 10)) F

/-- The class `Elasticity` (cells 4 and 5) on a mesh: `get_tensor_map` is the stress of `energy`, the only surface map is
`[0, 1e4]` on the given faces.  Before `set_params` the internal variables are zero here. -/
noncomputable def problem (numTotalNodes : Nat) (points : List (Fin 2 → ℝ)) (cells : List (List Nat))
    (el : RefElement ℝ nq nn 2) (fc : RefFaces ℝ nfq nn 2) (faces : List (FaceSpec ℝ nfq)) :
    Problem1 ℝ nq nfq nn 2 2 where
  numTotalNodes := numTotalNodes
  points := points
  cells := cells.map fun c => ⟨c, fun _ => 0⟩
  el := el
  fc := fc
  tensorMap := fun rho uGrad => Hyper.firstPK (energy rho) uGrad
  massMap := none
  surfaces := [⟨fun _ _ _ => ![0, 10 ^ 4], faces⟩]

/-- `self.physical_quad_points` (`problem.py:151`, `fe.py:185-197`). -/
noncomputable def quadPoints {C : Nat} (P : Problem1 ℝ nq nfq nn 2 2) (c : Fin C) (q : Fin nq) : Fin 2 → ℝ :=
  (cellData P.el P.points (P.conn.getD c.1 []) fun _ => (0 : ℝ)).quadPoints q

/-- `set_params` (cell 6): `self.internal_vars = [rhos]`. -/
noncomputable def setParams {M : Nat} (P : Problem1 ℝ nq nfq nn 2 2) (Lx : ℝ) (nx ny : Nat) (beta : Fin (M + 1) → ℝ) :
    Problem1 ℝ nq nfq nn 2 2 :=
  Inverse.setParams P (rhos (C := P.cells.length) (quadPoints P) (poreSize Lx nx) nx ny beta)

/-- `J(θ)` (cell 12): `compute_compliance` (cell 7, the function of `TopOpt`) of the solution of `fwd_pred`. -/
noncomputable def compliance (P : Problem1 ℝ nq nfq nn 2 2) (sol : List (List ℝ)) : Except Err ℝ :=
  TopOpt.computeCompliance P sol

end JaxFem.Shape
