import Mathlib.Analysis.Calculus.FDeriv.Basic
import Mathlib.Analysis.SpecialFunctions.Exp
import Mathlib.Analysis.SpecialFunctions.Log.Base
import Verif.Model.Kernel
import Verif.Model.UserBC

/-!
# The convergence study

Model of `applications/convergence_rate/example.py`: a Poisson problem with a manufactured solution, the two error
measures and the printed orders. Derivatives taken by `jax.jacrev` and `jax.hessian` are Fréchet derivatives. The mesh
generator, the solver and the file output are not part of this file.
-/

namespace JaxFem.Convergence

open scoped BigOperators

variable {IV : Type} {nq nfq nn vec dim : Nat}

/-! ### The problem -/

/-- `LinearPoisson.get_tensor_map` (`example.py:15-16`). -/
def tensorMap : IV → (Fin vec → Fin dim → ℝ) → Fin vec → Fin dim → ℝ := fun _ x => x

/-- `jax.jacrev(f)(x)` for `f` with an array of shape `(vec,)` as value (`example.py:43`). -/
noncomputable def jacrev (f : (Fin dim → ℝ) → Fin vec → ℝ) (x : Fin dim → ℝ) : Fin vec → Fin dim → ℝ :=
  fun c j => fderiv ℝ f x (Pi.single j 1) c

/-- `jax.hessian(f)(x)`, the derivative of the derivative (`example.py:20`). -/
noncomputable def hessian (f : (Fin dim → ℝ) → Fin vec → ℝ) (x : Fin dim → ℝ) : Fin vec → Fin dim → Fin dim → ℝ :=
  fun c i j => fderiv ℝ (fun y => jacrev f y c i) x (Pi.single j 1)

/-- `LinearPoisson.get_mass_map` (`example.py:18-22`) with the global `true_u_fn` as `f`: the trace of the squeezed
Hessian. -/
noncomputable def massMap (f : (Fin dim → ℝ) → Fin 1 → ℝ) : IV → (Fin 1 → ℝ) → (Fin dim → ℝ) → Fin 1 → ℝ :=
  fun _ _ x _ => ∑ i, hessian f x 0 i i

/-- `LinearPoisson(mesh, vec=1, dim, ...)` (`example.py:89-90`): no surface maps, no internal variables. -/
noncomputable def problem (f : (Fin dim → ℝ) → Fin 1 → ℝ) (numTotalNodes : Nat) (points : List (Fin dim → ℝ))
    (cells : List (CellSpec IV nq)) (el : RefElement ℝ nq nn dim) (fc : RefFaces ℝ nfq nn dim) :
    Problem1 IV nq nfq nn 1 dim :=
  ⟨numTotalNodes, points, cells, el, fc, tensorMap, some (massMap f), []⟩

/-- `true_u_fn` (`example.py:52-56`). -/
noncomputable def trueU (p : Fin 3 → ℝ) : Fin 1 → ℝ :=
  let x := p 0
  let y := p 1
  let z := p 2
  fun _ => 1e2 * ((x - 0.5) ^ 3 + 2 * (y - 0.5) ^ 3 + 1e1 * Real.exp (-(z - 0.5) ^ 2))

/-! ### The error measures -/

/-- `compute_l2_norm_error` (`example.py:24-32`). -/
noncomputable def computeL2 (P : Problem1 IV nq nfq nn vec dim) (sol : List (List ℝ))
    (f : (Fin dim → ℝ) → Fin vec → ℝ) : ℝ :=
  Real.sqrt ((P.cells.map fun cell =>
    let X := physicalCoos nn P.points cell.nodes
    ∑ q, ∑ c, (convertFromDofToQuad P.el vec sol cell.nodes q c - f (physicalPoint (P.el.shapeVals q) X) c) ^ 2
      * cellJxW X (P.el.shapeGradsRef q) (P.el.quadWeights q)).sum)

/-- `compute_h1_norm_error` (`example.py:34-49`). -/
noncomputable def computeH1 (P : Problem1 IV nq nfq nn vec dim) (sol : List (List ℝ))
    (f : (Fin dim → ℝ) → Fin vec → ℝ) : ℝ :=
  let valL2 := Real.sqrt ((P.cells.map fun cell =>
    let X := physicalCoos nn P.points cell.nodes
    ∑ q, ∑ c, (convertFromDofToQuad P.el vec sol cell.nodes q c - f (physicalPoint (P.el.shapeVals q) X) c) ^ 2
      * cellJxW X (P.el.shapeGradsRef q) (P.el.quadWeights q)).sum)
  let gradL2 := Real.sqrt ((P.cells.map fun cell =>
    let X := physicalCoos nn P.points cell.nodes
    ∑ q, ∑ c, ∑ j, (solToGrad P.el vec P.points sol cell.nodes q c j
        - jacrev f (physicalPoint (P.el.shapeVals q) X) c j) ^ 2
      * cellJxW X (P.el.shapeGradsRef q) (P.el.quadWeights q)).sum)
  valL2 + gradL2

/-! ### Boundary conditions -/

/-- `np.isclose(a, b, atol=1e-5)`: the relative tolerance has its default value `1e-5`. -/
def isclose (a b : ℝ) : Prop := |a - b| ≤ 1 / 10 ^ 5 + 1 / 10 ^ 5 * |b|

noncomputable instance (a b : ℝ) : Decidable (isclose a b) := Classical.dec _

/-- `left` (`example.py:64-65`). -/
noncomputable def left : LocFn (Fin 3 → ℝ) := .one fun p => decide (isclose (p 0) 0)

/-- `right` (`example.py:67-68`). -/
noncomputable def right : LocFn (Fin 3 → ℝ) := .one fun p => decide (isclose (p 0) 1)

/-- `front` (`example.py:70-71`). -/
noncomputable def front : LocFn (Fin 3 → ℝ) := .one fun p => decide (isclose (p 1) 0)

/-- `back` (`example.py:73-74`). -/
noncomputable def back : LocFn (Fin 3 → ℝ) := .one fun p => decide (isclose (p 1) 1)

/-- `bottom` (`example.py:76-77`). -/
noncomputable def bottom : LocFn (Fin 3 → ℝ) := .one fun p => decide (isclose (p 2) 0)

/-- `top` (`example.py:79-80`). -/
noncomputable def top : LocFn (Fin 3 → ℝ) := .one fun p => decide (isclose (p 2) 1)

/-- `dirichlet_val` (`example.py:82-83`). -/
noncomputable def dirichletVal (p : Fin 3 → ℝ) : ℝ := trueU p 0

/-- `dirichlet_bc_info` (`example.py:85-87`). -/
noncomputable def info : UserBC.Info (Fin 3 → ℝ) ℝ :=
  some ([left, right, front, back, bottom, top], List.replicate 6 0, List.replicate 6 dirichletVal)

/-! ### The printed orders -/

/-- Entry `-2` and `-1` of a row of errors and the printed number `onp.log2(e[-2]/e[-1])` (`example.py:127-130`);
an index error for a row with fewer than two entries. -/
noncomputable def printedOrder (errors : List ℝ) : Except Err ℝ :=
  match errors.reverse with
  | last :: previous :: _ => .ok (Real.logb 2 (previous / last))
  | _ => .error .index

end JaxFem.Convergence
