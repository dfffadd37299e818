import Verif.Model.TopOpt
import Verif.Model.Adjoint
import Verif.Model.Newton

/-!
# Inverse problems of the tutorials

`docs/source/learn/source_field_identification/example.ipynb` (code cells are counted from 1): the differentiable
solver, the objective on top of it, `jax.grad` of the objective and the finite-difference check.

The state of the problem object is not modelled here (C39 does); `set_params` is the dependence of the residual and of
the boundary conditions on the parameters.  Exact real arithmetic; `jax.grad` of the objective is the chain rule through
the backward pass of `ad_wrapper`.
-/

namespace JaxFem.Inverse

open scoped BigOperators

variable {E IV : Type} {nq nfq nn vec dim : Nat}

/-- What `ad_wrapper(problem)` closes over (`solver.py:1421-1455`), for `N` degrees of freedom: boundary conditions,
residual and tangent after `set_params(p)`, the options of the forward and of the adjoint solver. -/
structure Setup (E : Type) (fes : List FE) (N : Nat) where
  bcs : E → List (List (BCEntry ℝ))
  res : E → (Fin N → ℝ) → Fin N → ℝ
  tan : E → (Fin N → ℝ) → Matrix (Fin N) (Fin N) ℝ
  norm : (Fin N → ℝ) → ℝ
  solve : Matrix (Fin N) (Fin N) ℝ → (Fin N → ℝ) → (Fin N → ℝ) → Except Err (Fin N → ℝ)
  lineSearch : Bool
  tol : ℝ
  relTol : ℝ
  guess : Fin N → ℝ
  adjointSolve : (n : Nat) → Matrix (Fin n) (Fin n) ℝ → (Fin n → ℝ) → Except Err (Fin n → ℝ)

variable {fes : List FE} {N : Nat}

/-- `fwd_pred(params)` (`solver.py:1438-1442`): `set_params`, then the Newton branch of `solver`; the solution as a
vector of degrees of freedom, `none` if the loop does not end within `fuel` steps. -/
noncomputable def Setup.fwdPred (S : Setup E fes N) (fuel : Nat) (p : E) :
    Option (Except Err (Fin N → ℝ)) :=
  (newtonSolve (newtonUpdate fes (S.bcs p) (S.res p) (S.tan p)) (fun rA => .fin (S.norm rA.1))
    (newtonStep fes (S.bcs p) (fun r => .fin (S.norm r)) (S.res p) S.solve S.lineSearch) (fun _ => true) S.tol
    S.relTol S.guess fuel).map fun r => r.map Prod.fst

/-- `J(θ)`: the forward prediction followed by a function of the solution (cell 8). -/
noncomputable def Setup.objective (S : Setup E fes N) (fuel : Nat) (f : (Fin N → ℝ) → ℝ) (p : E) :
    Option (Except Err ℝ) :=
  (S.fwdPred fuel p).map fun r => r.map f

/-- `jax.grad(J)(θ)` (cell 9): the gradient of the function of the solution is the cotangent that goes into the
backward pass (`solver.py:1444-1451`, `1362-1418`). -/
noncomputable def Setup.grad [NormedAddCommGroup E] [NormedSpace ℝ E] (S : Setup E fes N) (fuel : Nat)
    (f : (Fin N → ℝ) → ℝ) (p : E) : Option (Except Err (E →L[ℝ] ℝ)) :=
  (S.fwdPred fuel p).map fun r => r.bind fun sol =>
    implicitVjp fes S.bcs S.res S.tan none S.adjointSolve sol p fun k => fderiv ℝ f sol (Pi.single k 1)

/-- `θ[c, q]` (cell 9); JAX clamps an index out of range to the last entry, an empty array cannot be read. -/
def getAt {C Q : Nat} (θ : Fin C → Fin Q → ℝ) (c q : Nat) : Except Err ℝ :=
  if h : 0 < C ∧ 0 < Q then .ok (θ ⟨min c (C - 1), by omega⟩ ⟨min q (Q - 1), by omega⟩) else .error .index

/-- `θ.at[c, q].set(v)` (cell 9); an update out of range is dropped. -/
def setAt {C Q : Nat} (θ : Fin C → Fin Q → ℝ) (c q : Nat) (v : ℝ) : Fin C → Fin Q → ℝ :=
  fun i j => if i.1 = c ∧ j.1 = q then v else θ i j

/-- The central difference quotient `(J(θ_plus) - J(θ_minus))/(2*h*θ[c, q])` (cell 9); the two evaluations may not
terminate or may raise. -/
noncomputable def fdQuotient {C Q : Nat} (J : (Fin C → Fin Q → ℝ) → Option (Except Err ℝ)) (θ : Fin C → Fin Q → ℝ)
    (c q : Nat) (h : ℝ) : Option (Except Err ℝ) :=
  match getAt θ c q with
  | .error e => some (.error e)
  | .ok t =>
    match J (setAt θ c q ((1 + h) * t)), J (setAt θ c q ((1 - h) * t)) with
    | none, _ => none
    | some (.error e), _ => some (.error e)
    | some (.ok _), none => none
    | some (.ok _), some (.error e) => some (.error e)
    | some (.ok a), some (.ok b) => some (.ok ((a - b) / (2 * h * t)))

/-- The class `Poisson` (cell 2): `get_tensor_map` is the identity, `get_mass_map` returns `np.array([θ])`; no surface
maps. Before `set_params` the internal variables are zero here. -/
def sourceProblem (numTotalNodes : Nat) (points : List (Fin dim → ℝ)) (cells : List (List Nat))
    (el : RefElement ℝ nq nn dim) (fc : RefFaces ℝ nfq nn dim) : Problem1 ℝ nq nfq nn 1 dim where
  numTotalNodes := numTotalNodes
  points := points
  cells := cells.map fun c => ⟨c, fun _ => 0⟩
  el := el
  fc := fc
  tensorMap := fun _ x => x
  massMap := some fun θ _ _ => ![θ]
  surfaces := []

/-- `self.internal_vars = [θ]` (cell 2) for an array of shape `(num_cells, num_quads)`. -/
def setParams {C : Nat} (P : Problem1 ℝ nq nfq nn vec dim) (θ : Fin C → Fin nq → ℝ) : Problem1 ℝ nq nfq nn vec dim :=
  P.atIv fun c q => if h : c < C then θ ⟨c, h⟩ q else 0

/-- `compute_l2_error` (cell 8): squared difference at the quadrature points, summed with the weights `JxW`. -/
noncomputable def l2Error (P : Problem1 IV nq nfq nn vec dim) (pred true : List (List ℝ)) : ℝ :=
  (P.cells.map fun cell =>
    ∑ q, ∑ i, (convertFromDofToQuad P.el vec pred cell.nodes q i - convertFromDofToQuad P.el vec true cell.nodes q i) ^ 2
      * (cellData P.el P.points cell.nodes cell.iv).JxW q).sum

end JaxFem.Inverse
