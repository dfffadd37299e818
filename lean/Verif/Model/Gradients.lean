import Verif.Model.Inverse
import Verif.Model.Hyper
import Verif.Model.Boundary

/-!
# Compute gradients

`docs/source/learn/compute_gradients/example.ipynb` (code cells are counted from 1): a neo-Hookean cube whose Young's modulus
is the attribute `self.E` times the internal variable `rho`, and whose bottom is moved by `scale_d*Lz`; the three parameters
are differentiated and the derivatives are compared with difference quotients.

The kernels read `self.E` from the object when `jax.jit` traces them and keep the value (`Verif.Model.Jit`, C60), also for
later parameters.  The value that a kernel sees is the first component of the internal variables here, `rho` the second, so
that the value can be chosen separately for each compiled kernel.

Exact real arithmetic; the mesh of cell 3 and the selected faces enter as data; no line search, so that `compute_residual`
is called in the backward pass only.
-/

namespace JaxFem.Gradients

open scoped BigOperators

variable {nq nfq nn : Nat}

/-- `psi` (cell 2): `E = self.E * rho`, `nu = 0.3`. -/
noncomputable def energy (selfE rho : ℝ) (F : Fin 3 → Fin 3 → ℝ) : ℝ :=
  let E := selfE * rho
  Hyper.psi 3 (Hyper.muOf E (3 / 10)) (Hyper.kappaOf E (3 / 10)) F

/-- `surface_map` (cell 2). -/
noncomputable def surfaceMap (_u _x : Fin 3 → ℝ) : Fin 3 → ℝ := ![0, 0, 10 ^ 3]

/-- The class `HyperElasticity` (cell 2) on a mesh; `faces` are the selected pairs of cell and local face. -/
noncomputable def problem (numTotalNodes : Nat) (points : List (Fin 3 → ℝ)) (cells : List (List Nat))
    (el : RefElement ℝ nq nn 3) (fc : RefFaces ℝ nfq nn 3) (faces : List (Nat × Nat)) : Problem1 (ℝ × ℝ) nq nfq nn 3 3 where
  numTotalNodes := numTotalNodes
  points := points
  cells := cells.map fun c => ⟨c, fun _ => (0, 0)⟩
  el := el
  fc := fc
  tensorMap := fun iv uGrad => Hyper.firstPK (energy iv.1 iv.2) uGrad
  massMap := none
  surfaces := [⟨fun _ => surfaceMap, faces.map fun f => ⟨f.1, f.2, fun _ => (0, 0)⟩⟩]

/-- `params = [E, rho, scale_d]` (cell 6) for `C` cells. -/
abbrev Params (C nq : Nat) := ℝ × (Fin C → Fin nq → ℝ) × ℝ

/-- `self.E = E; self.internal_vars = [rho]` of `set_params` (cell 2), for kernels that see this value of `self.E`. -/
def setParams {C : Nat} (P : Problem1 (ℝ × ℝ) nq nfq nn 3 3) (p : Params C nq) : Problem1 (ℝ × ℝ) nq nfq nn 3 3 :=
  P.atIv fun c q => (p.1, if h : c < C then p.2.1 ⟨c, h⟩ q else 0)

/-- `np.isclose(point[2], 0., atol=1e-5)` (cell 4). -/
noncomputable def bottom : LocFn (Fin 3 → ℝ) := .one fun p =>
  haveI := Classical.propDecidable (|p 2 - 0| ≤ 1 / 10 ^ 5 + 1 / 10 ^ 5 * |(0 : ℝ)|)
  decide (|p 2 - 0| ≤ 1 / 10 ^ 5 + 1 / 10 ^ 5 * |(0 : ℝ)|)

/-- `get_dirichlet_bottom` (cell 4). -/
def getDirichletBottom (Lz scale : ℝ) (_point : Fin 3 → ℝ) : ℝ := scale * Lz

/-- `dirichlet_bc_info` (cell 4) after the last value function has been replaced by `set_params` (cell 2). -/
noncomputable def dirichletInfo (Lz scale : ℝ) : List (LocFn (Fin 3 → ℝ)) × List Nat × List ((Fin 3 → ℝ) → ℝ) :=
  ([bottom, bottom, bottom], [0, 1, 2], [fun _ => 0, fun _ => 0, getDirichletBottom Lz scale])

/-- `self.fe.update_Dirichlet_boundary_conditions(...)` of `set_params` (cell 2; `fe.py:260-269`): entries of the arrays. -/
noncomputable def bcs (points : List (Fin 3 → ℝ)) (Lz scale : ℝ) : List (List (BCEntry ℝ)) :=
  match dirichletBC points (some (dirichletInfo Lz scale)) with
  | .ok b => [List.zipWith (fun n cv => ⟨n, cv.1, cv.2⟩) b.1 (b.2.1.zip b.2.2)]
  | .error _ => []

/-- `test_fn` (cell 7): `np.sum(sol_list[0]**2)`. -/
def testFn {N : Nat} (u : Fin N → ℝ) : ℝ := ∑ k, u k ^ 2

/-! ### Evaluations with compiled kernels -/

/-- Values of `self.E` in the compiled kernels, if they have been traced: `jac` for `kernel_jac` (`newton_update`), `res` for
`kernel` (`compute_residual`). -/
structure Compiled where
  jac : Option ℝ
  res : Option ℝ

/-- The parameters as a kernel sees them: a compiled kernel uses the value of `self.E` it was traced with. -/
def seen {C : Nat} (e : Option ℝ) (p : Params C nq) : Params C nq := (e.getD p.1, p.2)

/-- The first call of `newton_update` traces `kernel_jac`. -/
def Compiled.call {C : Nat} (k : Compiled) (p : Params C nq) : Compiled := { k with jac := some (k.jac.getD p.1) }

variable {C : Nat} {fes : List FE} {N : Nat}

/-- `composed_fn(params)` (cell 7) and the compiled kernels afterwards. -/
noncomputable def composedFn (S : Inverse.Setup (Params C nq) fes N) (fuel : Nat) (k : Compiled) (p : Params C nq) :
    Option (Except Err ℝ) × Compiled :=
  (S.objective fuel testFn (seen k.jac p), k.call p)

/-- Calls of `composed_fn` one after the other (cells 7 and 8). -/
noncomputable def evaluate (S : Inverse.Setup (Params C nq) fes N) (fuel : Nat) :
    Compiled → List (Params C nq) → List (Option (Except Err ℝ))
  | _, [] => []
  | k, p :: ps => (composedFn S fuel k p).1 :: evaluate S fuel (composedFn S fuel k p).2 ps

/-- `jax.grad(composed_fn)(params)` (cell 8): the forward pass, then `implicit_vjp` (`solver.py:1362-1418`), where
`newton_update` uses `kernel_jac` and the differentiated `constraint_fn` uses `kernel`.  If the latter is traced now, it sees
the parameter that is differentiated. -/
noncomputable def gradFn (S : Inverse.Setup (Params C nq) fes N) (fuel : Nat) (k : Compiled) (p : Params C nq) :
    Option (Except Err (Params C nq →L[ℝ] ℝ)) :=
  (S.fwdPred fuel (seen k.jac p)).map fun r => r.bind fun sol =>
    implicitVjp fes S.bcs (fun p' => S.res (seen k.res p')) (fun p' => S.tan (seen (k.call p).jac p')) none S.adjointSolve
      sol p fun j => fderiv ℝ testFn sol (Pi.single j 1)

/-- What cell 8 computes. -/
structure Report (C nq : Nat) where
  dEFd : ℝ
  drhoFd : ℝ
  dscaleFd : ℝ
  grad : Params C nq →L[ℝ] ℝ

/-- Continue with the result of an evaluation that has ended without exception. -/
def andThen {α β : Type} (r : Option (Except Err α)) (f : α → Option (Except Err β)) : Option (Except Err β) :=
  match r with
  | none => none
  | some (.error e) => some (.error e)
  | some (.ok a) => f a

/-- Cells 7 and 8 for a new problem object: the value, three forward differences, the gradient. -/
noncomputable def script (S : Inverse.Setup (Params C nq) fes N) (fuel : Nat) (h : ℝ) (p : Params C nq) :
    Option (Except Err (Report C nq)) :=
  let E := p.1
  let rho := p.2.1
  let scale := p.2.2
  let r := composedFn S fuel ⟨none, none⟩ (E, rho, scale)
  andThen r.1 fun val =>
  let rE := composedFn S fuel r.2 ((1 + h) * E, rho, scale)
  andThen rE.1 fun vE =>
  match Inverse.getAt rho 0 0 with
  | .error e => some (.error e)
  | .ok rho00 =>
  let rR := composedFn S fuel rE.2 (E, Inverse.setAt rho 0 0 ((1 + h) * rho00), scale)
  andThen rR.1 fun vR =>
  let rS := composedFn S fuel rR.2 (E, rho, (1 + h) * scale)
  andThen rS.1 fun vS =>
  andThen (gradFn S fuel rS.2 (E, rho, scale)) fun g =>
  some (.ok ⟨(vE - val) / (h * E), (vR - val) / (h * rho00), (vS - val) / (h * scale), g⟩)

end JaxFem.Gradients
