import Verif.Model.Kernel
import Verif.Model.UserBC
import Verif.Model.Adjoint
import Verif.Spec.Dofs

/-!
# The differentiable mesh and its finite-difference check

`applications/differentiable_mesh/example.py:45-165` (location functions, boundary values, objective, choice of the node,
class `NonlinearPoisson`, `main` up to the check of the face counts) and
`applications/differentiable_mesh/finite_difference.py:7-52`.

Simplifications: exact real arithmetic; `solver` is a parameter (a function of the selected faces, of the boundary conditions and
of the points), so are the tangent and the adjoint solver; the printed report and the saved files (`example.py:167-200`) are left
out.
-/

namespace JaxFem.MeshCheck

open scoped BigOperators

variable {nq nfq nn : Nat}

/-- `jnp.isclose(a, b, atol=atol)` with the default relative tolerance `1e-5`. -/
def close (a b atol : ℝ) : Prop := |a - b| ≤ atol + 1 / 10 ^ 5 * |b|

noncomputable instance (a b atol : ℝ) : Decidable (close a b atol) := Classical.dec _

/-- `left` (`example.py:45-46`). -/
noncomputable def left : LocFn (Fin 2 → ℝ) := .one fun p => decide (close (p 0) 0 (1 / 10 ^ 5))

/-- `right` (`example.py:48-49`). -/
noncomputable def right : LocFn (Fin 2 → ℝ) := .one fun p => decide (close (p 0) 1 (1 / 10 ^ 5))

/-- `bottom` (`example.py:51-52`). -/
noncomputable def bottom : LocFn (Fin 2 → ℝ) := .one fun p => decide (close (p 1) 0 (1 / 10 ^ 3))

/-- `top` (`example.py:54-55`). -/
noncomputable def top : LocFn (Fin 2 → ℝ) := .one fun p => decide (close (p 1) 1 (1 / 10 ^ 5))

/-- `u0` (`example.py:57-58`). -/
def u0 : (Fin 2 → ℝ) → ℝ := fun _ => 0

/-- `u0_top` (`example.py:60-62`). -/
noncomputable def u0Top : (Fin 2 → ℝ) → ℝ := fun p => Real.sin (Real.pi * p 0) * 2

/-- `dirichlet_bc_info` (`example.py:120`). -/
noncomputable def info : UserBC.Info (Fin 2 → ℝ) ℝ := some ([left, right, top], [0, 0, 0], [u0, u0, u0Top])

/-- `objective_sum_u_squared` (`example.py:67-70`) of the vector of degrees of freedom; the sum does not see the shape. -/
def objective {N : Nat} (u : Fin N → ℝ) : ℝ := ∑ k, u k ^ 2

/-- `dist` after `jnp.where` (`example.py:74-80`) for one point. -/
noncomputable def maskedDist (p : Fin 2 → ℝ) : WithTop ℝ :=
  open scoped Classical in
  if close (p 1) 0 (1 / 10 ^ 3) ∧ (p 0 > 1 / 10 ^ 4 ∧ p 0 < 1 - 1 / 10 ^ 4) then
    (((p 0 - 35 / 100) ^ 2 + (p 1 - 0) ^ 2 : ℝ) : WithTop ℝ)
  else ⊤

/-- The scan of `jnp.argmin`: the first smallest entry; `best` is the smallest entry so far and `at` its index. -/
noncomputable def argminFrom (best : WithTop ℝ) (pos idx : Nat) : List (WithTop ℝ) → Nat
  | [] => pos
  | d :: l =>
    open scoped Classical in
    if d < best then argminFrom d idx (idx + 1) l else argminFrom best pos (idx + 1) l

/-- `jnp.argmin`; an empty array raises. -/
noncomputable def argmin : List (WithTop ℝ) → Except Err Nat
  | [] => .error .value
  | d :: l => .ok (argminFrom d 0 1 l)

/-- `pick_fd_node_on_neumann_edge` (`example.py:72-81`). -/
noncomputable def pick (points : List (Fin 2 → ℝ)) : Except Err Nat := argmin (points.map maskedDist)

/-- `mass_map` (`example.py:89-100`). -/
noncomputable def massMap (u : Fin 1 → ℝ) (x : Fin 2 → ℝ) : Fin 1 → ℝ :=
  let sx := Real.sin (Real.pi * x 0)
  let opy := 1 + x 1
  let uEx := sx * opy
  let lapU := Real.pi ^ 2 * sx * opy
  let g := lapU + uEx ^ 3
  fun _ => u 0 ^ 3 - g

/-- `neumann_flux` (`example.py:102-106`). -/
noncomputable def neumannFlux (_u : Fin 1 → ℝ) (x : Fin 2 → ℝ) : Fin 1 → ℝ := fun _ => Real.sin (Real.pi * x 0)

/-- What stays the same when the points move: number of nodes, `cells`, the element of `ele_type`. -/
structure Disc (nq nfq nn : Nat) where
  numNodes : Nat
  cells : List (List Nat)
  faceInds : List (List Nat)
  el : RefElement ℝ nq nn 2
  fc : RefFaces ℝ nfq nn 2

/-- The array of point coordinates. -/
abbrev Disc.Points (D : Disc nq nfq nn) : Type := Fin D.numNodes → Fin 2 → ℝ

/-- The class `NonlinearPoisson` (`example.py:84-110`) with `vec=1, dim=2` and the given points and Neumann faces;
`set_params` (108-110) recomputes the geometry at the new points and keeps the faces. -/
noncomputable def Disc.problem (D : Disc nq nfq nn) (faces : List (Nat × Nat)) (x : D.Points) : Problem1 Unit nq nfq nn 1 2 where
  numTotalNodes := D.numNodes
  points := List.ofFn x
  cells := D.cells.map fun c => ⟨c, fun _ => ()⟩
  el := D.el
  fc := D.fc
  tensorMap := fun _ G => G
  massMap := some fun _ u x => massMap u x
  surfaces := [⟨fun _ u x => neumannFlux u x, faces.map fun f => ⟨f.1, f.2, fun _ => ()⟩⟩]

/-- Finite-element data, the same for all points. -/
noncomputable def Disc.fes (D : Disc nq nfq nn) : List FE := (D.problem [] 0).fes

/-- Vectors of degrees of freedom. -/
abbrev Disc.Vec (D : Disc nq nfq nn) : Type := Fin (totalDofs D.fes) → ℝ

/-- Residual vector after `set_params(points)` (`example.py:108-110`, `problem.py:462-475`). -/
noncomputable def Disc.res (D : Disc nq nfq nn) (faces : List (Nat × Nat)) (x : D.Points) (u : D.Vec) : D.Vec :=
  fun k =>
    match (D.problem faces x).residual (unravelSol (solShapes D.fes) (List.ofFn u)) with
    | .ok R => (ravelSol R).getD k 0
    | .error _ => 0

/-- Constructing the problem on given points (`example.py:122-129`, `finite_difference.py:32-40`): the Dirichlet conditions and the
Neumann faces (`boundary_inds_list[0]`) are selected at these points. -/
noncomputable def Disc.build (D : Disc nq nfq nn) (x : D.Points) :
    Except Err (List (List (BCEntry ℝ)) × List (Nat × Nat)) := do
  let bcs ← UserBC.problemBCs (.single (List.ofFn x) info)
  let inds ← boundaryInds (List.ofFn x) D.cells D.faceInds (some [bottom])
  match inds with
  | [] => .error .index
  | b :: _ => pure (bcs, b)

/-- `pts[perturb_node, perturb_axis] += e` (`finite_difference.py:26-29`, with `e = -fd_eps` in line 28). -/
def Disc.shift (D : Disc nq nfq nn) (x : D.Points) (node axis : Nat) (e : ℝ) : Except Err D.Points :=
  if node < D.numNodes ∧ axis < 2 then
    .ok fun n i => if n.1 = node ∧ i.1 = axis then x n i + e else x n i
  else .error .index

/-- `central` (`finite_difference.py:7-8`). -/
noncomputable def central (Jplus Jminus epsilon : ℝ) : ℝ := (Jplus - Jminus) / (2 * epsilon)

/-- `solver(problem)` as a function of boundary conditions, Neumann faces and points. -/
abbrev Solver (D : Disc nq nfq nn) : Type :=
  List (List (BCEntry ℝ)) → List (Nat × Nat) → D.Points → Except Err D.Vec

/-- The inner function `solve` (`finite_difference.py:31-42`): the solution and the number of Neumann faces. -/
noncomputable def Disc.solve (D : Disc nq nfq nn) (solver : Solver D) (x : D.Points) : Except Err (D.Vec × Nat) := do
  let b ← D.build x
  let u ← solver b.1 b.2 x
  pure (u, b.2.length)

/-- `gold_fd_two_independent_problems` (`finite_difference.py:11-52`): quotient, the two objectives (minus, plus) and the two face
counts (minus, plus). -/
noncomputable def Disc.gold (D : Disc nq nfq nn) (solver : Solver D) (x : D.Points) (node axis : Nat) (eps : ℝ) :
    Except Err (ℝ × ℝ × ℝ × Nat × Nat) := do
  let xm ← D.shift x node axis (-eps)
  let xp ← D.shift x node axis eps
  let sm ← D.solve solver xm
  let sp ← D.solve solver xp
  let Jm := objective sm.1
  let Jp := objective sp.1
  pure (central Jp Jm eps, Jm, Jp, sm.2, sp.2)

/-- `jax.value_and_grad(forward_and_probe, has_aux=True)(points0)` (`example.py:136-142`): the solution at `points0`, and the
gradient by the backward pass of `ad_wrapper` (`solver.py:1421-1455`) with the cotangent of the objective. The boundary conditions
and the faces are those of `points0` also at other points, since `set_params` does not select them again. -/
noncomputable def Disc.valueAndGrad (D : Disc nq nfq nn) (solver : Solver D)
    (tan : List (Nat × Nat) → D.Points → D.Vec → Matrix (Fin (totalDofs D.fes)) (Fin (totalDofs D.fes)) ℝ)
    (adjointSolve : (n : Nat) → Matrix (Fin n) (Fin n) ℝ → (Fin n → ℝ) → Except Err (Fin n → ℝ))
    (b : List (List (BCEntry ℝ)) × List (Nat × Nat)) (x : D.Points) : Except Err (ℝ × (D.Points →L[ℝ] ℝ)) := do
  let u ← solver b.1 b.2 x
  let g ← implicitVjp D.fes (fun _ => b.1) (D.res b.2) (tan b.2) none adjointSolve u x
    (fun k => fderiv ℝ objective u (Pi.single k 1))
  pure (objective u, g)

/-- `main` from the construction of the problem to the check of the face counts (`example.py:122-165`): the gradient and the
difference quotient. `axis` is `perturb_axis = 1` and `eps` is `fd_eps = 5e-6` (133-134). -/
noncomputable def Disc.main (D : Disc nq nfq nn) (solver : Solver D)
    (tan : List (Nat × Nat) → D.Points → D.Vec → Matrix (Fin (totalDofs D.fes)) (Fin (totalDofs D.fes)) ℝ)
    (adjointSolve : (n : Nat) → Matrix (Fin n) (Fin n) ℝ → (Fin n → ℝ) → Except Err (Fin n → ℝ))
    (x : D.Points) (axis : Nat) (eps : ℝ) : Except Err (Nat × (D.Points →L[ℝ] ℝ) × ℝ) := do
  let b ← D.build x
  let node ← pick (List.ofFn x)
  let vg ← D.valueAndGrad solver tan adjointSolve b x
  let r ← D.gold solver x node axis eps
  if r.2.2.2.1 ≠ b.2.length ∨ r.2.2.2.2 ≠ b.2.length then .error .runtime
  else pure (node, vg.2, r.1)

end JaxFem.MeshCheck
