import Verif.Model.Sensitivity
import Verif.Spec.Newton
import Verif.Spec.Deriv
import Verif.Spec.TopOpt
import Verif.Spec.UserBC
import Verif.Spec.Hyper

/-!
Independent notions for the sensitivity scripts: outcomes of a loop of equilibria, differentiability along it, problem
objects that differ only in what does not matter for derivatives, rotations about the third axis.
-/

namespace JaxFem.Sensitivity

open scoped BigOperators

variable {Z E B : Type} {fes : List FE} {N : Nat}

/-- `us` are equilibria of the successive steps, every step starts from the data that the step before left behind, and `r` is the
objective of the last step. -/
inductive Outcome (S : Script Z E B fes N) : B → List Z → List (Fin N → ℝ) → ℝ → Prop
  | last (b : B) (z : Z) (u : Fin N → ℝ) : SolvesBVP fes ((S.setup z).bcs (S.par z b)) ((S.setup z).res (S.par z b)) u →
      Outcome S b [z] [u] (S.objective z u b)
  | step (b : B) (z : Z) (zs : List Z) (u : Fin N → ℝ) (us : List (Fin N → ℝ)) (r : ℝ) :
      SolvesBVP fes ((S.setup z).bcs (S.par z b)) ((S.setup z).res (S.par z b)) u →
      Outcome S (S.update z u b) zs us r → Outcome S b (z :: zs) (u :: us) r

/-- The defect of `u`: difference from the prescribed value at constrained, residual at free degrees of freedom. -/
def Misses (fes : List FE) (bcs : List (List (BCEntry ℝ))) (res : (Fin N → ℝ) → Fin N → ℝ) (u r : Fin N → ℝ) : Prop :=
  ∀ k : Fin N, (Prescribed fes bcs k none → r k = res u k) ∧ ∀ v, Prescribed fes bcs k (some v) → r k = u k - v

/-- `u` is an equilibrium up to the tolerances: the defect is below the absolute one, or below the relative one with respect to
the defect of the initial guess. -/
def Nearly (S : Inverse.Setup E fes N) (p : E) (u : Fin N → ℝ) : Prop :=
  ∃ r r0, Misses fes (S.bcs p) (S.res p) u r ∧ Misses fes (S.bcs p) (S.res p) S.guess r0 ∧
    (S.norm r ≤ S.tol ∨ S.norm r ≤ S.relTol * S.norm r0)

/-- The same as `Outcome` for equilibria up to the tolerances. -/
inductive NearOutcome (S : Script Z E B fes N) : B → List Z → List (Fin N → ℝ) → ℝ → Prop
  | last (b : B) (z : Z) (u : Fin N → ℝ) : Nearly (S.setup z) (S.par z b) u → NearOutcome S b [z] [u] (S.objective z u b)
  | step (b : B) (z : Z) (zs : List Z) (u : Fin N → ℝ) (us : List (Fin N → ℝ)) (r : ℝ) :
      Nearly (S.setup z) (S.par z b) u → NearOutcome S (S.update z u b) zs us r → NearOutcome S b (z :: zs) (u :: us) r

/-- Two problem objects with the same residual and tangent, the same constrained degrees of freedom, and prescribed values that
differ by constants: by numbers that do not depend on the parameters. -/
structure SameUpToValues (S S' : Inverse.Setup E fes N) : Prop where
  res : S.res = S'.res
  tan : S.tan = S'.tan
  free : ∀ p (k : Fin N), Prescribed fes (S.bcs p) k none → Prescribed fes (S'.bcs p) k none
  value : ∃ d : Fin N → ℝ, ∀ p (k : Fin N) v, Prescribed fes (S.bcs p) k (some v) → Prescribed fes (S'.bcs p) k (some (v + d k))

variable [NormedAddCommGroup E] [NormedSpace ℝ E] [NormedAddCommGroup B] [NormedSpace ℝ B]

/-- The equations are differentiable at `(p, u)` and the tangent is the derivative of the residual; which degrees of freedom are
constrained does not depend on the parameters, the prescribed values do differentiably.  Nothing is said about the
determinant of the tangent. -/
structure SmoothAt (S : Inverse.Setup E fes N) (p : E) (u : Fin N → ℝ) : Prop where
  wf : ∀ p, WFBC fes (S.bcs p)
  tangent : HasJacobianAt (S.res p) (S.tan p u) u
  res : DifferentiableAt ℝ (fun up : (Fin N → ℝ) × E => S.res up.2 up.1) (u, p)
  bcs : ∀ k : Fin N, (∀ p, Prescribed fes (S.bcs p) k none) ∨
    ∃ val : E → ℝ, DifferentiableAt ℝ val p ∧ ∀ p, Prescribed fes (S.bcs p) k (some (val p))

/-- Every step is differentiable, and so are parameters, updates and the objective of the last step. -/
inductive SmoothAlong (S : Script Z E B fes N) : B → List Z → List (Fin N → ℝ) → Prop
  | last (b : B) (z : Z) (u : Fin N → ℝ) : SmoothAt (S.setup z) (S.par z b) u → DifferentiableAt ℝ (S.par z) b →
      DifferentiableAt ℝ (fun x : (Fin N → ℝ) × B => S.objective z x.1 x.2) (u, b) → SmoothAlong S b [z] [u]
  | step (b : B) (z : Z) (zs : List Z) (u : Fin N → ℝ) (us : List (Fin N → ℝ)) :
      SmoothAt (S.setup z) (S.par z b) u → DifferentiableAt ℝ (S.par z) b →
      DifferentiableAt ℝ (fun x : (Fin N → ℝ) × B => S.update z x.1 x.2) (u, b) →
      SmoothAlong S (S.update z u b) zs us → SmoothAlong S b (z :: zs) (u :: us)

/-! ### Rotations about the third axis -/

/-- Rotation by the angle `w`. -/
noncomputable def axial (w : ℝ) : Matrix (Fin 3) (Fin 3) ℝ :=
  !![Real.cos w, -Real.sin w, 0; Real.sin w, Real.cos w, 0; 0, 0, 1]

variable {IV : Type} {nq nfq nn : Nat}

/-- Position of node `n` in the configuration `u`. -/
noncomputable def place (P : Problem1 IV nq nfq nn 3 3) (u : Fin (totalDofs P.fes) → ℝ) (n : Nat) : Fin 3 → ℝ := fun i =>
  P.points.getD n 0 i + P.vecField u n i

/-- `u'` is the configuration `u`, turned by the angle `w`. -/
def Turned (P : Problem1 IV nq nfq nn 3 3) (w : ℝ) (u u' : Fin (totalDofs P.fes) → ℝ) : Prop :=
  ∀ n < P.numTotalNodes, place P u' n = (axial w).mulVec (place P u n)

/-- Velocity of the configuration `u` when it is turned. -/
def IsSpin (P : Problem1 IV nq nfq nn 3 3) (u m : Fin (totalDofs P.fes) → ℝ) : Prop :=
  ∀ n < P.numTotalNodes, P.vecField m n = ![-place P u n 1, place P u n 0, 0]

/-- Some node is not on the axis. -/
def OffAxis (P : Problem1 IV nq nfq nn 3 3) (u : Fin (totalDofs P.fes) → ℝ) : Prop :=
  ∃ n < P.numTotalNodes, place P u n 0 ≠ 0 ∨ place P u n 1 ≠ 0

/-- The stress is indifferent to rotations about the third axis. -/
def AxialIndifferent (T : IV → (Fin 3 → Fin 3 → ℝ) → Fin 3 → Fin 3 → ℝ) : Prop :=
  ∀ w iv G G', (1 + Matrix.of G' : Matrix (Fin 3) (Fin 3) ℝ) = axial w * (1 + Matrix.of G) →
    Matrix.of (T iv G') = axial w * Matrix.of (T iv G)

/-- No Jacobian of the mesh is singular. -/
def RegularMesh (P : Problem1 IV nq nfq nn 3 3) : Prop :=
  ∀ cell ∈ P.cells, ∀ q, (mapJacobian (coords nn P.points cell.nodes) (Matrix.of (P.el.shapeGradsRef q))).det ≠ 0

/-! ### Tension of the cube -/

/-- Equal up to an absolute and a relative error of `10⁻⁵`. -/
def Near (a b : ℝ) : Prop := |a - b| ≤ 1 / 10 ^ 5 + 1 / 10 ^ 5 * |b|

/-- The point is the corner at the origin. -/
def AtCorner (x : Fin 3 → ℝ) : Prop := Near (x 0) 0 ∧ Near (x 1) 0 ∧ Near (x 2) 0

/-- The cube is pulled by `disp` between bottom and top and held at one corner, with nodal forces `f`: the corner does not move
sideways, at other nodes there is no sideways force; the bottom does not move up, the top does by `disp`, at other nodes there
is no vertical force. -/
def Pulled (P : Problem1 IV nq nfq nn 3 3) (disp : ℝ) (f u : Fin (totalDofs P.fes) → ℝ) : Prop :=
  ∀ n < P.numTotalNodes, ∀ x, P.points[n]? = some x →
    (AtCorner x → P.vecField u n 0 = 0 ∧ P.vecField u n 1 = 0) ∧
    (¬AtCorner x → P.vecField f n 0 = 0 ∧ P.vecField f n 1 = 0) ∧
    (Near (x 2) 0 → P.vecField u n 2 = 0) ∧ (Near (x 2) 1 → P.vecField u n 2 = disp) ∧
    (¬Near (x 2) 0 → ¬Near (x 2) 1 → P.vecField f n 2 = 0)

/-- The nodes that count as the corner are on the third axis. -/
def CornerOnAxis (P : Problem1 IV nq nfq nn 3 3) : Prop :=
  ∀ n < P.numTotalNodes, ∀ x, P.points[n]? = some x → AtCorner x → x 0 = 0 ∧ x 1 = 0

/-- Volume of the mesh with node `n` at position `y n`, by the quadrature rule. -/
noncomputable def meshVolume (P : Problem1 IV nq nfq nn 3 3) (y : Nat → Fin 3 → ℝ) : ℝ :=
  (P.cells.map fun cell => ∑ q, (mapJacobian (Matrix.of fun (a : Fin nn) i => y (cell.nodes.getD a 0) i)
    (Matrix.of (P.el.shapeGradsRef q))).det * P.el.quadWeights q).sum

end JaxFem.Sensitivity
