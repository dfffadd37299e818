import Verif.Model.CoDesign
import Verif.Spec.Newton
import Verif.Spec.Deriv
import Verif.Spec.TopOpt
import Verif.Spec.Plasticity

/-!
Independent notions for problems that are solved in a sequence of load steps: trajectories of equilibria, steps at which
the equations are regular, points that are neither stress free nor on the yield surface.
-/

namespace JaxFem.CoDesign

variable {E B T : Type} {fes : List FE} {N : Nat}

/-- `us` are equilibria of the successive steps with loads `ts`: every step starts from the data that the step before
left behind. -/
inductive Trajectory (S : Inverse.Setup E fes N) (par : B → T → E) (update : (Fin N → ℝ) → B → B) :
    B → List T → List (Fin N → ℝ) → Prop
  | done (b : B) : Trajectory S par update b [] []
  | step (b : B) (t : T) (ts : List T) (u : Fin N → ℝ) (us : List (Fin N → ℝ)) :
      SolvesBVP fes (S.bcs (par b t)) (S.res (par b t)) u → Trajectory S par update (update u b) ts us →
      Trajectory S par update b (t :: ts) (u :: us)

/-- The defect of `u`: difference from the prescribed value at constrained, residual at free degrees of freedom. -/
def Defect (fes : List FE) (bcs : List (List (BCEntry ℝ))) (res : (Fin N → ℝ) → Fin N → ℝ) (u r : Fin N → ℝ) : Prop :=
  ∀ k : Fin N, (Prescribed fes bcs k none → r k = res u k) ∧ ∀ v, Prescribed fes bcs k (some v) → r k = u k - v

/-- `us` are approximate equilibria of the successive steps: the defect is below the absolute tolerance, or below the
relative tolerance with respect to the defect of the solution before, with which the step begins. -/
inductive Approximate (S : Inverse.Setup E fes N) (par : B → T → E) (update : (Fin N → ℝ) → B → B) :
    (Fin N → ℝ) → B → List T → List (Fin N → ℝ) → Prop
  | done (guess : Fin N → ℝ) (b : B) : Approximate S par update guess b [] []
  | step (guess : Fin N → ℝ) (b : B) (t : T) (ts : List T) (u : Fin N → ℝ) (us : List (Fin N → ℝ)) (r r0 : Fin N → ℝ) :
      Defect fes (S.bcs (par b t)) (S.res (par b t)) u r →
      Defect fes (S.bcs (par b t)) (S.res (par b t)) guess r0 →
      S.norm r ≤ S.tol ∨ S.norm r ≤ S.relTol * S.norm r0 →
      Approximate S par update u (update u b) ts us → Approximate S par update guess b (t :: ts) (u :: us)

variable [NormedAddCommGroup E] [NormedSpace ℝ E] [NormedAddCommGroup B] [NormedSpace ℝ B]

/-- At one step residual, data and update are continuously differentiable, the assembled tangent is the derivative, and it
is regular after the elimination of the boundary rows. -/
structure RegularStep (S : Inverse.Setup E fes N) (par : B → T → E) (update : (Fin N → ℝ) → B → B) (b : B) (t : T)
    (u : Fin N → ℝ) : Prop where
  tangent : HasJacobianAt (S.res (par b t)) (S.tan (par b t) u) u
  det : (elimRows fes (S.bcs (par b t)) (S.tan (par b t) u)).det ≠ 0
  res : ContDiffAt ℝ 1 (fun up : (Fin N → ℝ) × E => S.res up.2 up.1) (u, par b t)
  par : ContDiffAt ℝ 1 (fun b => par b t) b
  update : ContDiffAt ℝ 1 (fun x : (Fin N → ℝ) × B => update x.1 x.2) (u, b)

/-- All steps are regular. -/
inductive RegularAlong (S : Inverse.Setup E fes N) (par : B → T → E) (update : (Fin N → ℝ) → B → B) :
    B → List T → List (Fin N → ℝ) → Prop
  | done (b : B) : RegularAlong S par update b [] []
  | step (b : B) (t : T) (ts : List T) (u : Fin N → ℝ) (us : List (Fin N → ℝ)) :
      RegularStep S par update b t u → RegularAlong S par update (update u b) ts us →
      RegularAlong S par update b (t :: ts) (u :: us)

/-- `Q` holds at every step of a sequence of solutions. -/
inductive Along (update : (Fin N → ℝ) → B → B) (Q : B → T → (Fin N → ℝ) → Prop) : B → List T → List (Fin N → ℝ) → Prop
  | done (b : B) : Along update Q b [] []
  | step (b : B) (t : T) (ts : List T) (u : Fin N → ℝ) (us : List (Fin N → ℝ)) :
      Q b t u → Along update Q (update u b) ts us → Along update Q b (t :: ts) (u :: us)

/-! ### The structure -/

open Plasticity (hooke IsDev Admissible)

variable {nq nfq nn : Nat}

/-- Elastic predictor at a quadrature point: the stored stress plus Hooke's law for the increment of the strain, with
Young's modulus `70 + (70000 - 70) θ₁³` and Poisson's ratio 0.3. -/
noncomputable def predictor (G : Matrix (Fin 3) (Fin 3) ℝ) (b : Body) : Matrix (Fin 3) (Fin 3) ℝ :=
  let E := 70 + (70000 - 70) * b.2.2.2.1 ^ 3
  hooke (E * 0.3 / ((1 + 0.3) * (1 - 2 * 0.3))) (E / (2 * (1 + 0.3))) (Plasticity.symPart G - Matrix.of b.2.1) + Matrix.of b.1

/-- The predictor is neither hydrostatic nor on the yield surface. -/
def RegularPoint (G : Matrix (Fin 3) (Fin 3) ℝ) (b : Body) : Prop :=
  ∀ dev, IsDev (predictor G b) dev → Plasticity.inner dev dev ≠ 0 ∧
    3 / 2 * Plasticity.inner dev dev ≠ (250 + 100 * b.2.2.2.2) ^ 2

/-- Integral of the second component of a field over the loaded boundary. -/
noncomputable def deflection (P : Problem1 (Body × ℝ) nq nfq nn 3 3) (faces : List (Nat × Nat)) (v : Nat → Fin 3 → ℝ) : ℝ :=
  (faces.map fun f => ∑ q, interp (P.fc.shapeVals f.2 q) (restrict nn v (P.conn.getD f.1 [])) 1
    * nansonScale (coords nn P.points (P.conn.getD f.1 [])) (P.fc.shapeGradsRef f.2 q) (P.fc.normals f.2)
      (P.fc.quadWeights f.2 q)).sum

end JaxFem.CoDesign
