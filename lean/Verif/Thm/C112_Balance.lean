import Verif.Thm.C112_Schedule
import Verif.Thm.C112_Smooth

/-!
# C112: the balance solved in a step, and the start
-/

namespace JaxFem.Sensitivity

open Crystal (M3 Internal implicitResidual piola fcc)

variable {nq nfq nn : Nat} (root : (M3 → M3) → M3)

/-- **C112 (balance and start).** In a step of length `dt` the nodal force on degree of freedom `k` is the integral of the first
Piola-Kirchhoff stress against the gradient of the unit displacement there, and nothing else: no inertia, no loads. The crystal
starts without plastic deformation and slip, with resistance `60.8` on all systems and its axes along those of the cube. The
boundary value problem of a step pulls the top by the prescribed displacement, in `volume_sensitivity.py` times the scale. -/
theorem C112_balance (dt0 : ℝ) (numTotalNodes : Nat) (points : List (Fin 3 → ℝ)) (cells : List (List Nat))
    (el : RefElement ℝ nq nn 3) (fc : RefFaces ℝ nfq nn 3) (h : (problem root dt0 numTotalNodes points cells el fc).WF) :
    let P := problem root dt0 numTotalNodes points cells el fc
    (∀ (dt : ℝ) (vars : Vars P.cells.length nq) (u : Fin (totalDofs P.fes) → ℝ) (k : Fin (totalDofs P.fes)),
      residualVec root dt P vars u k = ∑ c : Fin P.cells.length, cellIntegral el points (P.cells[c]).nodes fun q =>
        contract (fun i j => piola fcc dt (vars c q).internal (P.gradient (P.vecField u) (P.cells[c]).nodes q)
            (root (implicitResidual fcc dt (vars c q).internal (P.gradient (P.vecField u) (P.cells[c]).nodes q))) i j)
          (P.gradient (P.vecField (Pi.single k 1)) (P.cells[c]).nodes q)) ∧
    (∀ (c : Fin P.cells.length) (q : Fin nq) (alpha : ℝ), Stress.init P.cells.length alpha c q
        = ((1 : Matrix (Fin 3) (Fin 3) ℝ), (fun _ => alpha * 60.8), 0, (1 : Matrix (Fin 3) (Fin 3) ℝ)) ∧
      ∀ scale : ℝ, (Volume.init (nq := nq) P.cells.length scale).1 = scale ∧ (Volume.init P.cells.length scale).2 c q
        = ((1 : Matrix (Fin 3) (Fin 3) ℝ), (fun _ => 60.8), 0, (1 : Matrix (Fin 3) (Fin 3) ℝ))) ∧
    ∀ (num : Numerics P.cells.length nq (totalDofs P.fes)) (hc : 0 < P.cells.length) (z : Env) (vars : Vars P.cells.length nq)
      (scale : ℝ) (u : Fin (totalDofs P.fes) → ℝ),
      (SolvesBVP P.fes (((Stress.script root P hc num).setup z).bcs ((Stress.script root P hc num).par z vars))
          (((Stress.script root P hc num).setup z).res ((Stress.script root P hc num).par z vars)) u ↔
        Pulled P z.disp (residualVec root z.dt P vars u) u) ∧
      (SolvesBVP P.fes (((Volume.script root P num).setup z).bcs ((Volume.script root P num).par z (scale, vars)))
          (((Volume.script root P num).setup z).res ((Volume.script root P num).par z (scale, vars))) u ↔
        Pulled P (scale * z.disp) (residualVec root z.dt P vars u) u) := by
  intro P
  have hrot : (fun i j => Crystal.getRotMat ![1, 0, 0, 0] i j) = (1 : Matrix (Fin 3) (Fin 3) ℝ) := by
    ext i j
    fin_cases i <;> fin_cases j <;> simp [Crystal.getRotMat]
  have hone : (fun i j => if i = j then (1 : ℝ) else 0) = (1 : Matrix (Fin 3) (Fin 3) ℝ) := by
    ext i j
    exact (Matrix.one_apply).symm
  have hinit : initPt = ((1 : Matrix (Fin 3) (Fin 3) ℝ), (fun _ => 60.8), 0, (1 : Matrix (Fin 3) (Fin 3) ℝ)) := by
    refine Prod.ext hone (Prod.ext ?_ (Prod.ext rfl hrot))
    rfl
  refine ⟨fun dt vars u k => ?_, fun c q alpha => ⟨?_, fun scale => ⟨rfl, hinit⟩⟩, fun num hc z vars scale u => ⟨?_, ?_⟩⟩
  · exact residual_sum root dt P h rfl rfl vars u k
  · show (initPt.1, alpha • initPt.2.1, initPt.2.2) = _
    rw [hinit]
    rfl
  · exact (C112_conditions P h z.disp _ u).2
  · exact (C112_conditions P h (scale * z.disp) _ u).2

/-- The tetrahedron of the other examples. -/
example (s : ℝ) (u : Fin (totalDofs body.fes) → ℝ) :
    SolvesBVP body.fes (((Volume.script trial body bodyNum).setup ⟨1, 0⟩).bcs ((Volume.script trial body bodyNum).par ⟨1, 0⟩ (s, initVars _)))
      (((Volume.script trial body bodyNum).setup ⟨1, 0⟩).res ((Volume.script trial body bodyNum).par ⟨1, 0⟩ (s, initVars _))) u ↔
    Pulled body (s * 1) (residualVec trial 0 body (initVars _) u) u :=
  ((C112_balance trial _ _ _ _ _ _ body_wf).2.2 bodyNum body_pos ⟨1, 0⟩ (initVars _) s u).2

end JaxFem.Sensitivity
