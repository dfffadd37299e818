import Verif.Thm.C112_Scripts
import Verif.Thm.C90_Solid
import Verif.Thm.C89_Deriv

/-!
# C112: differentiability of the equations and of the volume
-/

namespace JaxFem.Sensitivity

open scoped Topology BigOperators
open Crystal (M3 Internal implicitResidual piola update fcc initial getRotMat defGrad pToSigma cellAverage)

variable {nq nfq nn : Nat}

/-- Sum over the cells of a list of cells. -/
theorem sum_setVars (root : (M3 → M3) → M3) (dt : ℝ) (P : Problem1 Pt nq nfq nn 3 3) (vars : Vars P.cells.length nq)
    (f : CellSpec Pt nq → ℝ) :
    ((setVars (withDt root dt P) vars).cells.map f).sum = ∑ c : Fin P.cells.length, f ⟨(P.cells[c]).nodes, vars c⟩ := by
  have e : (setVars (withDt root dt P) vars).cells
      = P.cells.mapIdx fun c cell => (⟨cell.nodes, fun q => if h : c < P.cells.length then vars ⟨c, h⟩ q else initPt⟩ : CellSpec Pt nq) := rfl
  rw [e, ← List.sum_ofFn]
  congr 1
  refine List.ext_getElem (by simp) fun i h1 h2 => ?_
  have hi : i < P.cells.length := by simpa using h1
  simp [hi]

theorem residual_sum (root : (M3 → M3) → M3) (dt : ℝ) (P : Problem1 Pt nq nfq nn 3 3) (h : P.WF) (hm : P.massMap = none)
    (hs : P.surfaces = []) (vars : Vars P.cells.length nq) (u : Fin (totalDofs P.fes) → ℝ) (k : Fin (totalDofs P.fes)) :
    residualVec root dt P vars u k = ∑ c : Fin P.cells.length, cellIntegral P.el P.points (P.cells[c]).nodes fun q =>
      contract (tensorMap root dt (vars c q) (Hyper.gradL P P.cells[c] q u)) (Hyper.gradL P P.cells[c] q (Pi.single k 1)) := by
  have e := flat_noLoad (setVars (withDt root dt P) vars) (state_WF root P dt h vars) hm hs u k
  refine Eq.trans (b := (setVars (withDt root dt P) vars).flat u k) rfl (e.trans ?_)
  exact sum_setVars root dt P vars _

theorem d_mul {V : Type} [NormedAddCommGroup V] [NormedSpace ℝ V] {f g : V → Matrix (Fin 3) (Fin 3) ℝ} {p : V}
    (hf : ∀ i j, DifferentiableAt ℝ (fun v => f v i j) p) (hg : ∀ i j, DifferentiableAt ℝ (fun v => g v i j) p) (i j : Fin 3) :
    DifferentiableAt ℝ (fun v => (f v * g v) i j) p := by
  simp only [Matrix.mul_apply]
  exact DifferentiableAt.fun_sum fun k _ => (hf i k).mul (hg k j)

theorem d_det {V : Type} [NormedAddCommGroup V] [NormedSpace ℝ V] {f : V → Matrix (Fin 3) (Fin 3) ℝ} {p : V}
    (hf : ∀ i j, DifferentiableAt ℝ (fun v => f v i j) p) : DifferentiableAt ℝ (fun v => (f v).det) p := by
  simp only [Matrix.det_fin_three]
  fun_prop

theorem d_inv {V : Type} [NormedAddCommGroup V] [NormedSpace ℝ V] {f : V → Matrix (Fin 3) (Fin 3) ℝ} {p : V}
    (hf : ∀ i j, DifferentiableAt ℝ (fun v => f v i j) p) (hd : (f p).det ≠ 0) (i j : Fin 3) :
    DifferentiableAt ℝ (fun v => (f v)⁻¹ i j) p := by
  have e : (fun v => (f v)⁻¹ i j) = fun v => (f v).det⁻¹ * (f v).adjugate i j := by
    funext v
    rw [Matrix.inv_def, Ring.inverse_eq_inv']
    rfl
  rw [e]
  refine ((d_det hf).inv hd).mul ?_
  simp only [Matrix.adjugate_fin_three]
  fin_cases i <;> fin_cases j <;> simp <;> fun_prop

theorem d_piola {V : Type} [NormedAddCommGroup V] [NormedSpace ℝ V] {F E S : V → Matrix (Fin 3) (Fin 3) ℝ} {p : V}
    (hF : ∀ i j, DifferentiableAt ℝ (fun v => F v i j) p) (hE : ∀ i j, DifferentiableAt ℝ (fun v => E v i j) p)
    (hS : ∀ i j, DifferentiableAt ℝ (fun v => S v i j) p) (dF : (F p).det ≠ 0) (dE : (E p).det ≠ 0) (i j : Fin 3) :
    DifferentiableAt ℝ (fun v => ((F v).det • (((1 / (E v).det) • (E v * S v * (E v).transpose)) * (F v)⁻¹.transpose)) i j) p := by
  have h1 : DifferentiableAt ℝ (fun v => 1 / (E v).det) p := by
    simp only [one_div]
    exact (d_det hE).inv dE
  have h2 : ∀ i j, DifferentiableAt ℝ (fun v => ((1 / (E v).det) • (E v * S v * (E v).transpose)) i j) p := fun i j =>
    h1.mul (d_mul (d_mul hE hS) (fun i j => hE j i) i j)
  exact (d_det hF).mul (d_mul h2 (fun i j => d_inv hF dF j i) i j)

/-- **C112 (differentiable law).** The law is differentiable in internal variables and displacement gradient where the local root
is, for positive resistances and deformations that are not singular. -/
theorem C112_law (root : (M3 → M3) → M3) (dt : ℝ) (x0 : Pt × M3)
    (hr : DifferentiableAt ℝ (fun x : Pt × M3 => root (implicitResidual fcc dt x.1.internal x.2)) x0)
    (hg : ∀ a, 0 < x0.1.internal.resistance a) (hF : (1 + Matrix.of x0.2 : Matrix (Fin 3) (Fin 3) ℝ).det ≠ 0)
    (hFe : (Crystal.elasticF fcc dt x0.1.internal x0.2 (root (implicitResidual fcc dt x0.1.internal x0.2))).det ≠ 0) :
    DifferentiableAt ℝ (fun x : Pt × M3 => tensorMap root dt x.1 x.2) x0 := by
  have he : 1 < 1 / fcc.xm := by show (1 : ℝ) < 1 / 0.1; norm_num
  set Y : Pt × M3 → M3 := fun x => root (implicitResidual fcc dt x.1.internal x.2) with hY
  have dS : ∀ i j, DifferentiableAt ℝ (fun x => Y x i j) x0 := fun i j => differentiableAt_pi.1 (differentiableAt_pi.1 hr i) j
  have dG : ∀ i j, DifferentiableAt ℝ (fun x : Pt × M3 => defGrad x.2 i j) x0 := by
    intro i j
    show DifferentiableAt ℝ (fun x : Pt × M3 => x.2 i j + (1 : Matrix (Fin 3) (Fin 3) ℝ) i j) x0
    fun_prop
  have dP : ∀ i j, DifferentiableAt ℝ (fun x : Pt × M3 => Crystal.plasticInc fcc dt x.1.internal (Y x) i j) x0 := by
    intro i j
    unfold Crystal.plasticInc
    refine DifferentiableAt.fun_sum fun a _ => DifferentiableAt.mul ?_ ?_
    · have h1 := (Crystal.c_gamma fcc dt (((x0.2, x0.1), Y x0) : Crystal.Args 12 × M3) he a (hg a)).differentiableAt one_ne_zero
      exact DifferentiableAt.comp (f := fun x : Pt × M3 => (((x.2, x.1), Y x) : Crystal.Args 12 × M3)) x0 h1
        ((differentiableAt_snd.prodMk differentiableAt_fst).prodMk hr)
    · have h1 := (Crystal.c_rotate2 (((x0.2, x0.1), Y x0) : Crystal.Args 12 × M3) (fcc.schmid a) i j).differentiableAt one_ne_zero
      exact DifferentiableAt.comp (f := fun x : Pt × M3 => (((x.2, x.1), Y x) : Crystal.Args 12 × M3)) x0 h1
        ((differentiableAt_snd.prodMk differentiableAt_fst).prodMk hr)
  have dFe : ∀ i j, DifferentiableAt ℝ (fun x : Pt × M3 => Crystal.elasticF fcc dt x.1.internal x.2 (Y x) i j) x0 :=
    d_mul dG (d_mul (fun i j => by
      show DifferentiableAt ℝ (fun x : Pt × M3 => x.1.1 i j) x0
      fun_prop) fun i j => (differentiableAt_const _).sub (dP i j))
  have hF' : (defGrad x0.2).det ≠ 0 := by
    rw [Crystal.defGrad, add_comm]
    exact hF
  rw [differentiableAt_pi]
  intro i
  rw [differentiableAt_pi]
  intro j
  exact d_piola dG dFe dS hF' hFe i j

/-- **C112 (differentiable equations).** The residual is differentiable in displacements and internal variables if the local law
is, at all quadrature points; so is the volume, without any condition. -/
theorem C112_differentiable (root : (M3 → M3) → M3) (dt : ℝ) (P : Problem1 Pt nq nfq nn 3 3) (h : P.WF) (hm : P.massMap = none)
    (hs : P.surfaces = []) (vars : Vars P.cells.length nq) (u : Fin (totalDofs P.fes) → ℝ)
    (hC : ∀ c q, DifferentiableAt ℝ (fun x : Pt × M3 => tensorMap root dt x.1 x.2)
      (vars c q, P.gradient (P.vecField u) (P.cells[c]).nodes q)) :
    DifferentiableAt ℝ (fun x : (Fin (totalDofs P.fes) → ℝ) × Vars P.cells.length nq => residualVec root dt P x.2 x.1) (u, vars) ∧
    DifferentiableAt ℝ (fun u : Fin (totalDofs P.fes) → ℝ => crtVolume P (solOf P u)) u := by
  constructor
  · rw [differentiableAt_pi]
    intro k
    simp only [residual_sum root dt P h hm hs, cellIntegral]
    refine DifferentiableAt.fun_sum fun c _ => DifferentiableAt.fun_sum fun q _ => DifferentiableAt.mul ?_ (differentiableAt_const _)
    have h1 : DifferentiableAt ℝ (fun x : (Fin (totalDofs P.fes) → ℝ) × Vars P.cells.length nq =>
        tensorMap root dt (x.2 c q) (Hyper.gradL P P.cells[c] q x.1)) (u, vars) :=
      DifferentiableAt.comp (g := fun x : Pt × M3 => tensorMap root dt x.1 x.2)
        (f := fun x : (Fin (totalDofs P.fes) → ℝ) × Vars P.cells.length nq => (x.2 c q, Hyper.gradL P P.cells[c] q x.1)) (u, vars)
        (hC c q) (by fun_prop)
    exact (conR (Hyper.gradL P P.cells[c] q (Pi.single k 1))).differentiableAt.comp _ h1
  · have e : (fun u : Fin (totalDofs P.fes) → ℝ => crtVolume P (solOf P u))
        = fun u => (P.cells.map fun cell => ∑ q, (Matrix.of (Hyper.gradL P cell q u) + 1).det
          * (cellData P.el P.points cell.nodes cell.iv).JxW q).sum := by
      funext u
      refine congrArg List.sum (List.map_congr_left fun cell _ => Finset.sum_congr rfl fun q _ => ?_)
      rw [sol_grad]
      rfl
    rw [e]
    have key : ∀ l : List (CellSpec Pt nq), DifferentiableAt ℝ (fun u => (l.map fun cell =>
        ∑ q, (Matrix.of (Hyper.gradL P cell q u) + 1).det * (cellData P.el P.points cell.nodes cell.iv).JxW q).sum) u := by
      intro l
      induction l with
      | nil => exact differentiableAt_const _
      | cons a t ih =>
        simp only [List.map_cons, List.sum_cons]
        refine DifferentiableAt.add (DifferentiableAt.fun_sum fun q _ => DifferentiableAt.mul ?_ (differentiableAt_const _)) ih
        have hg : ∀ i j, DifferentiableAt ℝ (fun u => Hyper.gradL P a q u i j) u := fun i j =>
          differentiableAt_pi.1 (differentiableAt_pi.1 (Hyper.gradL P a q).differentiableAt i) j
        simp only [Matrix.det_fin_three, Matrix.add_apply, Matrix.of_apply]
        fun_prop
    exact key P.cells

end JaxFem.Sensitivity
