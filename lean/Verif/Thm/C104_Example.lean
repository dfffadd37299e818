import Verif.Thm.C104_Shape
import Verif.Thm.C103_Example

/-!
# C104: a concrete case

A triangle in one pore cell, stretched by a load on its free degree of freedom.
-/

namespace JaxFem.Shape

open scoped BigOperators Topology
open CoDesign (jacOf jacOf_spec adjExSolve_total)

/-- Points of the triangle. -/
noncomputable def triPts : List (Fin 2 → ℝ) := [![0, 0], ![1, 0], ![0, 1]]

/-- Gradients of the shape functions. -/
noncomputable def triG : Fin 3 → Fin 2 → ℝ := ![![-1, -1], ![1, 0], ![0, 1]]

/-- Reference element with one quadrature point. -/
noncomputable def triEl : RefElement ℝ 1 3 2 := ⟨fun _ _ => 1/3, fun _ => triG, fun _ => 1/2⟩

/-- A face with one quadrature point of weight `w`. -/
noncomputable def triFc (w : ℝ) : RefFaces ℝ 1 3 2 := ⟨fun _ _ => ![0, 1/2, 1/2], fun _ _ => triG, fun _ _ => w, fun _ => ![1, 0]⟩

/-- The triangle. -/
noncomputable abbrev tri (w : ℝ) : Problem1 ℝ 1 1 3 2 2 := problem 3 triPts [[0, 1, 2]] triEl (triFc w) [⟨0, 0, fun _ => 0⟩]

/-- Only the second component of the third node is free. -/
noncomputable def triBcs : List (List (BCEntry ℝ)) := [[⟨[0, 0, 1, 1, 2], [0, 1, 0, 1, 0], List.replicate 5 0⟩]]

variable (w : ℝ)

theorem tri_wf : (tri w).WF where
  nonempty := by simp [problem]
  points := rfl
  cell_length := by simp [problem]
  cell_lt := by simp [problem]
  face_lt := by simp [problem]

theorem tri_wfbc : WFBC (tri w).fes triBcs where
  len := rfl
  comps := by simp [triBcs]
  vals := by simp [triBcs]
  nodup := by simp [triBcs]
  valid := by
    intro i fe es h1 h2 e he
    rcases i with _ | i
    · simp only [triBcs, List.getElem?_cons_zero, Option.some.injEq] at h2
      simp only [Problem1.fes, List.getElem?_cons_zero, Option.some.injEq] at h1
      subst h2 h1
      simp only [List.mem_singleton] at he
      subst he
      simp [problem]
    · simp [triBcs] at h2

theorem tri_jacobian (cell : List Nat) (hc : cell = [0, 1, 2]) : jacobianDxDeta (physicalCoos 3 triPts cell) triG = 1 := by
  subst hc
  ext i j
  fin_cases i <;> fin_cases j <;> simp [jacobianDxDeta, physicalCoos, triPts, triG, Fin.sum_univ_three]

theorem tri_nodes (c : Fin (tri w).cells.length) : ((tri w).cells[c]).nodes = [0, 1, 2] := by
  have hc : c = ⟨0, by simp [problem]⟩ := by
    apply Fin.ext
    have : (tri w).cells.length = 1 := by simp [problem]
    have := c.2
    show c.1 = 0
    omega
  subst hc
  rfl

theorem tri_gradient (v : Nat → Fin 2 → ℝ) (cell : List Nat) (hc : cell = [0, 1, 2]) (q : Fin 1) (i j : Fin 2) :
    (tri w).gradient v cell q i j = v 0 i * triG 0 j + v 1 i * triG 1 j + v 2 i * triG 2 j := by
  have h : (tri w).gradient v cell q i j = ∑ a : Fin 3, v (cell.getD a 0) i *
      shapeGradsPhysical (physicalCoos 3 triPts cell) triG a j := gradient_eq (tri w) v _ q i j
  have hs : ∀ a j, shapeGradsPhysical (physicalCoos 3 triPts cell) triG a j = triG a j := by
    intro a j
    rw [shapeGradsPhysical, tri_jacobian _ hc, inv_one]
    simp [Matrix.one_apply]
  rw [h]
  simp only [hs]
  rw [hc, Fin.sum_univ_three]
  rfl

theorem tri_measure (c : Fin (tri w).cells.length) (q : Fin 1) : (tri w).measureAt c q = 1 / 2 := by
  have h : (tri w).measureAt c q = (jacobianDxDeta (physicalCoos 3 triPts ((tri w).cells[c]).nodes) triG).det * (1 / 2) := rfl
  rw [h, tri_jacobian _ (tri_nodes w c), Matrix.det_one, one_mul]

theorem tri_load (hw : 0 ≤ w) (v : Nat → Fin 2 → ℝ) : (tri w).surfaceWork 0 v = 5000 * w * (v 1 1 + v 2 1) := by
  have h : nansonScale (physicalCoos 3 triPts [0, 1, 2]) triG ![1, 0] w = w := by
    rw [nansonScale, tri_jacobian _ rfl, inv_one, Matrix.det_one]
    simp [Matrix.one_apply]
  have e : (tri w).surfaceWork 0 v = (∑ c, (![0, 10 ^ 4] : Fin 2 → ℝ) c * ∑ a, (![0, 1/2, 1/2] : Fin 3 → ℝ) a * v ([0, 1, 2].getD a 0) c)
      * nansonScale (physicalCoos 3 triPts [0, 1, 2]) triG ![1, 0] w := by
    simp only [Problem1.surfaceWork, problem, List.map_cons, List.map_nil, List.sum_cons, List.sum_nil, add_zero, Fin.sum_univ_one]
    rfl
  rw [e, h]
  simp [Fin.sum_univ_three]
  ring

/-- The free degree of freedom. -/
def triDof : Fin (totalDofs (tri w).fes) := (5 : Fin 6)

/-- Displacement `s` of the free degree of freedom. -/
noncomputable def triU (s : ℝ) : Fin (totalDofs (tri w).fes) → ℝ := Pi.single (triDof w) s

theorem triU_field (s : ℝ) (n : Nat) (c : Fin 2) : (tri w).vecField (triU w s) n c = if n = 2 ∧ c = 1 then s else 0 := by
  have h7 : (triDof w).1 = 5 := rfl
  have hc : (c = 1) ↔ c.1 = 1 := Fin.ext_iff
  have hT : totalDofs (tri w).fes = 6 := rfl
  have := c.2
  rw [Problem1.vecField]
  split_ifs with h1 h2 h2
  · have e : (⟨n * 2 + c, h1⟩ : Fin (totalDofs (tri w).fes)) = triDof w := Fin.ext (by rw [h7]; simp; omega)
    rw [e, triU, Pi.single_eq_same]
  · rw [triU, Pi.single_eq_of_ne]
    intro e
    have e' := congrArg Fin.val e
    rw [h7] at e'
    simp only at e'
    omega
  · omega
  · rfl

theorem triU_gradient (s : ℝ) (cell : List Nat) (hc : cell = [0, 1, 2]) (q : Fin 1) :
    (tri w).gradient ((tri w).vecField (triU w s)) cell q = Matrix.of fun i j => if i = 1 ∧ j = 1 then s else 0 := by
  ext i j
  rw [tri_gradient w _ _ hc]
  simp only [triU_field, Matrix.of_apply]
  fin_cases i <;> fin_cases j <;> simp [triG]

theorem triU_grad (s : ℝ) (c : Fin (tri w).cells.length) (q : Fin 1) :
    (tri w).gradAt ((tri w).vecField (triU w s)) c q = fun i j => if i = 1 ∧ j = 1 then s else 0 :=
  triU_gradient w s _ (tri_nodes w c) q

theorem tri_position (c : Fin (tri w).cells.length) (q : Fin 1) : position (tri w) c q = ![1 / 3, 1 / 3] := by
  have h : position (tri w) c q = positionIn (fun _ : Fin 3 => (1 / 3 : ℝ)) (coords 3 triPts ((tri w).cells[c]).nodes) := rfl
  rw [h, tri_nodes w c]
  funext i
  simp only [positionIn, Matrix.vecMul, dotProduct, Fin.sum_univ_three, coords]
  fin_cases i <;> simp [triPts]

theorem tri_admissible (s : ℝ) (hs : -1 < s) : (tri w).Admissible ((tri w).vecField (triU w s)) := by
  intro cell hc q
  have hc' : cell.nodes = [0, 1, 2] := by
    have : cell ∈ [(⟨[0, 1, 2], fun _ => 0⟩ : CellSpec ℝ 1)] := hc
    rw [List.mem_singleton] at this
    rw [this]
  rw [Problem1.defGrad, triU_gradient w s _ hc', Matrix.det_fin_two]
  simp [Matrix.one_apply]
  linarith

/-! ### The stress -/

/-- Unit-modulus stress in the direction of the stretch `1 + s`. -/
noncomputable def triStress (s : ℝ) : ℝ :=
  Hyper.firstPK (Hyper.psiPlane (Hyper.muOf 1 (3 / 10)) (Hyper.kappaOf 1 (3 / 10))) (fun i j => if i = 1 ∧ j = 1 then s else 0) 1 1

theorem triEnergy (J : ℝ) (mu kappa : ℝ) : Hyper.psiPlane mu kappa (fun i j => if i = j then (if i = 1 then J else 1) else 0)
    = mu / 2 * (J ^ (-2 / 3 : ℝ) * (2 + J ^ 2) - 3) + kappa / 2 * (J - 1) ^ 2 := by
  have hdet : (Matrix.of (Hyper.embed fun i j : Fin 2 => if i = j then (if i = 1 then J else 1) else 0)).det = J := by
    rw [Hyper.det_embed, Matrix.det_fin_two]
    simp
  rw [Hyper.psiPlane, Hyper.psi_eq, hdet]
  congr 3
  simp [Hyper.embed, Fin.sum_univ_three]
  left
  ring

theorem triStress_eq (s : ℝ) (hs : -1 < s) : triStress s
    = 5 / 26 * ((-2 / 3) * (1 + s) ^ (-2 / 3 - 1 : ℝ) * (2 + (1 + s) ^ 2) + (1 + s) ^ (-2 / 3 : ℝ) * (2 * (1 + s))) + 5 / 6 * s := by
  set F : Fin 2 → Fin 2 → ℝ := fun i j => (if i = 1 ∧ j = 1 then s else 0) + if i = j then 1 else 0 with hF
  have hmu : Hyper.muOf 1 (3 / 10) = 5 / 13 := by norm_num [Hyper.muOf]
  have hka : Hyper.kappaOf 1 (3 / 10) = 5 / 6 := by norm_num [Hyper.kappaOf]
  have hline : ∀ t : ℝ, F + t • (Pi.single 1 (Pi.single 1 1) : Fin 2 → Fin 2 → ℝ)
      = fun i j => if i = j then (if i = 1 then 1 + s + t else 1) else 0 := by
    intro t
    funext i j
    fin_cases i <;> fin_cases j <;> simp [hF]
    ring
  have hdet : 0 < (Matrix.of F).det := by
    rw [Matrix.det_fin_two]
    simp [hF]
    linarith
  have hd := ((Hyper.C88_smooth (5 / 13) (5 / 6) 1).2.1 F hdet).differentiableAt one_ne_zero
  have h1 : HasDerivAt (fun t : ℝ => F + t • (Pi.single 1 (Pi.single 1 1) : Fin 2 → Fin 2 → ℝ)) (Pi.single 1 (Pi.single 1 1)) 0 := by
    simpa using ((hasDerivAt_id (0 : ℝ)).smul_const (Pi.single 1 (Pi.single 1 1) : Fin 2 → Fin 2 → ℝ)).const_add F
  have h2 : HasDerivAt (fun t : ℝ => Hyper.psiPlane (5 / 13) (5 / 6) (F + t • (Pi.single 1 (Pi.single 1 1) : Fin 2 → Fin 2 → ℝ)))
      (fderiv ℝ (Hyper.psiPlane (5 / 13) (5 / 6)) F (Pi.single 1 (Pi.single 1 1))) 0 := by
    refine HasFDerivAt.comp_hasDerivAt (l := Hyper.psiPlane (5 / 13) (5 / 6)) 0 ?_ h1
    rw [zero_smul, add_zero]
    exact hd.hasFDerivAt
  have h3 : HasDerivAt (fun t : ℝ => Hyper.psiPlane (5 / 13) (5 / 6) (F + t • (Pi.single 1 (Pi.single 1 1) : Fin 2 → Fin 2 → ℝ)))
      (5 / 26 * ((-2 / 3) * (1 + s) ^ (-2 / 3 - 1 : ℝ) * (2 + (1 + s) ^ 2) + (1 + s) ^ (-2 / 3 : ℝ) * (2 * (1 + s))) + 5 / 6 * s) 0 := by
    have e : (fun t : ℝ => Hyper.psiPlane (5 / 13) (5 / 6) (F + t • (Pi.single 1 (Pi.single 1 1) : Fin 2 → Fin 2 → ℝ)))
        = fun t => 5 / 13 / 2 * ((1 + s + t) ^ (-2 / 3 : ℝ) * (2 + (1 + s + t) ^ 2) - 3) + 5 / 6 / 2 * (1 + s + t - 1) ^ 2 := by
      funext t
      rw [hline, triEnergy]
    rw [e]
    have hl : HasDerivAt (fun t : ℝ => 1 + s + t) 1 0 := (hasDerivAt_id (0 : ℝ)).const_add (1 + s)
    have hp : HasDerivAt (fun t : ℝ => (1 + s + t) ^ (-2 / 3 : ℝ)) (1 * (-2 / 3) * (1 + s + 0) ^ (-2 / 3 - 1 : ℝ)) 0 :=
      hl.rpow_const (.inl (by linarith))
    have hq := ((hl.pow 2).const_add 2)
    have := ((hp.mul hq).sub_const 3).const_mul (5 / 13 / 2 : ℝ) |>.add (((hl.sub_const 1).pow 2).const_mul (5 / 6 / 2 : ℝ))
    refine this.congr_deriv ?_
    simp only [add_zero, Pi.pow_apply]
    norm_num
    ring
  have h4 := h2.unique h3
  rw [← h4, triStress, hmu, hka]
  rfl

theorem triStress_simp (t : ℝ) (ht : -1 < t) : triStress t
    = 10 / 39 * ((1 + t) ^ (1 / 3 : ℝ) - (1 + t) ^ (-5 / 3 : ℝ)) + 5 / 6 * t := by
  have hJ : 0 < 1 + t := by linarith
  have e1 : (1 + t) ^ (-2 / 3 - 1 : ℝ) = (1 + t) ^ (-5 / 3 : ℝ) := by norm_num
  have e2 : (1 + t) ^ (-5 / 3 : ℝ) * (1 + t) ^ 2 = (1 + t) ^ (1 / 3 : ℝ) := by
    rw [← Real.rpow_natCast (1 + t) 2, ← Real.rpow_add hJ]
    norm_num
  have e3 : (1 + t) ^ (-2 / 3 : ℝ) * (1 + t) = (1 + t) ^ (1 / 3 : ℝ) := by
    conv_lhs => rw [← Real.rpow_one (1 + t), ← Real.rpow_mul hJ.le, one_mul, ← Real.rpow_add hJ]
    norm_num
  rw [triStress_eq t ht, e1]
  linear_combination (-(5 / 39) : ℝ) * e2 + (5 / 13) * e3

theorem triStress_neg : triStress (-1 / 10) < 0 := by
  rw [triStress_simp _ (by norm_num)]
  have h1 : (1 + -1 / 10 : ℝ) ^ (1 / 3 : ℝ) < 1 := Real.rpow_lt_one (by norm_num) (by norm_num) (by norm_num)
  have h2 : 1 < (1 + -1 / 10 : ℝ) ^ (-5 / 3 : ℝ) := Real.one_lt_rpow_of_pos_of_lt_one_of_neg (by norm_num) (by norm_num) (by norm_num)
  linarith

theorem triStress_deriv (s : ℝ) (hs : -1 < s) : ∃ d, 0 < d ∧ HasDerivAt triStress d s := by
  have hJ : 0 < 1 + s := by linarith
  refine ⟨10 / 39 * (1 / 3 * (1 + s) ^ (1 / 3 - 1 : ℝ) - (-5 / 3) * (1 + s) ^ (-5 / 3 - 1 : ℝ)) + 5 / 6, ?_, ?_⟩
  · have := Real.rpow_pos_of_pos hJ (1 / 3 - 1)
    have := Real.rpow_pos_of_pos hJ (-5 / 3 - 1)
    linarith
  · have hl : HasDerivAt (fun t : ℝ => 1 + t) 1 s := (hasDerivAt_id s).const_add 1
    have h1 := hl.rpow_const (p := (1 / 3 : ℝ)) (.inl hJ.ne')
    have h2 := hl.rpow_const (p := (-5 / 3 : ℝ)) (.inl hJ.ne')
    have h3 := ((h1.sub h2).const_mul (10 / 39 : ℝ)).add ((hasDerivAt_id s).const_mul (5 / 6 : ℝ))
    refine (h3.congr_of_eventuallyEq ?_).congr_deriv (by ring)
    filter_upwards [lt_mem_nhds hs] with t ht
    rw [triStress_simp t ht]
    rfl

/-! ### The setup -/

/-- Setup with exact derivatives and exact linear solvers. -/
noncomputable def setupOf {nq nfq nn M : Nat} (P : Problem1 ℝ nq nfq nn 2 2) (Lx : ℝ) (nx ny : Nat)
    (bcs : List (List (BCEntry ℝ))) (guess : Fin (totalDofs P.fes) → ℝ) :
    Inverse.Setup (Fin (M + 1) → ℝ) P.fes (totalDofs P.fes) where
  bcs := fun _ => bcs
  res := fun θ u => (setParams P Lx nx ny θ).flat u
  tan := fun θ => jacOf fun u => (setParams P Lx nx ny θ).flat u
  norm := fun r => ‖r‖
  solve := fun A b _ => adjExSolve _ A b
  lineSearch := false
  tol := 0
  relTol := 0
  guess := guess
  adjointSolve := adjExSolve

theorem setupOf_of {nq nfq nn M : Nat} (P : Problem1 ℝ nq nfq nn 2 2) (Lx : ℝ) (nx ny : Nat)
    (bcs : List (List (BCEntry ℝ))) (guess : Fin (totalDofs P.fes) → ℝ) :
    OfProblem (M := M) P Lx nx ny bcs (setupOf P Lx nx ny bcs guess) where
  bcs := fun _ => rfl
  res := fun _ => rfl
  tangent := fun _ u h => jacOf_spec _ u h

theorem fwd_guess {Θ : Type} {fes : List FE} (S : Inverse.Setup Θ fes (totalDofs fes)) (k : Nat) (θ : Θ)
    (hw : WFBC fes (S.bcs θ)) (hs : SolvesBVP fes (S.bcs θ) (S.res θ) S.guess) (hn : S.norm 0 = 0) (h0 : 0 ≤ S.tol) :
    S.fwdPred (k + 1) θ = some (.ok S.guess) := by
  have hz : applyBcV fes (S.bcs θ) 1 (S.res θ S.guess) S.guess = 0 := (constraint_zero_iff fes S.bcs S.res θ hw _).2 hs
  unfold Inverse.Setup.fwdPred newtonSolve newtonUpdate
  dsimp only
  rw [hz]
  simp [newtonLoop, Flt.gt, Flt.div, Flt.isFinite, hn, h0]
  rfl

theorem jacOf_entry {N : Nat} (f : (Fin N → ℝ) → Fin N → ℝ) (k : Fin N) (s0 d : ℝ) (hf : DifferentiableAt ℝ f (Pi.single k s0))
    (hd : HasDerivAt (fun s => f (Pi.single k s) k) d s0) : jacOf f (Pi.single k s0) k k = d := by
  have hU : HasDerivAt (fun s => (Pi.single k s : Fin N → ℝ)) (Pi.single k 1) s0 := by
    have : (fun s => (Pi.single k s : Fin N → ℝ)) = fun s => s • (Pi.single k 1 : Fin N → ℝ) := by
      funext s
      rw [← Pi.single_smul, smul_eq_mul, mul_one]
    rw [this]
    simpa using (hasDerivAt_id s0).smul_const (Pi.single k 1 : Fin N → ℝ)
  have h1 := HasFDerivAt.comp_hasDerivAt (l := f) s0 hf.hasFDerivAt hU
  rw [← ((hasDerivAt_pi.1 h1) k).unique hd]
  exact LinearMap.toMatrix'_apply _ _ _

theorem setupOf_entry {nq nfq nn M : Nat} (P : Problem1 ℝ nq nfq nn 2 2) (Lx : ℝ) (nx ny : Nat)
    (bcs : List (List (BCEntry ℝ))) (guess : Fin (totalDofs P.fes) → ℝ) (θ : Fin (M + 1) → ℝ) (k : Fin (totalDofs P.fes)) (s0 d : ℝ)
    (hf : DifferentiableAt ℝ (fun u : Fin (totalDofs P.fes) → ℝ => (setParams P Lx nx ny θ).flat u) (Pi.single k s0))
    (hd : HasDerivAt (fun s => (setParams P Lx nx ny θ).flat (Pi.single k s : Fin (totalDofs P.fes) → ℝ) k) d s0) :
    (setupOf P Lx nx ny bcs guess).tan θ (Pi.single k s0) k k = d := jacOf_entry _ k s0 d hf hd

theorem setupOf_fwd {nq nfq nn M : Nat} (P : Problem1 ℝ nq nfq nn 2 2) (Lx : ℝ) (nx ny : Nat)
    (bcs : List (List (BCEntry ℝ))) (guess : Fin (totalDofs P.fes) → ℝ) (θ : Fin (M + 1) → ℝ) (hw : WFBC P.fes bcs)
    (hs : SolvesBVP P.fes bcs (setParams P Lx nx ny θ).flat guess) :
    (setupOf P Lx nx ny bcs guess).fwdPred 1 θ = some (.ok guess) :=
  fwd_guess (setupOf P Lx nx ny bcs guess) 0 θ hw hs norm_zero (le_refl 0)

theorem tri_prescribed (k : Nat) : (Prescribed (tri w).fes triBcs k none → k = 5) ∧
    ∀ v, Prescribed (tri w).fes triBcs k (some v) → k ≠ 5 ∧ v = 0 := by
  have hfe : ∀ i fe, (tri w).fes[i]? = some fe → i = 0 ∧ fe.numTotalNodes = 3 ∧ fe.vec = 2 := by
    intro i fe h
    rcases i with _ | i
    · simp only [Problem1.fes, List.getElem?_cons_zero, Option.some.injEq] at h
      subst h
      exact ⟨rfl, rfl, rfl⟩
    · simp [Problem1.fes] at h
  have hdof : ∀ n c, dofNum (tri w).fes 0 n c = n * 2 + c := by
    intro n c
    simp [dofNum, Problem1.fes]
  constructor
  · rintro ⟨i, n, c, fe, es, h1, h2, h3, h4, h5, h6⟩
    obtain ⟨rfl, e1, e2⟩ := hfe i fe h1
    rw [e1] at h3
    rw [e2] at h4
    rw [hdof] at h5
    obtain rfl : _ = es := Option.some.inj h2
    by_contra hne
    have hnc : ¬ (n = 2 ∧ c = 1) := by omega
    have key : ∃ j, j < 5 ∧ [0, 0, 1, 1, 2][j]? = some n ∧ [0, 1, 0, 1, 0][j]? = some c := by
      interval_cases n <;> interval_cases c
      · exact ⟨0, by decide⟩
      · exact ⟨1, by decide⟩
      · exact ⟨2, by decide⟩
      · exact ⟨3, by decide⟩
      · exact ⟨4, by decide⟩
      · exact absurd ⟨rfl, rfl⟩ hnc
    obtain ⟨j, hj, hj1, hj2⟩ := key
    exact h6 _ (List.mem_singleton.2 rfl) 0 ⟨j, hj1, hj2, by rw [List.getElem?_replicate, if_pos hj]⟩
  · rintro v (_ | ⟨i, n, c, fe, es, _, h1, h2, h3, h4, h5, before, e, after, hes, ⟨j, hj1, hj2, hj3⟩, -⟩)
    obtain ⟨rfl, e1, e2⟩ := hfe i fe h1
    obtain rfl : _ = es := Option.some.inj h2
    rw [hdof] at h5
    have he : e = ⟨[0, 0, 1, 1, 2], [0, 1, 0, 1, 0], List.replicate 5 0⟩ := by
      have : e ∈ before ++ e :: after := by simp
      rw [← hes] at this
      exact List.mem_singleton.1 this
    subst he
    simp only at hj1 hj2 hj3
    rw [List.getElem?_replicate] at hj3
    split_ifs at hj3 with hj
    obtain rfl : (0 : ℝ) = v := Option.some.inj hj3
    refine ⟨?_, rfl⟩
    rw [h5]
    interval_cases j <;> simp at hj1 hj2 <;> omega

theorem tri_or (k : Fin (totalDofs (tri w).fes)) :
    Prescribed (tri w).fes triBcs k none ∨ ∃ v, Prescribed (tri w).fes triBcs k (some v) := by
  obtain ⟨o, ho⟩ := prescribed_exists (tri w).fes triBcs (tri_wfbc w) k k.2
  cases o with
  | none => exact Or.inl ho
  | some v => exact Or.inr ⟨v, ho⟩

theorem tri_det (A : Matrix (Fin (totalDofs (tri w).fes)) (Fin (totalDofs (tri w).fes)) ℝ)
    (hA : A (triDof w) (triDof w) ≠ 0) : (elimRows (tri w).fes triBcs A).det ≠ 0 := by
  intro h0
  obtain ⟨x, hx, hz⟩ := Matrix.exists_mulVec_eq_zero_iff.2 h0
  have hfree : Prescribed (tri w).fes triBcs (triDof w) none := by
    rcases tri_or w (triDof w) with h | ⟨v, h⟩
    · exact h
    · exact absurd rfl ((tri_prescribed w 5).2 v h).1
  have hrow : ∀ r, r ≠ triDof w → x r = 0 := by
    intro r hr
    rcases tri_or w r with h | ⟨v, h⟩
    · exact absurd (Fin.ext ((tri_prescribed w r).1 h)) hr
    · have := congrFun hz r
      rw [Matrix.mulVec, dotProduct] at this
      simp only [(elimRows_spec (tri w).fes triBcs (tri_wfbc w) A r _).2 v h] at this
      simpa using this
  apply hx
  funext r
  by_cases hr : r = triDof w
  · subst hr
    have := congrFun hz (triDof w)
    rw [Matrix.mulVec, dotProduct, Finset.sum_eq_single (triDof w)] at this
    · rw [(elimRows_spec (tri w).fes triBcs (tri_wfbc w) A (triDof w) (triDof w)).1 hfree] at this
      exact (mul_eq_zero.1 this).resolve_left hA
    · intro c _ hc
      rw [hrow c hc, mul_zero]
    · simp
  · exact hrow r hr

/-- Density of the triangle's quadrature point. -/
noncomputable def triRho (θ : Fin 1 → ℝ) : ℝ := poreFn ![1 / 3, 1 / 3] (midCell 1 0 0) 1 (θ 0)

theorem tri_res (hw : 0 ≤ w) (θ : Fin 1 → ℝ) (s : ℝ) :
    (setParams (M := 0) (tri w) 1 1 1 θ).flat (triU w s) (triDof w) = young (triRho θ) * triStress s / 2 + 5000 * w := by
  have h := Hyper.flat_atIv (tri w) (tri_wf w) rfl (problem_dead 3 triPts [[0, 1, 2]] triEl (triFc w) [⟨0, 0, fun _ => 0⟩])
    (ivOf 3 triPts [[0, 1, 2]] triEl (triFc w) [⟨0, 0, fun _ => 0⟩] 1 1 1 θ) (triU w s) (triDof w)
  have hg : ∀ c q, (tri w).gradAt ((tri w).vecField (Pi.single (triDof w) 1)) c q = fun i j => if i = 1 ∧ j = 1 then 1 else 0 :=
    fun c q => triU_grad w 1 c q
  have hf : ∀ n c, (tri w).vecField (Pi.single (triDof w) 1) n c = if n = 2 ∧ c = 1 then 1 else 0 := fun n c => triU_field w 1 n c
  have hcon : ∀ A : Fin 2 → Fin 2 → ℝ, contract A (fun i j => if i = 1 ∧ j = 1 then (1 : ℝ) else 0) = A 1 1 := by
    intro A
    simp [contract]
  have hsum : ∀ f : Fin (tri w).cells.length → ℝ, ∑ c, f c = f ⟨0, by simp [problem]⟩ := by
    intro f
    exact Fin.sum_univ_one (fun c : Fin 1 => f c)
  have hiv : ∀ (c : Fin (tri w).cells.length) q,
      ivOf 3 triPts [[0, 1, 2]] triEl (triFc w) [⟨0, 0, fun _ => 0⟩] 1 1 1 θ c q = triRho θ := by
    intro c q
    rw [ivOf_apply]
    have hL : poreSize 1 1 = 1 := by norm_num [poreSize]
    have hc : InCell 1 0 0 (position (tri w) c q) := by
      rw [tri_position]
      norm_num [InCell]
    have := congrFun (rhos_cell (M := 0) (position (tri w)) 1 one_pos (nx := 1) (ny := 1) rfl c q (i := 0) (j := 0) one_pos one_pos hc) θ
    rw [hL]
    refine Eq.trans this ?_
    rw [tri_position]
    rfl
  refine h.trans ?_
  rw [tri_load w hw, hsum, Fin.sum_univ_one]
  simp only [hg, hcon, tri_measure, hf]
  have := hiv ⟨0, by simp [problem]⟩ 0
  rw [problem_tensor, this, triU_grad]
  have e : (young (triRho θ) • Hyper.firstPK (Hyper.psiPlane (Hyper.muOf 1 (3 / 10)) (Hyper.kappaOf 1 (3 / 10)))
      fun i j : Fin 2 => if i = 1 ∧ j = 1 then s else 0) 1 1 = young (triRho θ) * triStress s := rfl
  rw [e]
  simp
  ring

/-- Weight of the face for which the load balances the compression `1/10`. -/
noncomputable def triW (θ : Fin 1 → ℝ) : ℝ := -(young (triRho θ) * triStress (-1 / 10)) / 10000

theorem triW_pos (θ : Fin 1 → ℝ) : 0 < young (triRho θ) ∧ 0 < triW θ := by
  have hy : 0 < young (triRho θ) := by
    have := (smoothHole_pos (angle (θ 0)) (9 / 20 * 1) (midCell 1 0 0) ![1 / 3, 1 / 3]).1
    rw [triRho, poreFn_eq, young_eq]
    linarith
  exact ⟨hy, div_pos (neg_pos.2 (mul_neg_of_pos_of_neg hy triStress_neg)) (by norm_num)⟩

/-- No rotation angle brings a diagonal of the square to the quadrature point. -/
theorem tri_diagonal (b : ℝ) : ¬OnDiagonal (scaledSigmoid b (-Real.pi / 4) (Real.pi / 4) (1 / 10)) (midCell 1 0 0) ![1 / 3, 1 / 3] := by
  have hpi := Real.pi_pos
  obtain ⟨h1, h2⟩ := sigmoid_mem b (-Real.pi / 4) (Real.pi / 4) (1 / 10) (by linarith)
  set β := scaledSigmoid b (-Real.pi / 4) (Real.pi / 4) (1 / 10)
  have hc : Real.cos (Real.pi / 4) < Real.cos β := by
    rw [← Real.cos_abs β]
    exact Real.cos_lt_cos_of_nonneg_of_le_pi_div_two (abs_nonneg _) (by linarith) (abs_lt.2 ⟨by linarith, h2⟩)
  have hs1 : Real.sin β < Real.sin (Real.pi / 4) := Real.sin_lt_sin_of_lt_of_le_pi_div_two (by linarith) (by linarith) h2
  have hs2 : Real.sin (-(Real.pi / 4)) < Real.sin β := Real.sin_lt_sin_of_lt_of_le_pi_div_two (by linarith) (by linarith) (by linarith)
  rw [Real.sin_neg, Real.sin_pi_div_four] at hs2
  rw [Real.sin_pi_div_four] at hs1
  rw [Real.cos_pi_div_four] at hc
  rintro ⟨-, h | h⟩
  · norm_num [midCell] at h
    linarith
  · norm_num [midCell] at h
    linarith

/-- Setup of the example. -/
noncomputable abbrev triS (θ0 : Fin 1 → ℝ) : Inverse.Setup (Fin (0 + 1) → ℝ) (tri (triW θ0)).fes (totalDofs (tri (triW θ0)).fes) :=
  setupOf (M := 0) (tri (triW θ0)) 1 1 1 triBcs (triU (triW θ0) (-1 / 10))

theorem tri_regular (θ0 : Fin 1 → ℝ) : ∀ (c : Fin (tri w).cells.length) (q : Fin 1) (i j : Nat) (k : Fin (0 + 1)), i < 1 → j < 1 →
    k.1 = i * 1 + j → InCell (1 / (1 : Nat)) i j (position (tri w) c q) →
    ¬OnDiagonal (scaledSigmoid (θ0 k) (-Real.pi / 4) (Real.pi / 4) (1 / 10)) (midCell (1 / (1 : Nat)) i j) (position (tri w) c q) := by
  intro c q i j k hi hj _ _
  obtain rfl : i = 0 := by omega
  obtain rfl : j = 0 := by omega
  rw [tri_position, Nat.cast_one, div_one]
  exact tri_diagonal _

theorem tri_solves (θ0 : Fin 1 → ℝ) : SolvesBVP (tri (triW θ0)).fes triBcs
    ((setParams (M := 0) (tri (triW θ0)) 1 1 1 θ0).flat) (triU (triW θ0) (-1 / 10)) := by
  refine ⟨fun (k : Fin (totalDofs (tri (triW θ0)).fes)) v hp => ?_, fun (k : Fin (totalDofs (tri (triW θ0)).fes)) hp => ?_⟩
  · obtain ⟨h1, rfl⟩ := (tri_prescribed (triW θ0) k).2 v hp
    rw [triU, Pi.single_eq_of_ne]
    intro h
    exact h1 (congrArg Fin.val h)
  · obtain rfl : k = triDof (triW θ0) := Fin.ext ((tri_prescribed (triW θ0) k).1 hp)
    rw [tri_res _ (triW_pos θ0).2.le, triW]
    ring

theorem shape_differentiable {nq nfq nn M : Nat} (numTotalNodes : Nat) (points : List (Fin 2 → ℝ)) (cells : List (List Nat))
    (el : RefElement ℝ nq nn 2) (fc : RefFaces ℝ nfq nn 2) (faces : List (FaceSpec ℝ nfq)) (Lx : ℝ) (nx ny : Nat)
    (θ0 : Fin (M + 1) → ℝ) (u0 : Fin (totalDofs (problem numTotalNodes points cells el fc faces).fes) → ℝ)
    (h : ContDiffAt ℝ 1 (fun up : (Fin (totalDofs (problem numTotalNodes points cells el fc faces).fes) → ℝ) × (Fin (M + 1) → ℝ) =>
      (problem numTotalNodes points cells el fc faces).flatIv (ivOf numTotalNodes points cells el fc faces Lx nx ny up.2) up.1) (u0, θ0)) :
    DifferentiableAt ℝ (fun u : Fin (totalDofs (problem numTotalNodes points cells el fc faces).fes) → ℝ =>
      (setParams (problem numTotalNodes points cells el fc faces) Lx nx ny θ0).flat u) u0 := by
  have : ContDiffAt ℝ 1 ((problem numTotalNodes points cells el fc faces).flatIv
      (ivOf numTotalNodes points cells el fc faces Lx nx ny θ0)) u0 :=
    ContDiffAt.comp (g := fun up : (Fin (totalDofs (problem numTotalNodes points cells el fc faces).fes) → ℝ) × (Fin (M + 1) → ℝ) =>
      (problem numTotalNodes points cells el fc faces).flatIv (ivOf numTotalNodes points cells el fc faces Lx nx ny up.2) up.1)
      (f := fun u => (u, θ0)) _ h (contDiffAt_id.prodMk contDiffAt_const)
  exact this.differentiableAt one_ne_zero

theorem tri_tangent (θ0 : Fin 1 → ℝ) :
    (triS θ0).tan θ0 (triU (triW θ0) (-1 / 10)) (triDof _) (triDof _) ≠ 0 := by
  have hsm := shape_smooth (M := 0) 3 triPts [[0, 1, 2]] triEl (triFc (triW θ0)) [⟨0, 0, fun _ => 0⟩] (tri_wf _) 1 one_pos
    (nx := 1) (ny := 1) rfl θ0 (triU (triW θ0) (-1 / 10)) (tri_admissible _ _ (by norm_num)) (tri_regular _ θ0)
  have hdiff := shape_differentiable _ _ _ _ _ _ _ _ _ _ _ hsm
  obtain ⟨d, hd, h3⟩ := triStress_deriv (-1 / 10) (by norm_num)
  have h4 : HasDerivAt (fun s => (setParams (M := 0) (tri (triW θ0)) 1 1 1 θ0).flat (triU (triW θ0) s) (triDof (triW θ0)))
      (young (triRho θ0) * d / 2) (-1 / 10) := by
    have e : (fun s => (setParams (M := 0) (tri (triW θ0)) 1 1 1 θ0).flat (triU (triW θ0) s) (triDof (triW θ0)))
        = fun s => young (triRho θ0) * triStress s / 2 + 5000 * triW θ0 := funext fun s => tri_res _ (triW_pos θ0).2.le θ0 s
    rw [e]
    exact ((h3.const_mul (young (triRho θ0))).div_const 2).add_const (5000 * triW θ0)
  have h6 := setupOf_entry (M := 0) (tri (triW θ0)) 1 1 1 triBcs (triU (triW θ0) (-1 / 10)) θ0 (triDof (triW θ0)) (-1 / 10) _ hdiff h4
  exact fun h0 => (div_pos (mul_pos (triW_pos θ0).1 hd) two_pos).ne' (h6.symm.trans h0)

theorem tri_run (θ0 : Fin 1 → ℝ) : (triS θ0).fwdPred 1 θ0 = some (.ok (triU (triW θ0) (-1 / 10))) :=
  setupOf_fwd (M := 0) _ _ _ _ _ _ _ (tri_wfbc _) (tri_solves θ0)

/-- `C104_gradient`, `C104_formula` and `C104_energy` apply for every design. -/
example (θ0 : Fin 1 → ℝ) : ∃ J g, (triS θ0).grad 1 J θ0 = some (.ok g) ∧ J (triU _ (-1 / 10)) = 500 * triW θ0 ∧ 0 < triW θ0 ∧
    (∃ u : (Fin 1 → ℝ) → Fin (totalDofs (tri (triW θ0)).fes) → ℝ, u θ0 = triU _ (-1 / 10) ∧ HasFDerivAt (fun θ => J (u θ)) g θ0) ∧
    ∃ v : Fin (totalDofs (tri (triW θ0)).fes) → ℝ, g (Pi.single 0 1) = -∑ c : Fin (tri (triW θ0)).cells.length, ∑ q : Fin 1,
      999000 * deriv (poreFn ![1 / 3, 1 / 3] (midCell 1 0 0) 1) (θ0 0)
        * contract (Hyper.firstPK (Hyper.psiPlane (Hyper.muOf 1 (3 / 10)) (Hyper.kappaOf 1 (3 / 10)))
          fun i j => if i = 1 ∧ j = 1 then -1 / 10 else 0) ((tri (triW θ0)).gradAt ((tri (triW θ0)).vecField v) c q) * (1 / 2) := by
  obtain ⟨J, hJ, u, hu, -, -, g, hg, hd⟩ := C104_gradient (M := 0) 3 triPts [[0, 1, 2]] triEl (triFc (triW θ0)) [⟨0, 0, fun _ => 0⟩]
    (tri_wf _) 1 one_pos (nx := 1) (ny := 1) rfl triBcs (tri_wfbc _) (triS θ0) (setupOf_of _ _ _ _ _ _) adjExSolve_exact
    adjExSolve_total θ0 (triU _ (-1 / 10)) (tri_admissible _ _ (by norm_num)) (tri_regular _ θ0)
    (tri_det _ _ (tri_tangent θ0)) (tri_solves θ0) 1 (tri_run θ0)
  obtain ⟨v, -, -, hv⟩ := C104_formula (M := 0) 3 triPts [[0, 1, 2]] triEl (triFc (triW θ0)) [⟨0, 0, fun _ => 0⟩]
    (tri_wf _) 1 one_pos (nx := 1) (ny := 1) rfl triBcs (tri_wfbc _) (triS θ0) (setupOf_of _ _ _ _ _ _) adjExSolve_exact
    θ0 (triU _ (-1 / 10)) (tri_admissible _ _ (by norm_num)) (tri_regular _ θ0) 1 (tri_run θ0) J (hJ θ0) g hg
  refine ⟨J, g, hg, ?_, (triW_pos θ0).2, ⟨u, hu, hd⟩, v, ?_⟩
  · have h1 := computeCompliance_eq (tri (triW θ0)) (problem_deadLoad 3 triPts [[0, 1, 2]] triEl (triFc (triW θ0)) [⟨0, 0, fun _ => 0⟩])
      (ivOf 3 triPts [[0, 1, 2]] triEl (triFc (triW θ0)) [⟨0, 0, fun _ => 0⟩] 1 1 1 θ0) (triU _ (-1 / 10))
    have h2 := (hJ θ0 (triU _ (-1 / 10))).symm.trans h1
    rw [Except.ok.inj h2, Problem1.loadWork, tri_load _ (triW_pos θ0).2.le, triU_field, triU_field]
    norm_num
    ring
  · rw [hv 0 0 0 one_pos one_pos rfl]
    congr 1
    refine Finset.sum_congr rfl fun c _ => Finset.sum_congr rfl fun q _ => ?_
    rw [tri_measure, triU_grad, tri_position, Nat.cast_one, div_one, if_pos (by norm_num [InCell])]

example (θ : Fin 1 → ℝ) (s : ℝ) (hs : -1 < s) := C104_energy (M := 0) 3 triPts [[0, 1, 2]] triEl (triFc w) [⟨0, 0, fun _ => 0⟩]
  (tri_wf w) 1 one_pos (nx := 1) (ny := 1) rfl θ (triU w s) (tri_admissible w s hs)

example (c : Fin (tri w).cells.length) (q : Fin 1) : 0 ≤ (tri w).measureAt c q := by
  rw [tri_measure]
  norm_num

end JaxFem.Shape
