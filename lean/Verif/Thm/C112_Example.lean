import Verif.Thm.C112_Smooth
import Verif.Thm.C112_Stale
import Verif.Thm.C103_Example
import Verif.Thm.C104_Example
import Verif.Thm.C106_Example

/-!
# C112: a concrete case

One tetrahedron with the corner at the origin; the local solver returns the elastic trial stress, which is the exact root for
a zero time increment.  A linear solver that solves every solvable system.
-/

namespace JaxFem.Sensitivity

open scoped Topology BigOperators
open Crystal (M3 Internal implicitResidual piola update fcc initial getRotMat defGrad pToSigma cellAverage cubicStress)
open CoDesign (jacOf jacOf_spec tetPts tetG tetEl tetFc tet_jacobian)

/-- The trial stress as root. -/
noncomputable def trial (f : M3 → M3) : M3 := fun i j => -f 0 i j

/-- The tetrahedron. -/
noncomputable abbrev body : Problem1 Pt 1 1 4 3 3 := problem trial 0 4 tetPts [[0, 1, 2, 3]] tetEl tetFc

theorem body_wf : body.WF where
  nonempty := by simp [problem]
  points := rfl
  cell_length := by simp [problem]
  cell_lt := by simp [problem]
  face_lt := by simp [problem]

theorem body_unity : body.el.Unity := by
  intro q
  refine ⟨?_, ?_⟩
  · show ∑ a : Fin 4, (1 / 4 : ℝ) = 1
    norm_num
  · intro j
    show ∑ a : Fin 4, tetG a j = 0
    rw [Fin.sum_univ_four]
    fin_cases j <;> simp [tetG]

theorem body_jac (q : Fin 1) : mapJacobian (coords 4 tetPts [0, 1, 2, 3]) (Matrix.of (tetEl.shapeGradsRef q)) = 1 := by
  have := tet_jacobian [0, 1, 2, 3] rfl
  rw [← this]
  ext i j
  simp [mapJacobian, jacobianDxDeta, coords, physicalCoos, Matrix.mul_apply, tetEl]

theorem body_regular : RegularMesh body := by
  intro cell hc q
  have hc' : cell.nodes = [0, 1, 2, 3] := by
    have : cell ∈ [(⟨[0, 1, 2, 3], fun _ => initPt⟩ : CellSpec Pt 1)] := hc
    rw [List.mem_singleton] at this
    rw [this]
  rw [hc']
  show (mapJacobian (coords 4 tetPts [0, 1, 2, 3]) (Matrix.of (tetEl.shapeGradsRef q))).det ≠ 0
  rw [body_jac, Matrix.det_one]
  exact one_ne_zero

theorem body_gradient (v : Nat → Fin 3 → ℝ) (q : Fin 1) (i j : Fin 3) :
    body.gradient v [0, 1, 2, 3] q i j = v 0 i * tetG 0 j + v 1 i * tetG 1 j + v 2 i * tetG 2 j + v 3 i * tetG 3 j := by
  have h : body.gradient v [0, 1, 2, 3] q i j = ∑ a : Fin 4, v ([0, 1, 2, 3].getD a 0) i *
      shapeGradsPhysical (physicalCoos 4 tetPts [0, 1, 2, 3]) tetG a j := gradient_eq body v _ q i j
  have hs : ∀ a j, shapeGradsPhysical (physicalCoos 4 tetPts [0, 1, 2, 3]) tetG a j = tetG a j := by
    intro a j
    rw [shapeGradsPhysical, tet_jacobian _ rfl, inv_one]
    simp [Matrix.one_apply]
  rw [h]
  simp only [hs]
  rw [Fin.sum_univ_four]
  rfl

theorem near_one : ¬Near 1 0 := by
  unfold Near
  norm_num

theorem near_zero : Near 0 0 := by
  unfold Near
  norm_num

theorem near_zero_one : ¬Near 0 1 := by
  unfold Near
  norm_num

theorem near_one_one : Near 1 1 := by
  unfold Near
  norm_num

theorem body_axis : CornerOnAxis body := by
  intro n hn x hx ha
  have hn' : n < 4 := hn
  have hx' : tetPts[n]? = some x := hx
  interval_cases n
  · obtain rfl : ![0, 0, 0] = x := Option.some.inj hx'
    exact ⟨rfl, rfl⟩
  · obtain rfl : ![1, 0, 0] = x := Option.some.inj hx'
    exact absurd ha.1 near_one
  · obtain rfl : ![0, 1, 0] = x := Option.some.inj hx'
    exact absurd ha.2.1 near_one
  · obtain rfl : ![0, 0, 1] = x := Option.some.inj hx'
    exact absurd ha.2.2 near_one

/-- The law: with `F = 1 + G`, stress `F` times the stress of the Green strain. -/
theorem body_law (G : M3) (hd : (1 + Matrix.of G : Matrix (Fin 3) (Fin 3) ℝ).det ≠ 0) :
    Matrix.of (tensorMap trial 0 initPt G) = (1 + Matrix.of G) * cubicStress 168400 121400 75400
      ((1 / 2 : ℝ) • ((1 + Matrix.of G).transpose * (1 + Matrix.of G) - 1)) := by
  set F : Matrix (Fin 3) (Fin 3) ℝ := 1 + Matrix.of G with hF
  have hdef : defGrad G = F := by rw [Crystal.defGrad, hF, add_comm]
  have hfp : ∀ S, Crystal.fpInvNew fcc 0 initPt.internal S = 1 := by
    intro S
    have hp : Crystal.plasticInc fcc 0 initPt.internal S = 0 := by
      funext i j
      simp [Crystal.plasticInc, Crystal.gammaInc]
    have e : Matrix.of initPt.internal.FpInv = (1 : Matrix (Fin 3) (Fin 3) ℝ) := rfl
    have e0 : Matrix.of (0 : M3) = (0 : Matrix (Fin 3) (Fin 3) ℝ) := rfl
    rw [Crystal.fpInvNew, hp, e, e0, sub_zero, Matrix.one_mul]
  have hFe : ∀ S, Crystal.elasticF fcc 0 initPt.internal G S = F := fun S => by
    rw [Crystal.elasticF, hfp, hdef, Matrix.mul_one]
  have hR : Matrix.of initPt.internal.rot = (1 : Matrix (Fin 3) (Fin 3) ℝ) := by
    ext i j
    show getRotMat ![1, 0, 0, 0] i j = _
    fin_cases i <;> fin_cases j <;> simp [getRotMat]
  have hS : Matrix.of (trial (implicitResidual fcc 0 initPt.internal G))
      = cubicStress 168400 121400 75400 ((1 / 2 : ℝ) • (F.transpose * F - 1)) := by
    ext i j
    have hE : ((1 / 2 : ℝ) • (F.transpose * F - 1)).transpose = (1 / 2 : ℝ) • (F.transpose * F - 1) := by
      rw [Matrix.transpose_smul, Matrix.transpose_sub, Matrix.transpose_mul, Matrix.transpose_transpose, Matrix.transpose_one]
    have := Crystal.rotate_cubic 168400 121400 75400 initPt.internal.rot ((1 / 2 : ℝ) • (F.transpose * F - 1)) hE i j
    rw [hR, Matrix.transpose_one, Matrix.one_mul, Matrix.mul_one, Matrix.one_mul, Matrix.mul_one] at this
    rw [← this]
    show -implicitResidual fcc 0 initPt.internal G 0 i j = _
    simp only [implicitResidual, hFe]
    rw [show (0 : M3) i j = 0 from rfl, zero_sub, neg_neg]
    refine Finset.sum_congr rfl fun k _ => Finset.sum_congr rfl fun l _ => ?_
    rw [mul_assoc]
    rfl
  show piola fcc 0 initPt.internal G (trial (implicitResidual fcc 0 initPt.internal G)) = _
  rw [piola, hFe, hdef, hS]
  have hu : IsUnit F.det := isUnit_iff_ne_zero.2 hd
  rw [Matrix.smul_mul, smul_smul, mul_one_div_cancel hd, one_smul, Matrix.mul_assoc, ← Matrix.transpose_mul,
    Matrix.nonsing_inv_mul F hu, Matrix.transpose_one, Matrix.mul_one]

/-- The configuration stretched by `a` in the plane and `1 + d` along the axis. -/
noncomputable def stretch (a d : ℝ) : Fin (totalDofs body.fes) → ℝ := (![0, 0, 0, a, 0, 0, 0, a, 0, 0, 0, d] : Fin 12 → ℝ)

theorem stretch_field (a d : ℝ) :
    body.vecField (stretch a d) 0 = ![0, 0, 0] ∧ body.vecField (stretch a d) 1 = ![a, 0, 0] ∧
    body.vecField (stretch a d) 2 = ![0, a, 0] ∧ body.vecField (stretch a d) 3 = ![0, 0, d] := by
  refine ⟨?_, ?_, ?_, ?_⟩ <;> · funext c; fin_cases c <;> rfl

theorem stretch_gradient (a d : ℝ) (q : Fin 1) :
    body.gradient (body.vecField (stretch a d)) [0, 1, 2, 3] q = fun i j => Matrix.diagonal ![a, a, d] i j := by
  obtain ⟨h0, h1, h2, h3⟩ := stretch_field a d
  funext i j
  rw [body_gradient, h0, h1, h2, h3]
  fin_cases i <;> fin_cases j <;> simp [tetG, Matrix.diagonal]

theorem unit_field (n m : Nat) (hn : n < 4) (hm : m < 4) (i a : Fin 3) :
    body.vecField (Pi.single (⟨n * 3 + i, dof_lt body hn i⟩ : Fin (totalDofs body.fes)) 1) m a = if m = n ∧ a = i then 1 else 0 := by
  rw [vecField_at body _ hm, Pi.single_apply]
  have := i.2
  have := a.2
  simp only [Fin.ext_iff]
  congr 1
  simp only [eq_iff_iff]
  omega

theorem unit_gradient (n : Nat) (hn : n < 4) (i : Fin 3) (q : Fin 1) (a j : Fin 3) :
    body.gradient (body.vecField (Pi.single (⟨n * 3 + i, dof_lt body hn i⟩ : Fin (totalDofs body.fes)) 1)) [0, 1, 2, 3] q a j
      = if a = i then tetG ⟨n, hn⟩ j else 0 := by
  rw [body_gradient, unit_field n 0 hn (by decide), unit_field n 1 hn (by decide), unit_field n 2 hn (by decide),
    unit_field n 3 hn (by decide)]
  interval_cases n <;> simp

/-- Nodal forces. -/
theorem body_force (vars : Vars body.cells.length 1) (u : Fin (totalDofs body.fes) → ℝ) (n : Nat) (hn : n < 4) (i : Fin 3) :
    body.vecField (residualVec trial 0 body vars u) n i = 1 / 6 * ∑ j, tensorMap trial 0 (vars ⟨0, by simp [problem]⟩ 0)
      (body.gradient (body.vecField u) [0, 1, 2, 3] 0) i j * tetG ⟨n, hn⟩ j := by
  rw [vecField_at body _ hn, residual_sum trial 0 body body_wf rfl rfl]
  have h1 : ∀ f : Fin body.cells.length → ℝ, ∑ c, f c = f ⟨0, by simp [problem]⟩ := fun f => Fin.sum_univ_one f
  rw [h1]
  show ∑ q : Fin 1, contract _ _ * ((mapJacobian (coords 4 tetPts [0, 1, 2, 3]) (Matrix.of (tetEl.shapeGradsRef q))).det * (1 / 6)) = _
  rw [Fin.sum_univ_one, body_jac, Matrix.det_one, one_mul, mul_comm]
  congr 1
  set T := tensorMap trial 0 (vars ⟨0, by simp [problem]⟩ 0) (body.gradient (body.vecField u) [0, 1, 2, 3] 0) with hT
  show ∑ a, ∑ j, T a j * body.gradient (body.vecField (Pi.single (⟨n * 3 + i, dof_lt body hn i⟩ : Fin (totalDofs body.fes)) 1)) [0, 1, 2, 3] 0 a j = _
  simp only [unit_gradient n hn i]
  rw [Finset.sum_eq_single i]
  · simp
  · intro a _ ha
    simp [ha]
  · simp

/-- Lateral stretch without lateral stress. -/
noncomputable def lateral (s : ℝ) : ℝ := Real.sqrt (1 - 121400 / 289800 * ((1 + s) ^ 2 - 1)) - 1

theorem stretch_pulled (s : ℝ) (hs : 121400 / 289800 * ((1 + s) ^ 2 - 1) < 1) (hs1 : -1 < s) :
    Pulled body s (residualVec trial 0 body (initVars _) (stretch (lateral s) s)) (stretch (lateral s) s) := by
  have hpos : 0 < 1 + lateral s := by
    unfold lateral
    have := Real.sqrt_pos.2 (sub_pos.2 hs)
    linarith
  have hsq : (1 + lateral s) ^ 2 = 1 - 121400 / 289800 * ((1 + s) ^ 2 - 1) := by
    unfold lateral
    rw [add_sub_cancel, Real.sq_sqrt (sub_pos.2 hs).le]
  have hd : (1 + Matrix.of (fun i j => Matrix.diagonal ![lateral s, lateral s, s] i j) : Matrix (Fin 3) (Fin 3) ℝ)
      = Matrix.diagonal ![1 + lateral s, 1 + lateral s, 1 + s] := by
    ext i j
    fin_cases i <;> fin_cases j <;> simp [Matrix.diagonal, Matrix.one_apply]
  have hT : ∀ i j, tensorMap trial 0 initPt (body.gradient (body.vecField (stretch (lateral s) s)) [0, 1, 2, 3] 0) i j
      = if i = 2 ∧ j = 2 then tensorMap trial 0 initPt (body.gradient (body.vecField (stretch (lateral s) s)) [0, 1, 2, 3] 0) 2 2 else 0 := by
    intro i j
    rw [stretch_gradient]
    have key := body_law (fun i j => Matrix.diagonal ![lateral s, lateral s, s] i j) (by
      rw [hd, Matrix.det_diagonal, Fin.prod_univ_three]
      simp
      exact ⟨hpos.ne', by linarith⟩)
    have key' := fun i j => congrFun (congrFun key i) j
    split_ifs with h
    · rw [h.1, h.2]
    · refine (key' i j).trans ?_
      rw [hd, Matrix.diagonal_transpose, Matrix.diagonal_mul_diagonal]
      have e : ∀ i j, ((1 / 2 : ℝ) • (Matrix.diagonal (fun k => (![1 + lateral s, 1 + lateral s, 1 + s] : Fin 3 → ℝ) k
          * (![1 + lateral s, 1 + lateral s, 1 + s] : Fin 3 → ℝ) k) - 1) : Matrix (Fin 3) (Fin 3) ℝ) i j
          = if i = j then 1 / 2 * ((![1 + lateral s, 1 + lateral s, 1 + s] : Fin 3 → ℝ) i ^ 2 - 1) else 0 := by
        intro i j
        by_cases hij : i = j
        · subst hij
          simp [sq]
        · simp [hij]
      rw [Matrix.diagonal_mul]
      simp only [cubicStress, e]
      fin_cases i <;> fin_cases j <;> simp_all <;> (try right) <;> linarith
  have hf : ∀ n (hn : n < 4) (i : Fin 3), i ≠ 2 →
      body.vecField (residualVec trial 0 body (initVars _) (stretch (lateral s) s)) n i = 0 := by
    intro n hn i hi
    rw [body_force _ _ n hn, Finset.sum_eq_zero, mul_zero]
    intro j _
    rw [show tensorMap trial 0 (initVars body.cells.length ⟨0, by simp [problem]⟩ 0) _ i j = _ from hT i j, if_neg (fun h => hi h.1), zero_mul]
  obtain ⟨h0, h1, h2, h3⟩ := stretch_field (lateral s) s
  intro n hn x hx
  have hn' : n < 4 := hn
  have hx' : tetPts[n]? = some x := hx
  have hfn := hf n hn'
  interval_cases n
  · obtain rfl : ![0, 0, 0] = x := Option.some.inj hx'
    rw [h0]
    exact ⟨fun _ => ⟨rfl, rfl⟩, fun _ => ⟨hfn 0 (by decide), hfn 1 (by decide)⟩, fun _ => rfl, fun h => absurd h near_zero_one,
      fun h => absurd near_zero h⟩
  · obtain rfl : ![1, 0, 0] = x := Option.some.inj hx'
    rw [h1]
    exact ⟨fun h => absurd h.1 near_one, fun _ => ⟨hfn 0 (by decide), hfn 1 (by decide)⟩, fun _ => rfl, fun h => absurd h near_zero_one,
      fun h => absurd near_zero h⟩
  · obtain rfl : ![0, 1, 0] = x := Option.some.inj hx'
    rw [h2]
    exact ⟨fun h => absurd h.2.1 near_one, fun _ => ⟨hfn 0 (by decide), hfn 1 (by decide)⟩, fun _ => rfl, fun h => absurd h near_zero_one,
      fun h => absurd near_zero h⟩
  · obtain rfl : ![0, 0, 1] = x := Option.some.inj hx'
    rw [h3]
    exact ⟨fun h => absurd h.2.2 near_one, fun _ => ⟨hfn 0 (by decide), hfn 1 (by decide)⟩, fun h => absurd h near_one, fun _ => rfl,
      fun _ h => absurd near_one_one h⟩

/-! ### Derivatives -/

theorem body_law_diff (G : M3) (hd : (1 + Matrix.of G : Matrix (Fin 3) (Fin 3) ℝ).det ≠ 0) :
    DifferentiableAt ℝ (fun x : Pt × M3 => tensorMap trial 0 x.1 x.2) (initPt, G) := by
  have he : 1 < 1 / fcc.xm := by show (1 : ℝ) < 1 / 0.1; norm_num
  have hpos : ∀ a, 0 < (initPt, G).1.internal.resistance a := by
    intro a
    show (0 : ℝ) < Crystal.gssInitial
    unfold Crystal.gssInitial
    norm_num
  refine C112_law trial 0 (initPt, G) ?_ hpos hd ?_
  · have h1 := ((Crystal.C89_smooth fcc 0 he).1 (((G, initPt), 0) : Crystal.Args 12 × M3) hpos).differentiableAt one_ne_zero
    have h2 : DifferentiableAt ℝ (fun x : Pt × M3 => Crystal.residualOf fcc 0 ((x.2, x.1) : Crystal.Args 12) 0) (initPt, G) :=
      DifferentiableAt.comp (f := fun x : Pt × M3 => (((x.2, x.1), 0) : Crystal.Args 12 × M3)) (initPt, G) h1
        ((differentiableAt_snd.prodMk differentiableAt_fst).prodMk (differentiableAt_const _))
    exact h2.neg
  · have hp : ∀ S, Crystal.plasticInc fcc 0 initPt.internal S = 0 := by
      intro S
      funext i j
      simp [Crystal.plasticInc, Crystal.gammaInc]
    have e : Matrix.of initPt.internal.FpInv = (1 : Matrix (Fin 3) (Fin 3) ℝ) := rfl
    have e0 : Matrix.of (0 : M3) = (0 : Matrix (Fin 3) (Fin 3) ℝ) := rfl
    rw [Crystal.elasticF, Crystal.fpInvNew, hp, e, e0, sub_zero, Matrix.one_mul, Matrix.mul_one, Crystal.defGrad, add_comm]
    exact hd

theorem body_nodes (c : Fin body.cells.length) : (body.cells[c]).nodes = [0, 1, 2, 3] := by
  have hc : c = ⟨0, by simp [problem]⟩ := by
    apply Fin.ext
    have : body.cells.length = 1 := by simp [problem]
    have := c.2
    show c.1 = 0
    omega
  subst hc
  rfl

theorem zero_gradient (q : Fin 1) : body.gradient (body.vecField 0) [0, 1, 2, 3] q = 0 := by
  funext i j
  have : ∀ n, body.vecField (0 : Fin (totalDofs body.fes) → ℝ) n = 0 := by
    intro n
    funext c
    simp [Problem1.vecField]
  rw [body_gradient, this, this, this, this]
  simp

theorem body_diff : DifferentiableAt ℝ (fun x : (Fin (totalDofs body.fes) → ℝ) × Vars body.cells.length 1 =>
      residualVec trial 0 body x.2 x.1) (0, initVars _) ∧
    DifferentiableAt ℝ (fun u : Fin (totalDofs body.fes) → ℝ => crtVolume body (solOf body u)) 0 := by
  refine C112_differentiable trial 0 body body_wf rfl rfl (initVars _) 0 fun c q => ?_
  rw [body_nodes, zero_gradient]
  refine body_law_diff 0 ?_
  have e0 : Matrix.of (0 : M3) = (0 : Matrix (Fin 3) (Fin 3) ℝ) := rfl
  rw [e0, add_zero, Matrix.det_one]
  exact one_ne_zero

theorem body_diff_u : DifferentiableAt ℝ (residualVec trial 0 body (initVars _)) 0 :=
  DifferentiableAt.comp (g := fun x : (Fin (totalDofs body.fes) → ℝ) × Vars body.cells.length 1 => residualVec trial 0 body x.2 x.1)
    (f := fun u => (u, initVars _)) 0 body_diff.1 (differentiableAt_id.prodMk (differentiableAt_const _))

theorem law_deriv (G : M3) (i : Fin 3) : HasDerivAt (fun t : ℝ => tensorMap trial 0 initPt (t • G) i i)
    (cubicStress 168400 121400 75400 ((1 / 2 : ℝ) • (Matrix.of G + (Matrix.of G).transpose)) i i) 0 := by
  set M : Matrix (Fin 3) (Fin 3) ℝ := Matrix.of G with hM
  have hsm : ∀ t : ℝ, Matrix.of (t • G) = t • M := fun t => rfl
  have hcont : Filter.Tendsto (fun t : ℝ => (1 + t • M).det) (𝓝 0) (𝓝 1) := by
    have : Continuous fun t : ℝ => (1 + t • M).det := by fun_prop
    have h := this.tendsto 0
    simpa using h
  have hev : ∀ᶠ t : ℝ in 𝓝 0, (1 + t • M).det ≠ 0 := hcont.eventually_ne one_ne_zero
  have hlin : ∀ (t : ℝ) (A B : Matrix (Fin 3) (Fin 3) ℝ) (k l : Fin 3), cubicStress 168400 121400 75400 (t • A + t ^ 2 • B) k l
      = t * cubicStress 168400 121400 75400 A k l + t ^ 2 * cubicStress 168400 121400 75400 B k l := by
    intro t A B k l
    simp only [cubicStress, Matrix.add_apply, Matrix.smul_apply, smul_eq_mul]
    split_ifs <;> ring
  have he : (fun t : ℝ => ∑ k, ((1 : Matrix (Fin 3) (Fin 3) ℝ) i k + t * M i k)
        * (t * cubicStress 168400 121400 75400 ((1 / 2 : ℝ) • (M + M.transpose)) k i
          + t ^ 2 * cubicStress 168400 121400 75400 ((1 / 2 : ℝ) • (M.transpose * M)) k i))
      =ᶠ[𝓝 0] fun t => tensorMap trial 0 initPt (t • G) i i := by
    filter_upwards [hev] with t ht
    have := congrFun (congrFun (body_law (t • G) (by rw [hsm]; exact ht)) i) i
    refine Eq.symm (Eq.trans this ?_)
    rw [hsm, Matrix.mul_apply]
    refine Finset.sum_congr rfl fun k _ => ?_
    rw [← hlin]
    have e : (1 / 2 : ℝ) • ((1 + t • M).transpose * (1 + t • M) - 1)
        = t • ((1 / 2 : ℝ) • (M + M.transpose)) + t ^ 2 • ((1 / 2 : ℝ) • (M.transpose * M)) := by
      rw [Matrix.transpose_add, Matrix.transpose_one, Matrix.transpose_smul, Matrix.add_mul, Matrix.one_mul, Matrix.mul_add,
        Matrix.mul_one, Matrix.smul_mul, Matrix.mul_smul]
      module
    rw [e]
    rfl
  refine HasDerivAt.congr_of_eventuallyEq ?_ he.symm
  have hk : ∀ k, HasDerivAt (fun t : ℝ => ((1 : Matrix (Fin 3) (Fin 3) ℝ) i k + t * M i k)
        * (t * cubicStress 168400 121400 75400 ((1 / 2 : ℝ) • (M + M.transpose)) k i
          + t ^ 2 * cubicStress 168400 121400 75400 ((1 / 2 : ℝ) • (M.transpose * M)) k i))
      ((1 : Matrix (Fin 3) (Fin 3) ℝ) i k * cubicStress 168400 121400 75400 ((1 / 2 : ℝ) • (M + M.transpose)) k i) 0 := by
    intro k
    have h1 := (((hasDerivAt_id (0 : ℝ)).mul_const (M i k)).const_add ((1 : Matrix (Fin 3) (Fin 3) ℝ) i k)).mul
      (((hasDerivAt_id (0 : ℝ)).mul_const (cubicStress 168400 121400 75400 ((1 / 2 : ℝ) • (M + M.transpose)) k i)).add
        ((hasDerivAt_pow 2 (0 : ℝ)).mul_const (cubicStress 168400 121400 75400 ((1 / 2 : ℝ) • (M.transpose * M)) k i)))
    refine h1.congr_deriv ?_
    simp
  refine (HasDerivAt.fun_sum fun k _ => hk k).congr_deriv ?_
  rw [Finset.sum_eq_single i]
  · simp
  · intro k _ hk
    simp [Matrix.one_apply, hk.symm]
  · simp

/-- Derivative of the lateral forces at the two nodes of the bottom. -/
theorem body_tangent (n : Nat) (hn : n < 4) (c : Fin 3) :
    jacOf (residualVec trial 0 body (initVars _)) 0 (3 : Fin 12) (⟨n * 3 + c, dof_lt body hn c⟩ : Fin (totalDofs body.fes))
        = 1 / 6 * (121400 * tetG ⟨n, hn⟩ c + if c = 0 then 47000 * tetG ⟨n, hn⟩ c else 0) ∧
    jacOf (residualVec trial 0 body (initVars _)) 0 (7 : Fin 12) (⟨n * 3 + c, dof_lt body hn c⟩ : Fin (totalDofs body.fes))
        = 1 / 6 * (121400 * tetG ⟨n, hn⟩ c + if c = 1 then 47000 * tetG ⟨n, hn⟩ c else 0) := by
  set k : Fin (totalDofs body.fes) := ⟨n * 3 + c, dof_lt body hn c⟩ with hk
  set G : M3 := fun a j => if a = c then tetG ⟨n, hn⟩ j else 0 with hG
  have hgrad : ∀ t : ℝ, body.gradient (body.vecField (0 + t • (Pi.single k 1 : Fin (totalDofs body.fes) → ℝ))) [0, 1, 2, 3] 0 = t • G := by
    intro t
    rw [zero_add]
    have h1 := (Hyper.gradL body body.cells[0] 0).map_smul t (Pi.single k 1)
    refine Eq.trans h1 ?_
    congr 1
    funext a j
    exact unit_gradient n hn c 0 a j
  have hline : ∀ (m : Nat) (hm : m < 4) (i : Fin 3), (∀ j, tetG ⟨m, hm⟩ j = if j = i then 1 else 0) →
      HasDerivAt (fun t : ℝ => body.vecField (residualVec trial 0 body (initVars _)
        (0 + t • (Pi.single k 1 : Fin (totalDofs body.fes) → ℝ))) m i)
        (1 / 6 * cubicStress 168400 121400 75400 ((1 / 2 : ℝ) • (Matrix.of G + (Matrix.of G).transpose)) i i) 0 := by
    intro m hm i hi
    have e : (fun t : ℝ => body.vecField (residualVec trial 0 body (initVars _)
        (0 + t • (Pi.single k 1 : Fin (totalDofs body.fes) → ℝ))) m i) = fun t => 1 / 6 * tensorMap trial 0 initPt (t • G) i i := by
      funext t
      rw [body_force _ _ m hm, hgrad]
      congr 1
      rw [Finset.sum_eq_single i]
      · rw [hi, if_pos rfl, mul_one]
        rfl
      · intro j _ hj
        rw [hi, if_neg hj, mul_zero]
      · simp
    rw [e]
    exact (law_deriv G i).const_mul _
  have hval : ∀ i : Fin 3, cubicStress 168400 121400 75400 ((1 / 2 : ℝ) • (Matrix.of G + (Matrix.of G).transpose)) i i
      = 121400 * tetG ⟨n, hn⟩ c + if c = i then 47000 * tetG ⟨n, hn⟩ c else 0 := by
    intro i
    simp only [cubicStress, hG, Matrix.smul_apply, Matrix.add_apply, Matrix.of_apply, Matrix.transpose_apply, smul_eq_mul, if_true]
    fin_cases c <;> fin_cases i <;> simp <;> ring
  refine ⟨?_, ?_⟩
  · have := hline 1 (by decide) 0 (by intro j; fin_cases j <;> simp [tetG])
    rw [hval] at this
    exact Gradients.jacOf_line _ _ _ _ _ body_diff_u this
  · have := hline 2 (by decide) 1 (by intro j; fin_cases j <;> simp [tetG])
    rw [hval] at this
    exact Gradients.jacOf_line _ _ _ _ _ body_diff_u this

/-! ### The adjoint system: singular, but solvable -/

theorem body_rows (d : ℝ) (A : Matrix (Fin 12) (Fin 12) ℝ) (k : Fin 12) :
    elimRows body.fes (bcsOf body.points d) A 2 k = (if (2 : Fin 12) = k then 1 else 0) ∧
    elimRows body.fes (bcsOf body.points d) A 11 k = (if (11 : Fin 12) = k then 1 else 0) ∧
    elimRows body.fes (bcsOf body.points d) A 3 k = A 3 k ∧ elimRows body.fes (bcsOf body.points d) A 7 k = A 7 k := by
  have hw := bcs_wf body body_wf d
  have h2 := (prescribed_iff body body_wf d (n := 0) (by decide) 2 ![0, 0, 0] rfl (some 0)).2
    (by simp [wanted, near_zero_one, near_zero])
  have h11 := (prescribed_iff body body_wf d (n := 3) (by decide) 2 ![0, 0, 1] rfl (some d)).2
    (by simp [wanted, near_one_one])
  have h3 := (prescribed_iff body body_wf d (n := 1) (by decide) 0 ![1, 0, 0] rfl none).2
    (by simp [wanted, AtCorner, near_one])
  have h7 := (prescribed_iff body body_wf d (n := 2) (by decide) 1 ![0, 1, 0] rfl none).2
    (by simp [wanted, AtCorner, near_one])
  exact ⟨(elimRows_spec body.fes _ hw A 2 k).2 _ h2, (elimRows_spec body.fes _ hw A 11 k).2 _ h11,
    (elimRows_spec body.fes _ hw A 3 k).1 h3, (elimRows_spec body.fes _ hw A 7 k).1 h7⟩

theorem body_adjoint (d y : ℝ) (v : Fin (totalDofs body.fes) → ℝ)
    (hv : ∀ (n : Nat) (hn : n < 4) (c : Fin 3), v ⟨n * 3 + c, dof_lt body hn c⟩ = y * tetG ⟨n, hn⟩ c) :
    ∃ l, (elimRows body.fes (bcsOf body.points d) (jacOf (residualVec trial 0 body (initVars _)) 0)).transpose.mulVec l = v := by
  set J : Matrix (Fin 12) (Fin 12) ℝ := jacOf (residualVec trial 0 body (initVars _)) 0 with hJ
  set a : ℝ := y * (1 - 242800 / 289800) with ha
  set b : ℝ := 6 * y / 289800 with hb
  let l : Fin 12 → ℝ := Pi.single 2 (-a) + Pi.single 11 a + Pi.single 3 b + Pi.single 7 b
  refine ⟨l, ?_⟩
  funext k
  have hsum : ∀ k : Fin 12, (elimRows body.fes (bcsOf body.points d) J).transpose.mulVec l k
      = (if (2 : Fin 12) = k then 1 else 0) * (-a) + (if (11 : Fin 12) = k then 1 else 0) * a + J 3 k * b + J 7 k * b := by
    intro k
    obtain ⟨r2, r11, r3, r7⟩ := body_rows d J k
    simp only [l, Matrix.mulVec_add, Matrix.mulVec_single, Pi.add_apply]
    simp [r2, r11, r3, r7]
    split_ifs <;> simp
  refine (hsum k).trans ?_
  obtain ⟨n, hn, c, rfl⟩ := dof_cases body k
  have hn' : n < 4 := hn
  obtain ⟨t3, t7⟩ := body_tangent n hn' c
  rw [hv n hn' c]
  rw [show J 3 _ = _ from t3, show J 7 _ = _ from t7]
  have e : ∀ m : Fin 12, m = (⟨n * 3 + c, dof_lt body hn c⟩ : Fin (totalDofs body.fes)) ↔ (m : Nat) = n * 3 + c := fun m => Fin.ext_iff
  simp only [e]
  interval_cases n <;> fin_cases c <;> simp [tetG, ha, hb] <;> ring

/-- A linear solver that solves every solvable system. -/
noncomputable def anySolve (n : Nat) (A : Matrix (Fin n) (Fin n) ℝ) (b : Fin n → ℝ) : Except Err (Fin n → ℝ) :=
  open Classical in if h : ∃ x, A.mulVec x = b then .ok h.choose else .error .runtime

theorem anySolve_exact : ExactAdjointSolver anySolve := by
  intro n A b x hx
  unfold anySolve at hx
  split_ifs at hx with h
  rw [← Except.ok.inj hx]
  exact h.choose_spec

/-- Exact tangent, no tolerance. -/
noncomputable def bodyNum : Numerics body.cells.length 1 (totalDofs body.fes) :=
  ⟨fun dt vars => jacOf (residualVec trial dt body vars), fun _ _ _ => .error .runtime, 0, 0, anySolve⟩

theorem stretch_zero : stretch (lateral 0) 0 = 0 := by
  have h : lateral 0 = 0 := by simp [lateral]
  rw [h]
  funext k
  obtain ⟨n, hn, c, rfl⟩ := dof_cases body k
  have hn' : n < 4 := hn
  refine (vecField_at body (stretch 0 0) hn c).symm.trans ?_
  obtain ⟨h0, h1, h2, h3⟩ := stretch_field 0 0
  interval_cases n
  · rw [h0]; fin_cases c <;> rfl
  · rw [h1]; fin_cases c <;> rfl
  · rw [h2]; fin_cases c <;> rfl
  · rw [h3]; fin_cases c <;> rfl

theorem stretch_off (a d : ℝ) (ha : 0 < 1 + a) : OffAxis body (stretch a d) := by
  refine ⟨1, by decide, .inl ?_⟩
  rw [place, (stretch_field a d).2.1]
  show (1 : ℝ) + a ≠ 0
  exact ha.ne'

theorem body_steps : steps 1 0 1 = [⟨1, 0⟩] := by
  simp [steps, FinitePlasticity.linspaceAB, List.range_succ]
  norm_num

theorem body_volume (u : Fin (totalDofs body.fes) → ℝ) :
    crtVolume body (solOf body u) = (Matrix.of (body.gradient (body.vecField u) [0, 1, 2, 3] 0) + 1).det * (1 / 6) := by
  unfold crtVolume
  simp only [sol_grad]
  show ([_] : List ℝ).sum = _
  rw [List.sum_singleton]
  refine (Fin.sum_univ_one _).trans ?_
  congr 1
  show (mapJacobian (coords 4 tetPts [0, 1, 2, 3]) (Matrix.of (tetEl.shapeGradsRef 0))).det * (1 / 6) = _
  rw [body_jac, Matrix.det_one, one_mul]

theorem body_target_line (n : Nat) (hn : n < 4) (c : Fin 3) (t : ℝ) :
    targetValue body (solOf body (t • (Pi.single (⟨n * 3 + c, dof_lt body hn c⟩ : Fin (totalDofs body.fes)) 1 : Fin (totalDofs body.fes) → ℝ)))
      = ((1 + t * tetG ⟨n, hn⟩ c) * (1 / 6) - 1.01) ^ 2 := by
  rw [targetValue, body_volume]
  have h1 := (Hyper.gradL body body.cells[0] 0).map_smul t (Pi.single (⟨n * 3 + c, dof_lt body hn c⟩ : Fin (totalDofs body.fes)) 1)
  have h2 : body.gradient (body.vecField (t • (Pi.single (⟨n * 3 + c, dof_lt body hn c⟩ : Fin (totalDofs body.fes)) 1
      : Fin (totalDofs body.fes) → ℝ))) [0, 1, 2, 3] 0 = fun a j => t * if a = c then tetG ⟨n, hn⟩ j else 0 := by
    refine Eq.trans h1 ?_
    funext a j
    rw [← unit_gradient n hn c 0 a j]
    rfl
  rw [h2]
  congr 3
  rw [Matrix.det_fin_three]
  fin_cases c <;> simp <;> ring

theorem stretch_target (s : ℝ) (hs : 121400 / 289800 * ((1 + s) ^ 2 - 1) < 1) :
    targetValue body (solOf body (stretch (lateral s) s))
      = ((1 - 121400 / 289800 * ((1 + s) ^ 2 - 1)) * (1 + s) * (1 / 6) - 1.01) ^ 2 := by
  have hsq : (1 + lateral s) ^ 2 = 1 - 121400 / 289800 * ((1 + s) ^ 2 - 1) := by
    unfold lateral
    rw [add_sub_cancel, Real.sq_sqrt (sub_pos.2 hs).le]
  rw [targetValue, body_volume, stretch_gradient, ← hsq]
  congr 3
  rw [Matrix.det_fin_three]
  simp [Matrix.diagonal]
  ring

theorem small_strain : ∀ᶠ s : ℝ in 𝓝 0, 121400 / 289800 * ((1 + s) ^ 2 - 1) < 1 ∧ -1 < s := by
  have h1 : Filter.Tendsto (fun s : ℝ => 121400 / 289800 * ((1 + s) ^ 2 - 1)) (𝓝 0) (𝓝 0) := by
    have : Continuous fun s : ℝ => 121400 / 289800 * ((1 + s) ^ 2 - 1) := by fun_prop
    have h := this.tendsto 0
    simpa using h
  exact (h1.eventually_lt_const one_pos).and (eventually_gt_nhds (by norm_num))

/-- Turned solutions, singular matrix at a stretched configuration and at the start. -/
example : Pulled body 1e-3 (residualVec trial 0 body (initVars _) (stretch (lateral 1e-3) 1e-3)) (stretch (lateral 1e-3) 1e-3) ∧
    OffAxis body (stretch (lateral 1e-3) 1e-3) ∧
    ∀ A, HasJacobianAt (residualVec trial 0 body (initVars _)) A (stretch (lateral 1e-3) 1e-3) →
      (elimRows body.fes (bcsOf body.points 1e-3) A).det = 0 := by
  have hp := stretch_pulled 1e-3 (by norm_num) (by norm_num)
  have ho : OffAxis body (stretch (lateral 1e-3) 1e-3) := by
    refine stretch_off _ _ ?_
    unfold lateral
    have := Real.sqrt_pos.2 (show (0 : ℝ) < 1 - 121400 / 289800 * ((1 + 1e-3) ^ 2 - 1) by norm_num)
    linarith
  exact ⟨hp, ho, fun A hA => C112_tangent trial body body_wf rfl rfl body_unity body_regular body_axis 0 1e-3 1e-3 _ _ hp ho A hA⟩

example : (elimRows body.fes (bcsOf body.points 1e-3) (jacOf (residualVec trial 0 body (initVars _)) 0)).det = 0 := by
  refine (C112_first trial body body_wf rfl rfl body_unity body_regular body_axis 0 1e-3 ?_ _ (jacOf_spec _ _ body_diff_u)).2 ?_
  · rw [← stretch_zero]
    exact stretch_off _ _ (by simp [lateral])
  · funext i j
    have := (C112_first trial body body_wf rfl rfl body_unity body_regular body_axis 0 1e-3 (by
      rw [← stretch_zero]
      exact stretch_off _ _ (by simp [lateral])) _ (jacOf_spec _ _ body_diff_u)).1
    show -implicitResidual fcc 0 initPt.internal 0 0 i j = 0
    rw [this]
    simp

/-- The returned derivative of the volume objective, with a singular adjoint system. -/
example : ∃ g, (Volume.script trial body bodyNum).grad (Volume.init body.cells.length) 1 (steps 1 0 1) 0 = some (.ok g) ∧
    HasDerivAt (fun s => targetValue body (solOf body (stretch (lateral s) s))) (g 1) 0 ∧ g 1 ≠ 0 := by
  have hsol : ∀ᶠ s : ℝ in 𝓝 0, SolvesBVP body.fes (bcsOf body.points (s * 1)) (residualVec trial 0 body (initVars _)) (stretch (lateral s) s) := by
    filter_upwards [small_strain] with s hs
    rw [mul_one]
    exact ((C112_conditions body body_wf s _ _).2).2 (stretch_pulled s hs.1 hs.2)
  have hrun : (Volume.script trial body bodyNum).run 1 (steps 1 0 1) (Volume.init body.cells.length 0)
      = some (.ok [stretch (lateral 0) 0]) := by
    have h0 := Shape.fwd_guess ((Volume.script trial body bodyNum).setup ⟨1, 0⟩) 0
      ((Volume.script trial body bodyNum).par ⟨1, 0⟩ (Volume.init body.cells.length 0)) (bcs_wf body body_wf _) (by
        have := hsol.self_of_nhds
        rw [stretch_zero] at this
        exact this) (by
        show FinitePlasticity.norm2 0 = 0
        simp [FinitePlasticity.norm2]) le_rfl
    rw [body_steps, stretch_zero]
    simp only [Script.run, h0]
    rfl
  have hsm : SmoothAlong (Volume.script trial body bodyNum) (Volume.init body.cells.length 0) (steps 1 0 1) [stretch (lateral 0) 0] := by
    rw [body_steps, stretch_zero]
    refine .last _ _ _ ((C112_smooth trial body body_wf bodyNum ⟨1, 0⟩ (initVars _) 0 (jacOf_spec _ _ body_diff_u) body_diff.1).2 _) ?_ ?_
    · show DifferentiableAt ℝ (fun b : ℝ × Vars body.cells.length 1 => (b.1 * 1, b.2)) _
      fun_prop
    · show DifferentiableAt ℝ (fun x : (Fin (totalDofs body.fes) → ℝ) × (ℝ × Vars body.cells.length 1) =>
        (crtVolume body (solOf body x.1) - 1.01) ^ 2) _
      exact ((DifferentiableAt.comp (g := fun u => crtVolume body (solOf body u)) (f := Prod.fst)
        ((0 : Fin (totalDofs body.fes) → ℝ), Volume.init body.cells.length 0) body_diff.2 differentiableAt_fst).sub_const _).pow 2
  have hobj : DifferentiableAt ℝ (fun u : Fin (totalDofs body.fes) → ℝ => targetValue body (solOf body u)) 0 :=
    (body_diff.2.sub_const _).pow 2
  have hgrad : ∃ g, (Volume.script trial body bodyNum).grad (Volume.init body.cells.length) 1 (steps 1 0 1) 0 = some (.ok g) := by
    set b := Volume.init (nq := 1) body.cells.length 0 with hb
    have hv : ∀ (n : Nat) (hn : n < 4) (c : Fin 3),
        ((fderiv ℝ (fun x : (Fin (totalDofs body.fes) → ℝ) × (ℝ × Vars body.cells.length 1) => targetValue body (solOf body x.1)) (0, b)).comp
          (ContinuousLinearMap.inl ℝ _ _)) (Pi.single (⟨n * 3 + c, dof_lt body hn c⟩ : Fin (totalDofs body.fes)) 1)
          = (2 * (1 / 6 - 1.01) / 6) * tetG ⟨n, hn⟩ c := by
      intro n hn c
      set k : Fin (totalDofs body.fes) := ⟨n * 3 + c, dof_lt body hn c⟩ with hk
      have e : fderiv ℝ (fun x : (Fin (totalDofs body.fes) → ℝ) × (ℝ × Vars body.cells.length 1) => targetValue body (solOf body x.1)) (0, b)
          = (fderiv ℝ (fun u : Fin (totalDofs body.fes) → ℝ => targetValue body (solOf body u)) 0).comp (ContinuousLinearMap.fst ℝ _ _) :=
        (HasFDerivAt.comp (g := fun u : Fin (totalDofs body.fes) → ℝ => targetValue body (solOf body u)) (f := Prod.fst)
          ((0 : Fin (totalDofs body.fes) → ℝ), b) hobj.hasFDerivAt hasFDerivAt_fst).fderiv
      rw [e]
      have hU : HasDerivAt (fun t : ℝ => t • (Pi.single k 1 : Fin (totalDofs body.fes) → ℝ)) (Pi.single k 1) 0 := by
        simpa using (hasDerivAt_id (0 : ℝ)).smul_const (Pi.single k 1 : Fin (totalDofs body.fes) → ℝ)
      have h1 := HasFDerivAt.comp_hasDerivAt_of_eq (l := fun u : Fin (totalDofs body.fes) → ℝ => targetValue body (solOf body u)) 0
        hobj.hasFDerivAt hU (by simp)
      have h2 : HasDerivAt (fun t : ℝ => ((1 + t * tetG ⟨n, hn⟩ c) * (1 / 6) - 1.01) ^ 2) ((2 * (1 / 6 - 1.01) / 6) * tetG ⟨n, hn⟩ c) 0 := by
        have := (((((hasDerivAt_id (0 : ℝ)).mul_const (tetG ⟨n, hn⟩ c)).const_add 1).mul_const (1 / 6)).sub_const 1.01).pow 2
        refine this.congr_deriv ?_
        simp
        ring
      have h3 : (fun u : Fin (totalDofs body.fes) → ℝ => targetValue body (solOf body u))
          ∘ (fun t : ℝ => t • (Pi.single k 1 : Fin (totalDofs body.fes) → ℝ)) = fun t => ((1 + t * tetG ⟨n, hn⟩ c) * (1 / 6) - 1.01) ^ 2 := by
        funext t
        exact body_target_line n hn c t
      rw [h3] at h1
      exact h1.unique h2
    obtain ⟨l, hl⟩ := body_adjoint (0 * 1) _ (fun k => ((fderiv ℝ (fun x : (Fin (totalDofs body.fes) → ℝ) × (ℝ × Vars body.cells.length 1) =>
      targetValue body (solOf body x.1)) (0, b)).comp (ContinuousLinearMap.inl ℝ _ _)) (Pi.single k 1)) hv
    have hsolve : ∃ y, anySolve (totalDofs body.fes)
        (elimRows body.fes (bcsOf body.points (0 * 1)) (jacOf (residualVec trial 0 body (initVars _)) 0)).transpose
        (fun k => ((fderiv ℝ (fun x : (Fin (totalDofs body.fes) → ℝ) × (ℝ × Vars body.cells.length 1) =>
          targetValue body (solOf body x.1)) (0, b)).comp (ContinuousLinearMap.inl ℝ _ _)) (Pi.single k 1)) = .ok y := by
      unfold anySolve
      rw [dif_pos ⟨l, hl⟩]
      exact ⟨_, rfl⟩
    obtain ⟨y, hy⟩ := hsolve
    unfold Script.grad
    rw [hrun, body_steps, stretch_zero]
    simp only [Option.map_some, Except.bind, List.getLast?_singleton]
    have hvjp : implicitVjp body.fes ((Volume.script trial body bodyNum).setup ⟨1, 0⟩).bcs ((Volume.script trial body bodyNum).setup ⟨1, 0⟩).res
        ((Volume.script trial body bodyNum).setup ⟨1, 0⟩).tan none ((Volume.script trial body bodyNum).setup ⟨1, 0⟩).adjointSolve 0
        ((Volume.script trial body bodyNum).par ⟨1, 0⟩ b) (fun k => ((fderiv ℝ (fun x : (Fin (totalDofs body.fes) → ℝ) × (ℝ × Vars body.cells.length 1) =>
          targetValue body (solOf body x.1)) (0, b)).comp (ContinuousLinearMap.inl ℝ _ _)) (Pi.single k 1))
        = .ok (-jaxVjp (fun p => constraintFn body.fes ((Volume.script trial body bodyNum).setup ⟨1, 0⟩).bcs
          ((Volume.script trial body bodyNum).setup ⟨1, 0⟩).res 0 p) ((Volume.script trial body bodyNum).par ⟨1, 0⟩ b) y) := by
      show (anySolve (totalDofs body.fes)
        (elimRows body.fes (bcsOf body.points (0 * 1)) (jacOf (residualVec trial 0 body (initVars _)) 0)).transpose _ >>= fun _ => _) = _
      rw [hy]
      rfl
    cases hsw : (Volume.script trial body bodyNum).sweep ((Volume.script trial body bodyNum).setup ⟨1, 0⟩) [⟨1, 0⟩] [0] b with
    | ok bar => exact ⟨_, rfl⟩
    | error e =>
      have h' : (implicitVjp body.fes ((Volume.script trial body bodyNum).setup ⟨1, 0⟩).bcs ((Volume.script trial body bodyNum).setup ⟨1, 0⟩).res
        ((Volume.script trial body bodyNum).setup ⟨1, 0⟩).tan none ((Volume.script trial body bodyNum).setup ⟨1, 0⟩).adjointSolve 0
        ((Volume.script trial body bodyNum).par ⟨1, 0⟩ b) (fun k => ((fderiv ℝ (fun x : (Fin (totalDofs body.fes) → ℝ) × (ℝ × Vars body.cells.length 1) =>
          targetValue body (solOf body x.1)) (0, b)).comp (ContinuousLinearMap.inl ℝ _ _)) (Pi.single k 1)) >>= fun _ => _) = .error e := hsw
      rw [hvjp] at h'
      cases h'
  obtain ⟨g, hg⟩ := hgrad
  have hlat : DifferentiableAt ℝ lateral 0 := by
    unfold lateral
    refine (DifferentiableAt.sqrt (by fun_prop) ?_).sub_const 1
    norm_num
  have hder := C112_volume_gradient trial body body_wf bodyNum anySolve_exact 1 0 1 1 0 (fun s => [stretch (lateral s) s])
    (fun s => targetValue body (solOf body (stretch (lateral s) s))) (by
      intro i
      cases i with
      | zero =>
        show DifferentiableAt ℝ (fun s => stretch (lateral s) s) 0
        refine differentiableAt_pi.2 fun k => ?_
        obtain ⟨n, hn, c, rfl⟩ := dof_cases body k
        have hn' : n < 4 := hn
        simp only [← vecField_at body _ hn]
        interval_cases n
        · simp only [(stretch_field _ _).1]; fun_prop
        · simp only [(stretch_field _ _).2.1]; fin_cases c <;> simp <;> fun_prop
        · simp only [(stretch_field _ _).2.2.1]; fin_cases c <;> simp <;> fun_prop
        · simp only [(stretch_field _ _).2.2.2]; fin_cases c <;> simp
      | succ i =>
        show DifferentiableAt ℝ (fun _ => (0 : Fin (totalDofs body.fes) → ℝ)) 0
        fun_prop) hrun (by
      filter_upwards [hsol] with s hs
      rw [body_steps]
      exact .last _ _ _ hs) hsm g hg
  refine ⟨g, hg, hder, ?_⟩
  have hex : HasDerivAt (fun s : ℝ => ((1 - 121400 / 289800 * ((1 + s) ^ 2 - 1)) * (1 + s) * (1 / 6) - 1.01) ^ 2)
      (2 * (1 / 6 - 1.01) * ((1 - 2 * (121400 / 289800)) / 6)) 0 := by
    have h1 := (hasDerivAt_id (0 : ℝ)).const_add 1
    have := ((((((((h1.pow 2).sub_const 1).const_mul (121400 / 289800)).const_sub 1).mul h1).mul_const (1 / 6)).sub_const 1.01).pow 2)
    refine this.congr_deriv ?_
    simp
    norm_num
  have := hder.unique (hex.congr_of_eventuallyEq (by
    filter_upwards [small_strain] with s hs
    exact stretch_target s hs.1))
  rw [this]
  norm_num

end JaxFem.Sensitivity
