import Verif.Thm.C98_Stress
import Mathlib.Analysis.Calculus.LocalExtr.Basic

/-!
# C98: homogenisation — macroscopic law
-/

namespace JaxFem.Rve

open Fracture (conL con_single con_add con_add' con_smul con_smul' con_sub quad quad_add quad_smul quad_congr)
open Hyper (grad grad_of_deriv gradient_mul sumsq_left piola_left)
open Matrix Topology

variable {nq nfq nn : Nat} (P : Problem1 (ℝ × ℝ) nq nfq nn 3 3) (pairs : List (Nat × Nat)) (pins : List Nat)

/-! ### Helper lemmas -/

/-- The value at a node as a linear map. -/
noncomputable def evalL {N : Nat} (a : Nat) (c : Fin 3) : (Fin N → Fin 3 → ℝ) →L[ℝ] ℝ :=
  if h : a < N then (ContinuousLinearMap.proj (R := ℝ) (φ := fun _ : Fin 3 => ℝ) c).comp
    (ContinuousLinearMap.proj (R := ℝ) (φ := fun _ : Fin N => Fin 3 → ℝ) ⟨a, h⟩) else 0

theorem evalL_apply {N : Nat} (a : Nat) (c : Fin 3) (u : Fin N → Fin 3 → ℝ) : evalL a c u = extend u a c := by
  rw [evalL, extend]
  split_ifs <;> rfl

/-- Work of nodal forces on nodal values. -/
theorem range_sum {N : Nat} (u : Fin N → Fin 3 → ℝ) (f : Nat → Fin 3 → ℝ) :
    ∑ n : Fin N, ∑ c : Fin 3, u n c * f n c = ∑ n ∈ Finset.range N, ∑ c : Fin 3, extend u n c * f n c := by
  rw [Finset.sum_range]
  refine Finset.sum_congr rfl fun n _ => Finset.sum_congr rfl fun c _ => ?_
  rw [extend, dif_pos n.2]

/-- A constraint that holds along a family holds for its derivative. -/
theorem deriv_constraint {E F : Type*} [NormedAddCommGroup E] [NormedSpace ℝ E] [NormedAddCommGroup F] [NormedSpace ℝ F]
    {v : E → F} {v' : E →L[ℝ] F} {x : E} (hv : HasFDerivAt v v' x) (l : F →L[ℝ] ℝ) (h : ∀ᶠ y in 𝓝 x, l (v y) = 0) (d : E) :
    l (v' d) = 0 := by
  have h1 : HasFDerivAt (fun y => l (v y)) (l.comp v') x := l.hasFDerivAt.comp x hv
  have h2 : HasFDerivAt (fun y => l (v y)) (0 : E →L[ℝ] ℝ) x :=
    (hasFDerivAt_const (0 : ℝ) x).congr_of_eventuallyEq h
  have := h1.unique h2
  exact congrArg (fun f : E →L[ℝ] ℝ => f d) this

theorem det_continuous : Continuous fun F : Tensor => (of F).det :=
  (Hyper.detsmooth (m := 0)).continuous

/-- Admissibility is an open condition. -/
theorem admissible_open (u : Fin P.numTotalNodes → Fin 3 → ℝ) (H : Tensor) (hadm : Admissible P H (extend u)) :
    ∀ᶠ z : (Fin P.numTotalNodes → Fin 3 → ℝ) × Tensor in 𝓝 (u, H), Admissible P z.2 (extend z.1) := by
  have key : ∀ c ∈ P.cells, ∀ q, ∀ᶠ z : (Fin P.numTotalNodes → Fin 3 → ℝ) × Tensor in 𝓝 (u, H),
      0 < (of (dfm P z.2 (extend z.1) c q)).det := by
    intro c hc q
    have hcont : Continuous fun z : (Fin P.numTotalNodes → Fin 3 → ℝ) × Tensor => (of (dfm P z.2 (extend z.1) c q)).det := by
      refine det_continuous.comp ?_
      simp only [dfm_eq]
      exact continuous_const.add (((gradU P c q).continuous.comp continuous_fst).add continuous_snd)
    exact hcont.continuousAt.eventually (lt_mem_nhds (a := 0) (hadm c hc q))
  have : ∀ l : List (CellSpec (ℝ × ℝ) nq), (∀ c ∈ l, c ∈ P.cells) →
      ∀ᶠ z : (Fin P.numTotalNodes → Fin 3 → ℝ) × Tensor in 𝓝 (u, H), ∀ c ∈ l, ∀ q,
        0 < (of (dfm P z.2 (extend z.1) c q)).det := by
    intro l
    induction l with
    | nil => exact fun _ => Filter.Eventually.of_forall fun z c hc => absurd hc (by simp)
    | cons a t ih =>
      intro hl
      filter_upwards [ih fun c hc => hl c (by simp [hc]), Filter.eventually_all.2 (key a (hl a (by simp)))] with z h1 h2 c hc
      rcases List.mem_cons.1 hc with rfl | hc
      · exact h2
      · exact h1 c hc
  exact this P.cells fun c hc => hc

theorem fluctuation_add {w w' : Nat → Fin 3 → ℝ} (t : ℝ) (h : Fluctuation pairs pins w) (h' : Fluctuation pairs pins w') :
    Fluctuation pairs pins fun n => w n + t • w' n := by
  refine ⟨fun p hp => ?_, fun n hn => ?_⟩
  · show w p.1 + t • w' p.1 = w p.2 + t • w' p.2
    rw [h.1 p hp, h'.1 p hp]
  · show w n + t • w' n = 0
    rw [h.2 n hn, h'.2 n hn, smul_zero, add_zero]

theorem extend_add {N : Nat} (u v : Fin N → Fin 3 → ℝ) (t : ℝ) :
    extend (u + t • v) = fun n => extend u n + t • extend v n := by
  funext n
  simp only [extend]
  split_ifs <;> simp

/-- Restriction of a fluctuation to the nodes of the mesh. -/
theorem fluctuation_cut {N : Nat} (hp : ∀ p ∈ pairs, p.1 < N ∧ p.2 < N) {w : Nat → Fin 3 → ℝ} (h : Fluctuation pairs pins w) :
    Fluctuation pairs pins (extend fun n : Fin N => w n) := by
  refine ⟨fun p hpp => ?_, fun n hn => ?_⟩
  · rw [extend, extend, dif_pos (hp p hpp).1, dif_pos (hp p hpp).2]
    exact h.1 p hpp
  · rw [extend]
    split_ifs
    · exact h.2 n hn
    · rfl

theorem fluctuation_mul (Q : Matrix (Fin 3) (Fin 3) ℝ) {w : Nat → Fin 3 → ℝ} (h : Fluctuation pairs pins w) :
    Fluctuation pairs pins fun n i => ∑ k, Q i k * w n k := by
  refine ⟨fun p hp => ?_, fun n hn => ?_⟩
  · funext i
    simp only [h.1 p hp]
  · funext i
    simp only [h.2 n hn, Pi.zero_apply, mul_zero, Finset.sum_const_zero]

theorem extend_mul {N : Nat} (Q : Matrix (Fin 3) (Fin 3) ℝ) (v : Fin N → Fin 3 → ℝ) :
    extend (fun n i => ∑ k, Q i k * v n k) = fun n i => ∑ k, Q i k * extend v n k := by
  funext n i
  simp only [extend]
  split_ifs <;> simp

theorem deformation_mul (Q H : Matrix (Fin 3) (Fin 3) ℝ) (w : Nat → Fin 3 → ℝ) (cell : List Nat) (q : Fin nq) :
    deformation P (Q * (1 + H) - 1) (fun n i => ∑ k, Q i k * w n k) cell q = Q * deformation P H w cell q := by
  rw [deformation, deformation, gradient_mul, Matrix.mul_add Q (1 + H)]
  abel

theorem admissible_mul {Q : Matrix (Fin 3) (Fin 3) ℝ} (hQ : IsRotation Q) (H : Matrix (Fin 3) (Fin 3) ℝ) (w : Nat → Fin 3 → ℝ) :
    Admissible P (Q * (1 + H) - 1) (fun n i => ∑ k, Q i k * w n k) ↔ Admissible P H w := by
  simp only [Admissible, deformation_mul, det_mul, hQ.2, one_mul]

theorem piola_mul {Q : Matrix (Fin 3) (Fin 3) ℝ} (hQ : IsRotation Q) (H : Matrix (Fin 3) (Fin 3) ℝ) (w : Nat → Fin 3 → ℝ)
    (c : CellSpec (ℝ × ℝ) nq) (q : Fin nq) :
    piola P (Q * (1 + H) - 1) (fun n i => ∑ k, Q i k * w n k) c q = Q * piola P H w c q := by
  rw [piola, deformation_mul, piola_left hQ]
  rfl

theorem psi_mul {Q : Matrix (Fin 3) (Fin 3) ℝ} (hQ : IsRotation Q) (iv : ℝ × ℝ) (F : Matrix (Fin 3) (Fin 3) ℝ) :
    psi iv (fun i j => (Q * F) i j) = psi iv fun i j => F i j := by
  rw [psi, Hyper.psi_eq, Hyper.psi_eq]
  have h1 : (of fun i j => (Q * F) i j) = Q * F := rfl
  have h2 : (of fun i j => F i j) = F := rfl
  rw [h1, h2, det_mul, hQ.2, one_mul, sumsq_left hQ]

theorem energy_mul {Q : Matrix (Fin 3) (Fin 3) ℝ} (hQ : IsRotation Q) (H : Matrix (Fin 3) (Fin 3) ℝ)
    (v : Fin P.numTotalNodes → Fin 3 → ℝ) :
    computeEnergy (.rve (Q * (1 + H) - 1 : Matrix (Fin 3) (Fin 3) ℝ)) P (solOf fun n i => ∑ k, Q i k * v n k) = computeEnergy (.rve H) P (solOf v) := by
  refine (energy_rve P _ _).trans (Eq.trans ?_ (energy_rve P _ _).symm)
  rw [fieldOf_solOf, fieldOf_solOf, extend_mul]
  refine quad_congr P fun c _ q => ?_
  have : dfm P (Q * (1 + H) - 1 : Matrix (Fin 3) (Fin 3) ℝ) (fun n i => ∑ k, Q i k * extend v n k) c q
      = fun i j => (Q * deformation P H (extend v) c.nodes q) i j := by
    funext i j
    rw [← deformation_mul]
    rfl
  rw [this, psi_mul hQ]
  rfl

theorem total_mul {Q : Matrix (Fin 3) (Fin 3) ℝ} (hQ : IsRotation Q) (H : Matrix (Fin 3) (Fin 3) ℝ) (w : Nat → Fin 3 → ℝ) :
    totalStress P (Q * (1 + H) - 1) (fun n i => ∑ k, Q i k * w n k) = Q * totalStress P H w := by
  ext i j
  rw [mul_apply]
  show quad P (fun c q => piola P (Q * (1 + H) - 1) (fun n i => ∑ k, Q i k * w n k) c q i j)
    = ∑ k, Q i k * quad P fun c q => piola P H w c q k j
  have e : ∀ c q, piola P (Q * (1 + H) - 1) (fun n i => ∑ k, Q i k * w n k) c q i j
      = Q i 0 * piola P H w c q 0 j + Q i 1 * piola P H w c q 1 j + Q i 2 * piola P H w c q 2 j := by
    intro c q
    rw [piola_mul P hQ, mul_apply, Fin.sum_univ_three]
  simp only [e]
  rw [quad_add, quad_add, quad_smul, quad_smul, quad_smul, Fin.sum_univ_three]

theorem rotation_transpose {Q : Matrix (Fin 3) (Fin 3) ℝ} (hQ : IsRotation Q) : IsRotation Q.transpose :=
  ⟨by rw [transpose_transpose]; exact mul_eq_one_comm.1 hQ.1, by rw [det_transpose, hQ.2]⟩

theorem back (Q H : Matrix (Fin 3) (Fin 3) ℝ) (hQ : IsRotation Q) : Q.transpose * (1 + (Q * (1 + H) - 1)) - 1 = H := by
  rw [add_sub_cancel, ← Matrix.mul_assoc, hQ.1, Matrix.one_mul, add_sub_cancel_left]

theorem back_field {N : Nat} {Q : Matrix (Fin 3) (Fin 3) ℝ} (hQ : IsRotation Q) (v : Fin N → Fin 3 → ℝ) :
    (fun n i => ∑ k, Q i k * ∑ l, Q.transpose k l * v n l) = v := by
  funext n i
  have h1 : (Q * Q.transpose).mulVec (v n) i = v n i := by
    rw [mul_eq_one_comm.1 hQ.1, one_mulVec]
  rw [← h1, ← mulVec_mulVec]
  rfl

theorem minimum_mul {Q : Matrix (Fin 3) (Fin 3) ℝ} (hQ : IsRotation Q) (H : Matrix (Fin 3) (Fin 3) ℝ)
    (v : Fin P.numTotalNodes → Fin 3 → ℝ) (e : ℝ) (h : IsMinimum P pairs pins H v e) :
    IsMinimum P pairs pins (Q * (1 + H) - 1) (fun n i => ∑ k, Q i k * v n k) e := by
  obtain ⟨h1, h2, h3, h4⟩ := h
  refine ⟨?_, ?_, ?_, fun w w1 w2 => ?_⟩
  · rw [extend_mul]
    exact fluctuation_mul pairs pins Q h1
  · rw [extend_mul, admissible_mul P hQ]
    exact h2
  · rw [energy_mul P hQ, h3]
  · have hT := rotation_transpose hQ
    have e1 := energy_mul P hT (Q * (1 + H) - 1) w
    rw [back Q H hQ] at e1
    rw [← e1]
    refine h4 _ ?_ ?_
    · rw [extend_mul]
      exact fluctuation_mul pairs pins _ w1
    · have := (admissible_mul P hT (Q * (1 + H) - 1) (extend w)).2 w2
      rw [back Q H hQ] at this
      rw [extend_mul]
      exact this

/-! ### Property theorems -/

/-- **C98 (macroscopic stress).** Along any differentiable family of fluctuations through an equilibrium the energy density
`compute_energy / L³` has the gradient `∫ P / L³` with respect to `H_bar`: no derivative of the fluctuations enters. -/
theorem C98_gradient (h : P.WF) (L : ℝ) (H : Tensor) (v : Tensor → Fin P.numTotalNodes → Fin 3 → ℝ)
    (hv : DifferentiableAt ℝ v H) (hf : ∀ᶠ G in 𝓝 H, Fluctuation pairs pins (extend (v G)))
    (hadm : Admissible P H (extend (v H))) (heq : IsEquilibrium P pairs pins H (v H)) :
    HasFDerivAt (fun G => computeEnergy (.rve G) P (solOf (v G)) / L ^ 3)
      (conL fun i j => totalStress P H (extend (v H)) i j / L ^ 3) H := by
  obtain ⟨R, r1, A, hA, a1⟩ := C98_energy P h H (v H) hadm
  obtain ⟨-, R', r1', r2⟩ := heq
  obtain rfl : R = R' := by rw [r1] at r1'; exact Except.ok.inj r1'
  set v' := fderiv ℝ v H
  have hv' : HasFDerivAt v v' H := hv.hasFDerivAt
  have hz : HasFDerivAt (fun G => (v G, G)) (v'.prod (ContinuousLinearMap.id ℝ Tensor)) H := hv'.prodMk (hasFDerivAt_id H)
  have hc : HasFDerivAt (fun G => computeEnergy (.rve G) P (solOf (v G))) _ H :=
    HasFDerivAt.comp (g := fun z : (Fin P.numTotalNodes → Fin 3 → ℝ) × Tensor => computeEnergy (.rve z.2) P (solOf z.1))
      (f := fun G => (v G, G)) H hA hz
  have hd : HasFDerivAt (fun G => computeEnergy (.rve G) P (solOf (v G)) / L ^ 3) _ H := hc.mul_const (L ^ 3)⁻¹
  refine hd.congr_fderiv ?_
  ext1 dH
  have hw : Fluctuation pairs pins (extend (v' dH)) := by
    refine ⟨fun p hp => funext fun c => ?_, fun n hn => funext fun c => ?_⟩
    · have := deriv_constraint hv' (evalL p.1 c - evalL p.2 c) (by
        filter_upwards [hf] with G hG
        rw [_root_.sub_apply, evalL_apply, evalL_apply, hG.1 p hp, sub_self]) dH
      rw [_root_.sub_apply, evalL_apply, evalL_apply, sub_eq_zero] at this
      exact this
    · have := deriv_constraint hv' (evalL n c) (by
        filter_upwards [hf] with G hG
        rw [evalL_apply, hG.2 n hn, Pi.zero_apply]) dH
      rw [evalL_apply] at this
      exact this
  have h1 : A (v' dH, dH) = contract (totalStress P H (extend (v H))) dH := by
    have h0 := (range_sum (v' dH) fun n c => at3 R 0 n c).trans (r2 _ hw)
    refine (a1 _ _).trans ?_
    rw [h0, zero_add]
  show (L ^ 3)⁻¹ • A (v' dH, dH) = contract (fun i j => totalStress P H (extend (v H)) i j / L ^ 3) dH
  rw [h1]
  generalize totalStress P H (extend (v H)) = T
  simp only [contract, smul_eq_mul, Fin.sum_univ_three]
  ring

/-- **C98 (minimum).** A fluctuation of least energy is an equilibrium; wherever the least energy is differentiable in
`H_bar` its gradient is the integral of the stress, for every fluctuation that reaches it. -/
theorem C98_minimum (h : P.WF) (hp : ∀ p ∈ pairs, p.1 < P.numTotalNodes ∧ p.2 < P.numTotalNodes) (H : Tensor)
    (v : Fin P.numTotalNodes → Fin 3 → ℝ) (e : Tensor → ℝ) (hm : IsMinimum P pairs pins H v (e H)) :
    IsEquilibrium P pairs pins H v ∧
    ((∀ᶠ G in 𝓝 H, ∃ v, IsMinimum P pairs pins G v (e G)) → DifferentiableAt ℝ e H →
      HasFDerivAt e (conL fun i j => totalStress P H (extend v) i j) H) := by
  obtain ⟨m1, m2, m3, m4⟩ := hm
  obtain ⟨R, r1, A, hA, a1⟩ := C98_energy P h H v m2
  have hopen := admissible_open P v H m2
  refine ⟨⟨m1, R, r1, fun w hw => ?_⟩, fun hG hd => ?_⟩
  · set w' : Fin P.numTotalNodes → Fin 3 → ℝ := fun n => w n with hw'
    have hline : HasDerivAt (fun t : ℝ => (v + t • w', H)) (w', (0 : Tensor)) 0 := by
      have h1 : HasDerivAt (fun t : ℝ => v + t • w') w' 0 := by
        have := ((hasDerivAt_id (0 : ℝ)).smul_const w').const_add v
        rwa [one_smul] at this
      exact h1.prodMk (hasDerivAt_const 0 H)
    have e0 : (v + (0 : ℝ) • w', H) = (v, H) := by rw [zero_smul, add_zero]
    have hA' : HasFDerivAt (fun z : (Fin P.numTotalNodes → Fin 3 → ℝ) × Tensor => computeEnergy (.rve z.2) P (solOf z.1)) A
        (v + (0 : ℝ) • w', H) := by rw [e0]; exact hA
    have hder : HasDerivAt (fun t : ℝ => computeEnergy (.rve H) P (solOf (v + t • w'))) (A (w', 0)) 0 :=
      HasFDerivAt.comp_hasDerivAt (f := fun t : ℝ => (v + t • w', H)) 0 hA' hline
    have hcont : ContinuousAt (fun t : ℝ => (v + t • w', H)) 0 := hline.continuousAt
    have hmin : IsLocalMin (fun t : ℝ => computeEnergy (.rve H) P (solOf (v + t • w'))) 0 := by
      have : ∀ᶠ t : ℝ in 𝓝 0, Admissible P H (extend (v + t • w')) := by
        have := hcont.tendsto
        rw [e0] at this
        exact this.eventually hopen
      filter_upwards [this] with t ht
      rw [zero_smul, add_zero, m3]
      refine m4 _ ?_ ht
      rw [extend_add]
      exact fluctuation_add pairs pins t m1 (fluctuation_cut pairs pins hp hw)
    have h0 := hmin.hasDerivAt_eq_zero hder
    rw [a1] at h0
    have hz : contract (totalStress P H (extend v)) (0 : Tensor) = 0 := by simp [contract]
    rw [hz, add_zero] at h0
    rw [Finset.sum_range]
    exact h0
  · have hcont : ContinuousAt (fun G : Tensor => (v, G)) H := (Continuous.prodMk_right v).continuousAt
    have hadm : ∀ᶠ G in 𝓝 H, Admissible P G (extend v) := hcont.tendsto.eventually hopen
    have hz : HasFDerivAt (fun G : Tensor => (v, G)) (ContinuousLinearMap.inr ℝ (Fin P.numTotalNodes → Fin 3 → ℝ) Tensor) H := by
      have := (hasFDerivAt_const v H).prodMk (hasFDerivAt_id (𝕜 := ℝ) H)
      exact this
    have h1 : HasFDerivAt (fun G => computeEnergy (.rve G) P (solOf v))
        (conL fun i j => totalStress P H (extend v) i j) H := by
      have h2 : HasFDerivAt (fun G => computeEnergy (.rve G) P (solOf v)) _ H := hA.comp H hz
      refine h2.congr_fderiv ?_
      ext1 dH
      show A (0, dH) = contract _ dH
      rw [a1]
      simp
    have hmin : IsLocalMin (fun G => computeEnergy (.rve G) P (solOf v) - e G) H := by
      filter_upwards [hadm, hG] with G g1 g2
      obtain ⟨vG, -, -, -, g4⟩ := g2
      rw [m3, sub_self]
      exact sub_nonneg.2 (g4 v m1 g1)
    have := hmin.hasFDerivAt_eq_zero (h1.sub hd.hasFDerivAt)
    rw [sub_eq_zero.1 this]
    exact hd.hasFDerivAt

/-- **C98 (objectivity).** Superposing a rotation `Q` on the macroscopic deformation, `I + H' = Q (I + H)`, turns the
fluctuations by `Q`: energies stay the same, equilibria stay equilibria, minima stay minima, and the stress is turned. -/
theorem C98_objective (h : P.WF) (Q : Matrix (Fin 3) (Fin 3) ℝ) (hQ : IsRotation Q) (H H' : Matrix (Fin 3) (Fin 3) ℝ)
    (hH : 1 + H' = Q * (1 + H)) (v : Fin P.numTotalNodes → Fin 3 → ℝ) :
    let v' : Fin P.numTotalNodes → Fin 3 → ℝ := fun n => Q.mulVec (v n)
    computeEnergy (.rve H') P (solOf v') = computeEnergy (.rve H) P (solOf v) ∧
    totalStress P H' (extend v') = Q * totalStress P H (extend v) ∧
    (Admissible P H' (extend v') ↔ Admissible P H (extend v)) ∧
    (Admissible P H (extend v) → IsEquilibrium P pairs pins H v → IsEquilibrium P pairs pins H' v') ∧
    ∀ e, IsMinimum P pairs pins H' v' e ↔ IsMinimum P pairs pins H v e := by
  intro v'
  obtain rfl : H' = Q * (1 + H) - 1 := by rw [← hH, add_sub_cancel_left]
  have hv' : v' = fun n i => ∑ k, Q i k * v n k := rfl
  rw [hv']
  refine ⟨energy_mul P hQ H v, ?_, ?_, ?_, fun e => ⟨fun hm => ?_, minimum_mul P pairs pins hQ H v e⟩⟩
  · rw [extend_mul]
    exact total_mul P hQ H (extend v)
  · rw [extend_mul]
    exact admissible_mul P hQ H (extend v)
  · rintro hadm ⟨h1, R, r1, r2⟩
    have hadm' : Admissible P (Q * (1 + H) - 1) (extend fun n i => ∑ k, Q i k * v n k) := by
      rw [extend_mul, admissible_mul P hQ]
      exact hadm
    obtain ⟨R0, s1, -, s2⟩ := work_rve P h H (solOf v) (solOf_shapes v) (by rw [fieldOf_solOf]; exact hadm)
    obtain rfl : R0 = R := by
      have : (problem (.rve H) P).residual [solOf v] = .ok R := r1
      rw [s1] at this
      exact Except.ok.inj this
    obtain ⟨R', t1, -, t2⟩ := work_rve P h (Q * (1 + H) - 1 : Matrix (Fin 3) (Fin 3) ℝ) (solOf fun n i => ∑ k, Q i k * v n k) (solOf_shapes _)
      (by rw [fieldOf_solOf]; exact hadm')
    refine ⟨?_, R', t1, fun w hw => ?_⟩
    · rw [extend_mul]
      exact fluctuation_mul pairs pins Q h1
    · rw [t2 w, fieldOf_solOf, extend_mul]
      have h3 := (s2 fun n i => ∑ k, Q.transpose i k * w n k).symm.trans
        (r2 _ (fluctuation_mul pairs pins Q.transpose hw))
      rw [fieldOf_solOf] at h3
      rw [← h3]
      refine quad_congr P fun c _ q => ?_
      rw [gradient_mul]
      have e1 : (fun i j => piola P (Q * (1 + H) - 1) (fun n i => ∑ k, Q i k * extend v n k) c q i j)
          = fun i j => (Q * piola P H (extend v) c q) i j := by rw [piola_mul P hQ]
      rw [e1]
      generalize piola P H (extend v) c q = S
      generalize P.gradient w c.nodes q = G
      simp only [contract, mul_apply, transpose_apply, Fin.sum_univ_three]
      ring
  · have := minimum_mul P pairs pins (rotation_transpose hQ) _ _ e hm
    rw [back Q H hQ] at this
    have e2 : (fun (n : Fin P.numTotalNodes) i => ∑ k, Q.transpose i k * ∑ l, Q k l * v n l) = v := by
      have := back_field (rotation_transpose hQ) v
      rwa [transpose_transpose] at this
    rwa [e2] at this

/-- **C98 (surrogate).** If a network reproduces the training rows — invariants `C` and least energy divided by `L³` — of all
symmetric samples with positive definite `I + H`, then its energy is the homogenised energy of every deformation with
positive determinant, and where it is differentiable the stress of the mode `nn` is the volume average of the stress. -/
theorem C98_surrogate (h : P.WF) (hp : ∀ p ∈ pairs, p.1 < P.numTotalNodes ∧ p.2 < P.numTotalNodes) (L : ℝ) (hL : L ≠ 0)
    (net : (Fin 6 → ℝ) → ℝ) (E : (Fin 6 → ℝ) → ℝ)
    (hE : ∀ x : Fin 6 → ℝ, (∀ d : Fin 3 → ℝ, d ≠ 0 → 0 < d ⬝ᵥ (Surrogate.flatToTensor x + 1).mulVec d) →
      (∃ v, IsMinimum P pairs pins (Surrogate.flatToTensor x) v (E x)) ∧
      net (trainingRow L (x, E x)).1 = (trainingRow L (x, E x)).2)
    (F : Matrix (Fin 3) (Fin 3) ℝ) (hF : 0 < F.det) :
    (∃ v, IsMinimum P pairs pins (F - 1) v (L ^ 3 * Surrogate.psiNN net fun i j => F i j)) ∧
    ∀ v e, IsMinimum P pairs pins (F - 1) v e →
      DifferentiableAt ℝ net ![(F.transpose * F) 0 0, (F.transpose * F) 1 1, (F.transpose * F) 2 2, (F.transpose * F) 0 1,
        (F.transpose * F) 0 2, (F.transpose * F) 1 2] →
      ∀ i j, stress (.nn net) (0, 0) (fun i j => F i j - (1 : Matrix (Fin 3) (Fin 3) ℝ) i j) i j
        = totalStress P (F - 1) (extend v) i j / L ^ 3 := by
  have hL3 : L ^ 3 ≠ 0 := pow_ne_zero 3 hL
  have key : ∀ F : Matrix (Fin 3) (Fin 3) ℝ, 0 < F.det →
      ∃ v, IsMinimum P pairs pins (F - 1) v (L ^ 3 * Surrogate.psiNN net fun i j => F i j) := by
    intro F hF
    classical
    choose evals evecs he using fun x : Fin 3 → Fin 3 → ℝ => Eigen.exists_eigh x
    obtain ⟨⟨p1, p2, p3, p4⟩, -, hrot, -⟩ := Contact.C94_polar (fun x => (evals x, evecs x)) he F hF.ne'
    have hrot := hrot hF
    set R := Contact.rotation (fun x => (evals x, evecs x)) F
    set U := Contact.stretch (fun x => (evals x, evecs x)) F
    have hsym : (U - 1).transpose = U - 1 := by rw [transpose_sub, p2, transpose_one]
    have hflat : Surrogate.flatToTensor (Surrogate.tensorToFlat (U - 1)) = U - 1 := (Surrogate.C96_flat 0 (U - 1)).2.2.2 hsym
    have hC : F.transpose * F = U.transpose * U := by
      rw [p4, transpose_mul]
      calc U.transpose * R.transpose * (R * U) = U.transpose * (R.transpose * R) * U := by simp only [Matrix.mul_assoc]
        _ = U.transpose * U := by rw [p1, Matrix.mul_one]
    obtain ⟨⟨v, hv⟩, hn⟩ := hE (Surrogate.tensorToFlat (U - 1)) (by rw [hflat, sub_add_cancel]; exact p3)
    rw [hflat] at hv
    have hv := minimum_mul P pairs pins hrot _ _ _ hv
    rw [add_sub_cancel, ← p4] at hv
    refine ⟨fun n i => ∑ k, R i k * v n k, ?_⟩
    · have e1 : Surrogate.psiNN net (fun i j => F i j) = E (Surrogate.tensorToFlat (U - 1)) / L ^ 3 := by
        refine Eq.trans ?_ hn
        show net (Surrogate.tensorToFlat (F.transpose * F)) = net (Surrogate.tensorToFlat
          ((Surrogate.flatToTensor (Surrogate.tensorToFlat (U - 1)) + 1).transpose
            * (Surrogate.flatToTensor (Surrogate.tensorToFlat (U - 1)) + 1)))
        rw [hflat, sub_add_cancel, hC]
      rw [e1, mul_div_cancel₀ _ hL3]
      exact hv
  refine ⟨key F hF, fun v e hm hd i j => ?_⟩
  -- the least energy as a function of `H`
  set W : Tensor → ℝ := fun G => L ^ 3 * Surrogate.psiNN net (fun i j => (1 : Matrix (Fin 3) (Fin 3) ℝ) i j + G i j) with hW
  set H : Tensor := fun i j => (F - 1) i j with hH
  have e1 : (fun i j => (1 : Matrix (Fin 3) (Fin 3) ℝ) i j + H i j) = fun i j => F i j := by
    funext i j
    show (1 : Matrix (Fin 3) (Fin 3) ℝ) i j + (F i j - (1 : Matrix (Fin 3) (Fin 3) ℝ) i j) = _
    ring
  have hWH : W H = e := by
    obtain ⟨v', h1, h2, h3, h4⟩ := key F hF
    have he : L ^ 3 * Surrogate.psiNN net (fun i j => F i j) = e :=
      le_antisymm (by rw [← hm.2.2.1]; exact h4 v hm.1 hm.2.1) (by rw [← h3]; exact hm.2.2.2 v' h1 h2)
    rw [hW]
    simp only [e1]
    exact he
  have hnear : ∀ᶠ G in 𝓝 H, ∃ v, IsMinimum P pairs pins G v (W G) := by
    have hc : Continuous fun G : Tensor => (of fun i j => (1 : Matrix (Fin 3) (Fin 3) ℝ) i j + G i j).det :=
      det_continuous.comp (continuous_const.add continuous_id)
    have h0 : 0 < (of fun i j => (1 : Matrix (Fin 3) (Fin 3) ℝ) i j + H i j).det := by
      rw [e1]
      exact hF
    filter_upwards [hc.continuousAt.eventually (lt_mem_nhds h0)] with G hG
    obtain ⟨v, hv⟩ := key (1 + of G) hG
    refine ⟨v, ?_⟩
    rw [add_sub_cancel_left] at hv
    exact hv
  have hpsi : DifferentiableAt ℝ (Surrogate.psiNN net) (fun i j => F i j) := by
    have hc : DifferentiableAt ℝ (fun F : Tensor => Surrogate.tensorToFlat ((of F).transpose * of F)) (fun i j => F i j) := by
      refine differentiableAt_pi.2 fun k => ?_
      fin_cases k <;> simp only [Surrogate.tensorToFlat] <;> simp [Matrix.mul_apply, Fin.sum_univ_three] <;> fun_prop
    exact DifferentiableAt.comp (fun i j => F i j) (show DifferentiableAt ℝ net _ from hd) hc
  have hshift : HasFDerivAt (fun G : Tensor => ((fun i j => (1 : Matrix (Fin 3) (Fin 3) ℝ) i j) + G : Tensor))
      (ContinuousLinearMap.id ℝ Tensor) H := (hasFDerivAt_id H).const_add _
  have hpsi' : HasFDerivAt (Surrogate.psiNN net) (fderiv ℝ (Surrogate.psiNN net) fun i j => F i j)
      ((fun i j => (1 : Matrix (Fin 3) (Fin 3) ℝ) i j) + H : Tensor) := by
    have : ((fun i j => (1 : Matrix (Fin 3) (Fin 3) ℝ) i j) + H : Tensor) = fun i j => F i j := e1
    rw [this]
    exact hpsi.hasFDerivAt
  have hWd : HasFDerivAt W (L ^ 3 • (fderiv ℝ (Surrogate.psiNN net) fun i j => F i j)) H :=
    (hpsi'.comp H hshift).const_mul (L ^ 3)
  have hmin : IsMinimum P pairs pins H v (W H) := by
    rw [hWH]
    exact hm
  have := (C98_minimum P pairs pins h hp H v W hmin).2 hnear hWd.differentiableAt
  have hu := hWd.unique this
  have h2 := congrArg (fun A : Tensor →L[ℝ] ℝ => A (Pi.single i (Pi.single j 1))) hu
  have h3 : L ^ 3 * grad (Surrogate.psiNN net) (fun i j => F i j) i j = totalStress P (F - 1) (extend v) i j := by
    refine Eq.trans h2 ?_
    exact con_single _ i j
  have h4 : stress (.nn net) (0, 0) (fun i j => F i j - (1 : Matrix (Fin 3) (Fin 3) ℝ) i j)
      = grad (Surrogate.psiNN net) fun i j => F i j := by
    show grad (Surrogate.psiNN net) (fun i j => F i j - (1 : Matrix (Fin 3) (Fin 3) ℝ) i j + if i = j then (1 : ℝ) else 0) = _
    congr 1
    funext i j
    rw [one_apply]
    ring
  rw [h4, ← h3, mul_div_cancel_left₀ _ hL3]

end JaxFem.Rve
