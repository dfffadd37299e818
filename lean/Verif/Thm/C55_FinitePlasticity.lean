import Verif.Model.FinitePlasticity
import Verif.Thm.C54_Plasticity
import Mathlib.LinearAlgebra.Matrix.PosDef
import Mathlib.Data.Real.StarOrdered

/-!
# C55: finite-strain plasticity
-/

namespace JaxFem
namespace FinitePlasticity

open Plasticity (inner IsDev inner_self_nonneg inner_smul_left inner_smul_right)

/-! ### Specification -/

/-- Yield radius for accumulated plastic strain `alpha`. -/
noncomputable def radius (m : Mat) (alpha : ℝ) : ℝ := Real.sqrt (2 / 3) * (m.sig0 + m.H1 * alpha)

/-- The deviator of the Kirchhoff stress is inside the yield surface. -/
def Inside (m : Mat) (tau : M3) (alpha : ℝ) : Prop := ∀ dev, IsDev tau dev → Real.sqrt (inner dev dev) ≤ radius m alpha

/-- The deviator of the Kirchhoff stress is on the yield surface. -/
def OnSurface (m : Mat) (tau : M3) (alpha : ℝ) : Prop := ∀ dev, IsDev tau dev → Real.sqrt (inner dev dev) = radius m alpha

/-- Sensible material constants. -/
structure Mat.Ok (m : Mat) : Prop where
  G : 0 < m.G
  H1 : 0 ≤ m.H1
  sig0 : 0 < m.sig0

/-! ### Helper lemmas -/

theorem deviatoric_eq (A : M3) : deviatoric A = Plasticity.sDev A := by
  ext i j
  simp [deviatoric, Plasticity.sDev]

theorem frob_eq (A : M3) : frob A = Real.sqrt (inner A A) := rfl

theorem trace_dev (A : M3) : (deviatoric A).trace = 0 := by rw [deviatoric_eq, Plasticity.trace_sDev]

theorem dev_of_eq (A D : M3) (c : ℝ) (h0 : D.trace = 0) (h : A = D + c • (1 : M3)) : deviatoric A = D := by
  rw [deviatoric_eq]
  exact (Plasticity.isDev_unique A D ⟨h0, c, h⟩).symm

theorem dev_getTau (m : Mat) (F be : M3) : deviatoric (getTau m F be) = m.G • deviatoric be :=
  dev_of_eq _ _ _ (by rw [Matrix.trace_smul, trace_dev, smul_zero]) (by rw [getTau, add_comm])

theorem frob_smul (k : ℝ) (A : M3) : frob (k • A) = |k| * frob A := by
  rw [frob_eq, frob_eq, inner_smul_left, inner_smul_right, ← mul_assoc, Real.sqrt_mul (mul_self_nonneg k),
    Real.sqrt_mul_self_eq_abs]

theorem frob_nonneg (A : M3) : 0 ≤ frob A := Real.sqrt_nonneg _

theorem inside_iff (m : Mat) (tau : M3) (alpha : ℝ) : Inside m tau alpha ↔ frob (deviatoric tau) ≤ radius m alpha := by
  rw [frob_eq, deviatoric_eq]
  exact ⟨fun h => h _ (Plasticity.isDev_sDev tau), fun h dev hd => Plasticity.isDev_unique tau dev hd ▸ h⟩

theorem onSurface_iff (m : Mat) (tau : M3) (alpha : ℝ) :
    OnSurface m tau alpha ↔ frob (deviatoric tau) = radius m alpha := by
  rw [frob_eq, deviatoric_eq]
  exact ⟨fun h => h _ (Plasticity.isDev_sDev tau), fun h dev hd => Plasticity.isDev_unique tau dev hd ▸ h⟩

/-- Relative deformation gradient. -/
noncomputable def relF (s : FState) (uGrad : M3) : M3 := (uGrad + 1) * s.F⁻¹

theorem det_relF (s : FState) (uGrad : M3) (h1 : 0 < s.F.det) (h2 : 0 < (uGrad + 1).det) : 0 < (relF s uGrad).det := by
  unfold relF
  rw [Matrix.det_mul, Matrix.det_nonsing_inv, Ring.inverse_eq_inv']
  positivity

theorem det_fBar (f : M3) (h : 0 < f.det) : ((f.det ^ (-(1 : ℝ) / 3)) • f).det = 1 := by
  rw [Matrix.det_smul, Fintype.card_fin, ← Real.rpow_natCast, ← Real.rpow_mul h.le]
  have : -(1 : ℝ) / 3 * ((3 : ℕ) : ℝ) = -1 := by norm_num
  rw [this, Real.rpow_neg_one, inv_mul_cancel₀ h.ne']

theorem beTrial_posDef (s : FState) (uGrad : M3) (h1 : 0 < s.F.det) (h2 : 0 < (uGrad + 1).det)
    (hb : s.be.PosDef) : (beTrial s uGrad).PosDef := by
  have hd := det_fBar (relF s uGrad) (det_relF s uGrad h1 h2)
  set fB := ((relF s uGrad).det ^ (-(1 : ℝ) / 3)) • relF s uGrad with hfB
  have he : beTrial s uGrad = fB * s.be * fB.conjTranspose := by
    rw [Matrix.conjTranspose_eq_transpose_of_trivial]; rfl
  rw [he]
  apply hb.mul_mul_conjTranspose_same
  rw [Matrix.vecMul_injective_iff_isUnit, Matrix.isUnit_iff_isUnit_det, hd]
  exact isUnit_one

/-- Result of the plastic branch as a combination of the trial state and the identity. -/
theorem plastic_form (m : Mat) (hm : m.Ok) (s : FState) (uGrad : M3) (ha : 0 ≤ s.alpha)
    (htr : 0 < (beTrial s uGrad).trace) (hy : 0 ≤ yieldTrial m s uGrad) :
    ∃ dg th : ℝ, 0 ≤ dg ∧ (0 < yieldTrial m s uGrad → 0 < dg) ∧ 0 ≤ th ∧ th ≤ 1 ∧
      (0 < yieldTrial m s uGrad → th < 1) ∧
      returnMap m s uGrad = (th • beTrial s uGrad + ((1 - th) * (1 / 3 * (beTrial s uGrad).trace)) • (1 : M3),
        s.alpha + Real.sqrt (2 / 3) * dg,
        getTau m (uGrad + 1) (th • beTrial s uGrad + ((1 - th) * (1 / 3 * (beTrial s uGrad).trace)) • (1 : M3))) ∧
      th * frob (m.G • deviatoric (beTrial s uGrad)) = radius m (s.alpha + Real.sqrt (2 / 3) * dg) := by
  have hG := hm.G
  have hH := hm.H1
  have hs0 := hm.sig0
  set tr := beTrial s uGrad with htrial
  set Ie := 1 / 3 * tr.trace with hIe
  set y := yieldTrial m s uGrad with hyd
  set n := frob (m.G • deviatoric tr) with hn
  have hIe0 : 0 < Ie := by rw [hIe]; linarith
  have hGb : 0 < Ie * m.G := mul_pos hIe0 hG
  have hrad : 0 < radius m s.alpha := by
    unfold radius
    have : 0 < Real.sqrt (2 / 3) := Real.sqrt_pos.2 (by norm_num)
    have h2 : 0 ≤ m.H1 * s.alpha := mul_nonneg hH ha
    exact mul_pos this (by linarith)
  have hyn : y = n - radius m s.alpha := rfl
  have hnpos : 0 < n := by linarith
  set dg := (y / (2 * (Ie * m.G))) / (1 + m.H1 / (3 * (Ie * m.G))) with hdg
  have hden : 0 < 1 + m.H1 / (3 * (Ie * m.G)) := by
    have : 0 ≤ m.H1 / (3 * (Ie * m.G)) := by positivity
    linarith
  have hdg0 : 0 ≤ dg := div_nonneg (div_nonneg hy (by positivity)) hden.le
  have hkey : dg * (2 * (Ie * m.G) + 2 / 3 * m.H1) = y := by
    have hne1 : Ie * m.G ≠ 0 := hGb.ne'
    have h1 : 2 * (Ie * m.G) + 2 / 3 * m.H1 = 2 * (Ie * m.G) * (1 + m.H1 / (3 * (Ie * m.G))) := by
      field_simp
    rw [h1, hdg]
    have : y / (2 * (Ie * m.G)) / (1 + m.H1 / (3 * (Ie * m.G))) *
        (2 * (Ie * m.G) * (1 + m.H1 / (3 * (Ie * m.G)))) =
        (y / (2 * (Ie * m.G)) * (2 * (Ie * m.G))) *
          ((1 + m.H1 / (3 * (Ie * m.G))) / (1 + m.H1 / (3 * (Ie * m.G)))) := by ring
    rw [this, div_self hden.ne', mul_one, div_mul_cancel₀ _ (by positivity)]
  have hle : 2 * (Ie * m.G) * dg ≤ n := by
    have : 0 ≤ dg * (2 / 3 * m.H1) := by positivity
    nlinarith
  refine ⟨dg, 1 - 2 * (Ie * m.G) * dg / n, hdg0, fun h => div_pos (div_pos h (by positivity)) hden, ?_, ?_, ?_, ?_, ?_⟩
  · have : 2 * (Ie * m.G) * dg / n ≤ 1 := (div_le_one hnpos).2 hle
    linarith
  · have : 0 ≤ 2 * (Ie * m.G) * dg / n := by positivity
    linarith
  · intro h
    have hp : 0 < dg := div_pos (div_pos h (by positivity)) hden
    have : 0 < 2 * (Ie * m.G) * dg / n := by positivity
    linarith
  · have hbe : (1 / m.G) • (m.G • deviatoric tr - (2 * (Ie * m.G) * dg) • ((1 / n) • (m.G • deviatoric tr))) +
        Ie • (1 : M3) = (1 - 2 * (Ie * m.G) * dg / n) • tr + ((1 - (1 - 2 * (Ie * m.G) * dg / n)) * Ie) • (1 : M3) := by
      ext i j
      simp only [deviatoric, Matrix.add_apply, Matrix.sub_apply, Matrix.smul_apply, smul_eq_mul, ← hIe]
      field_simp
      ring
    unfold returnMap
    dsimp only
    rw [← hyd, if_neg (not_lt.2 hy), ← htrial, ← hn, ← hIe, ← hdg, hbe]
  · have h23 : Real.sqrt (2 / 3) * Real.sqrt (2 / 3) = 2 / 3 := Real.mul_self_sqrt (by norm_num)
    have h1 : radius m (s.alpha + Real.sqrt (2 / 3) * dg) = radius m s.alpha + 2 / 3 * m.H1 * dg := by
      unfold radius
      linear_combination m.H1 * dg * h23
    rw [h1]
    have h2 : (1 - 2 * (Ie * m.G) * dg / n) * n = n - 2 * (Ie * m.G) * dg := by field_simp
    rw [h2]
    linarith

theorem dev_combination (th c : ℝ) (A : M3) : deviatoric (th • A + c • (1 : M3)) = th • deviatoric A := by
  refine dev_of_eq _ _ (th * (1 / 3 * A.trace) + c) (by rw [Matrix.trace_smul, trace_dev, smul_zero]) ?_
  ext i j
  simp only [deviatoric, Matrix.add_apply, Matrix.sub_apply, Matrix.smul_apply, smul_eq_mul]
  ring

/-! ### Property theorems -/

/-- Invariant of the stored state: positive volume, positive definite elastic strain, non-negative plastic
strain. -/
structure Good (s : FState) : Prop where
  det : 0 < s.F.det
  posDef : s.be.PosDef
  alpha : 0 ≤ s.alpha

/-- **C55 (one step).** From a good state and for every displacement gradient with positive volume: the new
state is good, the plastic strain does not decrease, the stress is inside the yield surface; if the trial
state is inside, the step is elastic; otherwise the stress is exactly on the (hardened) surface. -/
theorem C55_step (m : Mat) (hm : m.Ok) (s : FState) (hs : Good s) (uGrad : M3) (hF : 0 < (uGrad + 1).det) :
    Good (updateVars m s uGrad) ∧ s.alpha ≤ (updateVars m s uGrad).alpha ∧
    Inside m (returnMap m s uGrad).2.2 (updateVars m s uGrad).alpha ∧
    (Inside m (m.G • beTrial s uGrad) s.alpha → ¬OnSurface m (m.G • beTrial s uGrad) s.alpha →
      (updateVars m s uGrad).be = beTrial s uGrad ∧ (updateVars m s uGrad).alpha = s.alpha) ∧
    (¬Inside m (m.G • beTrial s uGrad) s.alpha →
      OnSurface m (returnMap m s uGrad).2.2 (updateVars m s uGrad).alpha ∧ s.alpha < (updateVars m s uGrad).alpha) := by
  have hpd := beTrial_posDef s uGrad hs.det hF hs.posDef
  have htr : 0 < (beTrial s uGrad).trace := hpd.trace_pos
  have hdevG : deviatoric (m.G • beTrial s uGrad) = m.G • deviatoric (beTrial s uGrad) := by
    have := dev_combination m.G 0 (beTrial s uGrad)
    rwa [zero_smul, add_zero] at this
  have hyd : yieldTrial m s uGrad = frob (m.G • deviatoric (beTrial s uGrad)) - radius m s.alpha := rfl
  rw [inside_iff, inside_iff, onSurface_iff, onSurface_iff, hdevG]
  by_cases hy : yieldTrial m s uGrad < 0
  · have hr : returnMap m s uGrad = (beTrial s uGrad, s.alpha, getTau m (uGrad + 1) (beTrial s uGrad)) := by
      unfold returnMap; dsimp only; rw [if_pos hy]
    have hu : updateVars m s uGrad = ⟨uGrad + 1, beTrial s uGrad, s.alpha⟩ := by
      unfold updateVars; rw [hr]
    rw [hu, hr]
    dsimp only
    rw [dev_getTau]
    refine ⟨⟨hF, hpd, hs.alpha⟩, le_refl _, by linarith, fun _ _ => ⟨rfl, rfl⟩, fun h => ?_⟩
    exact absurd (by linarith) h
  · push Not at hy
    obtain ⟨dg, th, h1, h1', h2, h3, -, hr, h5⟩ := plastic_form m hm s uGrad hs.alpha htr hy
    have hsq : 0 < Real.sqrt (2 / 3) := Real.sqrt_pos.2 (by norm_num)
    have hu : updateVars m s uGrad = ⟨uGrad + 1, th • beTrial s uGrad + ((1 - th) * (1 / 3 * (beTrial s uGrad).trace)) •
        (1 : M3), s.alpha + Real.sqrt (2 / 3) * dg⟩ := by
      unfold updateVars; rw [hr]
    rw [hu, hr]
    dsimp only
    have hdev : frob (deviatoric (getTau m (uGrad + 1) (th • beTrial s uGrad +
        ((1 - th) * (1 / 3 * (beTrial s uGrad).trace)) • (1 : M3)))) = radius m (s.alpha + Real.sqrt (2 / 3) * dg) := by
      rw [dev_getTau, dev_combination, smul_comm, frob_smul, abs_of_nonneg h2, h5]
    have hdg : 0 ≤ Real.sqrt (2 / 3) * dg := mul_nonneg hsq.le h1
    refine ⟨⟨hF, ?_, ?_⟩, ?_, hdev.le, ?_, ?_⟩
    · dsimp only
      rcases eq_or_lt_of_le h2 with h0 | h0
      · rw [← h0, zero_smul, zero_add, sub_zero, one_mul]
        exact Matrix.PosDef.one.smul (by linarith : (0 : ℝ) < 1 / 3 * (beTrial s uGrad).trace)
      · exact (hpd.smul h0).add_posSemidef (Matrix.PosSemidef.one.smul (mul_nonneg (by linarith) (by linarith)))
    · dsimp only; linarith [hs.alpha]
    · linarith
    · intro h h'
      exact absurd (le_antisymm h (by linarith)) h'
    · intro h
      refine ⟨hdev, ?_⟩
      have hpos : 0 < dg := h1' (by push Not at h; linarith)
      have := mul_pos hsq hpos
      linarith

/-- **C55 (history).** After any history of deformations with positive volume: the stored stress is inside the
yield surface of the stored plastic strain, the elastic strain stays positive definite, and the plastic
strain is at least that after any shorter part of the history. -/
theorem C55_history (m : Mat) (hm : m.Ok) (grads : List M3) (h : ∀ g ∈ grads, 0 < (g + 1).det) :
    Good (fHistory m grads) ∧
    Inside m (getTau m (fHistory m grads).F (fHistory m grads).be) (fHistory m grads).alpha ∧
    ∀ k, (fHistory m (grads.take k)).alpha ≤ (fHistory m grads).alpha := by
  induction grads using List.reverseRecOn with
  | nil =>
    refine ⟨⟨by simp [fHistory, fInit], ?_, le_refl _⟩, ?_, fun k => by simp⟩
    · exact Matrix.PosDef.one
    · rw [inside_iff, dev_getTau]
      have h0 : deviatoric (fHistory m []).be = 0 := by
        ext i j
        simp [fHistory, fInit, deviatoric, Matrix.trace]
      rw [h0, smul_zero]
      have : frob 0 = 0 := by simp [frob]
      rw [this, radius]
      have hs0 := hm.sig0
      have : m.sig0 + m.H1 * (fHistory m []).alpha = m.sig0 := by simp [fHistory, fInit]
      rw [this]
      positivity
  | append_singleton grads g ih =>
    obtain ⟨i1, _, i3⟩ := ih fun g' hg' => h g' (List.mem_append_left _ hg')
    have e : fHistory m (grads ++ [g]) = updateVars m (fHistory m grads) g := by
      rw [fHistory, List.foldl_append]; rfl
    obtain ⟨s1, s2, s3, _, _⟩ := C55_step m hm _ i1 g (h g (by simp))
    have htau : ∀ s : FState, (returnMap m s g).2.2 = getTau m (updateVars m s g).F (updateVars m s g).be := by
      intro s
      unfold updateVars returnMap
      dsimp only
      split_ifs <;> rfl
    refine ⟨e ▸ s1, ?_, fun k => ?_⟩
    · rw [e, ← htau]; exact s3
    · rw [e]
      rcases Nat.lt_or_ge grads.length k with hk | hk
      · rw [List.take_of_length_le (by simpa using hk), e]
      · rw [List.take_append_of_le_length hk]
        exact (i3 k).trans s2

/-- **C55 (isochoric).** The trial elastic strain has the determinant of the stored one. -/
theorem C55_isochoric (s : FState) (uGrad : M3) (h1 : 0 < s.F.det) (h2 : 0 < (uGrad + 1).det) :
    (beTrial s uGrad).det = s.be.det := by
  have hd := det_fBar (relF s uGrad) (det_relF s uGrad h1 h2)
  have he : beTrial s uGrad = (((relF s uGrad).det ^ (-(1 : ℝ) / 3)) • relF s uGrad) * s.be *
      (((relF s uGrad).det ^ (-(1 : ℝ) / 3)) • relF s uGrad).transpose := rfl
  rw [he, Matrix.det_mul, Matrix.det_mul, Matrix.det_transpose, hd, one_mul, mul_one]

/-- **C55 (stress measures).** The Cauchy stress is the Kirchhoff stress over the volume ratio, it is symmetric
for a good state, and its trace is the one of the volumetric law. -/
theorem C55_cauchy (m : Mat) (hm : m.Ok) (s : FState) (hs : Good s) (uGrad : M3) (hF : 0 < (uGrad + 1).det) :
    cauchy m s uGrad = (1 / (uGrad + 1).det) • (returnMap m s uGrad).2.2 ∧ (cauchy m s uGrad).IsSymm ∧
    (cauchy m s uGrad).trace = 3 / 2 * m.K * ((uGrad + 1).det ^ 2 - 1) / (uGrad + 1).det := by
  have htau : (returnMap m s uGrad).2.2 = getTau m (uGrad + 1) (updateVars m s uGrad).be := by
    unfold updateVars returnMap
    dsimp only
    split_ifs <;> rfl
  have h1 : cauchy m s uGrad = (1 / (uGrad + 1).det) • (returnMap m s uGrad).2.2 := by
    unfold cauchy firstPK
    rw [Matrix.smul_mul, Matrix.mul_assoc, ← Matrix.transpose_mul,
      Matrix.mul_nonsing_inv _ (isUnit_iff_ne_zero.2 hF.ne'), Matrix.transpose_one, Matrix.mul_one]
  have hbe : (updateVars m s uGrad).be.IsSymm := by
    have := (C55_step m hm s hs uGrad hF).1.posDef.isHermitian
    rwa [Matrix.IsHermitian, Matrix.conjTranspose_eq_transpose_of_trivial] at this
  refine ⟨h1, ?_, ?_⟩
  · rw [h1, htau, getTau, deviatoric]
    exact (((Matrix.isSymm_one.smul _).add ((hbe.sub (Matrix.isSymm_one.smul _)).smul _))).smul _
  · rw [h1, htau, getTau, Matrix.trace_smul, Matrix.trace_add, Matrix.trace_smul, Matrix.trace_smul, trace_dev]
    simp only [Matrix.trace_one, Fintype.card_fin, smul_eq_mul]
    push_cast
    ring

/-! ### C66: frame indifference -/

/-- Rotation. -/
structure Rot (Q : M3) : Prop where
  orth : Q.transpose * Q = 1
  det : Q.det = 1

theorem Rot.orth' {Q : M3} (h : Rot Q) : Q * Q.transpose = 1 := mul_eq_one_comm.1 h.orth

/-- Two states that differ by a rotation. -/
def RotState (Q : M3) (s s' : FState) : Prop :=
  s'.F = Q * s.F ∧ s'.be = Q * s.be * Q.transpose ∧ s'.alpha = s.alpha

theorem trace_rot {Q : M3} (hQ : Rot Q) (A : M3) : (Q * A * Q.transpose).trace = A.trace := by
  rw [Matrix.trace_mul_comm, ← Matrix.mul_assoc, hQ.orth, Matrix.one_mul]

theorem dev_rot {Q : M3} (hQ : Rot Q) (A : M3) : deviatoric (Q * A * Q.transpose) = Q * deviatoric A * Q.transpose := by
  unfold deviatoric
  rw [trace_rot hQ, Matrix.mul_sub, Matrix.sub_mul, Matrix.mul_smul, Matrix.smul_mul, Matrix.mul_one, hQ.orth']

theorem inner_trace (A B : M3) : inner A B = (A * B.transpose).trace := by
  simp only [inner, Matrix.trace, Matrix.diag_apply, Matrix.mul_apply, Matrix.transpose_apply]

theorem frob_rot {Q : M3} (hQ : Rot Q) (A : M3) : frob (Q * A * Q.transpose) = frob A := by
  rw [frob_eq, frob_eq, inner_trace, inner_trace, Matrix.transpose_mul, Matrix.transpose_mul,
    Matrix.transpose_transpose]
  have : Q * A * Q.transpose * (Q * (A.transpose * Q.transpose)) = Q * (A * A.transpose) * Q.transpose := by
    calc Q * A * Q.transpose * (Q * (A.transpose * Q.transpose))
        = Q * A * (Q.transpose * Q) * (A.transpose * Q.transpose) := by simp only [Matrix.mul_assoc]
      _ = _ := by rw [hQ.orth, Matrix.mul_one]; simp only [Matrix.mul_assoc]
  rw [this, trace_rot hQ]

theorem beTrial_rot {Q R : M3} (hQ : Rot Q) (hR : Rot R) (s s' : FState) (h : RotState Q s s') (g g' : M3)
    (hg : g' + 1 = R * (g + 1)) : beTrial s' g' = R * beTrial s g * R.transpose := by
  obtain ⟨h1, h2, _⟩ := h
  have hf : (g' + 1) * s'.F⁻¹ = R * ((g + 1) * s.F⁻¹) * Q.transpose := by
    rw [hg, h1, Matrix.mul_inv_rev, Matrix.inv_eq_left_inv hQ.orth]
    simp only [Matrix.mul_assoc]
  have hdet : (R * ((g + 1) * s.F⁻¹) * Q.transpose).det = ((g + 1) * s.F⁻¹).det := by
    rw [Matrix.det_mul, Matrix.det_mul, Matrix.det_transpose, hR.det, hQ.det, one_mul, mul_one]
  unfold beTrial
  dsimp only
  rw [hf, hdet, h2]
  generalize ((g + 1) * s.F⁻¹) = f
  generalize f.det ^ (-(1 : ℝ) / 3) = c
  simp only [Matrix.transpose_smul, Matrix.transpose_mul, Matrix.transpose_transpose, Matrix.smul_mul, Matrix.mul_smul]
  congr 2
  calc R * f * Q.transpose * (Q * s.be * Q.transpose) * (Q * (f.transpose * R.transpose))
      = R * f * (Q.transpose * Q) * s.be * (Q.transpose * Q) * (f.transpose * R.transpose) := by
        simp only [Matrix.mul_assoc]
    _ = R * (f * s.be * f.transpose) * R.transpose := by
        rw [hQ.orth, Matrix.mul_one, Matrix.mul_one]; simp only [Matrix.mul_assoc]

theorem getTau_rot {R : M3} (hR : Rot R) (m : Mat) (F be : M3) :
    getTau m (R * F) (R * be * R.transpose) = R * getTau m F be * R.transpose := by
  unfold getTau
  rw [Matrix.det_mul, hR.det, one_mul, dev_rot hR, Matrix.mul_add, Matrix.add_mul, Matrix.mul_smul, Matrix.smul_mul,
    Matrix.mul_one, hR.orth', Matrix.mul_smul, Matrix.smul_mul]

/-- **C66 (one step).** Rotating the stored state by one rotation and the new deformation by another one
rotates the new state and the stress by the latter, and leaves the plastic strain unchanged. -/
theorem C66_step (m : Mat) {Q R : M3} (hQ : Rot Q) (hR : Rot R) (s s' : FState) (h : RotState Q s s') (g g' : M3)
    (hg : g' + 1 = R * (g + 1)) :
    RotState R (updateVars m s g) (updateVars m s' g') ∧
    (returnMap m s' g').2.2 = R * (returnMap m s g).2.2 * R.transpose := by
  have ht := beTrial_rot hQ hR s s' h g g' hg
  have hy : yieldTrial m s' g' = yieldTrial m s g := by
    unfold yieldTrial
    rw [ht, dev_rot hR, h.2.2, ← Matrix.smul_mul, ← Matrix.mul_smul, frob_rot hR]
  have hmap : (returnMap m s' g').1 = R * (returnMap m s g).1 * R.transpose ∧
      (returnMap m s' g').2.1 = (returnMap m s g).2.1 ∧
      (returnMap m s' g').2.2 = R * (returnMap m s g).2.2 * R.transpose := by
    unfold returnMap
    dsimp only
    rw [hy, ht, h.2.2, hg]
    by_cases hlt : yieldTrial m s g < 0
    · rw [if_pos hlt, if_pos hlt]
      exact ⟨rfl, rfl, getTau_rot hR m _ _⟩
    · rw [if_neg hlt, if_neg hlt]
      dsimp only
      rw [trace_rot hR, dev_rot hR, ← Matrix.smul_mul, ← Matrix.mul_smul, frob_rot hR]
      generalize m.G • deviatoric (beTrial s g) = S
      generalize 1 / 3 * (beTrial s g).trace = I
      have hb : ∀ a b c : ℝ, a • (R * S * R.transpose - b • c • (R * S * R.transpose)) + I • (1 : M3) =
          R * (a • (S - b • c • S) + I • (1 : M3)) * R.transpose := by
        intro a b c
        rw [Matrix.mul_add, Matrix.add_mul, Matrix.mul_smul, Matrix.smul_mul, Matrix.mul_sub, Matrix.sub_mul,
          Matrix.mul_smul, Matrix.smul_mul, Matrix.mul_smul, Matrix.smul_mul, Matrix.mul_smul, Matrix.smul_mul,
          Matrix.mul_one, hR.orth']
      rw [hb]
      exact ⟨rfl, rfl, getTau_rot hR m _ _⟩
  exact ⟨⟨hg, hmap.1, hmap.2.1⟩, hmap.2.2⟩

/-- **C66.** Superposing a rotation on every step of a history (a different one each time) rotates the final
state by the last rotation and does not change the plastic strain. -/
theorem C66_history (m : Mat) (hist : List (M3 × M3 × M3)) (h : ∀ p ∈ hist, Rot p.1 ∧ p.2.2 + 1 = p.1 * (p.2.1 + 1)) :
    RotState ((hist.getLast?.map Prod.fst).getD 1) (fHistory m (hist.map fun p => p.2.1))
      (fHistory m (hist.map fun p => p.2.2)) := by
  have hone : Rot (1 : M3) := ⟨by simp, by simp⟩
  induction hist using List.reverseRecOn with
  | nil =>
    refine ⟨?_, ?_, rfl⟩ <;> simp [fHistory, fInit]
  | append_singleton hist p ih =>
    have i1 := ih fun q hq => h q (List.mem_append_left _ hq)
    have hQ : Rot ((hist.getLast?.map Prod.fst).getD 1) := by
      cases hl : hist.getLast? with
      | none => exact hone
      | some q => exact (h q (List.mem_append_left _ (List.mem_of_getLast? hl))).1
    have hp := h p (by simp)
    have := (C66_step m hQ hp.1 _ _ i1 p.2.1 p.2.2 hp.2).1
    simpa [fHistory, List.foldl_append] using this

/-- The hypotheses are met by non-trivial states: the initial state is good and a quarter turn is a rotation. -/
example : Good fInit ∧ Rot !![0, -1, 0; 1, 0, 0; 0, 0, 1] ∧ (Mat.mk 164 80 18 400).Ok := by
  refine ⟨⟨by simp [fInit], Matrix.PosDef.one, le_refl _⟩, ⟨?_, ?_⟩, ⟨by norm_num, by norm_num, by norm_num⟩⟩
  · ext i j
    fin_cases i <;> fin_cases j <;> simp [Matrix.mul_apply, Fin.sum_univ_succ]
  · simp [Matrix.det_fin_three]

/-- A stretch by a factor of four yields. -/
example : ¬Inside (Mat.mk 1 1 1 1) ((1 : ℝ) • beTrial fInit (Matrix.diagonal ![3, -1 / 2, -1 / 2])) 0 := by
  have hF : (Matrix.diagonal ![3, -1 / 2, -1 / 2] : M3) + 1 = Matrix.diagonal ![4, 1 / 2, 1 / 2] := by
    ext i j
    fin_cases i <;> fin_cases j <;> simp [Matrix.diagonal, Matrix.one_apply] <;> norm_num
  have hdet : (Matrix.diagonal ![(4 : ℝ), 1 / 2, 1 / 2]).det = 1 := by
    rw [Matrix.det_diagonal, Fin.prod_univ_three]
    simp
    norm_num
  have hb : beTrial fInit (Matrix.diagonal ![3, -1 / 2, -1 / 2]) = Matrix.diagonal ![16, 1 / 4, 1 / 4] := by
    unfold beTrial fInit
    dsimp only
    simp only [inv_one, Matrix.mul_one]
    rw [hF, hdet, Real.one_rpow, one_smul, Matrix.diagonal_transpose,
      Matrix.diagonal_mul_diagonal]
    congr 1
    funext i
    fin_cases i <;> norm_num
  rw [inside_iff, one_smul, hb, not_le, frob_eq]
  unfold radius
  have h1 : Real.sqrt (2 / 3) * (1 + 1 * 0) ≤ 1 := by
    rw [mul_zero, add_zero, mul_one]
    exact Real.sqrt_le_one.2 (by norm_num)
  refine lt_of_le_of_lt h1 (Real.lt_sqrt_of_sq_lt ?_)
  simp [inner, deviatoric, Fin.sum_univ_succ, Matrix.trace, Matrix.diagonal]
  norm_num

end FinitePlasticity
end JaxFem
