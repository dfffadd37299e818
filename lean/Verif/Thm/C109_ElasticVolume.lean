import Verif.Thm.C55_FinitePlasticity
import Mathlib.Analysis.Matrix.PosDef

/-!
# C109: finite-strain plasticity: volume of the stored elastic strain

`return_map` calls `be_bar_old` isochoric (`applications/finite_plasticity/model.py:58-61`), that is of determinant one.
-/

namespace JaxFem
namespace FinitePlasticity

open Plasticity (inner IsDev)

/-! ### Helper lemmas -/

/-- Sum of the principal minors. -/
def minorSum (B : M3) : ℝ :=
  B 0 0 * B 1 1 - B 0 1 * B 1 0 + (B 0 0 * B 2 2 - B 0 2 * B 2 0) + (B 1 1 * B 2 2 - B 1 2 * B 2 1)

theorem det_shift (B : M3) (b c : ℝ) :
    (b • B + c • (1 : M3)).det = c ^ 3 + c ^ 2 * b * B.trace + c * b ^ 2 * minorSum B + b ^ 3 * B.det := by
  simp only [Matrix.det_fin_three, Matrix.trace_fin_three, minorSum, Matrix.add_apply, Matrix.smul_apply, smul_eq_mul,
    Matrix.one_apply, Fin.isValue, if_true, one_ne_zero, zero_ne_one, if_false, mul_one, mul_zero, add_zero,
    show (0 : Fin 3) ≠ 2 by decide, show (2 : Fin 3) ≠ 0 by decide, show (1 : Fin 3) ≠ 2 by decide, show (2 : Fin 3) ≠ 1 by decide]
  ring

/-- Invariants by positive principal values. -/
theorem principal (B : M3) (hB : B.PosDef) :
    ∃ x y z : ℝ, 0 < x ∧ 0 < y ∧ 0 < z ∧ B.trace = x + y + z ∧ minorSum B = x * y + y * z + x * z ∧ B.det = x * y * z := by
  have h1 := hB.1.trace_eq_sum_eigenvalues
  have h3 := hB.1.det_eq_prod_eigenvalues
  have h2 := congrArg (Polynomial.eval 1) hB.1.charpoly_eq
  rw [Matrix.eval_charpoly, Polynomial.eval_prod] at h2
  simp only [Polynomial.eval_sub, Polynomial.eval_X, Polynomial.eval_C, Fin.prod_univ_three, Fin.sum_univ_three,
    RCLike.ofReal_real_eq_id, id_eq] at h1 h2 h3
  have e : Matrix.scalar (Fin 3) (1 : ℝ) - B = (-1 : ℝ) • B + (1 : ℝ) • (1 : M3) := by
    rw [map_one, neg_one_smul, one_smul, neg_add_eq_sub]
  rw [e, det_shift, h1, h3] at h2
  refine ⟨_, _, _, hB.eigenvalues_pos 0, hB.eigenvalues_pos 1, hB.eigenvalues_pos 2, h1, ?_, h3⟩
  linear_combination h2

theorem product_bound_aux (t a b c : ℝ) (h : a + b + c = 0) (ha : a ≤ 0) (hb : b ≤ 0) (hat : -t < a) (hbt : -t < b) :
    3 * (a * b * c) ≤ t * (a ^ 2 + b ^ 2 + c ^ 2) := by
  have hc : c = -a - b := by linarith
  subst hc
  have h1 : 0 ≤ -b * (-a - b) * (t + a) := mul_nonneg (mul_nonneg (by linarith) (by linarith)) (by linarith)
  have h2 : 0 ≤ -a * (-a - b) * (t + b) := mul_nonneg (mul_nonneg (by linarith) (by linarith)) (by linarith)
  have ht : 0 < t := by linarith
  nlinarith [mul_nonneg ht.le (sq_nonneg (a - b))]

theorem product_bound (t a b c : ℝ) (h : a + b + c = 0) (hat : -t < a) (hbt : -t < b) (hct : -t < c) :
    3 * (a * b * c) ≤ t * (a ^ 2 + b ^ 2 + c ^ 2) := by
  have ht : 0 < t := by linarith
  have hq : 0 ≤ t * (a ^ 2 + b ^ 2 + c ^ 2) := by positivity
  rcases le_total a 0 with ha | ha <;> rcases le_total b 0 with hb | hb <;> rcases le_total c 0 with hc | hc
  · exact product_bound_aux t a b c h ha hb hat hbt
  · exact product_bound_aux t a b c h ha hb hat hbt
  · have := product_bound_aux t a c b (by linarith) ha hc hat hct
    linarith [this, mul_right_comm a b c]
  · nlinarith [mul_nonneg hb hc]
  · have := product_bound_aux t b c a (by linarith) hb hc hbt hct
    nlinarith
  · nlinarith [mul_nonneg ha hc]
  · nlinarith [mul_nonneg ha hb]
  · have : a = 0 := by linarith
    subst this
    simpa using hq

/-- Moving a positive definite matrix towards its mean value increases the determinant. -/
theorem det_towards_mean (B : M3) (hB : B.PosDef) (th : ℝ) (h0 : 0 ≤ th) (h1 : th < 1) (hd : 0 < frob (deviatoric B)) :
    B.det < (th • B + ((1 - th) * (1 / 3 * B.trace)) • (1 : M3)).det := by
  obtain ⟨x, y, z, hx, hy, hz, e1, e2, e3⟩ := principal B hB
  have hsym : ∀ i j, B j i = B i j := fun i j => by simpa using hB.1.apply i j
  have hfrob : frob (deviatoric B) ^ 2 = B.trace ^ 2 - 2 * minorSum B - B.trace ^ 2 / 3 := by
    have hn : 0 ≤ ∑ i, ∑ j, deviatoric B i j * deviatoric B i j :=
      Finset.sum_nonneg fun i _ => Finset.sum_nonneg fun j _ => mul_self_nonneg _
    refine (Real.sq_sqrt hn).trans ?_
    simp only [deviatoric, Fin.sum_univ_three, Matrix.sub_apply, Matrix.smul_apply, smul_eq_mul, Matrix.one_apply,
      Matrix.trace_fin_three, minorSum, Fin.isValue, if_true, one_ne_zero, zero_ne_one, if_false, mul_one, mul_zero, sub_zero,
      show (0 : Fin 3) ≠ 2 by decide, show (2 : Fin 3) ≠ 0 by decide, show (1 : Fin 3) ≠ 2 by decide,
      show (2 : Fin 3) ≠ 1 by decide, hsym 0 1, hsym 0 2, hsym 1 2]
    ring
  have hpos : 0 < frob (deviatoric B) ^ 2 := by positivity
  rw [hfrob, e1, e2] at hpos
  rw [det_shift, e1, e2, e3]
  set t := (x + y + z) / 3 with ht
  have hb := product_bound t (x - t) (y - t) (z - t) (by rw [ht]; ring) (by linarith) (by linarith) (by linarith)
  have ht0 : 0 < t := by positivity
  have hq : 0 < (x - t) ^ 2 + (y - t) ^ 2 + (z - t) ^ 2 := by
    have : (x - t) ^ 2 + (y - t) ^ 2 + (z - t) ^ 2
        = (x + y + z) ^ 2 - 2 * (x * y + y * z + x * z) - (x + y + z) ^ 2 / 3 := by rw [ht]; ring
    rw [this]; exact hpos
  have hx' : x = 3 * t - y - z := by rw [ht]; ring
  have hmain : 0 < t * ((x - t) ^ 2 + (y - t) ^ 2 + (z - t) ^ 2) * ((1 - th) ^ 2 * (1 + 2 * th)) := by
    have : 0 < (1 - th) ^ 2 := by have : 0 < 1 - th := by linarith
                                  positivity
    positivity
  have h3 : 0 ≤ 1 - th ^ 3 := by
    have : th ^ 3 ≤ 1 := pow_le_one₀ h0 h1.le
    linarith
  have key := mul_nonneg h3 (sub_nonneg.2 hb)
  have e : 1 / 3 * (x + y + z) = t := by rw [ht]; ring
  rw [e]
  clear_value t
  subst hx'
  nlinarith

/-! ### Property theorems -/

/-- **C109 (one step).** A step that stays inside the yield surface keeps the determinant of the stored elastic strain; a step
with plastic flow increases it, so the stored strain is not isochoric afterwards. -/
theorem C109_step (m : Mat) (hm : m.Ok) (s : FState) (hs : Good s) (uGrad : M3) (hF : 0 < (uGrad + 1).det) :
    (Inside m (m.G • beTrial s uGrad) s.alpha →
      (updateVars m s uGrad).be.det = s.be.det ∧ (updateVars m s uGrad).alpha = s.alpha) ∧
    (¬Inside m (m.G • beTrial s uGrad) s.alpha →
      s.be.det < (updateVars m s uGrad).be.det ∧ s.alpha < (updateVars m s uGrad).alpha) := by
  have hpd := beTrial_posDef s uGrad hs.det hF hs.posDef
  have hiso := C55_isochoric s uGrad hs.det hF
  obtain ⟨-, -, -, hel, hpl⟩ := C55_step m hm s hs uGrad hF
  have hdevG : deviatoric (m.G • beTrial s uGrad) = m.G • deviatoric (beTrial s uGrad) := by
    have := dev_combination m.G 0 (beTrial s uGrad)
    rwa [zero_smul, add_zero] at this
  have hyd : yieldTrial m s uGrad = frob (m.G • deviatoric (beTrial s uGrad)) - radius m s.alpha := rfl
  have hin : Inside m (m.G • beTrial s uGrad) s.alpha ↔ yieldTrial m s uGrad ≤ 0 := by
    rw [inside_iff, hdevG, hyd, sub_nonpos]
  constructor
  · intro h
    by_cases hon : OnSurface m (m.G • beTrial s uGrad) s.alpha
    · have hy : yieldTrial m s uGrad = 0 := by
        rw [onSurface_iff, hdevG] at hon
        rw [hyd, hon, sub_self]
      have hbe : (updateVars m s uGrad).be = beTrial s uGrad ∧ (updateVars m s uGrad).alpha = s.alpha := by
        unfold updateVars returnMap
        dsimp only
        rw [hy, if_neg (lt_irrefl _)]
        have hG := hm.G
        constructor
        · ext i j
          simp only [zero_div, mul_zero, zero_smul, sub_zero, deviatoric, Matrix.add_apply, Matrix.sub_apply,
            Matrix.smul_apply, smul_eq_mul]
          field_simp
          ring
        · simp
      exact ⟨by rw [hbe.1, hiso], hbe.2⟩
    · obtain ⟨h1, h2⟩ := hel h hon
      exact ⟨by rw [h1, hiso], h2⟩
  · intro h
    refine ⟨?_, (hpl h).2⟩
    have hy : 0 < yieldTrial m s uGrad := not_le.1 fun hc => h (hin.2 hc)
    obtain ⟨dg, th, -, -, h2, -, h3, hr, -⟩ := plastic_form m hm s uGrad hs.alpha hpd.trace_pos hy.le
    have hbe : (updateVars m s uGrad).be = th • beTrial s uGrad + ((1 - th) * (1 / 3 * (beTrial s uGrad).trace)) • (1 : M3) := by
      unfold updateVars; rw [hr]
    rw [hbe, ← hiso]
    refine det_towards_mean _ hpd th h2 (h3 hy) ?_
    rw [hyd, frob_smul] at hy
    have hr0 : 0 ≤ radius m s.alpha := by
      unfold radius
      have := mul_nonneg hm.H1 hs.alpha
      have := hm.sig0
      positivity
    refine lt_of_le_of_ne (frob_nonneg _) fun h0 => ?_
    rw [← h0, mul_zero] at hy
    linarith

/-- **C109 (history).** Over any history of deformations with positive volume the determinant of the stored elastic strain never
decreases, and it is one exactly as long as there has been no plastic flow. -/
theorem C109_history (m : Mat) (hm : m.Ok) (grads : List M3) (h : ∀ g ∈ grads, 0 < (g + 1).det) :
    (∀ k, (fHistory m (grads.take k)).be.det ≤ (fHistory m grads).be.det) ∧ 1 ≤ (fHistory m grads).be.det ∧
    ((fHistory m grads).be.det = 1 ↔ (fHistory m grads).alpha = 0) := by
  induction grads using List.reverseRecOn with
  | nil => simp [fHistory, fInit]
  | append_singleton grads g ih =>
    have hg : ∀ g' ∈ grads, 0 < (g' + 1).det := fun g' hg' => h g' (List.mem_append_left _ hg')
    obtain ⟨i1, i2, i3⟩ := ih hg
    have e : fHistory m (grads ++ [g]) = updateVars m (fHistory m grads) g := by
      rw [fHistory, List.foldl_append]; rfl
    have hgood := (C55_history m hm grads hg).1
    obtain ⟨s1, s2⟩ := C109_step m hm _ hgood g (h g (by simp))
    have hle : (fHistory m grads).be.det ≤ (fHistory m (grads ++ [g])).be.det := by
      rw [e]
      by_cases hi : Inside m (m.G • beTrial (fHistory m grads) g) (fHistory m grads).alpha
      · exact (s1 hi).1.ge
      · exact (s2 hi).1.le
    refine ⟨fun k => ?_, i2.trans hle, ?_⟩
    · rcases Nat.lt_or_ge grads.length k with hk | hk
      · rw [List.take_of_length_le (by simpa using hk)]
      · rw [List.take_append_of_le_length hk]
        exact (i1 k).trans hle
    · rw [e]
      by_cases hi : Inside m (m.G • beTrial (fHistory m grads) g) (fHistory m grads).alpha
      · rw [(s1 hi).1, (s1 hi).2]; exact i3
      · obtain ⟨a, b⟩ := s2 hi
        have hal := hgood.alpha
        exact ⟨fun h1 => absurd h1 (by linarith), fun h1 => absurd h1 (by linarith)⟩

/-! ### Concrete case: the simple shear of `tests/test_finite_plasticity.py:37-39` with the constants of `model.py:22-25` -/

/-- Constants (`model.py:22-25`). -/
def repoMat : Mat := ⟨164000, 80000, 18, 400⟩

theorem repoMat_ok : repoMat.Ok := ⟨by norm_num [repoMat], by norm_num [repoMat], by norm_num [repoMat]⟩

/-- Displacement gradient of the shear. -/
noncomputable def shear : M3 := !![0, 1 / 50, 0; 0, 0, 0; 0, 0, 0]

/-- **C109 (repository's own test).** One step of the simple shear from the initial state leaves a stored elastic strain that is
not isochoric. -/
theorem C109_shear : 1 < (fHistory repoMat [shear]).be.det ∧ 0 < (fHistory repoMat [shear]).alpha := by
  have hdet : (shear + 1).det = 1 := by
    simp [shear, Matrix.det_fin_three]
  have htr : beTrial fInit shear = !![2501 / 2500, 1 / 50, 0; 1 / 50, 1, 0; 0, 0, 1] := by
    unfold beTrial
    dsimp only
    rw [show fInit.F = 1 from rfl, show fInit.be = 1 from rfl, inv_one]
    simp only [mul_one, hdet, Real.one_rpow, one_smul]
    ext i j
    fin_cases i <;> fin_cases j <;> simp [shear, Matrix.mul_apply, Fin.sum_univ_three] <;> norm_num
  have hgood : Good fInit := ⟨by simp [fInit], Matrix.PosDef.one, le_refl _⟩
  have hni : ¬Inside repoMat (repoMat.G • beTrial fInit shear) fInit.alpha := by
    rw [inside_iff, not_le]
    have hr : radius repoMat fInit.alpha ≤ 400 := by
      have : Real.sqrt (2 / 3) ≤ 1 := Real.sqrt_le_one.2 (by norm_num)
      simp only [radius, repoMat, fInit, mul_zero, add_zero]
      linarith
    refine lt_of_le_of_lt hr ?_
    have hdev : deviatoric (repoMat.G • beTrial fInit shear) = !![64 / 3, 1600, 0; 1600, -32 / 3, 0; 0, 0, -32 / 3] := by
      rw [htr]
      ext i j
      fin_cases i <;> fin_cases j <;>
        simp [deviatoric, repoMat, Matrix.trace_fin_three] <;> norm_num
    rw [frob, hdev]
    refine Real.lt_sqrt_of_sq_lt ?_
    simp [Fin.sum_univ_three]
    norm_num
  have h := (C109_step repoMat repoMat_ok fInit hgood shear (by rw [hdet]; norm_num)).2 hni
  have e : fHistory repoMat [shear] = updateVars repoMat fInit shear := rfl
  rw [e]
  have h0 : fInit.be.det = 1 := by simp [fInit]
  have h1 : fInit.alpha = 0 := rfl
  rw [h0, h1] at h
  exact h

end FinitePlasticity
end JaxFem
