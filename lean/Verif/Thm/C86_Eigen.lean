import Mathlib.Analysis.Calculus.FDeriv.Basic
import Mathlib.Analysis.Matrix.Spectrum
import Mathlib.Analysis.Calculus.Deriv.Slope
import Mathlib.Analysis.Calculus.Deriv.Prod
import Mathlib.Analysis.Calculus.Deriv.Mul
import Mathlib.Analysis.Calculus.Deriv.Pow
import Mathlib.Analysis.Calculus.Deriv.Add
import Mathlib.LinearAlgebra.Matrix.NonsingularInverse
import Mathlib.Tactic.Linarith
import Mathlib.Tactic.FieldSimp
import Mathlib.Tactic.LinearCombination
import Verif.Model.Eigen

/-!
# C86: functions of symmetric matrices and their derivative
-/

namespace JaxFem.Eigen

open Matrix

variable {n : Nat}

/-! ### Helper lemmas -/

/-- Symmetric part. -/
noncomputable def symm (x : Fin n → Fin n → ℝ) : Matrix (Fin n) (Fin n) ℝ := of fun i j => (x i j + x j i) / 2

/-- Eigenvectors as a matrix. -/
def vecs (e : (Fin n → ℝ) × (Fin n → Fin n → ℝ)) : Matrix (Fin n) (Fin n) ℝ := of e.2

theorem IsEigh.tmul {x : Fin n → Fin n → ℝ} {e : (Fin n → ℝ) × (Fin n → Fin n → ℝ)} (h : IsEigh x e.1 e.2) :
    (vecs e)ᵀ * vecs e = 1 := by
  ext a b
  rw [mul_apply, one_apply]
  exact h.orth a b

theorem IsEigh.mult {x : Fin n → Fin n → ℝ} {e : (Fin n → ℝ) × (Fin n → Fin n → ℝ)} (h : IsEigh x e.1 e.2) :
    vecs e * (vecs e)ᵀ = 1 := mul_eq_one_comm.1 h.tmul

theorem IsEigh.right {x : Fin n → Fin n → ℝ} {e : (Fin n → ℝ) × (Fin n → Fin n → ℝ)} (h : IsEigh x e.1 e.2) :
    symm x * vecs e = vecs e * diagonal e.1 := by
  ext i a
  rw [mul_apply, mul_diagonal]
  exact (h.eigen i a).trans (mul_comm _ _)

theorem symm_transpose (x : Fin n → Fin n → ℝ) : (symm x)ᵀ = symm x := by
  ext i j
  simp only [symm, transpose_apply, of_apply]
  ring

theorem IsEigh.left {x : Fin n → Fin n → ℝ} {e : (Fin n → ℝ) × (Fin n → Fin n → ℝ)} (h : IsEigh x e.1 e.2) :
    (vecs e)ᵀ * symm x = diagonal e.1 * (vecs e)ᵀ := by
  have := congrArg transpose h.right
  rwa [transpose_mul, transpose_mul, symm_transpose, diagonal_transpose] at this

theorem eigenF_eq (fn : ℝ → ℝ) (e : (Fin n → ℝ) × (Fin n → Fin n → ℝ)) :
    of (eigenF fn e) = vecs e * diagonal (fun b => fn (e.1 b)) * (vecs e)ᵀ := by
  ext i j
  rw [mul_apply]
  simp only [mul_diagonal, of_apply, eigenF, proj, transpose_apply, vecs]
  exact Finset.sum_congr rfl fun b _ => by ring

theorem jvp_eq (fn grad : ℝ → ℝ) (e : (Fin n → ℝ) × (Fin n → Fin n → ℝ)) (v : Fin n → Fin n → ℝ) :
    of (jvp fn grad e v) = vecs e * (of fun a b => theta fn grad e.1 a b * ((vecs e)ᵀ * symm v * vecs e) a b)
      * (vecs e)ᵀ := by
  set U := vecs e with hU
  have hM : ∀ b i j, proj e.2 b i j = U i b * U j b := fun b i j => rfl
  -- the weight of the pair `a, b`
  have hK : ∀ a b, (Uᵀ * symm v * U) a b = ∑ k, ∑ l, (v k l + v l k) / 2 * (U k a * U l b) := by
    intro a b
    rw [mul_apply]
    simp only [mul_apply, transpose_apply, Finset.sum_mul, symm, of_apply]
    rw [Finset.sum_comm]
    exact Finset.sum_congr rfl fun k _ => Finset.sum_congr rfl fun l _ => by ring
  have hsw : ∀ a b, ∑ k, ∑ l, v l k * (U k a * U l b) = ∑ k, ∑ l, v k l * (U l a * U k b) := by
    intro a b
    rw [Finset.sum_comm]
  have hK2 : ∀ a b, (Uᵀ * symm v * U) a b
      = (∑ k, ∑ l, v k l * (U k a * U l b) + ∑ k, ∑ l, v k l * (U l a * U k b)) / 2 := by
    intro a b
    rw [hK, ← hsw, ← Finset.sum_add_distrib, Finset.sum_div]
    refine Finset.sum_congr rfl fun k _ => ?_
    rw [← Finset.sum_add_distrib, Finset.sum_div]
    exact Finset.sum_congr rfl fun l _ => by ring
  ext i j
  have hR : (U * (of fun a b => theta fn grad e.1 a b * (Uᵀ * symm v * U) a b) * Uᵀ) i j
      = ∑ a, ∑ b, theta fn grad e.1 a b * (Uᵀ * symm v * U) a b * (U i a * U j b) := by
    rw [mul_apply]
    simp only [mul_apply, transpose_apply, Finset.sum_mul, of_apply]
    rw [Finset.sum_comm]
    exact Finset.sum_congr rfl fun k _ => Finset.sum_congr rfl fun l _ => by ring
  have hP : ∀ k l, tensorP fn grad e i j k l
      = ∑ a, ∑ b, theta fn grad e.1 a b * (U i a * U j b) * ((U k a * U l b + U l a * U k b) / 2) := by
    intro k l
    have hθ : ∀ a, theta fn grad e.1 a a = grad (e.1 a) := fun a => by simp [theta]
    simp only [tensorP, hM]
    have h1 : ∑ a, (U i a * U k a * (U j a * U l a) + U i a * U l a * (U j a * U k a)) * theta fn grad e.1 a a
        = 2 * ∑ b, U i b * U j b * (U k b * U l b) * grad (e.1 b) := by
      rw [Finset.mul_sum]
      exact Finset.sum_congr rfl fun a _ => by rw [hθ]; ring
    have h2 : ∑ a, ∑ b, theta fn grad e.1 a b * (U i a * U j b) * ((U k a * U l b + U l a * U k b) / 2)
        = 1 / 2 * ∑ a, ∑ b, (U i a * U k a * (U j b * U l b) + U i a * U l a * (U j b * U k b)) * theta fn grad e.1 a b := by
      rw [Finset.mul_sum]
      refine Finset.sum_congr rfl fun a _ => ?_
      rw [Finset.mul_sum]
      exact Finset.sum_congr rfl fun b _ => by ring
    rw [h1, h2]
    norm_num
    ring
  rw [hR, of_apply, jvp]
  simp only [hP, hK2, Finset.sum_mul]
  have : ∀ k : Fin n, ∑ l, ∑ a, ∑ b, theta fn grad e.1 a b * (U i a * U j b) * ((U k a * U l b + U l a * U k b) / 2) * v k l
      = ∑ a, ∑ b, ∑ l, theta fn grad e.1 a b * (U i a * U j b) * ((U k a * U l b + U l a * U k b) / 2) * v k l := by
    intro k
    rw [Finset.sum_comm]
    exact Finset.sum_congr rfl fun a _ => Finset.sum_comm
  rw [Finset.sum_congr rfl fun k _ => this k, Finset.sum_comm]
  refine Finset.sum_congr rfl fun a _ => ?_
  rw [Finset.sum_comm]
  refine Finset.sum_congr rfl fun b _ => ?_
  rw [← Finset.sum_add_distrib, Finset.sum_div, Finset.mul_sum, Finset.sum_mul]
  refine Finset.sum_congr rfl fun k _ => ?_
  rw [← Finset.sum_add_distrib, Finset.sum_div, Finset.mul_sum, Finset.sum_mul]
  exact Finset.sum_congr rfl fun l _ => by ring

/-! Orthogonal matrices and bounds. -/

theorem entry_le_one {U : Matrix (Fin n) (Fin n) ℝ} (h : Uᵀ * U = 1) (i j : Fin n) : |U i j| ≤ 1 := by
  have h1 : ∑ k, U k j * U k j = 1 := by
    have := congrFun (congrFun h j) j
    rwa [mul_apply, one_apply, if_pos rfl] at this
  have h2 : U i j * U i j ≤ 1 := by
    rw [← h1]
    exact Finset.single_le_sum (f := fun k => U k j * U k j) (fun k _ => mul_self_nonneg _) (Finset.mem_univ i)
  rw [abs_le]
  constructor <;> nlinarith

theorem mul_entry_le {A B : Matrix (Fin n) (Fin n) ℝ} {a b : ℝ} (ha : ∀ i j, |A i j| ≤ a) (hb : ∀ i j, |B i j| ≤ b)
    (ha0 : 0 ≤ a) (i j : Fin n) : |(A * B) i j| ≤ n * (a * b) := by
  rw [mul_apply]
  refine (Finset.abs_sum_le_sum_abs _ _).trans ?_
  calc ∑ k, |A i k * B k j| ≤ ∑ _k : Fin n, a * b := Finset.sum_le_sum fun k _ => by
        rw [abs_mul]
        exact mul_le_mul (ha i k) (hb k j) (abs_nonneg _) ha0
    _ = n * (a * b) := by simp

/-- Values of a function at nearby spectra: the difference matters only between eigenvectors that are nearly
orthogonal. -/
theorem spectra_close (lam : Fin n → ℝ) (g : ℝ → ℝ) (hg : ∀ k, ContinuousAt g (lam k)) (ε : ℝ) (hε : 0 < ε) :
    ∃ η > 0, ∀ (W : Matrix (Fin n) (Fin n) ℝ) (mu : Fin n → ℝ) (h : ℝ), Wᵀ * W = 1 → h < η →
      (∀ k j, |(mu j - lam k) * W k j| ≤ h) → ∀ k j, |(g (mu j) - g (lam k)) * W k j| ≤ ε := by
  have hδ : ∀ k, ∃ δ > 0, ∀ x, |x - lam k| < δ → |g x - g (lam k)| < min ε 1 := fun k => by
    obtain ⟨δ, h1, h2⟩ := Metric.continuousAt_iff.1 (hg k) (min ε 1) (lt_min hε one_pos)
    exact ⟨δ, h1, fun x hx => h2 hx⟩
  choose δ hδ0 hδ1 using hδ
  rcases Nat.eq_zero_or_pos n with rfl | hn
  · exact ⟨1, one_pos, fun _ _ _ _ _ _ k => k.elim0⟩
  have : Nonempty (Fin n) := ⟨⟨0, hn⟩⟩
  obtain ⟨kd, hkd⟩ := Finite.exists_min δ
  set d := δ kd with hd
  have hd0 : 0 < d := hδ0 kd
  obtain ⟨kg, hkg⟩ := Finite.exists_max fun k => |g (lam k)|
  set G := |g (lam kg)| with hG
  have hG0 : 0 ≤ G := abs_nonneg _
  have hn' : (0 : ℝ) < n := by exact_mod_cast hn
  refine ⟨min (d / n) (ε * d / (2 * G + 1)), lt_min (by positivity) (by positivity), ?_⟩
  intro W mu h hW hh hb k j
  have h0 : 0 ≤ h := (abs_nonneg _).trans (hb k j)
  have hh1 : h * n < d := by
    rw [← lt_div_iff₀ hn']
    exact hh.trans_le (min_le_left _ _)
  have hh2 : h * (2 * G + 1) ≤ ε * d := by
    rw [← le_div_iff₀ (by positivity)]
    exact (hh.trans_le (min_le_right _ _)).le
  -- some eigenvalue is close
  have hcol : ∑ k, W k j * W k j = 1 := by
    have := congrFun (congrFun hW j) j
    rwa [mul_apply, one_apply, if_pos rfl] at this
  obtain ⟨k0, hk0⟩ : ∃ k0, 1 / n ≤ |W k0 j| := by
    by_contra hno
    push Not at hno
    have hlt : ∑ k, W k j * W k j < ∑ _k : Fin n, 1 / (n : ℝ) := by
      refine Finset.sum_lt_sum_of_nonempty Finset.univ_nonempty fun k _ => ?_
      have h1 := hno k
      have h2 := entry_le_one hW k j
      rw [← abs_mul_abs_self (W k j)]
      nlinarith [abs_nonneg (W k j)]
    rw [hcol] at hlt
    simp [hn'.ne'] at hlt
  have hclose : |mu j - lam k0| < d := by
    have h1 := hb k0 j
    rw [abs_mul] at h1
    have h2 : |mu j - lam k0| * (1 / n) ≤ h := (mul_le_mul_of_nonneg_left hk0 (abs_nonneg _)).trans h1
    rw [mul_one_div, div_le_iff₀ hn'] at h2
    linarith
  have hgm : |g (mu j)| ≤ G + 1 := by
    have h1 := hδ1 k0 (mu j) (hclose.trans_le (hkd k0))
    have h2 := hkg k0
    have h3 : |g (mu j)| ≤ |g (mu j) - g (lam k0)| + |g (lam k0)| := by
      have := abs_add_le (g (mu j) - g (lam k0)) (g (lam k0))
      simpa using this
    have h4 := min_le_right ε (1 : ℝ)
    linarith
  rw [abs_mul]
  by_cases hc : |mu j - lam k| < d
  · have h1 := (hδ1 k (mu j) (hc.trans_le (hkd k))).le.trans (min_le_left _ _)
    calc |g (mu j) - g (lam k)| * |W k j| ≤ ε * 1 :=
          mul_le_mul h1 (entry_le_one hW k j) (abs_nonneg _) hε.le
      _ = ε := mul_one ε
  · push Not at hc
    have h1 := hb k j
    rw [abs_mul] at h1
    have h2 : |g (mu j) - g (lam k)| ≤ 2 * G + 1 := by
      have := abs_sub (g (mu j)) (g (lam k))
      have h3 := hkg k
      linarith
    have h4 : d * |W k j| ≤ h := (mul_le_mul_of_nonneg_right hc (abs_nonneg _)).trans h1
    have h5 : d * (|g (mu j) - g (lam k)| * |W k j|) ≤ d * ε := by
      calc d * (|g (mu j) - g (lam k)| * |W k j|) = |g (mu j) - g (lam k)| * (d * |W k j|) := by ring
        _ ≤ (2 * G + 1) * h := mul_le_mul h2 h4 (by positivity) (by positivity)
        _ ≤ d * ε := by linarith
    exact le_of_mul_le_mul_left h5 hd0

/-- Divided difference with the derivative on the diagonal. -/
noncomputable def dd (fn grad : ℝ → ℝ) (a x : ℝ) : ℝ := if a - x = 0 then grad a else (fn a - fn x) / (a - x)

theorem dd_mul (fn grad : ℝ → ℝ) (a x : ℝ) : dd fn grad a x * (x - a) = fn x - fn a := by
  rw [dd]
  split_ifs with h
  · have : x = a := by linarith
    simp [this]
  · field_simp
    ring

theorem dd_continuous (fn grad : ℝ → ℝ) (a b : ℝ) (ha : HasDerivAt fn (grad a) a) (hb : HasDerivAt fn (grad b) b) :
    ContinuousAt (dd fn grad a) b := by
  by_cases h : a = b
  · subst h
    have h1 := hasDerivAt_iff_tendsto_slope.1 ha
    rw [continuousAt_iff_punctured_nhds]
    have e : dd fn grad a a = grad a := by simp [dd]
    rw [e]
    refine h1.congr' ?_
    filter_upwards [self_mem_nhdsWithin] with x hx
    have hx' : a - x ≠ 0 := fun h => hx (by simp; linarith)
    have hx2 : x - a ≠ 0 := fun h => hx' (by linarith)
    rw [dd, if_neg hx', slope_def_field]
    field_simp
    ring
  · have hne : a - b ≠ 0 := sub_ne_zero.2 h
    have : ContinuousAt (fun x => (fn a - fn x) / (a - x)) b :=
      (continuousAt_const.sub hb.continuousAt).div (continuousAt_const.sub continuousAt_id) hne
    refine this.congr ?_
    have hev : ∀ᶠ x in nhds b, a - x ≠ 0 :=
      (continuousAt_const.sub continuousAt_id : ContinuousAt (fun x => a - x) b).eventually_ne hne
    filter_upwards [hev] with x hx
    rw [dd, if_neg hx]

theorem symm_sub (x y : Fin n → Fin n → ℝ) : symm (y - x) = symm y - symm x := by
  ext i j
  simp only [symm, of_apply, Matrix.sub_apply, Pi.sub_apply]
  ring

theorem symm_le (v : Fin n → Fin n → ℝ) (i j : Fin n) : |symm v i j| ≤ ‖v‖ := by
  have h1 : ∀ i j, |v i j| ≤ ‖v‖ := fun i j => (norm_le_pi_norm (v i) j).trans (norm_le_pi_norm v i)
  simp only [symm, of_apply]
  rw [abs_div, abs_two, div_le_iff₀ two_pos]
  have := abs_add_le (v i j) (v j i)
  linarith [h1 i j, h1 j i]

/-- The remainder of the expansion in the two eigenbases. -/
theorem remainder {x y : Fin n → Fin n → ℝ} {e e' : (Fin n → ℝ) × (Fin n → Fin n → ℝ)} (hx : IsEigh x e.1 e.2)
    (hy : IsEigh y e'.1 e'.2) (fn grad : ℝ → ℝ) :
    let U := vecs e
    let V := vecs e'
    let W := Uᵀ * V
    let K := Uᵀ * symm (y - x) * U
    Wᵀ * W = 1 ∧ (∀ k j, (e'.1 j - e.1 k) * W k j = (K * W) k j) ∧
    of (eigenF fn e') - of (eigenF fn e) - of (jvp fn grad e (y - x))
      = U * (of fun i j => ∑ k, K i k * ((dd fn grad (e.1 i) (e'.1 j) - dd fn grad (e.1 i) (e.1 k)) * W k j)) * Vᵀ := by
  intro U V W K
  have hWW : Wᵀ * W = 1 := by
    change (Uᵀ * V)ᵀ * (Uᵀ * V) = 1
    rw [transpose_mul, transpose_transpose, Matrix.mul_assoc, ← Matrix.mul_assoc U, hx.mult, Matrix.one_mul, hy.tmul]
  have hKW : K * W = W * diagonal e'.1 - diagonal e.1 * W := by
    change Uᵀ * symm (y - x) * U * (Uᵀ * V) = Uᵀ * V * diagonal e'.1 - diagonal e.1 * (Uᵀ * V)
    rw [Matrix.mul_assoc, ← Matrix.mul_assoc U, hx.mult, Matrix.one_mul, symm_sub, Matrix.mul_sub, Matrix.sub_mul,
      Matrix.mul_assoc, hy.right, hx.left, Matrix.mul_assoc Uᵀ V, Matrix.mul_assoc (diagonal e.1) Uᵀ V]
  have hKe : ∀ k j, (e'.1 j - e.1 k) * W k j = (K * W) k j := by
    intro k j
    rw [hKW, Matrix.sub_apply, mul_diagonal, diagonal_mul]
    ring
  refine ⟨hWW, hKe, ?_⟩
  have hE : (of fun i j => ∑ k, K i k * ((dd fn grad (e.1 i) (e'.1 j) - dd fn grad (e.1 i) (e.1 k)) * W k j))
      = W * diagonal (fun b => fn (e'.1 b)) - diagonal (fun b => fn (e.1 b)) * W
        - (of fun a b => theta fn grad e.1 a b * K a b) * W := by
    ext i j
    rw [Matrix.sub_apply, Matrix.sub_apply, mul_diagonal, diagonal_mul, mul_apply]
    simp only [of_apply]
    have h1 : W i j * fn (e'.1 j) - fn (e.1 i) * W i j = dd fn grad (e.1 i) (e'.1 j) * (K * W) i j := by
      rw [← hKe]
      linear_combination (- W i j) * dd_mul fn grad (e.1 i) (e'.1 j)
    rw [h1, mul_apply, Finset.mul_sum, ← Finset.sum_sub_distrib]
    refine Finset.sum_congr rfl fun k _ => ?_
    have : theta fn grad e.1 i k = dd fn grad (e.1 i) (e.1 k) := rfl
    rw [this]
    ring
  rw [hE, eigenF_eq, eigenF_eq, jvp_eq]
  change V * diagonal (fun b => fn (e'.1 b)) * Vᵀ - U * diagonal (fun b => fn (e.1 b)) * Uᵀ
      - U * (of fun a b => theta fn grad e.1 a b * K a b) * Uᵀ
    = U * (Uᵀ * V * diagonal (fun b => fn (e'.1 b)) - diagonal (fun b => fn (e.1 b)) * (Uᵀ * V)
        - (of fun a b => theta fn grad e.1 a b * K a b) * (Uᵀ * V)) * Vᵀ
  have hVV : V * Vᵀ = 1 := hy.mult
  have hUU : U * Uᵀ = 1 := hx.mult
  rw [Matrix.mul_sub, Matrix.mul_sub, Matrix.sub_mul, Matrix.sub_mul]
  simp only [Matrix.mul_assoc, hVV, Matrix.mul_one]
  rw [← Matrix.mul_assoc U Uᵀ, hUU, Matrix.one_mul]

/-- The derivative as a linear map. -/
noncomputable def jvpL (fn grad : ℝ → ℝ) (e : (Fin n → ℝ) × (Fin n → Fin n → ℝ)) :
    (Fin n → Fin n → ℝ) →L[ℝ] (Fin n → Fin n → ℝ) :=
  LinearMap.toContinuousLinearMap
    { toFun := jvp fn grad e
      map_add' := fun v w => by
        funext i j
        simp only [jvp, Pi.add_apply, mul_add, Finset.sum_add_distrib]
      map_smul' := fun c v => by
        funext i j
        simp only [jvp, Pi.smul_apply, smul_eq_mul, RingHom.id_apply, Finset.mul_sum]
        exact Finset.sum_congr rfl fun k _ => Finset.sum_congr rfl fun l _ => by ring }

/-! ### Property theorems -/

/-- **C86 (function).** The result of `eigen_f` does not depend on the eigenvectors chosen by `eigh`. -/
theorem C86_well_defined (fn : ℝ → ℝ) (x : Fin n → Fin n → ℝ) (e e' : (Fin n → ℝ) × (Fin n → Fin n → ℝ))
    (h : IsEigh x e.1 e.2) (h' : IsEigh x e'.1 e'.2) : eigenF fn e = eigenF fn e' := by
  obtain ⟨-, h2, h3⟩ := remainder h h' fn 0
  have hK : symm (x - x) = 0 := by
    ext i j
    simp [symm]
  simp only [hK, Matrix.mul_zero, Matrix.zero_mul, Matrix.zero_apply, zero_mul, Finset.sum_const_zero] at h3
  have hz : (of fun (_ _ : Fin n) => (0 : ℝ)) = 0 := rfl
  rw [hz, Matrix.mul_zero, Matrix.zero_mul, jvp_eq] at h3
  simp only [hK, Matrix.mul_zero, Matrix.zero_mul, Matrix.zero_apply, mul_zero] at h3
  rw [hz, Matrix.mul_zero, Matrix.zero_mul, sub_zero, sub_eq_zero] at h3
  funext i j
  exact (congrFun (congrFun h3 i) j).symm

/-- **C86 (calculus).** `eigen_f` is the functional calculus of the symmetric part: products of functions give
products of matrices, the identity gives the symmetric part back, one gives the identity matrix. -/
theorem C86_calculus (x : Fin n → Fin n → ℝ) (e : (Fin n → ℝ) × (Fin n → Fin n → ℝ)) (h : IsEigh x e.1 e.2) :
    (∀ (f g : ℝ → ℝ) i j, ∑ k, eigenF f e i k * eigenF g e k j = eigenF (fun t => f t * g t) e i j) ∧
    (∀ i j, eigenF (fun t => t) e i j = (x i j + x j i) / 2) ∧
    (∀ i j, eigenF (fun _ => 1) e i j = if i = j then 1 else 0) := by
  refine ⟨fun f g i j => ?_, fun i j => ?_, fun i j => ?_⟩
  · have h1 : (of (eigenF f e) * of (eigenF g e)) i j = of (eigenF (fun t => f t * g t) e) i j := by
      rw [eigenF_eq, eigenF_eq, eigenF_eq, ← diagonal_mul_diagonal]
      congr 2
      simp only [Matrix.mul_assoc]
      rw [← Matrix.mul_assoc (vecs e)ᵀ, h.tmul, Matrix.one_mul]
    rwa [mul_apply] at h1
  · have h1 : of (eigenF (fun t => t) e) = symm x := by
      rw [eigenF_eq]
      change vecs e * diagonal e.1 * (vecs e)ᵀ = _
      rw [← h.right, Matrix.mul_assoc, h.mult, Matrix.mul_one]
    exact congrFun (congrFun h1 i) j
  · have h1 : of (eigenF (fun _ => 1) e) = 1 := by
      rw [eigenF_eq]
      have : diagonal (fun _ : Fin n => (1 : ℝ)) = 1 := diagonal_one
      rw [this, Matrix.mul_one, h.mult]
    have h2 := congrFun (congrFun h1 i) j
    rwa [one_apply] at h2

/-- **C86 (isotropy).** `eigen_f` commutes with rotations of the argument. -/
theorem C86_isotropic (fn : ℝ → ℝ) (Q x : Matrix (Fin n) (Fin n) ℝ) (hQ : Qᵀ * Q = 1)
    (e e' : (Fin n → ℝ) × (Fin n → Fin n → ℝ)) (h : IsEigh x e.1 e.2) (h' : IsEigh (Q * x * Qᵀ) e'.1 e'.2) :
    of (eigenF fn e') = Q * of (eigenF fn e) * Qᵀ := by
  have hr : IsEigh (Q * x * Qᵀ) e.1 (Q * vecs e) := by
    have hs : symm (Q * x * Qᵀ) = Q * symm x * Qᵀ := by
      have h1 : ∀ y : Matrix (Fin n) (Fin n) ℝ, symm y = (1 / 2 : ℝ) • (y + yᵀ) := by
        intro y
        ext i j
        simp only [symm, of_apply, Matrix.smul_apply, Matrix.add_apply, transpose_apply, smul_eq_mul]
        ring
      rw [h1, h1, transpose_mul, transpose_mul, transpose_transpose, Matrix.mul_smul, Matrix.smul_mul,
        Matrix.mul_add, Matrix.add_mul, Matrix.mul_assoc Q xᵀ]
    constructor
    · intro a b
      have h1 : (Q * vecs e)ᵀ * (Q * vecs e) = 1 := by
        rw [transpose_mul, Matrix.mul_assoc, ← Matrix.mul_assoc Qᵀ, hQ, Matrix.one_mul, h.tmul]
      have := congrFun (congrFun h1 a) b
      rwa [mul_apply, one_apply] at this
    · intro i a
      have h1 : symm (Q * x * Qᵀ) * (Q * vecs e) = Q * vecs e * diagonal e.1 := by
        rw [hs, Matrix.mul_assoc, ← Matrix.mul_assoc Qᵀ, hQ, Matrix.one_mul, Matrix.mul_assoc, h.right,
          Matrix.mul_assoc]
      have := congrFun (congrFun h1 i) a
      rw [mul_apply, mul_diagonal] at this
      exact this.trans (mul_comm _ _)
  rw [C86_well_defined fn _ e' (e.1, Q * vecs e) h' hr, eigenF_eq, eigenF_eq]
  change Q * vecs e * _ * (Q * vecs e)ᵀ = _
  rw [transpose_mul]
  simp only [Matrix.mul_assoc]

/-- **C86 (symmetry).** The tensor `P` has major symmetry, so forward and reverse mode agree. -/
theorem C86_symmetric (fn grad : ℝ → ℝ) (e : (Fin n → ℝ) × (Fin n → Fin n → ℝ)) (v w : Fin n → Fin n → ℝ) :
    ∑ i, ∑ j, w i j * jvp fn grad e v i j = ∑ i, ∑ j, jvp fn grad e w i j * v i j := by
  have hθ : ∀ a b, theta fn grad e.1 a b = theta fn grad e.1 b a := by
    intro a b
    simp only [theta]
    by_cases h : e.1 a - e.1 b = 0
    · have h' : e.1 b - e.1 a = 0 := by linarith
      rw [if_pos h, if_pos h', sub_eq_zero.1 h]
    · have h' : e.1 b - e.1 a ≠ 0 := fun h' => h (by linarith)
      rw [if_neg h, if_neg h', ← neg_sub (fn (e.1 b)), ← neg_sub (e.1 b), neg_div_neg_eq]
  have hP : ∀ i j k l, tensorP fn grad e i j k l = tensorP fn grad e k l i j := by
    intro i j k l
    simp only [tensorP]
    congr 1
    · exact Finset.sum_congr rfl fun b _ => by ring
    · congr 2
      · simp only [add_mul, Finset.sum_add_distrib]
        congr 1
        · exact Finset.sum_congr rfl fun a _ => Finset.sum_congr rfl fun b _ => by simp only [proj]; ring
        · rw [Finset.sum_comm]
          exact Finset.sum_congr rfl fun a _ => Finset.sum_congr rfl fun b _ => by
            rw [hθ b a]
            simp only [proj]
            ring
      · exact Finset.sum_congr rfl fun a _ => by simp only [proj]; ring
  simp only [jvp, Finset.mul_sum, Finset.sum_mul]
  have h1 : ∀ f : Fin n → Fin n → Fin n → Fin n → ℝ,
      ∑ i, ∑ j, ∑ k, ∑ l, f i j k l = ∑ k, ∑ l, ∑ i, ∑ j, f i j k l := by
    intro f
    rw [Finset.sum_congr rfl fun i _ => (Finset.sum_comm : ∑ j, ∑ k, ∑ l, f i j k l = ∑ k, ∑ j, ∑ l, f i j k l),
      Finset.sum_comm]
    refine Finset.sum_congr rfl fun k _ => ?_
    rw [Finset.sum_congr rfl fun i _ => (Finset.sum_comm : ∑ j, ∑ l, f i j k l = ∑ l, ∑ j, f i j k l), Finset.sum_comm]
  rw [h1]
  refine Finset.sum_congr rfl fun k _ => Finset.sum_congr rfl fun l _ => Finset.sum_congr rfl fun i _ =>
    Finset.sum_congr rfl fun j _ => ?_
  rw [hP i j k l]
  ring

/-- **C86 (derivative).** If `fn` is differentiable at the eigenvalues of `x`, with derivative `grad`, then `f_jvp`
computes the derivative of `eigen_f` at `x`, repeated eigenvalues included. -/
theorem C86_jvp (fn grad : ℝ → ℝ) (eigh : (Fin n → Fin n → ℝ) → (Fin n → ℝ) × (Fin n → Fin n → ℝ))
    (hE : ∀ x, IsEigh x (eigh x).1 (eigh x).2) (x : Fin n → Fin n → ℝ)
    (hd : ∀ k, HasDerivAt fn (grad ((eigh x).1 k)) ((eigh x).1 k)) :
    ∃ L : (Fin n → Fin n → ℝ) →L[ℝ] (Fin n → Fin n → ℝ), (∀ v, L v = jvp fn grad (eigh x) v) ∧
      HasFDerivAt (fun y => eigenF fn (eigh y)) L x := by
  refine ⟨jvpL fn grad (eigh x), fun v => rfl, ?_⟩
  rcases Nat.eq_zero_or_pos n with rfl | hn
  · exact hasFDerivAt_of_subsingleton _ _
  have hn' : (0 : ℝ) < n := by exact_mod_cast hn
  refine HasFDerivAt.of_isLittleO (Asymptotics.isLittleO_iff.2 fun c hc => ?_)
  set e := eigh x with he
  set ε := c / n ^ 5 with hεd
  have hε : 0 < ε := by positivity
  have hη := fun i => spectra_close e.1 (dd fn grad (e.1 i))
    (fun k => dd_continuous fn grad (e.1 i) (e.1 k) (hd i) (hd k)) ε hε
  choose η hη0 hη1 using hη
  have : Nonempty (Fin n) := ⟨⟨0, hn⟩⟩
  obtain ⟨i0, hi0⟩ := Finite.exists_min η
  have hev : ∀ᶠ y in nhds x, (n : ℝ) ^ 3 * ‖y - x‖ < η i0 := by
    have : ContinuousAt (fun y => (n : ℝ) ^ 3 * ‖y - x‖) x := by fun_prop
    exact this.eventually (gt_mem_nhds (by simpa using hη0 i0))
  filter_upwards [hev] with y hy
  obtain ⟨hWW, hKe, hrem⟩ := remainder (hE x) (hE y) fn grad
  rw [← he] at hWW hKe hrem
  set U := vecs e with hU
  set V := vecs (eigh y) with hV
  set W := Uᵀ * V with hW
  set K := Uᵀ * symm (y - x) * U with hK
  have hUb : ∀ i j, |U i j| ≤ 1 := entry_le_one (hE x).tmul
  have hUtb : ∀ i j, |Uᵀ i j| ≤ 1 := fun i j => hUb j i
  have hVtb : ∀ i j, |Vᵀ i j| ≤ 1 := fun i j => entry_le_one (hE y).tmul j i
  have hWb : ∀ i j, |W i j| ≤ 1 := entry_le_one hWW
  have hKb : ∀ i j, |K i j| ≤ (n : ℝ) ^ 2 * ‖y - x‖ := by
    intro i j
    have h1 := mul_entry_le (mul_entry_le hUtb (symm_le (y - x)) zero_le_one) hUb (by positivity) i j
    refine h1.trans (le_of_eq ?_)
    ring
  have hKW : ∀ k j, |((eigh y).1 j - e.1 k) * W k j| ≤ (n : ℝ) ^ 3 * ‖y - x‖ := by
    intro k j
    rw [hKe]
    refine (mul_entry_le hKb hWb (by positivity) k j).trans (le_of_eq ?_)
    ring
  have hEb : ∀ i j, |(of fun i j => ∑ k, K i k *
      ((dd fn grad (e.1 i) ((eigh y).1 j) - dd fn grad (e.1 i) (e.1 k)) * W k j)) i j|
      ≤ n * ((n : ℝ) ^ 2 * ‖y - x‖ * ε) := by
    intro i j
    rw [of_apply]
    refine (Finset.abs_sum_le_sum_abs _ _).trans ?_
    calc _ ≤ ∑ _k : Fin n, (n : ℝ) ^ 2 * ‖y - x‖ * ε := Finset.sum_le_sum fun k _ => by
          rw [abs_mul]
          exact mul_le_mul (hKb i k) (hη1 i W _ _ hWW (hy.trans_le (hi0 i)) hKW k j) (abs_nonneg _) (by positivity)
      _ = _ := by simp
  have hF : ∀ i j, |eigenF fn (eigh y) i j - eigenF fn e i j - jvp fn grad e (y - x) i j| ≤ c * ‖y - x‖ := by
    intro i j
    have h1 := congrFun (congrFun hrem i) j
    have h2 : eigenF fn (eigh y) i j - eigenF fn e i j - jvp fn grad e (y - x) i j
      = (of (eigenF fn (eigh y)) - of (eigenF fn e) - of (jvp fn grad e (y - x))) i j := rfl
    rw [h2, h1]
    refine (mul_entry_le (mul_entry_le hUb hEb zero_le_one) hVtb (by positivity) i j).trans (le_of_eq ?_)
    rw [hεd]
    field_simp
  refine (pi_norm_le_iff_of_nonneg (by positivity)).2 fun i => (pi_norm_le_iff_of_nonneg (by positivity)).2 fun j => ?_
  exact hF i j

/-! ### `eigh` exists -/

theorem exists_eigh (x : Fin n → Fin n → ℝ) : ∃ evals evecs, IsEigh x evals evecs := by
  have hH : (symm x).IsHermitian := by
    rw [IsHermitian, conjTranspose_eq_transpose_of_trivial, symm_transpose]
  refine ⟨hH.eigenvalues, fun i a => hH.eigenvectorBasis a i, ?_, ?_⟩
  · intro a b
    have h1 := orthonormal_iff_ite.1 hH.eigenvectorBasis.orthonormal a b
    rw [← h1, PiLp.inner_apply]
    exact Finset.sum_congr rfl fun i _ => by simp [mul_comm]
  · intro i a
    have h1 := congrFun (hH.mulVec_eigenvectorBasis a) i
    exact h1

/-- The hypotheses can be met for every matrix, for instance for the zero matrix of order three with all eigenvalues
equal: there the derivative of `x² + x` along `v` is the symmetric part of `v`. -/
example (v : Fin 3 → Fin 3 → ℝ) :
    ∃ eigh : (Fin 3 → Fin 3 → ℝ) → (Fin 3 → ℝ) × (Fin 3 → Fin 3 → ℝ), (∀ x, IsEigh x (eigh x).1 (eigh x).2) ∧
      HasDerivAt (fun s : ℝ => eigenF (fun t => t ^ 2 + t) (eigh fun i j => s * v i j))
        (fun i j => (v i j + v j i) / 2) 0 := by
  choose evals evecs hE using fun x : Fin 3 → Fin 3 → ℝ => exists_eigh x
  refine ⟨fun x => (evals x, evecs x), hE, ?_⟩
  set e := (evals 0, evecs 0) with he
  have h0 : ∀ k, e.1 k = 0 := by
    intro k
    have h1 : ∀ i, e.1 k * e.2 i k = 0 := fun i => by
      have := (hE 0).eigen i k
      simp at this
      rcases this with h | h
      · rw [he]; simp [h]
      · rw [he]; simp [h]
    have h2 := (hE 0).orth k k
    rw [if_pos rfl] at h2
    have h3 : e.1 k * ∑ i, evecs 0 i k * evecs 0 i k = 0 := by
      rw [Finset.mul_sum]
      exact Finset.sum_eq_zero fun i _ => by rw [← mul_assoc]; rw [show e.1 k * evecs 0 i k = 0 from h1 i, zero_mul]
    rw [h2, mul_one] at h3
    exact h3
  have hd : ∀ t : ℝ, HasDerivAt (fun t : ℝ => t ^ 2 + t) (2 * t + 1) t := fun t => by
    simpa using (hasDerivAt_pow 2 t).fun_add (hasDerivAt_id t)
  obtain ⟨L, hL, hF⟩ := C86_jvp (fun t => t ^ 2 + t) (fun t => 2 * t + 1) (fun x => (evals x, evecs x)) hE 0
    fun k => hd _
  have hline : HasDerivAt (fun s : ℝ => (fun i j => s * v i j : Fin 3 → Fin 3 → ℝ)) v 0 :=
    hasDerivAt_pi.2 fun i => hasDerivAt_pi.2 fun j => by
      simpa using (hasDerivAt_id (0 : ℝ)).mul_const (v i j)
  have hz : (fun i j => (0 : ℝ) * v i j : Fin 3 → Fin 3 → ℝ) = 0 := by funext i j; simp
  have := HasFDerivAt.comp_hasDerivAt (0 : ℝ) (by rw [hz]; exact hF) hline
  refine this.congr_deriv ?_
  rw [hL]
  have hθ : (of fun a b => theta (fun t => t ^ 2 + t) (fun t => 2 * t + 1) e.1 a b
      * ((vecs e)ᵀ * symm v * vecs e) a b) = (vecs e)ᵀ * symm v * vecs e := by
    ext a b
    simp [theta, h0]
  have h1 := jvp_eq (fun t => t ^ 2 + t) (fun t => 2 * t + 1) e v
  rw [hθ] at h1
  have hm : vecs e * (vecs e)ᵀ = 1 := IsEigh.mult (hE 0)
  rw [← Matrix.mul_assoc, ← Matrix.mul_assoc, hm, Matrix.one_mul, Matrix.mul_assoc, hm, Matrix.mul_one] at h1
  funext i j
  exact congrFun (congrFun h1 i) j

end JaxFem.Eigen
