import Verif.Model.Plasticity
import Verif.Spec.Plasticity
import Mathlib.Tactic.Linarith
import Mathlib.Tactic.Module
import Mathlib.LinearAlgebra.Matrix.Symmetric
import Mathlib.Tactic.FieldSimp
import Mathlib.Tactic.LinearCombination
import Mathlib.Algebra.Order.BigOperators.Ring.Finset

/-!
# C54, C65: small-strain plasticity and phase changes
-/

namespace JaxFem
namespace Plasticity

open scoped BigOperators

variable {d : Nat}

/-! ### Helper lemmas -/

theorem inner_smul_left (k : ℝ) (a b : Matrix (Fin d) (Fin d) ℝ) : inner (k • a) b = k * inner a b := by
  simp only [inner, Matrix.smul_apply, smul_eq_mul, mul_assoc, Finset.mul_sum]

theorem inner_comm (a b : Matrix (Fin d) (Fin d) ℝ) : inner a b = inner b a := by
  simp only [inner, mul_comm]

theorem inner_add_right (a b c : Matrix (Fin d) (Fin d) ℝ) : inner a (b + c) = inner a b + inner a c := by
  simp only [inner, Matrix.add_apply, mul_add, Finset.sum_add_distrib]

theorem inner_smul_right (k : ℝ) (a b : Matrix (Fin d) (Fin d) ℝ) : inner a (k • b) = k * inner a b := by
  rw [inner_comm, inner_smul_left, inner_comm]

theorem inner_one (a : Matrix (Fin d) (Fin d) ℝ) : inner a 1 = a.trace := by
  unfold inner Matrix.trace
  refine Finset.sum_congr rfl fun i _ => ?_
  rw [Finset.sum_eq_single i]
  · simp
  · intro j _ hj
    rw [Matrix.one_apply_ne (fun h => hj h.symm), mul_zero]
  · intro h; exact absurd (Finset.mem_univ i) h

theorem inner_self_nonneg (a : Matrix (Fin d) (Fin d) ℝ) : 0 ≤ inner a a :=
  Finset.sum_nonneg fun _ _ => Finset.sum_nonneg fun _ _ => mul_self_nonneg _

theorem inner_cs (a b : Matrix (Fin d) (Fin d) ℝ) : inner a b ^ 2 ≤ inner a a * inner b b := by
  have h := Finset.sum_mul_sq_le_sq_mul_sq (Finset.univ : Finset (Fin d × Fin d)) (fun p => a p.1 p.2)
    (fun p => b p.1 p.2)
  rw [Fintype.sum_prod_type, Fintype.sum_prod_type, Fintype.sum_prod_type] at h
  simpa only [inner, sq] using h

theorem trace_one_d : (1 : Matrix (Fin d) (Fin d) ℝ).trace = d := by simp [Matrix.trace]

theorem sDev_eq (a : Matrix (Fin d) (Fin d) ℝ) : a = sDev a + (1 / (d : ℝ) * a.trace) • 1 := by
  ext i j
  simp [sDev]

theorem trace_sDev (a : Matrix (Fin d) (Fin d) ℝ) : (sDev a).trace = 0 := by
  have h := congrArg Matrix.trace (sDev_eq a)
  rw [Matrix.trace_add, Matrix.trace_smul, trace_one_d, smul_eq_mul] at h
  rcases Nat.eq_zero_or_pos d with rfl | hd
  · simp [Matrix.trace]
  · have hd' : (d : ℝ) ≠ 0 := by positivity
    have : 1 / (d : ℝ) * a.trace * d = a.trace := by field_simp
    linarith

theorem isDev_sDev (a : Matrix (Fin d) (Fin d) ℝ) : IsDev a (sDev a) := ⟨trace_sDev a, _, sDev_eq a⟩

theorem isDev_unique (a dev : Matrix (Fin d) (Fin d) ℝ) (h : IsDev a dev) : dev = sDev a := by
  obtain ⟨h0, c, hc⟩ := h
  rcases Nat.eq_zero_or_pos d with rfl | hd
  · ext i; exact i.elim0
  have hd' : (d : ℝ) ≠ 0 := by positivity
  have ht := congrArg Matrix.trace hc
  rw [Matrix.trace_add, Matrix.trace_smul, trace_one_d, smul_eq_mul, h0, zero_add] at ht
  have hcc : c = 1 / (d : ℝ) * a.trace := by rw [ht]; field_simp
  have := sDev_eq a
  rw [← hcc] at this
  exact add_right_cancel (hc.symm.trans this)

theorem admissible_iff (sig0 : ℝ) (a : Matrix (Fin d) (Fin d) ℝ) :
    Admissible sig0 a ↔ 3 / 2 * inner (sDev a) (sDev a) ≤ sig0 ^ 2 :=
  ⟨fun h => h _ (isDev_sDev a), fun h dev hd => isDev_unique a dev hd ▸ h⟩

theorem onYield_iff (sig0 : ℝ) (a : Matrix (Fin d) (Fin d) ℝ) :
    OnYield sig0 a ↔ 3 / 2 * inner (sDev a) (sDev a) = sig0 ^ 2 :=
  ⟨fun h => h _ (isDev_sDev a), fun h dev hd => isDev_unique a dev hd ▸ h⟩

theorem sNorm_nonneg (s : Matrix (Fin d) (Fin d) ℝ) : 0 ≤ sNorm s := by
  unfold sNorm safeSqrt
  split_ifs
  · exact Real.sqrt_nonneg _
  · exact le_refl _

theorem sNorm_sq (s : Matrix (Fin d) (Fin d) ℝ) : sNorm s ^ 2 = 3 / 2 * inner s s := by
  have h0 := inner_self_nonneg s
  have hi : (∑ i, ∑ j, s i j * s i j) = inner s s := rfl
  unfold sNorm safeSqrt
  rw [hi]
  split_ifs with h
  · exact Real.sq_sqrt (by linarith)
  · nlinarith

/-- Factor of the deviator that the return mapping removes. -/
noncomputable def retFactor (sig0 : ℝ) (sn : ℝ) : ℝ := if sig0 < sn then (sn - sig0) / sn else 0

theorem radialReturn_eq (sig0 : ℝ) (h0 : 0 ≤ sig0) (trial : Matrix (Fin d) (Fin d) ℝ) :
    trial = radialReturn sig0 trial + retFactor sig0 (sNorm (sDev trial)) • sDev trial := by
  ext i j
  rw [Matrix.add_apply, Matrix.smul_apply, smul_eq_mul]
  have e : radialReturn sig0 trial i j = trial i j - (if sNorm (sDev trial) = 0 then 0 else
      (if 0 < sNorm (sDev trial) - sig0 then sNorm (sDev trial) - sig0 else 0) * sDev trial i j /
        sNorm (sDev trial)) := rfl
  rw [e]
  unfold retFactor
  by_cases h : sig0 < sNorm (sDev trial)
  · rw [if_pos h, if_pos (sub_pos.2 h), if_neg (by linarith : ¬sNorm (sDev trial) = 0)]
    ring
  · rw [if_neg h, if_neg (fun h' => h (sub_pos.1 h'))]
    simp

theorem sDev_radialReturn (sig0 : ℝ) (h0 : 0 ≤ sig0) (trial : Matrix (Fin d) (Fin d) ℝ) :
    sDev (radialReturn sig0 trial) = (1 - retFactor sig0 (sNorm (sDev trial))) • sDev trial := by
  symm
  apply isDev_unique
  refine ⟨by rw [Matrix.trace_smul, trace_sDev, smul_zero], 1 / (d : ℝ) * trial.trace, ?_⟩
  have h1 := radialReturn_eq sig0 h0 trial
  have h2 := sDev_eq trial
  have h3 : radialReturn sig0 trial = trial - retFactor sig0 (sNorm (sDev trial)) • sDev trial :=
    eq_sub_of_add_eq h1.symm
  rw [h3, sub_smul, one_smul]
  nth_rw 1 [h2]
  abel

theorem strain_eq (g : Matrix (Fin d) (Fin d) ℝ) : strain g = symPart g := by
  ext i j
  simp [strain, symPart, Matrix.transpose_apply]

theorem stress_eq (E nu : ℝ) (e : Matrix (Fin d) (Fin d) ℝ) : stress E nu e = hooke (lmbdaOf E nu) (muOf E nu) e := by
  ext i j
  simp [stress, hooke]

theorem sigmaTrial_eq (E nu : ℝ) (g sig eps : Matrix (Fin d) (Fin d) ℝ) :
    sigmaTrial E nu g sig eps = hooke (lmbdaOf E nu) (muOf E nu) (symPart g - eps) + sig := by
  rw [← stress_eq, ← strain_eq]
  rfl

theorem retFactor_range (sig0 : ℝ) (h0 : 0 ≤ sig0) (sn : ℝ) :
    0 ≤ retFactor sig0 sn ∧ retFactor sig0 sn ≤ 1 := by
  unfold retFactor
  split_ifs with h
  · have : 0 < sn := by linarith
    exact ⟨div_nonneg (by linarith) this.le, (div_le_one this).2 (by linarith)⟩
  · exact ⟨le_refl _, zero_le_one⟩

/-! ### Property theorems: one return mapping -/

/-- **C54 (admissible).** The returned stress satisfies the yield condition, for every trial stress. -/
theorem C54_admissible (sig0 : ℝ) (h0 : 0 ≤ sig0) (trial : Matrix (Fin d) (Fin d) ℝ) :
    Admissible sig0 (radialReturn sig0 trial) := by
  rw [admissible_iff, sDev_radialReturn sig0 h0, inner_smul_left, inner_smul_right]
  have hs := sNorm_sq (sDev trial)
  have hn := sNorm_nonneg (sDev trial)
  have : 3 / 2 * ((1 - retFactor sig0 (sNorm (sDev trial))) * ((1 - retFactor sig0 (sNorm (sDev trial))) *
      inner (sDev trial) (sDev trial))) = ((1 - retFactor sig0 (sNorm (sDev trial))) * sNorm (sDev trial)) ^ 2 := by
    rw [mul_pow, hs]; ring
  rw [this]
  apply pow_le_pow_left₀
  · exact mul_nonneg (by linarith [(retFactor_range sig0 h0 (sNorm (sDev trial))).2]) hn
  · unfold retFactor
    split_ifs with h
    · have hne : sNorm (sDev trial) ≠ 0 := by linarith
      have : (1 - (sNorm (sDev trial) - sig0) / sNorm (sDev trial)) * sNorm (sDev trial) = sig0 := by
        field_simp; ring
      rw [this]
    · linarith

/-- **C54 (elastic).** An admissible trial stress is returned unchanged. -/
theorem C54_elastic (sig0 : ℝ) (h0 : 0 ≤ sig0) (trial : Matrix (Fin d) (Fin d) ℝ) (h : Admissible sig0 trial) :
    radialReturn sig0 trial = trial := by
  have h1 := radialReturn_eq sig0 h0 trial
  rw [admissible_iff, ← sNorm_sq] at h
  have : sNorm (sDev trial) ≤ sig0 := by
    by_contra hc
    push Not at hc
    nlinarith [sNorm_nonneg (sDev trial)]
  rw [retFactor, if_neg (not_lt.2 this), zero_smul, add_zero] at h1
  exact h1.symm

/-- **C54 (plastic).** A trial stress outside the yield surface is returned onto the surface. -/
theorem C54_plastic (sig0 : ℝ) (h0 : 0 ≤ sig0) (trial : Matrix (Fin d) (Fin d) ℝ) (h : ¬Admissible sig0 trial) :
    OnYield sig0 (radialReturn sig0 trial) := by
  rw [admissible_iff, ← sNorm_sq] at h
  have hlt : sig0 < sNorm (sDev trial) := by
    by_contra hc
    push Not at hc h
    nlinarith [sNorm_nonneg (sDev trial)]
  rw [onYield_iff, sDev_radialReturn sig0 h0, inner_smul_left, inner_smul_right, retFactor, if_pos hlt]
  have hs := sNorm_sq (sDev trial)
  have hne : sNorm (sDev trial) ≠ 0 := by linarith
  have h1 : 1 - (sNorm (sDev trial) - sig0) / sNorm (sDev trial) = sig0 / sNorm (sDev trial) := by
    field_simp; ring
  rw [h1]
  have : 3 / 2 * (sig0 / sNorm (sDev trial) * (sig0 / sNorm (sDev trial) * inner (sDev trial) (sDev trial))) =
      (sig0 / sNorm (sDev trial)) ^ 2 * (3 / 2 * inner (sDev trial) (sDev trial)) := by ring
  rw [this, ← hs]
  field_simp

/-- **C54 (volumetric).** The return mapping does not change the trace. -/
theorem C54_volumetric (sig0 : ℝ) (h0 : 0 ≤ sig0) (trial : Matrix (Fin d) (Fin d) ℝ) :
    (radialReturn sig0 trial).trace = trial.trace := by
  have h1 := congrArg Matrix.trace (radialReturn_eq sig0 h0 trial)
  rw [Matrix.trace_add, Matrix.trace_smul, trace_sDev, smul_zero, add_zero] at h1
  exact h1.symm

/-- **C54 (projection).** The returned stress is the closest admissible stress: the correction forms an obtuse
angle with every admissible variation (maximum dissipation). -/
theorem C54_projection (sig0 : ℝ) (h0 : 0 ≤ sig0) (trial tau : Matrix (Fin d) (Fin d) ℝ)
    (ht : Admissible sig0 tau) :
    inner (trial - radialReturn sig0 trial) (tau - radialReturn sig0 trial) ≤ 0 := by
  set k := retFactor sig0 (sNorm (sDev trial)) with hk
  have h1 := radialReturn_eq sig0 h0 trial
  rw [← hk] at h1
  have h2 : trial - radialReturn sig0 trial = k • sDev trial := by
    rw [sub_eq_iff_eq_add, add_comm]; exact h1
  have h3 : tau = sDev tau + (1 / (d : ℝ) * tau.trace) • 1 := sDev_eq tau
  have h4 : radialReturn sig0 trial = (1 - k) • sDev trial + (1 / (d : ℝ) * (radialReturn sig0 trial).trace) • 1 := by
    have := sDev_eq (radialReturn sig0 trial)
    rwa [sDev_radialReturn sig0 h0] at this
  have h5 : tau - radialReturn sig0 trial = sDev tau + ((-(1 - k)) • sDev trial +
      (1 / (d : ℝ) * tau.trace - 1 / (d : ℝ) * (radialReturn sig0 trial).trace) • 1) := by
    calc tau - radialReturn sig0 trial = (sDev tau + (1 / (d : ℝ) * tau.trace) • 1) -
          ((1 - k) • sDev trial + (1 / (d : ℝ) * (radialReturn sig0 trial).trace) • 1) := by rw [← h3, ← h4]
      _ = _ := by module
  rw [h2, h5, inner_smul_left, inner_add_right, inner_add_right, inner_smul_right, inner_smul_right, inner_one,
    trace_sDev]
  have hk0 := retFactor_range sig0 h0 (sNorm (sDev trial))
  rw [← hk] at hk0
  rw [admissible_iff] at ht
  by_cases hlt : sig0 < sNorm (sDev trial)
  · have hs := sNorm_sq (sDev trial)
    have hpos : 0 < sNorm (sDev trial) := by linarith
    have hkv : (1 - k) * sNorm (sDev trial) = sig0 := by
      rw [hk, retFactor, if_pos hlt]; field_simp; ring
    have hcs := inner_cs (sDev trial) (sDev tau)
    have hle : inner (sDev trial) (sDev tau) ≤ 2 / 3 * sNorm (sDev trial) * sig0 := by
      refine le_trans (le_abs_self _) (abs_le_of_sq_le_sq ?_ (by positivity))
      have h6 : inner (sDev trial) (sDev trial) * inner (sDev tau) (sDev tau) ≤
          inner (sDev trial) (sDev trial) * (2 / 3 * sig0 ^ 2) :=
        mul_le_mul_of_nonneg_left (by linarith) (inner_self_nonneg _)
      have h7 : inner (sDev trial) (sDev trial) = 2 / 3 * sNorm (sDev trial) ^ 2 := by linarith
      rw [h7] at h6 hcs
      nlinarith
    have hb : (1 - k) * inner (sDev trial) (sDev trial) = 2 / 3 * sNorm (sDev trial) * sig0 := by
      rw [← hkv]
      linear_combination (-2 / 3) * (1 - k) * hs
    nlinarith [hk0.1]
  · have : k = 0 := by rw [hk, retFactor, if_neg hlt]
    rw [this, zero_mul]

/-- **C54 (symmetry).** The return mapping of a symmetric stress is symmetric. -/
theorem C54_symmetric (sig0 : ℝ) (h0 : 0 ≤ sig0) (trial : Matrix (Fin d) (Fin d) ℝ) (h : trial.IsSymm) :
    (radialReturn sig0 trial).IsSymm := by
  have h1 := radialReturn_eq sig0 h0 trial
  have h2 : radialReturn sig0 trial = trial - retFactor sig0 (sNorm (sDev trial)) • sDev trial :=
    eq_sub_of_add_eq h1.symm
  have h3 : (sDev trial).IsSymm := by
    ext i j
    rw [Matrix.transpose_apply]
    simp only [sDev]
    rw [h.apply, Matrix.one_apply, Matrix.one_apply]
    simp only [eq_comm]
  rw [h2]
  exact h.sub (h3.smul _)

/-! ### Property theorems: histories -/

/-- **C54.** After any load history: the stored stress is admissible and symmetric, the stored strain is the
symmetric gradient of the last step, and the volumetric stress is the elastic one of the total strain,
whatever plastic flow happened. -/
theorem C54_history (E nu sig0 : ℝ) (h0 : 0 ≤ sig0) (grads : List (Matrix (Fin d) (Fin d) ℝ)) :
    Admissible sig0 (pHistory E nu sig0 grads).sig ∧ (pHistory E nu sig0 grads).sig.IsSymm ∧
    (pHistory E nu sig0 grads).eps = (grads.getLast?.map symPart).getD 0 ∧
    (pHistory E nu sig0 grads).sig.trace =
      (d * lmbdaOf E nu + 2 * muOf E nu) * (pHistory E nu sig0 grads).eps.trace := by
  induction grads using List.reverseRecOn with
  | nil =>
    refine ⟨?_, Matrix.isSymm_zero, rfl, by simp [pHistory, pInit]⟩
    rw [admissible_iff]
    have : sDev (0 : Matrix (Fin d) (Fin d) ℝ) = 0 := by ext i j; simp [sDev]
    simp only [pHistory, pInit, List.foldl_nil]
    rw [this]
    have : inner (0 : Matrix (Fin d) (Fin d) ℝ) 0 = 0 := by simp [inner]
    rw [this, mul_zero]
    positivity
  | append_singleton grads g ih =>
    obtain ⟨i1, i2, i3, i4⟩ := ih
    have e : pHistory E nu sig0 (grads ++ [g]) = pUpdate E nu sig0 (pHistory E nu sig0 grads) g := by
      rw [pHistory, List.foldl_append]; rfl
    have hsym : ∀ m : Matrix (Fin d) (Fin d) ℝ, (symPart m).IsSymm := by
      intro m
      ext i j
      simp only [symPart, Matrix.transpose_apply, Matrix.smul_apply, Matrix.add_apply, smul_eq_mul]
      ring
    have heps : (pHistory E nu sig0 grads).eps.IsSymm := by
      rw [i3]
      cases grads.getLast? with
      | none => exact Matrix.isSymm_zero
      | some m => exact hsym m
    rw [e]
    refine ⟨C54_admissible sig0 h0 _, C54_symmetric sig0 h0 _ ?_, ?_, ?_⟩
    · rw [sigmaTrial_eq]
      exact ((Matrix.isSymm_one.smul _).add (((hsym g).sub heps).smul _)).add i2
    · simp [pUpdate, strain_eq]
    · have h1 : (pUpdate E nu sig0 (pHistory E nu sig0 grads) g).sig.trace =
          (sigmaTrial E nu g (pHistory E nu sig0 grads).sig (pHistory E nu sig0 grads).eps).trace :=
        C54_volumetric sig0 h0 _
      rw [h1, sigmaTrial_eq, hooke, Matrix.trace_add, Matrix.trace_add, Matrix.trace_smul, Matrix.trace_smul,
        trace_one_d, i4]
      simp only [pUpdate, strain_eq, Matrix.trace_sub, smul_eq_mul]
      ring

/-- **C54 (path of elastic steps).** If every trial stress of the history is admissible, the stress is the
elastic one of the last strain. -/
theorem C54_elastic_history (E nu sig0 : ℝ) (h0 : 0 ≤ sig0) (grads : List (Matrix (Fin d) (Fin d) ℝ))
    (h : ∀ g ∈ grads, Admissible sig0 (hooke (lmbdaOf E nu) (muOf E nu) (symPart g))) :
    (pHistory E nu sig0 grads).sig = hooke (lmbdaOf E nu) (muOf E nu) (pHistory E nu sig0 grads).eps := by
  induction grads using List.reverseRecOn with
  | nil =>
    ext i j
    simp [pHistory, pInit, hooke]
  | append_singleton grads g ih =>
    have i1 := ih fun g' hg' => h g' (List.mem_append_left _ hg')
    have e : pHistory E nu sig0 (grads ++ [g]) = pUpdate E nu sig0 (pHistory E nu sig0 grads) g := by
      rw [pHistory, List.foldl_append]; rfl
    have ht : sigmaTrial E nu g (pHistory E nu sig0 grads).sig (pHistory E nu sig0 grads).eps =
        hooke (lmbdaOf E nu) (muOf E nu) (symPart g) := by
      rw [sigmaTrial_eq, i1]
      ext i j
      simp only [hooke, Matrix.add_apply, Matrix.smul_apply, Matrix.sub_apply, Matrix.trace_sub, smul_eq_mul]
      ring
    rw [e]
    show stressReturnMap E nu sig0 g _ _ = hooke _ _ (strain g)
    rw [stressReturnMap, ht, C54_elastic sig0 h0 _ (h g (by simp)), strain_eq]


/-! ### One step of a history, independent of the form of the return mapping -/

/-- The closest admissible stress is unique. -/
theorem isReturn_unique (sig0 : ℝ) (trial a b : Matrix (Fin d) (Fin d) ℝ) (ha : IsReturn sig0 trial a)
    (hb : IsReturn sig0 trial b) : a = b := by
  have h1 := ha.2 b hb.1
  have h2 := hb.2 a ha.1
  have e : inner (a - b) (a - b) = inner (trial - a) (b - a) + inner (trial - b) (a - b) := by
    simp only [inner, ← Finset.sum_add_distrib, Matrix.sub_apply]
    refine Finset.sum_congr rfl fun i _ => Finset.sum_congr rfl fun j _ => ?_
    ring
  have h0 : inner (a - b) (a - b) = 0 := le_antisymm (by linarith) (inner_self_nonneg _)
  unfold inner at h0
  ext i j
  have h3 := (Finset.sum_eq_zero_iff_of_nonneg fun i _ => Finset.sum_nonneg fun j _ =>
    mul_self_nonneg ((a - b) i j)).1 h0 i (Finset.mem_univ i)
  have h4 := (Finset.sum_eq_zero_iff_of_nonneg fun j _ => mul_self_nonneg ((a - b) i j)).1 h3 j (Finset.mem_univ j)
  exact sub_eq_zero.1 (mul_self_eq_zero.1 h4)

/-- **C54 (elastic constants).** The Lamé constants of the code belong to Young's modulus `E` and Poisson's
ratio `nu`: in three dimensions Hooke's law with them is the compliance relation. -/
theorem C54_moduli (E nu : ℝ) (h1 : 1 + nu ≠ 0) (h2 : 1 - 2 * nu ≠ 0) (eps : Matrix (Fin 3) (Fin 3) ℝ) :
    IsElastic3 E nu (stress E nu eps) eps := by
  have e : stress E nu eps = hooke (lmbdaOf E nu) (muOf E nu) eps := by
    ext i j
    simp [stress, hooke]
  rw [e, IsElastic3, hooke]
  ext i j
  simp only [Matrix.smul_apply, Matrix.sub_apply, Matrix.add_apply, Matrix.trace_add, Matrix.trace_smul,
    smul_eq_mul, trace_one_d, lmbdaOf, muOf]
  have h3 : (1 + nu) * (1 - 2 * nu) ≠ 0 := mul_ne_zero h1 h2
  have a1 : E * nu / ((1 + nu) * (1 - 2 * nu)) * ((1 + nu) * (1 - 2 * nu)) = E * nu := div_mul_cancel₀ _ h3
  have a2 : E / (2 * (1 + nu)) * (2 * (1 + nu)) = E := div_mul_cancel₀ _ (mul_ne_zero two_ne_zero h1)
  generalize E * nu / ((1 + nu) * (1 - 2 * nu)) = lam at *
  generalize E / (2 * (1 + nu)) = mu at *
  subst a2
  have a3 : lam * (1 - 2 * nu) = 2 * mu * nu := mul_left_cancel₀ h1 (by linear_combination a1)
  push_cast
  linear_combination (-(1 : Matrix (Fin 3) (Fin 3) ℝ) i j * eps.trace) * a3

/-- **C54 (step).** In every step of every load history the new stress is the closest admissible stress to the
old stress plus the elastic response to the strain increment. -/
theorem C54_step (E nu sig0 : ℝ) (h0 : 0 ≤ sig0) (grads : List (Matrix (Fin d) (Fin d) ℝ))
    (g : Matrix (Fin d) (Fin d) ℝ) :
    IsReturn sig0
      ((pHistory E nu sig0 grads).sig + stress E nu (symPart g - (grads.getLast?.map symPart).getD 0))
      (pHistory E nu sig0 (grads ++ [g])).sig := by
  have e : pHistory E nu sig0 (grads ++ [g]) = pUpdate E nu sig0 (pHistory E nu sig0 grads) g := by
    rw [pHistory, List.foldl_append]; rfl
  have ht : sigmaTrial E nu g (pHistory E nu sig0 grads).sig (pHistory E nu sig0 grads).eps =
      (pHistory E nu sig0 grads).sig + stress E nu (symPart g - (grads.getLast?.map symPart).getD 0) := by
    rw [← (C54_history E nu sig0 h0 grads).2.2.1, ← strain_eq]
    ext i j
    rw [Matrix.add_apply, add_comm]
    rfl
  rw [e, ← ht]
  exact ⟨C54_admissible sig0 h0 _, fun tau htau => C54_projection sig0 h0 _ tau htau⟩

/-! ### C65: the thermo-mechanical example -/

/-- **C65 (stress).** In the thermo-mechanical example the stored stress is admissible after any history of
temperatures and displacement gradients, whatever the phases. -/
theorem C65_admissible (E0 nu alphaV0 sig0 Tl : ℝ) (h0 : 0 ≤ sig0)
    (hist : List (ℝ × ℝ × Matrix (Fin d) (Fin d) ℝ)) :
    Admissible sig0 (hist.foldl (tUpdate E0 nu alphaV0 sig0 Tl) (tInit d)).sig := by
  induction hist using List.reverseRecOn with
  | nil => exact (C54_history 0 0 sig0 h0 []).1
  | append_singleton hist s _ =>
    rw [List.foldl_append]
    exact C54_admissible sig0 h0 _

/-- **C65 (phases).** For every temperature history starting from powder: the material is still powder
exactly if the melting temperature was never exceeded, and it is solid exactly if the temperature was below
the melting temperature at some time after having exceeded it. -/
theorem C65_phase {T : Type} [LinearOrder T] (Tl : T) (temps : List T) :
    (temps.foldl (updatePhase Tl) .powder = .powder ↔ ∀ t ∈ temps, t ≤ Tl) ∧
    (temps.foldl (updatePhase Tl) .powder = .solid ↔
      ∃ l1 l2 l3 hot cold, temps = l1 ++ hot :: (l2 ++ cold :: l3) ∧ Tl < hot ∧ cold < Tl) := by
  induction temps using List.reverseRecOn with
  | nil => simp
  | append_singleton temps t ih =>
    obtain ⟨i1, i2⟩ := ih
    rw [List.foldl_append, List.foldl_cons, List.foldl_nil]
    have hsplit : (∃ l1 l2 l3 hot cold, temps ++ [t] = l1 ++ hot :: (l2 ++ cold :: l3) ∧ Tl < hot ∧ cold < Tl) ↔
        (∃ l1 l2 l3 hot cold, temps = l1 ++ hot :: (l2 ++ cold :: l3) ∧ Tl < hot ∧ cold < Tl) ∨
        (t < Tl ∧ ∃ hot ∈ temps, Tl < hot) := by
      constructor
      · rintro ⟨l1, l2, l3, hot, cold, e, hh, hc⟩
        rcases List.eq_nil_or_concat l3 with rfl | ⟨l3', x, rfl⟩
        · right
          have e' : temps ++ [t] = (l1 ++ hot :: l2) ++ [cold] := by rw [e]; simp
          obtain ⟨e1, e2⟩ := List.append_inj' e' rfl
          cases e2
          exact ⟨hc, hot, by rw [e1]; simp, hh⟩
        · left
          have e' : temps ++ [t] = (l1 ++ hot :: (l2 ++ cold :: l3')) ++ [x] := by rw [e]; simp
          obtain ⟨e1, _⟩ := List.append_inj' e' rfl
          exact ⟨l1, l2, l3', hot, cold, e1, hh, hc⟩
      · rintro (⟨l1, l2, l3, hot, cold, e, hh, hc⟩ | ⟨ht, hot, hm, hh⟩)
        · exact ⟨l1, l2, l3 ++ [t], hot, cold, by rw [e]; simp, hh, hc⟩
        · obtain ⟨l1, l2, rfl⟩ := List.append_of_mem hm
          exact ⟨l1, l2, [], hot, t, by simp, hh, ht⟩
    have hall : (∀ x ∈ temps ++ [t], x ≤ Tl) ↔ (∀ x ∈ temps, x ≤ Tl) ∧ t ≤ Tl := by
      simp only [List.mem_append, List.mem_singleton]
      constructor
      · exact fun h => ⟨fun x hx => h x (Or.inl hx), h t (Or.inr rfl)⟩
      · rintro ⟨h1, h2⟩ x (hx | rfl)
        · exact h1 x hx
        · exact h2
    have hany : (∃ hot ∈ temps, Tl < hot) ↔ ¬∀ x ∈ temps, x ≤ Tl := by
      push Not; rfl
    rw [hsplit, hall, hany, ← i1, ← i2]
    generalize temps.foldl (updatePhase Tl) Phase.powder = ph
    unfold updatePhase
    cases ph <;> by_cases h1 : Tl < t <;> by_cases h2 : t < Tl <;>
      simp [h1, h2, not_le.2, not_lt.1]

theorem tHistory_phase (E0 nu alphaV0 sig0 Tl : ℝ) (hist : List (ℝ × ℝ × Matrix (Fin d) (Fin d) ℝ)) :
    (hist.foldl (tUpdate E0 nu alphaV0 sig0 Tl) (tInit d)).phase =
      (hist.map fun s => s.2.1).foldl (updatePhase Tl) .powder := by
  induction hist using List.reverseRecOn with
  | nil => rfl
  | append_singleton hist s ih =>
    rw [List.foldl_append, List.map_append, List.foldl_append]
    show updatePhase Tl _ _ = updatePhase Tl _ _
    rw [ih]

/-- **C65 (material response).** In every step of every history: the material is solid exactly if its
temperature history including the current temperature has exceeded and then undershot the melting temperature;
it then has modulus `E0` and thermal strain `alphaV0 dT`, otherwise modulus `E0/100` and no thermal strain; the new
stress is the closest admissible stress to the old stress plus the elastic response to the increment of strain
less thermal strain, and the new stored strain is the symmetric displacement gradient. -/
theorem C65_response (E0 nu alphaV0 sig0 Tl : ℝ) (h0 : 0 ≤ sig0)
    (hist : List (ℝ × ℝ × Matrix (Fin d) (Fin d) ℝ)) (dT T : ℝ) (g : Matrix (Fin d) (Fin d) ℝ) (E alpha : ℝ)
    (hsolid : Solidified Tl ((hist.map fun s => s.2.1) ++ [T]) → E = E0 ∧ alpha = alphaV0)
    (hother : ¬Solidified Tl ((hist.map fun s => s.2.1) ++ [T]) → E = E0 / 100 ∧ alpha = 0) :
    IsReturn sig0
      ((hist.foldl (tUpdate E0 nu alphaV0 sig0 Tl) (tInit d)).sig +
        stress E nu (symPart g - (hist.getLast?.map fun s => symPart s.2.2).getD 0 - (alpha * dT) • 1))
      ((hist ++ [(dT, T, g)]).foldl (tUpdate E0 nu alphaV0 sig0 Tl) (tInit d)).sig := by
  have hph := tHistory_phase E0 nu alphaV0 sig0 Tl (hist ++ [(dT, T, g)])
  rw [List.map_append, List.map_cons, List.map_nil] at hph
  have hs := (C65_phase Tl ((hist.map fun s => s.2.1) ++ [T])).2
  rw [← hph] at hs
  have heps : (hist.foldl (tUpdate E0 nu alphaV0 sig0 Tl) (tInit d)).eps =
      (hist.getLast?.map fun s => symPart s.2.2).getD 0 := by
    rcases List.eq_nil_or_concat hist with rfl | ⟨l, x, rfl⟩
    · rfl
    · rw [List.concat_eq_append, List.foldl_append]
      simp [tUpdate, strain_eq]
  rw [List.foldl_append, List.foldl_cons, List.foldl_nil] at hs ⊢
  set s := hist.foldl (tUpdate E0 nu alphaV0 sig0 Tl) (tInit d) with hsdef
  have hp : (tUpdate E0 nu alphaV0 sig0 Tl s (dT, T, g)).phase = updatePhase Tl s.phase T := rfl
  rw [hp] at hs
  have hE : (if updatePhase Tl s.phase T = .solid then E0 else 1 / 100 * E0) = E ∧
      (if updatePhase Tl s.phase T = .solid then alphaV0 else 0) = alpha := by
    by_cases hc : updatePhase Tl s.phase T = .solid
    · obtain ⟨e1, e2⟩ := hsolid (hs.1 hc)
      rw [if_pos hc, if_pos hc]; exact ⟨e1.symm, e2.symm⟩
    · obtain ⟨e1, e2⟩ := hother (fun h => hc (hs.2 h))
      rw [if_neg hc, if_neg hc, e1, e2]; exact ⟨by ring, rfl⟩
  have ht : (tUpdate E0 nu alphaV0 sig0 Tl s (dT, T, g)).sig = radialReturn sig0 (s.sig + stress E nu (symPart g -
      (hist.getLast?.map fun s => symPart s.2.2).getD 0 - (alpha * dT) • 1)) := by
    show thermalReturnMap E0 nu alphaV0 sig0 g s.sig s.eps dT (updatePhase Tl s.phase T) = _
    unfold thermalReturnMap
    simp only
    rw [hE.1, hE.2, heps, strain_eq]
    congr 1
    ext i j
    rw [Matrix.add_apply, add_comm]
    rfl
  rw [ht]
  exact ⟨C54_admissible sig0 h0 _, fun tau htau => C54_projection sig0 h0 _ tau htau⟩

/-- Uniaxial stress beyond yield is returned to the yield surface and differs from the trial stress. -/
example : ¬Admissible (d := 3) 1 (Matrix.diagonal ![3, 0, 0]) := by
  rw [admissible_iff]
  simp [inner, sDev, Fin.sum_univ_succ, Matrix.trace, Matrix.diagonal]
  norm_num

example : [1, 5, 3, 7].foldl (updatePhase 4) Phase.powder = .solid ∧
    [1, 2, 3].foldl (updatePhase 4) Phase.powder = .powder ∧ [1, 5, 4].foldl (updatePhase 4) Phase.powder = .liquid := by
  decide

end Plasticity
end JaxFem
