import Verif.Thm.C89_Lattice
import Verif.Thm.C89_Newton

/-!
C89: the equations of a time step.
-/

namespace JaxFem.Crystal

open Matrix

variable {ns : Nat}

/-! ## Helper lemmas -/

theorem sgn_mul_self (x : ℝ) : x * sgn x = |x| := by
  unfold sgn
  rcases lt_trichotomy x 0 with h | h | h
  · rw [if_neg (by linarith), if_pos h, abs_of_neg h]; ring
  · rw [h]; simp
  · rw [if_pos h, abs_of_pos h]; ring

theorem abs_sgn (x : ℝ) (h : x ≠ 0) : |sgn x| = 1 := by
  unfold sgn
  rcases lt_or_gt_of_ne h with h | h
  · rw [if_neg (by linarith), if_pos h]; simp
  · rw [if_pos h]; simp

theorem sgn_zero : sgn 0 = 0 := by simp [sgn]

theorem sgn_neg (x : ℝ) : sgn (-x) = -sgn x := by
  unfold sgn
  rcases lt_trichotomy x 0 with h | h | h
  · rw [if_pos (by linarith), if_neg (by linarith), if_pos h, neg_neg]
  · rw [h]; simp
  · rw [if_neg (by linarith), if_pos (by linarith), if_pos h]

/-- Power law: the code's formula is the only number with the given modulus and direction. -/
theorem flow_iff (c e t g x : ℝ) (hc : 0 ≤ c) (he : e ≠ 0) :
    (|x| = c * |t| ^ e / |g| ^ e ∧ 0 ≤ x * t) ↔ x = c * |t / g| ^ e * sgn t := by
  have hd : |t / g| ^ e = |t| ^ e / |g| ^ e := by rw [abs_div, Real.div_rpow (abs_nonneg _) (abs_nonneg _)]
  rw [hd]
  have hn : 0 ≤ |t| ^ e / |g| ^ e := div_nonneg (Real.rpow_nonneg (abs_nonneg _) _) (Real.rpow_nonneg (abs_nonneg _) _)
  by_cases ht : t = 0
  · rw [ht, sgn_zero, abs_zero, Real.zero_rpow he]
    simp
  · rw [mul_div_assoc]
    constructor
    · rintro ⟨h1, h2⟩
      rw [← h1]
      rcases lt_or_gt_of_ne ht with h | h
      · have : x ≤ 0 := by
          by_contra hx
          have := mul_neg_of_pos_of_neg (not_le.1 hx) h
          linarith
        rw [abs_of_nonpos this, sgn, if_neg (by linarith), if_pos h]
        ring
      · have : 0 ≤ x := by
          by_contra hx
          have := mul_neg_of_neg_of_pos (not_le.1 hx) h
          linarith
        rw [abs_of_nonneg this, sgn, if_pos h]
        ring
    · intro h
      rw [h]
      refine ⟨?_, ?_⟩
      · rw [abs_mul, abs_sgn t ht, mul_one, abs_of_nonneg (mul_nonneg hc hn)]
      · rw [mul_assoc, mul_comm (sgn t), sgn_mul_self]
        exact mul_nonneg (mul_nonneg hc hn) (abs_nonneg _)

/-- Frobenius product. -/
theorem inner_trace (A B : Matrix (Fin 3) (Fin 3) ℝ) : ∑ i, ∑ j, A i j * B i j = (A.transpose * B).trace := by
  simp only [Matrix.trace, Matrix.diag, Matrix.mul_apply, Matrix.transpose_apply]
  rw [Finset.sum_comm]

theorem inner_conj {Q : Matrix (Fin 3) (Fin 3) ℝ} (h : Q.transpose * Q = 1) (A B : Matrix (Fin 3) (Fin 3) ℝ) :
    ∑ i, ∑ j, (Q * A * Q.transpose) i j * (Q * B * Q.transpose) i j = ∑ i, ∑ j, A i j * B i j := by
  rw [inner_trace, inner_trace]
  have : (Q * A * Q.transpose).transpose * (Q * B * Q.transpose) = Q * (A.transpose * B) * Q.transpose := by
    simp only [Matrix.transpose_mul, Matrix.transpose_transpose, Matrix.mul_assoc]
    rw [← Matrix.mul_assoc Q.transpose Q, h, Matrix.one_mul]
  rw [this, Matrix.trace_mul_comm, ← Matrix.mul_assoc, h, Matrix.one_mul]

theorem tau_eq (m : Material ns) (R S : M3) (a : Fin ns) :
    tau m R S a = ∑ i, ∑ j, Matrix.of S i j * (Matrix.of R * Matrix.of (m.schmid a) * (Matrix.of R).transpose) i j := by
  unfold tau
  rw [← rotate2_eq]
  rfl

theorem plasticInc_eq (m : Material ns) (dt : ℝ) (iv : Internal ns) (S : M3) :
    Matrix.of (plasticInc m dt iv S)
      = ∑ a, gammaInc m dt iv S a • (Matrix.of iv.rot * Matrix.of (m.schmid a) * (Matrix.of iv.rot).transpose) := by
  ext i j
  rw [Matrix.sum_apply]
  show ∑ a, gammaInc m dt iv S a * rotate2 iv.rot (m.schmid a) i j = _
  refine Finset.sum_congr rfl fun a _ => ?_
  rw [← rotate2_eq]
  rfl

/-- The residual as a matrix. -/
theorem residual_eq (m : Material ns) (dt : ℝ) (iv : Internal ns) (G S : M3) (i j : Fin 3) :
    implicitResidual m dt iv G S i j
      = S i j - ∑ k, ∑ l, rotate4 iv.rot m.C i j k l * green (elasticF m dt iv G S) k l := by
  unfold implicitResidual green
  simp only [Matrix.smul_apply, smul_eq_mul, mul_assoc]

theorem green_symm (Fe : Matrix (Fin 3) (Fin 3) ℝ) : (green Fe).transpose = green Fe := by
  unfold green
  rw [Matrix.transpose_smul, Matrix.transpose_sub, Matrix.transpose_mul, Matrix.transpose_transpose, Matrix.transpose_one]

theorem residual_zero (m : Material ns) (C11 C12 C44 dt : ℝ) (hC : m.C = elasticTensor C11 C12 C44) (iv : Internal ns) (G S : M3) :
    implicitResidual m dt iv G S = 0 ↔ Matrix.of S
      = Matrix.of iv.rot * cubicStress C11 C12 C44 ((Matrix.of iv.rot).transpose * green (elasticF m dt iv G S) * Matrix.of iv.rot)
        * (Matrix.of iv.rot).transpose := by
  constructor
  · intro h
    ext i j
    have := congrFun (congrFun h i) j
    rw [residual_eq, hC, rotate_cubic _ _ _ _ _ (green_symm _)] at this
    exact sub_eq_zero.1 this
  · intro h
    funext i j
    rw [residual_eq, hC, rotate_cubic _ _ _ _ _ (green_symm _), ← h]
    exact sub_self _

theorem schmid_outer (R : Matrix (Fin 3) (Fin 3) ℝ) (d n : Fin 3 → ℝ) :
    R * Matrix.of (fun i j => d i * n j) * R.transpose = vecMulVec (R *ᵥ d) (R *ᵥ n) := by
  ext i j
  simp only [Matrix.mul_apply, Matrix.of_apply, Matrix.transpose_apply, vecMulVec_apply, Matrix.mulVec, dotProduct,
    Fin.sum_univ_three]
  ring

theorem inner_outer (S : Matrix (Fin 3) (Fin 3) ℝ) (u v : Fin 3 → ℝ) :
    ∑ i, ∑ j, S i j * vecMulVec u v i j = u ⬝ᵥ (S *ᵥ v) := by
  simp only [vecMulVec_apply, Matrix.mulVec, dotProduct, Fin.sum_univ_three]
  ring

theorem conj_iff {R : Matrix (Fin 3) (Fin 3) ℝ} (hR : IsRotation R) (S X : Matrix (Fin 3) (Fin 3) ℝ) :
    R.transpose * S * R = X ↔ S = R * X * R.transpose := by
  have hR2 := (Hyper.rotation_inv hR).2
  constructor
  · rintro rfl
    simp only [Matrix.mul_assoc, hR2, Matrix.mul_one]
    rw [← Matrix.mul_assoc, hR2, Matrix.one_mul]
  · rintro rfl
    simp only [Matrix.mul_assoc, hR.1, Matrix.mul_one]
    rw [← Matrix.mul_assoc, hR.1, Matrix.one_mul]

/-! ## Property theorems -/

/-- **C89 (equations).** For slip systems given by directions and normals and a cubic crystal, a stress at which the residual of the
code vanishes, with the slips and the plastic deformation computed from it, solves the equations of the time step, and every solution
arises in this way. -/
theorem C89_equations (m : Material ns) (d n : Fin ns → Fin 3 → ℝ) (C11 C12 C44 dt : ℝ)
    (hs : ∀ a i j, m.schmid a i j = d a i * n a j) (hC : m.C = elasticTensor C11 C12 C44) (hr : 0 ≤ m.ao * dt) (hx : m.xm ≠ 0)
    (iv : Internal ns) (hR : IsRotation (Matrix.of iv.rot)) (G : M3) (S A' : Matrix (Fin 3) (Fin 3) ℝ) (γ : Fin ns → ℝ) :
    StepEquations (1 + Matrix.of G) (Matrix.of iv.FpInv) (Matrix.of iv.rot) iv.resistance d n C11 C12 C44 m.ao (1 / m.xm) dt S γ A'
      ↔ implicitResidual m dt iv G (fun i j => S i j) = 0 ∧ γ = gammaInc m dt iv (fun i j => S i j)
        ∧ A' = fpInvNew m dt iv fun i j => S i j := by
  set R := Matrix.of iv.rot with hRd
  have hsm : ∀ a, R * Matrix.of (m.schmid a) * R.transpose = vecMulVec (R *ᵥ d a) (R *ᵥ n a) := by
    intro a
    rw [← schmid_outer]
    congr 2
    ext i j
    exact hs a i j
  have ht : ∀ a, tau m iv.rot (fun i j => S i j) a = (R *ᵥ d a) ⬝ᵥ (S *ᵥ (R *ᵥ n a)) := by
    intro a
    rw [tau_eq, hsm, ← inner_outer]
    rfl
  have hflow : (∀ a, |γ a| = m.ao * dt * |(R *ᵥ d a) ⬝ᵥ (S *ᵥ (R *ᵥ n a))| ^ (1 / m.xm) / |iv.resistance a| ^ (1 / m.xm)
      ∧ 0 ≤ γ a * ((R *ᵥ d a) ⬝ᵥ (S *ᵥ (R *ᵥ n a)))) ↔ γ = gammaInc m dt iv fun i j => S i j := by
    constructor
    · intro h
      funext a
      rw [(flow_iff _ _ _ _ _ hr (one_div_ne_zero hx)).1 (h a)]
      simp only [gammaInc, ht]
    · intro h a
      rw [flow_iff _ _ _ _ _ hr (one_div_ne_zero hx), h]
      simp only [gammaInc, ht]
  have hpl : ∀ γ', γ' = gammaInc m dt iv (fun i j => S i j) →
      Matrix.of iv.FpInv - ∑ a, γ' a • (Matrix.of iv.FpInv * vecMulVec (R *ᵥ d a) (R *ᵥ n a)) = fpInvNew m dt iv fun i j => S i j := by
    intro γ' h
    unfold fpInvNew
    rw [plasticInc_eq, h, Matrix.mul_sub, Matrix.mul_one, Matrix.mul_sum]
    simp only [Matrix.mul_smul, ← hRd, hsm]
  have hel : ∀ A'', A'' = fpInvNew m dt iv (fun i j => S i j) →
      (R.transpose * S * R = cubicStress C11 C12 C44 (R.transpose * green ((1 + Matrix.of G) * A'') * R)
        ↔ implicitResidual m dt iv G (fun i j => S i j) = 0) := by
    intro A'' h
    rw [residual_zero m C11 C12 C44 dt hC, ← hRd]
    have e : (1 + Matrix.of G) * A'' = elasticF m dt iv G fun i j => S i j := by
      rw [h, elasticF, defGrad, add_comm]
    rw [e]
    have eS : Matrix.of (fun i j => S i j) = S := rfl
    rw [eS]
    exact conj_iff hR S _
  constructor
  · rintro ⟨h1, h2, h3⟩
    have hg := hflow.1 h1
    have hA := h2.trans (hpl γ hg)
    exact ⟨(hel A' hA).1 h3, hg, hA⟩
  · rintro ⟨h1, h2, h3⟩
    exact ⟨hflow.2 h2, h3.trans (hpl γ h2).symm, (hel A' h3).2 h1⟩

/-- **C89 (slip and hardening).** Slip never works against the resolved shear stress. When all systems harden alike, the resistances of
all systems stay equal; they change by `h |1 - g/g_s|^a` times the total slip, upwards below the saturation value, downwards above. -/
theorem C89_slip (m : Material ns) (dt : ℝ) (iv : Internal ns) (S : M3) (hr : 0 ≤ m.ao * dt) :
    (∀ a, 0 ≤ tau m iv.rot S a * gammaInc m dt iv S a)
    ∧ (∀ a, 0 < m.ao * dt → iv.resistance a ≠ 0 → (gammaInc m dt iv S a = 0 ↔ tau m iv.rot S a = 0))
    ∧ ((∀ a b, m.q a b = 1) → ∀ g, (∀ a, iv.resistance a = g) → ∀ a,
      (update m dt iv S).resistance a = g + m.h * |1 - g / m.tSat| ^ m.gssA * sgn (1 - g / m.tSat) * ∑ b, |gammaInc m dt iv S b|
      ∧ (0 ≤ m.h → 0 < m.tSat → g ≤ m.tSat → g ≤ (update m dt iv S).resistance a)
      ∧ (0 ≤ m.h → 0 < m.tSat → m.tSat ≤ g → (update m dt iv S).resistance a ≤ g))
    ∧ (∀ a, (update m dt iv S).slip a = iv.slip a + gammaInc m dt iv S a)
    ∧ (update m dt iv S).rot = iv.rot := by
  have hn : ∀ x e : ℝ, 0 ≤ |x| ^ e := fun x e => Real.rpow_nonneg (abs_nonneg _) _
  refine ⟨fun a => ?_, fun a hp hg => ?_, fun hq g hg a => ?_, fun a => rfl, rfl⟩
  · unfold gammaInc
    rw [mul_comm, mul_assoc, mul_comm (sgn _), sgn_mul_self]
    exact mul_nonneg (mul_nonneg hr (hn _ _)) (abs_nonneg _)
  · unfold gammaInc
    constructor
    · intro h
      by_contra ht
      have h1 : sgn (tau m iv.rot S a) ≠ 0 := by
        intro h0
        have := abs_sgn _ ht
        rw [h0, abs_zero] at this
        exact zero_ne_one this
      have h2 : 0 < |tau m iv.rot S a / iv.resistance a| ^ (1 / m.xm) :=
        Real.rpow_pos_of_pos (abs_pos.2 (div_ne_zero ht hg)) _
      exact (mul_ne_zero (mul_pos hp h2).ne' h1) h
    · intro h
      rw [h, sgn_zero, mul_zero]
  · have e : (update m dt iv S).resistance a
        = g + m.h * |1 - g / m.tSat| ^ m.gssA * sgn (1 - g / m.tSat) * ∑ b, |gammaInc m dt iv S b| := by
      show iv.resistance a + gInc m dt iv S a = _
      unfold gInc
      rw [hg, Finset.mul_sum]
      congr 1
      refine Finset.sum_congr rfl fun b _ => ?_
      rw [hq, hg]
      ring
    have hsum : 0 ≤ ∑ b, |gammaInc m dt iv S b| := Finset.sum_nonneg fun b _ => abs_nonneg _
    refine ⟨e, fun h0 ht hle => ?_, fun h0 ht hle => ?_⟩
    · rw [e]
      have : 0 ≤ sgn (1 - g / m.tSat) := by
        unfold sgn
        have : 0 ≤ 1 - g / m.tSat := by rw [sub_nonneg, div_le_one ht]; exact hle
        split_ifs <;> linarith
      have := mul_nonneg (mul_nonneg (mul_nonneg h0 (hn (1 - g / m.tSat) m.gssA)) this) hsum
      linarith
    · rw [e]
      have : 0 ≤ -sgn (1 - g / m.tSat) := by
        unfold sgn
        have : 1 - g / m.tSat ≤ 0 := by rw [sub_nonpos, one_le_div ht]; exact hle
        split_ifs <;> linarith
      have := mul_nonneg (mul_nonneg (mul_nonneg h0 (hn (1 - g / m.tSat) m.gssA)) this) hsum
      linarith

/-- The scripts: all systems harden alike. -/
example (dt : ℝ) (hdt : 0 ≤ dt) (R S : M3) (a : Fin 12) : gssInitial ≤ (update fcc dt (initial 12 R) S).resistance a :=
  ((C89_slip fcc dt (initial 12 R) S (mul_nonneg (by norm_num [fcc]) hdt)).2.2.1 fcc_q gssInitial (fun _ => rfl) a).2.1
    (by norm_num [fcc]) (by norm_num [fcc]) (by norm_num [fcc, gssInitial])

/-! ## Plastic volume change -/

theorem det_one_sub (L : Matrix (Fin 3) (Fin 3) ℝ) (h : L.trace = 0) :
    (1 - L).det = 1 - (L * L).trace / 2 - L.det := by
  have h' : L 0 0 + L 1 1 + L 2 2 = 0 := by
    rw [← h, Matrix.trace, Fin.sum_univ_three]
    rfl
  have h2 : L 2 2 = -(L 0 0) - L 1 1 := by linarith
  rw [Matrix.det_fin_three, Matrix.det_fin_three]
  simp only [Matrix.trace, Matrix.diag, Matrix.mul_apply, Fin.sum_univ_three, Matrix.sub_apply, Matrix.one_apply]
  simp only [h2]
  simp
  ring

theorem trace_plasticInc (m : Material ns) (dt : ℝ) (iv : Internal ns) (hR : IsRotation (Matrix.of iv.rot))
    (hs : ∀ a, (Matrix.of (m.schmid a)).trace = 0) (S : M3) : (Matrix.of (plasticInc m dt iv S)).trace = 0 := by
  rw [plasticInc_eq, Matrix.trace_sum]
  refine Finset.sum_eq_zero fun a _ => ?_
  rw [Matrix.trace_smul, Matrix.trace_mul_comm, ← Matrix.mul_assoc, hR.1, Matrix.one_mul, hs, smul_zero]

/-- The stress of uniaxial tension along the third axis. -/
def uniaxial (s : ℝ) : M3 := fun i j => if i = 2 ∧ j = 2 then s else 0

theorem uniaxial_table : ∀ i j : Fin 3,
    ∑ a : Fin 12, (rawDirection slipTable a 2 * rawNormal slipTable a 2) * (rawDirection slipTable a i * rawNormal slipTable a j)
      = if i = j then (if i = 2 then 8 else -4) else 0 := by
  decide +kernel

theorem table_small : ∀ a : Fin 12, rawDirection slipTable a 2 * rawNormal slipTable a 2 = 1
    ∨ rawDirection slipTable a 2 * rawNormal slipTable a 2 = -1 ∨ rawDirection slipTable a 2 * rawNormal slipTable a 2 = 0 := by
  decide +kernel

/-- Slips in uniaxial tension of a crystal in standard orientation. -/
theorem uniaxial_slip (dt s : ℝ) (hs : 0 < s) (a : Fin 12) :
    gammaInc fcc dt (initial 12 fun i j => if i = j then 1 else 0) (uniaxial s) a
      = (0.001 * dt * |s * (1 / (Real.sqrt 2 * Real.sqrt 3)) / 60.8| ^ (1 / 0.1 : ℝ))
        * (rawDirection slipTable a 2 * rawNormal slipTable a 2 : ℤ) := by
  have hk : 0 < 1 / (Real.sqrt 2 * Real.sqrt 3) := by positivity
  set k := 1 / (Real.sqrt 2 * Real.sqrt 3) with hkd
  have ht : tau fcc (fun i j => if i = j then 1 else 0) (uniaxial s) a
      = s * k * (rawDirection slipTable a 2 * rawNormal slipTable a 2 : ℤ) := by
    have h1 : Matrix.of (fun i j : Fin 3 => if i = j then (1 : ℝ) else 0) = 1 := by
      ext i j; simp [Matrix.one_apply]
    rw [tau_eq, h1, Matrix.transpose_one, Matrix.mul_one, Matrix.one_mul]
    show ∑ i, ∑ j, uniaxial s i j * schmid slipTable a i j = _
    simp only [schmid_fcc, ← hkd]
    simp [Fin.sum_univ_three, uniaxial]
    ring
  show 0.001 * dt * |tau fcc (fun i j => if i = j then 1 else 0) (uniaxial s) a / 60.8| ^ (1 / 0.1 : ℝ)
    * sgn (tau fcc (fun i j => if i = j then 1 else 0) (uniaxial s) a) = _
  rw [ht]
  have hp : 0 < s * k := mul_pos hs hk
  rcases table_small a with h | h | h
  · rw [h]
    simp only [Int.cast_one, mul_one]
    rw [sgn, if_pos hp, mul_one]
  · rw [h]
    simp only [Int.cast_neg, Int.cast_one, mul_neg, mul_one]
    rw [sgn_neg, sgn, if_pos hp, neg_div, abs_neg]
    ring
  · rw [h]
    simp [sgn_zero]

/-- **C89 (plastic volume).** The plastic velocity gradient has no trace, and the determinant of the (inverse) plastic deformation
changes by the factor `1 - tr(L²)/2 - det L` in a step; slip on a single system preserves it. -/
theorem C89_volume (m : Material ns) (dt : ℝ) (iv : Internal ns) (hR : IsRotation (Matrix.of iv.rot))
    (d n : Fin ns → Fin 3 → ℝ) (hs : ∀ a i j, m.schmid a i j = d a i * n a j) (hdn : ∀ a, d a ⬝ᵥ n a = 0) (S : M3) :
    (fpInvNew m dt iv S).det = (Matrix.of iv.FpInv).det
        * (1 - (Matrix.of (plasticInc m dt iv S) * Matrix.of (plasticInc m dt iv S)).trace / 2
          - (Matrix.of (plasticInc m dt iv S)).det)
    ∧ (∀ a, (∀ b, b ≠ a → gammaInc m dt iv S b = 0) → (fpInvNew m dt iv S).det = (Matrix.of iv.FpInv).det) := by
  have htr : ∀ a, (Matrix.of (m.schmid a)).trace = 0 := by
    intro a
    rw [← hdn a]
    exact Finset.sum_congr rfl fun i _ => hs a i i
  refine ⟨?_, fun a ha => ?_⟩
  · unfold fpInvNew
    rw [Matrix.det_mul, det_one_sub _ (trace_plasticInc m dt iv hR htr S)]
  · unfold fpInvNew
    rw [Matrix.det_mul, det_one_sub _ (trace_plasticInc m dt iv hR htr S)]
    have e : Matrix.of (plasticInc m dt iv S)
        = gammaInc m dt iv S a • vecMulVec (Matrix.of iv.rot *ᵥ d a) (Matrix.of iv.rot *ᵥ n a) := by
      rw [plasticInc_eq, Finset.sum_eq_single a]
      · rw [← schmid_outer]
        congr 3
        ext i j
        exact hs a i j
      · intro b _ hb
        rw [ha b hb, zero_smul]
      · intro h; exact absurd (Finset.mem_univ a) h
    have ho : (Matrix.of iv.rot *ᵥ d a) ⬝ᵥ (Matrix.of iv.rot *ᵥ n a) = 0 := by
      rw [Matrix.dotProduct_mulVec, Matrix.vecMul_mulVec, hR.1, Matrix.vecMul_one, hdn]
    rw [e]
    generalize Matrix.of iv.rot *ᵥ d a = u at ho
    generalize Matrix.of iv.rot *ᵥ n a = v at ho
    generalize gammaInc m dt iv S a = c
    have h1 : (c • vecMulVec u v * c • vecMulVec u v).trace = 0 := by
      have : (c • vecMulVec u v * c • vecMulVec u v).trace = c ^ 2 * (u ⬝ᵥ v) ^ 2 := by
        simp only [Matrix.trace, Matrix.diag, Matrix.mul_apply, Matrix.smul_apply, vecMulVec_apply, dotProduct, Fin.sum_univ_three,
          smul_eq_mul]
        ring
      rw [this, ho]
      ring
    have h2 : (c • vecMulVec u v).det = 0 := by
      rw [Matrix.det_fin_three]
      simp only [Matrix.smul_apply, vecMulVec_apply, smul_eq_mul]
      ring
    rw [h1, h2]
    ring

/-- **C89 (plastic volume, multiple slip).** With several systems at work plastic flow does change the volume: in uniaxial tension of a
crystal in standard orientation the determinant of the inverse plastic deformation falls below one in the first step, for every
tensile stress and every positive time increment. (The exact flow rule preserves it.) -/
theorem C89_volume_fails (dt s : ℝ) (hdt : 0 < dt) (hs : 0 < s) :
    (fpInvNew fcc dt (initial 12 fun i j => if i = j then 1 else 0) (uniaxial s)).det < 1 := by
  set iv : Internal 12 := initial 12 fun i j => if i = j then 1 else 0 with hiv
  set k := 1 / (Real.sqrt 2 * Real.sqrt 3) with hkd
  have hk : 0 < k := by positivity
  set c := 0.001 * dt * |s * k / 60.8| ^ (1 / 0.1 : ℝ) with hc
  have hcp : 0 < c := by
    have : 0 < |s * k / 60.8| := abs_pos.2 (by positivity)
    have := Real.rpow_pos_of_pos this (1 / 0.1 : ℝ)
    positivity
  have h1 : Matrix.of (fun i j : Fin 3 => if i = j then (1 : ℝ) else 0) = 1 := by
    ext i j; simp [Matrix.one_apply]
  have hL : ∀ i j, plasticInc fcc dt iv (uniaxial s) i j = c * k * ((if i = j then (if i = 2 then 8 else -4) else 0 : ℤ) : ℝ) := by
    intro i j
    have : Matrix.of (plasticInc fcc dt iv (uniaxial s)) i j = ∑ a, gammaInc fcc dt iv (uniaxial s) a * schmid slipTable a i j := by
      rw [plasticInc_eq, Matrix.sum_apply]
      refine Finset.sum_congr rfl fun a _ => ?_
      have hrot : Matrix.of iv.rot = 1 := h1
      rw [hrot, Matrix.transpose_one, Matrix.mul_one, Matrix.one_mul]
      rfl
    rw [← uniaxial_table i j]
    refine this.trans ?_
    push_cast
    rw [Finset.mul_sum]
    refine Finset.sum_congr rfl fun a _ => ?_
    rw [hiv, uniaxial_slip dt s hs, ← hkd, schmid_fcc, ← hkd, ← hc]
    push_cast
    ring
  have hA : Matrix.of iv.FpInv = 1 := h1
  unfold fpInvNew
  rw [hA, Matrix.one_mul, Matrix.det_fin_three]
  simp only [Matrix.sub_apply, Matrix.of_apply, hL, Matrix.one_apply]
  have hck : 0 < c * k := mul_pos hcp hk
  generalize c * k = x at hck
  simp
  nlinarith [mul_pos hck hck, mul_pos (mul_pos hck hck) hck]

end JaxFem.Crystal
