import Verif.Model.Crystal
import Verif.Spec.Crystal
import Verif.Thm.C88_Material

/-!
C89: crystal orientations, slip systems, elastic constants.
-/

namespace JaxFem.Crystal

open Matrix

/-! ## Orientations -/

theorem rotate2_eq (R T : M3) : Matrix.of (rotate2 R T) = Matrix.of R * Matrix.of T * (Matrix.of R).transpose := by
  ext i k
  simp only [Matrix.of_apply, rotate2, Matrix.mul_apply, Matrix.transpose_apply, Fin.sum_univ_three]
  ring

theorem rotate4_eq (R : M3) (T : Fin 3 → Fin 3 → Fin 3 → Fin 3 → ℝ) (E : Matrix (Fin 3) (Fin 3) ℝ) (i j : Fin 3) :
    ∑ k, ∑ l, rotate4 R T i j k l * E k l
      = (Matrix.of R * (Matrix.of fun a b => ∑ c, ∑ d, T a b c d * ((Matrix.of R).transpose * E * Matrix.of R) c d)
        * (Matrix.of R).transpose) i j := by
  have swap : ∀ X : Fin 3 → Fin 3 → Fin 3 → Fin 3 → ℝ,
      ∑ k, ∑ l, (∑ a, ∑ b, X a b k l) * E k l = ∑ a, ∑ b, ∑ k, ∑ l, X a b k l * E k l := by
    intro X
    simp only [Fin.sum_univ_three]
    ring
  have one : ∀ a b, ∑ k, ∑ l, (∑ c, ∑ d, R i a * R j b * R k c * R l d * T a b c d) * E k l
      = R i a * (∑ c, ∑ d, T a b c d * ((Matrix.of R).transpose * E * Matrix.of R) c d) * R j b := by
    intro a b
    simp only [Matrix.mul_apply, Matrix.transpose_apply, Matrix.of_apply, Fin.sum_univ_three]
    ring
  unfold rotate4
  rw [swap fun a b k l => ∑ c, ∑ d, R i a * R j b * R k c * R l d * T a b c d]
  simp only [one]
  simp only [Matrix.mul_apply, Matrix.transpose_apply, Matrix.of_apply, Fin.sum_univ_three]
  ring

theorem pure_parts (v : Fin 3 → ℝ) : (pure v).re = 0 ∧ (pure v).imI = v 0 ∧ (pure v).imJ = v 1 ∧ (pure v).imK = v 2 :=
  ⟨rfl, rfl, rfl, rfl⟩

theorem gram (q : Fin 4 → ℝ) : (Matrix.of (getRotMat q)).transpose * Matrix.of (getRotMat q)
    = ((q 0 ^ 2 + q 1 ^ 2 + q 2 ^ 2 + q 3 ^ 2) ^ 2) • (1 : Matrix (Fin 3) (Fin 3) ℝ) := by
  ext i j
  fin_cases i <;> fin_cases j <;>
    simp [getRotMat, Matrix.mul_apply, Fin.sum_univ_three] <;> ring

theorem det_rot (q : Fin 4 → ℝ) : (Matrix.of (getRotMat q)).det = (q 0 ^ 2 + q 1 ^ 2 + q 2 ^ 2 + q 3 ^ 2) ^ 3 := by
  rw [Matrix.det_fin_three]
  simp [getRotMat]
  ring

theorem normSq_comps (q : Quaternion ℝ) :
    comps q 0 ^ 2 + comps q 1 ^ 2 + comps q 2 ^ 2 + comps q 3 ^ 2 = Quaternion.normSq q := by
  rw [Quaternion.normSq_def']
  simp [comps]

/-- **C89 (orientation).** -/
theorem C89_rotation :
    (∀ (q : Quaternion ℝ) (v : Fin 3 → ℝ), q * pure v * star q = pure (Matrix.of (getRotMat (comps q)) *ᵥ v))
    ∧ (∀ q : Quaternion ℝ, Quaternion.normSq q = 1 → IsRotation (Matrix.of (getRotMat (comps q))))
    ∧ (∀ q : Quaternion ℝ, (Matrix.of (getRotMat (comps q))).transpose * Matrix.of (getRotMat (comps q))
      = (Quaternion.normSq q ^ 2) • 1)
    ∧ (∀ p q : Quaternion ℝ, Matrix.of (getRotMat (comps (p * q)))
      = Matrix.of (getRotMat (comps p)) * Matrix.of (getRotMat (comps q)))
    ∧ (∀ q : Quaternion ℝ, getRotMat (comps (-q)) = getRotMat (comps q)) := by
  refine ⟨fun q v => ?_, fun q h => ?_, fun q => ?_, fun p q => ?_, fun q => ?_⟩
  · ext <;> simp [(pure_parts _).1, (pure_parts _).2.1, (pure_parts _).2.2.1, (pure_parts _).2.2.2, comps, getRotMat,
      Matrix.mulVec, dotProduct, Fin.sum_univ_three] <;> ring
  · refine ⟨?_, ?_⟩
    · rw [gram, normSq_comps, h, one_pow, one_smul]
    · rw [det_rot, normSq_comps, h, one_pow]
  · rw [gram, normSq_comps]
  · ext i j
    fin_cases i <;> fin_cases j <;> simp [comps, getRotMat, Matrix.mul_apply, Fin.sum_univ_three] <;> ring
  · simp [comps, getRotMat]

/-- A quaternion with given components. -/
def quat (a b c d : ℝ) : Quaternion ℝ := ⟨a, b, c, d⟩

theorem normSq_quat (a b c d : ℝ) : Quaternion.normSq (quat a b c d) = a ^ 2 + b ^ 2 + c ^ 2 + d ^ 2 := Quaternion.normSq_def' _

/-- A unit quaternion. -/
example : IsRotation (Matrix.of (getRotMat ![3 / 5, 0, 0, 4 / 5])) :=
  C89_rotation.2.1 (quat (3 / 5) 0 0 (4 / 5)) (by rw [normSq_quat]; norm_num)

/-- Quaternions of other lengths do not give rotations: the code does not normalise. -/
example : ¬ IsRotation (Matrix.of (getRotMat ![1, 0, 0, 1])) := by
  rintro ⟨h, -⟩
  have e : (Matrix.of (getRotMat ![1, 0, 0, 1])).transpose * Matrix.of (getRotMat ![1, 0, 0, 1])
      = (Quaternion.normSq (quat 1 0 0 1) ^ 2) • 1 := C89_rotation.2.2.1 (quat 1 0 0 1)
  rw [normSq_quat] at e
  have := congrFun (congrFun (h.symm.trans e) 0) 0
  norm_num at this

/-! ## Slip systems -/

theorem raw_norms : ∀ a : Fin 12, (∑ k, rawDirection slipTable a k ^ 2 = 2) ∧ (∑ k, rawNormal slipTable a k ^ 2 = 3)
    ∧ ∑ k, rawDirection slipTable a k * rawNormal slipTable a k = 0 := by
  decide +kernel

theorem normalise_eq (v : Fin 3 → ℤ) (c : ℤ) (h : ∑ k, v k ^ 2 = c) (i : Fin 3) : normalise v i = v i / Real.sqrt c := by
  unfold normalise
  congr 2
  rw [← h]
  push_cast
  rfl

theorem schmid_fcc (a : Fin 12) (i j : Fin 3) :
    schmid slipTable a i j
      = ((rawDirection slipTable a i * rawNormal slipTable a j : ℤ) : ℝ) * (1 / (Real.sqrt 2 * Real.sqrt 3)) := by
  unfold schmid
  rw [normalise_eq _ 2 (raw_norms a).1, normalise_eq _ 3 (raw_norms a).2.1]
  push_cast
  field_simp

theorem family : ∀ (f : Fin 3 → Bool) (e : Fin 3 → Fin 3),
    (∑ k, ((e k : ℤ) - 1) ^ 2 = 2) → (∑ k, (if f k then (1 : ℤ) else -1) * ((e k : ℤ) - 1) = 0) →
    ∃ a : Fin 12, ((∀ k, (if f k then (1 : ℤ) else -1) = rawNormal slipTable a k)
        ∨ ∀ k, (if f k then (1 : ℤ) else -1) = -rawNormal slipTable a k)
      ∧ ((∀ k, ((e k : ℤ) - 1) = rawDirection slipTable a k) ∨ ∀ k, ((e k : ℤ) - 1) = -rawDirection slipTable a k) := by
  decide +kernel

theorem distinct : ∀ a b : Fin 12,
    ((∀ k, rawNormal slipTable a k = rawNormal slipTable b k) ∨ ∀ k, rawNormal slipTable a k = -rawNormal slipTable b k) →
    ((∀ k, rawDirection slipTable a k = rawDirection slipTable b k) ∨ ∀ k, rawDirection slipTable a k = -rawDirection slipTable b k)
    → a = b := by
  decide +kernel

theorem foldl_write (i : Nat) (q : Nat → Nat → ℝ) (l : List Nat) (a b : Nat) :
    (l.foldl (fun q j => fun a b => if a = i ∧ b = i / 3 * 3 + j then 1 else q a b) q) a b
      = if a = i ∧ ∃ j ∈ l, b = i / 3 * 3 + j then 1 else q a b := by
  induction l generalizing q with
  | nil => simp
  | cons x l ih =>
    rw [List.foldl_cons, ih]
    by_cases h1 : a = i
    · by_cases h2 : ∃ j ∈ l, b = i / 3 * 3 + j
      · rw [if_pos ⟨h1, h2⟩, if_pos ⟨h1, by obtain ⟨j, hj, e⟩ := h2; exact ⟨j, List.mem_cons_of_mem _ hj, e⟩⟩]
      · rw [if_neg fun h => h2 h.2]
        by_cases h3 : b = i / 3 * 3 + x
        · rw [if_pos ⟨h1, h3⟩, if_pos ⟨h1, x, List.mem_cons_self, h3⟩]
        · rw [if_neg fun h => h3 h.2, if_neg]
          rintro ⟨-, j, hj, e⟩
          rcases List.mem_cons.1 hj with rfl | hj
          · exact h3 e
          · exact h2 ⟨j, hj, e⟩
    · rw [if_neg fun h => h1 h.1, if_neg fun h => h1 h.1, if_neg fun h => h1 h.1]

theorem hardening_eq (r : ℝ) (ns a b : Nat) (ha : a < ns) : hardening r ns a b = if b / 3 = a / 3 then 1 else r := by
  have key : ∀ (l : List Nat) (q : Nat → Nat → ℝ),
      (l.foldl (fun q i => (List.range 3).foldl
        (fun q j => fun a b => if a = i ∧ b = i / 3 * 3 + j then 1 else q a b) q) q) a b
      = if a ∈ l ∧ b / 3 = a / 3 then 1 else q a b := by
    intro l
    induction l with
    | nil => intro q; simp
    | cons x l ih =>
      intro q
      rw [List.foldl_cons, ih, foldl_write]
      have e : (a = x ∧ ∃ j ∈ List.range 3, b = x / 3 * 3 + j) ↔ (a = x ∧ b / 3 = a / 3) := by
        constructor
        · rintro ⟨rfl, j, hj, e⟩
          have := List.mem_range.1 hj
          exact ⟨rfl, by omega⟩
        · rintro ⟨rfl, e⟩
          exact ⟨rfl, b % 3, List.mem_range.2 (Nat.mod_lt _ (by norm_num)), by omega⟩
      by_cases h1 : a ∈ l ∧ b / 3 = a / 3
      · rw [if_pos h1, if_pos ⟨List.mem_cons_of_mem _ h1.1, h1.2⟩]
      · rw [if_neg h1]
        by_cases h2 : a = x ∧ b / 3 = a / 3
        · rw [if_pos (e.2 h2), if_pos ⟨by rw [h2.1]; exact List.mem_cons_self, h2.2⟩]
        · rw [if_neg fun h => h2 (e.1 h), if_neg]
          rintro ⟨hm, hb⟩
          rcases List.mem_cons.1 hm with rfl | hm
          · exact h2 ⟨rfl, hb⟩
          · exact h1 ⟨hm, hb⟩
  unfold hardening
  rw [key]
  simp [ha]

theorem fcc_q (a b : Fin 12) : fcc.q a b = 1 := by
  show hardening 1 12 a b = 1
  rw [hardening_eq _ _ _ _ a.2]
  split <;> rfl

/-- **C89 (slip systems).** -/
theorem C89_slip_systems :
    (∀ a i j, fcc.schmid a i j = normalise (rawDirection slipTable a) i * normalise (rawNormal slipTable a) j)
    ∧ (∀ a, ∑ i, normalise (rawDirection slipTable a) i ^ 2 = 1 ∧ ∑ i, normalise (rawNormal slipTable a) i ^ 2 = 1
      ∧ ∑ i, normalise (rawDirection slipTable a) i * normalise (rawNormal slipTable a) i = 0)
    ∧ (∀ n d : Fin 3 → ℤ, (∀ i, n i = 1 ∨ n i = -1) → (∀ i, d i = -1 ∨ d i = 0 ∨ d i = 1) → ∑ i, d i ^ 2 = 2 →
      ∑ i, n i * d i = 0 →
      ∃! a : Fin 12, (n = rawNormal slipTable a ∨ n = -rawNormal slipTable a)
        ∧ (d = rawDirection slipTable a ∨ d = -rawDirection slipTable a))
    ∧ (∀ (r : ℝ) (ns a b : Nat), a < ns → hardening r ns a b = if b / 3 = a / 3 then 1 else r)
    ∧ (∀ a b : Fin 12, rawNormal slipTable a = rawNormal slipTable b ↔ (a : Nat) / 3 = b / 3) := by
  refine ⟨fun a i j => rfl, fun a => ?_, ?_, hardening_eq, by decide +kernel⟩
  · have h2 : Real.sqrt 2 ^ 2 = 2 := Real.sq_sqrt (by norm_num)
    have h3 : Real.sqrt 3 ^ 2 = 3 := Real.sq_sqrt (by norm_num)
    have e := raw_norms a
    have e1 : ∑ k, (rawDirection slipTable a k : ℝ) ^ 2 = 2 := by exact_mod_cast e.1
    have e2 : ∑ k, (rawNormal slipTable a k : ℝ) ^ 2 = 3 := by exact_mod_cast e.2.1
    have e3 : ∑ k, (rawDirection slipTable a k : ℝ) * (rawNormal slipTable a k : ℝ) = 0 := by exact_mod_cast e.2.2
    simp only [normalise_eq _ 2 e.1, normalise_eq _ 3 e.2.1]
    push_cast
    refine ⟨?_, ?_, ?_⟩
    · simp only [div_pow, h2]
      rw [← Finset.sum_div, e1]
      norm_num
    · simp only [div_pow, h3]
      rw [← Finset.sum_div, e2]
      norm_num
    · simp only [div_mul_div_comm]
      rw [← Finset.sum_div, e3, zero_div]
  · intro n d hn hd h2 h0
    let f : Fin 3 → Bool := fun k => decide (n k = 1)
    have hf : ∀ k, (if f k then (1 : ℤ) else -1) = n k := by
      intro k
      rcases hn k with h | h <;> simp [f, h]
    have : ∀ k, ∃ e : Fin 3, ((e : ℤ) - 1) = d k := by
      intro k
      rcases hd k with h | h | h
      · exact ⟨0, by rw [h]; rfl⟩
      · exact ⟨1, by rw [h]; rfl⟩
      · exact ⟨2, by rw [h]; rfl⟩
    choose e he using this
    obtain ⟨a, ha1, ha2⟩ := family f e (by simp only [he]; exact h2) (by simp only [he, hf]; exact h0)
    simp only [he, hf] at ha1 ha2
    have ha1' : n = rawNormal slipTable a ∨ n = -rawNormal slipTable a :=
      ha1.imp (fun h => funext h) fun h => funext h
    have ha2' : d = rawDirection slipTable a ∨ d = -rawDirection slipTable a :=
      ha2.imp (fun h => funext h) fun h => funext h
    refine ⟨a, ⟨ha1', ha2'⟩, ?_⟩
    rintro b ⟨hb1, hb2⟩
    have glue : ∀ u v w : Fin 3 → ℤ, (u = v ∨ u = -v) → (u = w ∨ u = -w) → (∀ k, v k = w k) ∨ ∀ k, v k = -w k := by
      rintro u v w (rfl | h1) (h2 | h2)
      · exact Or.inl fun k => congrFun h2 k
      · exact Or.inr fun k => congrFun h2 k
      · refine Or.inr fun k => ?_
        have := (congrFun h1 k).symm.trans (congrFun h2 k)
        simp only [Pi.neg_apply] at this
        omega
      · refine Or.inl fun k => ?_
        have := (congrFun h1 k).symm.trans (congrFun h2 k)
        simp only [Pi.neg_apply] at this
        omega
    exact distinct b a (glue n _ _ hb1 ha1') (glue d _ _ hb2 ha2')

/-- A slip system that is not in the table itself, only up to signs. -/
example : ∃! a : Fin 12, ((![-1, 1, -1] : Fin 3 → ℤ) = rawNormal slipTable a ∨ ![-1, 1, -1] = -rawNormal slipTable a)
    ∧ ((![0, -1, -1] : Fin 3 → ℤ) = rawDirection slipTable a ∨ ![0, -1, -1] = -rawDirection slipTable a) :=
  C89_slip_systems.2.2.1 _ _ (by decide) (by decide) (by decide) (by decide)

/-! ## Elastic constants -/

theorem elastic_apply (C11 C12 C44 : ℝ) (E : Matrix (Fin 3) (Fin 3) ℝ) (i j : Fin 3) :
    ∑ k, ∑ l, elasticTensor C11 C12 C44 i j k l * E k l
      = cubicStress C11 C12 C44 ((1 / 2 : ℝ) • (E + E.transpose)) i j := by
  fin_cases i <;> fin_cases j <;>
    simp [elasticTensor, elasticEntries, cubicStress, Fin.sum_univ_three] <;> ring

/-- Twice the elastic energy. -/
theorem cubic_energy (C11 C12 C44 : ℝ) (E : Matrix (Fin 3) (Fin 3) ℝ) (h : E.transpose = E) :
    ∑ i, ∑ j, cubicStress C11 C12 C44 E i j * E i j
      = (C11 + 2 * C12) / 3 * (E 0 0 + E 1 1 + E 2 2) ^ 2
        + (C11 - C12) / 3 * ((E 0 0 - E 1 1) ^ 2 + (E 1 1 - E 2 2) ^ 2 + (E 0 0 - E 2 2) ^ 2)
        + 4 * C44 * (E 0 1 ^ 2 + E 1 2 ^ 2 + E 0 2 ^ 2) := by
  have e : ∀ i j, E j i = E i j := fun i j => congrFun (congrFun h i) j
  simp [cubicStress, Fin.sum_univ_three, e 0 1, e 0 2, e 1 2]
  ring

theorem symm_half : ∀ E : Matrix (Fin 3) (Fin 3) ℝ, E.transpose = E → (1 / 2 : ℝ) • (E + E.transpose) = E := by
  intro E h
  rw [h]
  ext i j
  simp
  ring

theorem conj_symm : ∀ (R : M3) (E : Matrix (Fin 3) (Fin 3) ℝ), E.transpose = E →
    ((Matrix.of R).transpose * E * Matrix.of R).transpose = (Matrix.of R).transpose * E * Matrix.of R := by
  intro R E h
  rw [Matrix.transpose_mul, Matrix.transpose_mul, Matrix.transpose_transpose, h, Matrix.mul_assoc]

theorem rotate_cubic : ∀ (C11 C12 C44 : ℝ) (R : M3) (E : Matrix (Fin 3) (Fin 3) ℝ), E.transpose = E → ∀ i j,
    ∑ k, ∑ l, rotate4 R (elasticTensor C11 C12 C44) i j k l * E k l
      = (Matrix.of R * cubicStress C11 C12 C44 ((Matrix.of R).transpose * E * Matrix.of R) * (Matrix.of R).transpose) i j := by
  intro C11 C12 C44 R E h i j
  rw [rotate4_eq]
  simp only [elastic_apply, symm_half _ (conj_symm R E h)]
  rfl

theorem three_squares {x y z : ℝ} (h : x ^ 2 + y ^ 2 + z ^ 2 = 0) : x = 0 ∧ y = 0 ∧ z = 0 := by
  have h1 : x ^ 2 = 0 := le_antisymm (by linarith [sq_nonneg y, sq_nonneg z]) (sq_nonneg x)
  have h2 : y ^ 2 = 0 := le_antisymm (by linarith [sq_nonneg x, sq_nonneg z]) (sq_nonneg y)
  have h3 : z ^ 2 = 0 := le_antisymm (by linarith [sq_nonneg x, sq_nonneg y]) (sq_nonneg z)
  exact ⟨pow_eq_zero_iff two_ne_zero |>.1 h1, pow_eq_zero_iff two_ne_zero |>.1 h2, pow_eq_zero_iff two_ne_zero |>.1 h3⟩

theorem cubic_pos : ∀ C11 C12 C44 : ℝ, 0 < C11 - C12 → 0 < C11 + 2 * C12 → 0 < C44 → ∀ E : Matrix (Fin 3) (Fin 3) ℝ,
    E.transpose = E → E ≠ 0 → 0 < ∑ i, ∑ j, cubicStress C11 C12 C44 E i j * E i j := by
  intro C11 C12 C44 h1 h2 h3 E h hE
  rw [cubic_energy _ _ _ _ h]
  by_contra hn
  have e : ∀ i j, E j i = E i j := fun i j => congrFun (congrFun h i) j
  have t1 : 0 ≤ (C11 + 2 * C12) / 3 * (E 0 0 + E 1 1 + E 2 2) ^ 2 := by positivity
  have p2 : 0 ≤ (E 0 0 - E 1 1) ^ 2 + (E 1 1 - E 2 2) ^ 2 + (E 0 0 - E 2 2) ^ 2 := by positivity
  have p3 : 0 ≤ E 0 1 ^ 2 + E 1 2 ^ 2 + E 0 2 ^ 2 := by positivity
  have t2 : 0 ≤ (C11 - C12) / 3 * ((E 0 0 - E 1 1) ^ 2 + (E 1 1 - E 2 2) ^ 2 + (E 0 0 - E 2 2) ^ 2) := by positivity
  have t3 : 0 ≤ 4 * C44 * (E 0 1 ^ 2 + E 1 2 ^ 2 + E 0 2 ^ 2) := by positivity
  have z1 : (E 0 0 + E 1 1 + E 2 2) ^ 2 = 0 := by
    have : (C11 + 2 * C12) / 3 * (E 0 0 + E 1 1 + E 2 2) ^ 2 = 0 := by linarith
    exact (mul_eq_zero.1 this).resolve_left (by positivity)
  have z2 : (E 0 0 - E 1 1) ^ 2 + (E 1 1 - E 2 2) ^ 2 + (E 0 0 - E 2 2) ^ 2 = 0 := by
    have : (C11 - C12) / 3 * ((E 0 0 - E 1 1) ^ 2 + (E 1 1 - E 2 2) ^ 2 + (E 0 0 - E 2 2) ^ 2) = 0 := by linarith
    exact (mul_eq_zero.1 this).resolve_left (by positivity)
  have z3 : E 0 1 ^ 2 + E 1 2 ^ 2 + E 0 2 ^ 2 = 0 := by
    have : 4 * C44 * (E 0 1 ^ 2 + E 1 2 ^ 2 + E 0 2 ^ 2) = 0 := by linarith
    exact (mul_eq_zero.1 this).resolve_left (by positivity)
  have a0 : E 0 0 + E 1 1 + E 2 2 = 0 := pow_eq_zero_iff two_ne_zero |>.1 z1
  obtain ⟨a1, a2, -⟩ := three_squares z2
  obtain ⟨b1, b2, b3⟩ := three_squares z3
  apply hE
  ext i j
  fin_cases i <;> fin_cases j <;> simp [e 0 1, e 0 2, e 1 2, b1, b2, b3] <;> linarith

theorem elastic_symm (C11 C12 C44 : ℝ) (i j k l : Fin 3) :
    elasticTensor C11 C12 C44 i j k l = elasticTensor C11 C12 C44 j i k l
      ∧ elasticTensor C11 C12 C44 i j k l = elasticTensor C11 C12 C44 i j l k
      ∧ elasticTensor C11 C12 C44 i j k l = elasticTensor C11 C12 C44 k l i j := by
  fin_cases i <;> fin_cases j <;> fin_cases k <;> fin_cases l <;> simp [elasticTensor, elasticEntries]

theorem fcc_pos (R : M3) (hR : IsRotation (Matrix.of R)) (E : Matrix (Fin 3) (Fin 3) ℝ) (h : E.transpose = E) (hE : E ≠ 0) :
    0 < ∑ i, ∑ j, (∑ k, ∑ l, rotate4 R fcc.C i j k l * E k l) * E i j := by
  show 0 < ∑ i, ∑ j, (∑ k, ∑ l, rotate4 R (elasticTensor 168400 121400 75400) i j k l * E k l) * E i j
  simp only [rotate_cubic _ _ _ R E h]
  have hE' : (Matrix.of R).transpose * E * Matrix.of R ≠ 0 := by
    intro h0
    apply hE
    have := congrArg (fun X => Matrix.of R * X * (Matrix.of R).transpose) h0
    simp only [Matrix.mul_zero, Matrix.zero_mul] at this
    rw [← this]
    simp only [Matrix.mul_assoc, (Hyper.rotation_inv hR).2, Matrix.mul_one]
    rw [← Matrix.mul_assoc, (Hyper.rotation_inv hR).2, Matrix.one_mul]
  have := cubic_pos 168400 121400 75400 (by norm_num) (by norm_num) (by norm_num) _ (conj_symm R E h) hE'
  refine this.trans_eq ?_
  generalize cubicStress 168400 121400 75400 ((Matrix.of R).transpose * E * Matrix.of R) = X
  simp only [Matrix.mul_apply, Matrix.transpose_apply, Matrix.of_apply, Fin.sum_univ_three]
  ring

/-- **C89 (elastic constants).** -/
theorem C89_elastic (C11 C12 C44 : ℝ) :
    (∀ i j k l, elasticTensor C11 C12 C44 i j k l = elasticTensor C11 C12 C44 j i k l
      ∧ elasticTensor C11 C12 C44 i j k l = elasticTensor C11 C12 C44 i j l k
      ∧ elasticTensor C11 C12 C44 i j k l = elasticTensor C11 C12 C44 k l i j)
    ∧ (∀ E : Matrix (Fin 3) (Fin 3) ℝ, E.transpose = E → ∀ i j,
      ∑ k, ∑ l, elasticTensor C11 C12 C44 i j k l * E k l = cubicStress C11 C12 C44 E i j)
    ∧ ((∀ E : Matrix (Fin 3) (Fin 3) ℝ, E.transpose = E → E ≠ 0 →
        0 < ∑ i, ∑ j, cubicStress C11 C12 C44 E i j * E i j) ↔ 0 < C11 - C12 ∧ 0 < C11 + 2 * C12 ∧ 0 < C44)
    ∧ (∀ (R : M3) (E : Matrix (Fin 3) (Fin 3) ℝ), E.transpose = E → ∀ i j,
      ∑ k, ∑ l, rotate4 R (elasticTensor C11 C12 C44) i j k l * E k l
        = (Matrix.of R * cubicStress C11 C12 C44 ((Matrix.of R).transpose * E * Matrix.of R) * (Matrix.of R).transpose) i j)
    ∧ fcc.C = elasticTensor 168400 121400 75400
    ∧ ∀ R : M3, IsRotation (Matrix.of R) → ∀ E : Matrix (Fin 3) (Fin 3) ℝ, E.transpose = E → E ≠ 0 →
      0 < ∑ i, ∑ j, (∑ k, ∑ l, rotate4 R fcc.C i j k l * E k l) * E i j := by
  refine ⟨elastic_symm C11 C12 C44, fun E h i j => ?_, ⟨fun H => ?_, fun h => cubic_pos _ _ _ h.1 h.2.1 h.2.2⟩, rotate_cubic C11 C12 C44,
    rfl, fcc_pos⟩
  · rw [elastic_apply, symm_half E h]
  · have g : ∀ E : Matrix (Fin 3) (Fin 3) ℝ, E.transpose = E → E ≠ 0 → _ := fun E h h0 => by
      have := H E h h0
      rw [cubic_energy _ _ _ _ h] at this
      exact this
    have s1 : (!![1, 0, 0; 0, -1, 0; 0, 0, 0] : Matrix (Fin 3) (Fin 3) ℝ).transpose = !![1, 0, 0; 0, -1, 0; 0, 0, 0] := by
      ext i j; fin_cases i <;> fin_cases j <;> rfl
    have s2 : (1 : Matrix (Fin 3) (Fin 3) ℝ).transpose = 1 := Matrix.transpose_one
    have s3 : (!![0, 1, 0; 1, 0, 0; 0, 0, 0] : Matrix (Fin 3) (Fin 3) ℝ).transpose = !![0, 1, 0; 1, 0, 0; 0, 0, 0] := by
      ext i j; fin_cases i <;> fin_cases j <;> rfl
    have g1 := g _ s1 (fun h => by have := congrFun (congrFun h 0) 0; norm_num at this)
    have g2 := g _ s2 one_ne_zero
    have g3 := g _ s3 (fun h => by have := congrFun (congrFun h 0) 1; norm_num at this)
    simp at g1 g2 g3
    refine ⟨?_, ?_, ?_⟩ <;> linarith

end JaxFem.Crystal
