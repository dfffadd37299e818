import Verif.Thm.C89_Orientation

/-!
C89: hardening, cell averages and histories.
-/

namespace JaxFem.Crystal

open Matrix

variable {ns : Nat}

/-- **C89 (hardening).** If only system `b` slips, the resistance of each system `a` changes by its hardening coefficient with `b`
times the saturation rate of `b` times the amount of slip. For the material of the scripts, first step of a grain: the slips follow
the power law with exponent ten, all resistances stay equal and grow exactly if there is slip. -/
theorem C89_hardening :
    (∀ (m : Material ns) (dt : ℝ) (iv : Internal ns) (S : M3) (a b : Fin ns), (∀ c, c ≠ b → gammaInc m dt iv S c = 0) →
      iv.resistance b < m.tSat → 0 < m.tSat →
      (update m dt iv S).resistance a - iv.resistance a
        = m.q a b * m.h * (1 - iv.resistance b / m.tSat) ^ m.gssA * |(update m dt iv S).slip b - iv.slip b|)
    ∧ (∀ (dt : ℝ) (rot S : M3) (a : Fin 12), 0 ≤ dt →
      |(update fcc dt (initial 12 rot) S).slip a| = 0.001 * dt * (tau fcc rot S a / 60.8) ^ 10
      ∧ (update fcc dt (initial 12 rot) S).resistance a
        = 60.8 + 541.5 * (49 / 109.8) ^ (2.5 : ℝ) * ∑ b, |(update fcc dt (initial 12 rot) S).slip b|
      ∧ (0 < dt → (60.8 < (update fcc dt (initial 12 rot) S).resistance a ↔ ∃ b, tau fcc rot S b ≠ 0))) := by
  refine ⟨fun m dt iv S a b h hg ht => ?_, fun dt rot S a hdt => ?_⟩
  · have e1 : (update m dt iv S).slip b - iv.slip b = gammaInc m dt iv S b := by
      show iv.slip b + gammaInc m dt iv S b - iv.slip b = _
      ring
    have e2 : (update m dt iv S).resistance a - iv.resistance a = gInc m dt iv S a := by
      show iv.resistance a + gInc m dt iv S a - iv.resistance a = _
      ring
    rw [e1, e2]
    unfold gInc
    rw [Finset.sum_eq_single b]
    · have hp : 0 < 1 - iv.resistance b / m.tSat := by
        rw [sub_pos, div_lt_one ht]; exact hg
      rw [abs_of_pos hp]
      have : sgn (1 - iv.resistance b / m.tSat) = 1 := if_pos hp
      rw [this]
      ring
    · intro c _ hc
      rw [h c hc]
      simp
    · intro hb
      exact absurd (Finset.mem_univ _) hb
  · have hγ : ∀ b, |(update fcc dt (initial 12 rot) S).slip b| = 0.001 * dt * (tau fcc rot S b / 60.8) ^ 10 := by
      intro b
      show |0 + 0.001 * dt * |tau fcc rot S b / 60.8| ^ (1 / 0.1 : ℝ) * sgn (tau fcc rot S b)| = _
      have e : (1 / 0.1 : ℝ) = ((10 : ℕ) : ℝ) := by norm_num
      rw [zero_add, e, Real.rpow_natCast, abs_mul]
      have e2 : |tau fcc rot S b / 60.8| ^ 10 = (tau fcc rot S b / 60.8) ^ 10 := Even.pow_abs ⟨5, rfl⟩ _
      rw [e2]
      have hn : 0 ≤ 0.001 * dt * (tau fcc rot S b / 60.8) ^ 10 := by
        have : (0 : ℝ) ≤ (tau fcc rot S b / 60.8) ^ 10 := Even.pow_nonneg ⟨5, rfl⟩ _
        positivity
      rw [abs_of_nonneg hn]
      unfold sgn
      rcases lt_trichotomy (tau fcc rot S b) 0 with h | h | h
      · rw [if_neg (by linarith), if_pos h]; norm_num
      · rw [h]; norm_num
      · rw [if_pos h]; norm_num
    have hq : ∀ b : Fin 12, fcc.q a b = 1 := by
      intro b
      show hardening 1 12 a b = 1
      rw [hardening_eq 1 12 a b a.2]
      split <;> rfl
    have hres : (update fcc dt (initial 12 rot) S).resistance a
        = 60.8 + 541.5 * (49 / 109.8) ^ (2.5 : ℝ) * ∑ b, |(update fcc dt (initial 12 rot) S).slip b| := by
      show (60.8 : ℝ) + ∑ b, fcc.q a b * (541.5 * |gammaInc fcc dt (initial 12 rot) S b| * |1 - 60.8 / 109.8| ^ (2.5 : ℝ)
        * sgn (1 - 60.8 / 109.8)) = _
      have e3 : (1 - 60.8 / 109.8 : ℝ) = 49 / 109.8 := by norm_num
      have e4 : |(49 / 109.8 : ℝ)| = 49 / 109.8 := abs_of_pos (by norm_num)
      have e5 : sgn (49 / 109.8) = 1 := if_pos (by norm_num)
      rw [e3, e4, e5, Finset.mul_sum]
      congr 1
      refine Finset.sum_congr rfl fun b _ => ?_
      have e6 : (update fcc dt (initial 12 rot) S).slip b = gammaInc fcc dt (initial 12 rot) S b := by
        show 0 + gammaInc fcc dt (initial 12 rot) S b = _
        ring
      rw [hq, e6]
      ring
    refine ⟨hγ a, hres, fun hp => ?_⟩
    rw [hres]
    have hk : (0 : ℝ) < 541.5 * (49 / 109.8) ^ (2.5 : ℝ) := by
      have := Real.rpow_pos_of_pos (show (0 : ℝ) < 49 / 109.8 by norm_num) 2.5
      positivity
    have hs : 0 ≤ ∑ b, |(update fcc dt (initial 12 rot) S).slip b| := Finset.sum_nonneg fun b _ => abs_nonneg _
    constructor
    · intro h
      by_contra hc
      push Not at hc
      have : ∑ b, |(update fcc dt (initial 12 rot) S).slip b| = 0 := by
        refine Finset.sum_eq_zero fun b _ => ?_
        rw [hγ, hc b]
        norm_num
      rw [this, mul_zero, add_zero] at h
      exact lt_irrefl _ h
    · rintro ⟨b, hb⟩
      have : 0 < ∑ b, |(update fcc dt (initial 12 rot) S).slip b| := by
        refine Finset.sum_pos' (fun b _ => abs_nonneg _) ⟨b, Finset.mem_univ _, ?_⟩
        rw [hγ]
        have : 0 < (tau fcc rot S b / 60.8) ^ 10 := Even.pow_pos ⟨5, rfl⟩ (div_ne_zero hb (by norm_num))
        positivity
      have := mul_pos hk this
      linarith

/-- **C89 (cell averages).** The average of the stress over a cell, times the volume of the cell, is the integral of the stress. It
lies between the extreme values at the points if the weights are positive. -/
theorem C89_average {nq : Nat} (JxW : Fin nq → ℝ) (sigma : Fin nq → Matrix (Fin 3) (Fin 3) ℝ) (i j : Fin 3) (h : ∑ q, JxW q ≠ 0) :
    (∑ q, JxW q) * cellAverage JxW sigma i j = ∑ q, JxW q * sigma q i j
    ∧ ∀ lo hi : ℝ, (∀ q, 0 ≤ JxW q) → (∀ q, lo ≤ sigma q i j ∧ sigma q i j ≤ hi) →
      lo ≤ cellAverage JxW sigma i j ∧ cellAverage JxW sigma i j ≤ hi := by
  have e : cellAverage JxW sigma i j = (∑ q, JxW q * sigma q i j) / ∑ q, JxW q := by
    show (∑ q, sigma q i j * JxW q) / _ = _
    simp only [mul_comm]
  refine ⟨by rw [e, mul_div_cancel₀ _ h], fun lo hi hw hb => ?_⟩
  have hp : 0 < ∑ q, JxW q := lt_of_le_of_ne (Finset.sum_nonneg fun q _ => hw q) (Ne.symm h)
  rw [e, le_div_iff₀ hp, div_le_iff₀ hp, Finset.mul_sum, Finset.mul_sum]
  constructor
  · refine Finset.sum_le_sum fun q _ => ?_
    rw [mul_comm]; exact mul_le_mul_of_nonneg_left (hb q).1 (hw q)
  · refine Finset.sum_le_sum fun q _ => ?_
    rw [mul_comm hi]; exact mul_le_mul_of_nonneg_left (hb q).2 (hw q)

/-- **C89 (histories).** A history is a sequence of states, each obtained from the one before with the displacement gradient and
increment of the step, and the stress of a step is that of the state before it. From the initial state all resistances of a grain of
the scripts stay equal in every history. -/
theorem C89_history (solve : (M3 →L[ℝ] M3) → M3 → M3) (fuel : Nat) :
    (∀ (m : Material ns) (l : List (ℝ × M3)) (iv : Internal ns) (r : List (Matrix (Fin 3) (Fin 3) ℝ) × Internal ns),
      history solve fuel m iv l = some r ↔ ∃ ivs : Nat → Internal ns, ivs 0 = iv ∧ ivs l.length = r.2 ∧ r.1.length = l.length
        ∧ ∀ k s, l[k]? = some s → ∃ S, stressS solve fuel m s.1 (ivs k) s.2 = some S
          ∧ r.1[k]? = some (piola m s.1 (ivs k) s.2 S) ∧ ivs (k + 1) = update m s.1 (ivs k) S)
    ∧ ∀ (l : List (ℝ × M3)) (rot : M3) (r : List (Matrix (Fin 3) (Fin 3) ℝ) × Internal 12),
      history solve fuel fcc (initial 12 rot) l = some r → r.2.rot = rot ∧ ∃ g, ∀ a, r.2.resistance a = g := by
  have hmain : ∀ {ns : Nat} (m : Material ns) (l : List (ℝ × M3)) (iv : Internal ns) (r : List (Matrix (Fin 3) (Fin 3) ℝ) × Internal ns),
      history solve fuel m iv l = some r ↔ ∃ ivs : Nat → Internal ns, ivs 0 = iv ∧ ivs l.length = r.2 ∧ r.1.length = l.length
        ∧ ∀ k s, l[k]? = some s → ∃ S, stressS solve fuel m s.1 (ivs k) s.2 = some S
          ∧ r.1[k]? = some (piola m s.1 (ivs k) s.2 S) ∧ ivs (k + 1) = update m s.1 (ivs k) S := by
    intro ns m l
    induction l with
    | nil =>
      intro iv r
      constructor
      · intro h
        have : ([], iv) = r := Option.some.inj h
        subst this
        exact ⟨fun _ => iv, rfl, rfl, rfl, fun k s hk => by simp at hk⟩
      · rintro ⟨ivs, h0, h1, h2, -⟩
        obtain ⟨r1, r2⟩ := r
        have e1 : r1 = [] := List.length_eq_zero_iff.1 h2
        have e2 : r2 = iv := h1.symm.trans h0
        rw [e1, e2]; rfl
    | cons s l ih =>
      intro iv r
      rw [history_cons]
      constructor
      · intro h
        cases hS : stressS solve fuel m s.1 iv s.2 with
        | none => rw [hS] at h; exact absurd h (by simp)
        | some S =>
          rw [hS, Option.bind_some] at h
          cases hh : history solve fuel m (update m s.1 iv S) l with
          | none => rw [hh] at h; exact absurd h (by simp)
          | some r' =>
            rw [hh] at h
            have e : (piola m s.1 iv s.2 S :: r'.1, r'.2) = r := Option.some.inj h
            subst e
            obtain ⟨ivs, h0, h1, h2, h3⟩ := (ih _ _).1 hh
            refine ⟨fun k => match k with | 0 => iv | k + 1 => ivs k, rfl, h1, by simp [h2], fun k t hk => ?_⟩
            cases k with
            | zero =>
              have : s = t := by simpa using hk
              subst this
              exact ⟨S, hS, rfl, h0⟩
            | succ k =>
              exact h3 k t (by simpa using hk)
      · rintro ⟨ivs, h0, h1, h2, h3⟩
        obtain ⟨S, e1, e2, e3⟩ := h3 0 s rfl
        rw [h0] at e1 e2 e3
        rw [e1, Option.bind_some]
        obtain ⟨r1, r2⟩ := r
        cases r1 with
        | nil => simp at h2
        | cons P r1 =>
          have eP : P = piola m s.1 iv s.2 S := by simpa using e2
          have hh := (ih (update m s.1 iv S) (r1, r2)).2 ⟨fun k => ivs (k + 1), e3, h1, by simpa using h2, fun k t hk =>
            h3 (k + 1) t (by simpa using hk)⟩
          rw [hh, eP]; rfl
  refine ⟨hmain, fun l rot r h => ?_⟩
  obtain ⟨ivs, h0, h1, -, h3⟩ := (hmain fcc l (initial 12 rot) r).1 h
  have key : ∀ k ≤ l.length, (ivs k).rot = rot ∧ ∃ g, ∀ a, (ivs k).resistance a = g := by
    intro k
    induction k with
    | zero =>
      intro _
      rw [h0]
      exact ⟨rfl, gssInitial, fun _ => rfl⟩
    | succ k ih =>
      intro hk
      obtain ⟨e1, g, e2⟩ := ih (by omega)
      obtain ⟨S, -, -, e3⟩ := h3 k l[k] (List.getElem?_eq_getElem (by omega))
      rw [e3]
      refine ⟨e1, g + gInc fcc l[k].1 (ivs k) S 0, fun a => ?_⟩
      show (ivs k).resistance a + gInc fcc l[k].1 (ivs k) S a = _
      rw [e2]
      have hq : ∀ a b : Fin 12, fcc.q a b = 1 := by
        intro a b
        show hardening 1 12 a b = 1
        rw [hardening_eq 1 12 a b a.2]
        split <;> rfl
      unfold gInc
      simp only [hq]
  rw [← h1]
  exact key _ le_rfl

/-- A stress with resolved shear stress on a system. -/
example : ∃ b, tau fcc (fun i j => if i = j then 1 else 0) (uniaxial 100) b ≠ 0 := by
  by_contra h
  push Not at h
  have := (C89_slip fcc 1 (initial 12 fun i j => if i = j then 1 else 0) (uniaxial 100) (by show (0 : ℝ) ≤ 0.001 * 1; norm_num)).2.1
  have hv := C89_volume_fails 1 100 one_pos (by norm_num)
  have hz : plasticInc fcc 1 (initial 12 fun i j => if i = j then 1 else 0) (uniaxial 100) = 0 := by
    funext i j
    refine Finset.sum_eq_zero fun a _ => ?_
    rw [(this a (by show (0 : ℝ) < 0.001 * 1; norm_num) (by show gssInitial ≠ 0; unfold gssInitial; norm_num)).2 (h a), zero_mul]
  have h1 : Matrix.of (fun i j : Fin 3 => if i = j then (1 : ℝ) else 0) = 1 := by
    ext i j; simp [Matrix.one_apply]
  have h0 : (Matrix.of (0 : M3) : Matrix (Fin 3) (Fin 3) ℝ) = 0 := rfl
  unfold fpInvNew at hv
  rw [hz, h0] at hv
  have e : Matrix.of (initial 12 fun i j => if i = j then (1 : ℝ) else 0).FpInv = 1 := h1
  rw [e] at hv
  simp at hv

end JaxFem.Crystal
