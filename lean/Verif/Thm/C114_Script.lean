import Mathlib.Analysis.SpecialFunctions.Pow.Real
import Mathlib.Analysis.Calculus.Deriv.Pow
import Mathlib.Analysis.Calculus.Deriv.Mul
import Verif.Thm.C114_Study

/-!
# C114: the script of the convergence study
-/

namespace JaxFem.Convergence

open Matrix

variable {IV : Type} {nq nfq nn vec dim : Nat}

/-! ### The manufactured solution -/

/-- Linear form with given coefficients. -/
noncomputable def form3 (a b c : ℝ) : (Fin 3 → ℝ) →L[ℝ] ℝ :=
  a • ContinuousLinearMap.proj (R := ℝ) (φ := fun _ : Fin 3 => ℝ) 0
    + b • ContinuousLinearMap.proj (R := ℝ) (φ := fun _ : Fin 3 => ℝ) 1
    + c • ContinuousLinearMap.proj (R := ℝ) (φ := fun _ : Fin 3 => ℝ) 2

theorem form3_apply (a b c : ℝ) (j : Fin 3) : form3 a b c (Pi.single j 1) = ![a, b, c] j := by
  fin_cases j <;> simp [form3]

/-- A sum of functions of the three coordinates. -/
theorem hasFDerivAt_sum3 {g h k : ℝ → ℝ} {x : Fin 3 → ℝ} {a b c : ℝ} (hg : HasDerivAt g a (x 0)) (hh : HasDerivAt h b (x 1))
    (hk : HasDerivAt k c (x 2)) : HasFDerivAt (fun y : Fin 3 → ℝ => g (y 0) + h (y 1) + k (y 2)) (form3 a b c) x := by
  have p : ∀ i : Fin 3, HasFDerivAt (fun y : Fin 3 → ℝ => y i)
      (ContinuousLinearMap.proj (R := ℝ) (φ := fun _ : Fin 3 => ℝ) i) x := fun i => hasFDerivAt_apply i x
  exact ((hg.comp_hasFDerivAt x (p 0)).add (hh.comp_hasFDerivAt x (p 1))).add (hk.comp_hasFDerivAt x (p 2))

theorem deriv_cube (s t : ℝ) : HasDerivAt (fun t : ℝ => s * (t - 0.5) ^ 3) (s * (3 * (t - 0.5) ^ 2)) t := by
  have := (((hasDerivAt_id t).sub_const 0.5).pow 3).const_mul s
  exact this.congr_deriv (by simp)

theorem deriv_square (s t : ℝ) : HasDerivAt (fun t : ℝ => s * (t - 0.5) ^ 2) (s * (2 * (t - 0.5))) t := by
  have := (((hasDerivAt_id t).sub_const 0.5).pow 2).const_mul s
  exact this.congr_deriv (by simp)

theorem deriv_gauss (t : ℝ) : HasDerivAt (fun t : ℝ => Real.exp (-(t - 0.5) ^ 2))
    (-(2 * (t - 0.5)) * Real.exp (-(t - 0.5) ^ 2)) t := by
  have h : HasDerivAt (fun t : ℝ => -(t - 0.5) ^ 2) (-(2 * (t - 0.5))) t := by
    have := (((hasDerivAt_id t).sub_const 0.5).pow 2).neg
    exact this.congr_deriv (by simp)
  exact h.exp.congr_deriv (mul_comm _ _)

/-- Gradient of the manufactured solution. -/
noncomputable def gradU (p : Fin 3 → ℝ) : Fin 1 → Fin 3 → ℝ := fun _ =>
  ![300 * (p 0 - 1 / 2) ^ 2, 600 * (p 1 - 1 / 2) ^ 2, -2000 * (p 2 - 1 / 2) * Real.exp (-(p 2 - 1 / 2) ^ 2)]

/-- Laplacian of the manufactured solution. -/
noncomputable def lapU (p : Fin 3 → ℝ) : Fin 1 → ℝ := fun _ =>
  600 * (p 0 - 1 / 2) + 1200 * (p 1 - 1 / 2) + (4000 * (p 2 - 1 / 2) ^ 2 - 2000) * Real.exp (-(p 2 - 1 / 2) ^ 2)

theorem hasGrad_trueU : HasGrad trueU gradU := by
  intro x
  refine ⟨ContinuousLinearMap.pi fun _ => form3 (gradU x 0 0) (gradU x 0 1) (gradU x 0 2), ?_, ?_⟩
  · rw [hasFDerivAt_pi]
    intro k
    have h := hasFDerivAt_sum3 (x := x) (deriv_cube 100 (x 0)) (deriv_cube 200 (x 1)) ((deriv_gauss (x 2)).const_mul 1000)
    have e : (fun y => trueU y 0) = fun y : Fin 3 → ℝ => 100 * (y 0 - 0.5) ^ 3 + 200 * (y 1 - 0.5) ^ 3
        + 1000 * Real.exp (-(y 2 - 0.5) ^ 2) := by
      funext y
      simp only [trueU]
      ring
    rw [Subsingleton.elim k 0, e]
    have d : form3 (gradU x 0 0) (gradU x 0 1) (gradU x 0 2) = form3 (100 * (3 * (x 0 - 0.5) ^ 2))
        (200 * (3 * (x 1 - 0.5) ^ 2)) (1000 * (-(2 * (x 2 - 0.5)) * Real.exp (-(x 2 - 0.5) ^ 2))) := by
      have : (0.5 : ℝ) = 1 / 2 := by norm_num
      rw [this]
      congr 1 <;> simp only [gradU, cons_val_zero, cons_val_one, cons_val] <;> ring
    rw [d]
    exact h
  · intro c j
    rw [ContinuousLinearMap.pi_apply, form3_apply, Subsingleton.elim c 0]
    fin_cases j <;> rfl

theorem hasDiv_gradU : HasDiv gradU lapU := by
  intro x
  refine ⟨fun _ => ![![600 * (x 0 - 1 / 2), 0, 0], ![0, 1200 * (x 1 - 1 / 2), 0],
    ![0, 0, (4000 * (x 2 - 1 / 2) ^ 2 - 2000) * Real.exp (-(x 2 - 1 / 2) ^ 2)]], ?_, ?_⟩
  · have c0 : HasDerivAt (fun _ : ℝ => (0 : ℝ)) 0 (x 0) := hasDerivAt_const _ _
    have c1 : HasDerivAt (fun _ : ℝ => (0 : ℝ)) 0 (x 1) := hasDerivAt_const _ _
    have c2 : HasDerivAt (fun _ : ℝ => (0 : ℝ)) 0 (x 2) := hasDerivAt_const _ _
    have half : (0.5 : ℝ) = 1 / 2 := by norm_num
    intro c i
    match i with
    | 0 =>
      refine ⟨_, ?_, fun j => form3_apply _ _ _ j⟩
      have h := hasFDerivAt_sum3 (deriv_square 300 (x 0)) c1 c2
      have e : (fun y => gradU y c 0) = fun y : Fin 3 → ℝ => 300 * (y 0 - 0.5) ^ 2 + 0 + 0 := by
        funext y; rw [half]; simp [gradU]
      rw [e, show (600 * (x 0 - 1 / 2) : ℝ) = 300 * (2 * (x 0 - 0.5)) by rw [half]; ring]
      exact h
    | 1 =>
      refine ⟨_, ?_, fun j => form3_apply _ _ _ j⟩
      have h := hasFDerivAt_sum3 c0 (deriv_square 600 (x 1)) c2
      have e : (fun y => gradU y c 1) = fun y : Fin 3 → ℝ => 0 + 600 * (y 1 - 0.5) ^ 2 + 0 := by
        funext y; rw [half]; simp [gradU]
      rw [e, show (1200 * (x 1 - 1 / 2) : ℝ) = 600 * (2 * (x 1 - 0.5)) by rw [half]; ring]
      exact h
    | 2 =>
      refine ⟨_, ?_, fun j => form3_apply _ _ _ j⟩
      have g := (((hasDerivAt_id (x 2)).sub_const 0.5).const_mul (-2000)).mul (deriv_gauss (x 2))
      have h := hasFDerivAt_sum3 c0 c1 g
      have e : (fun y => gradU y c 2) = fun y : Fin 3 → ℝ => 0 + 0 + -2000 * (id (y 2) - 0.5) * Real.exp (-(y 2 - 0.5) ^ 2) := by
        funext y; rw [half]; simp [gradU]
      rw [e, show ((4000 * (x 2 - 1 / 2) ^ 2 - 2000) * Real.exp (-(x 2 - 1 / 2) ^ 2) : ℝ)
        = -2000 * 1 * Real.exp (-(x 2 - 0.5) ^ 2)
          + -2000 * (id (x 2) - 0.5) * (-(2 * (x 2 - 0.5)) * Real.exp (-(x 2 - 0.5) ^ 2)) by rw [half, id]; ring]
      exact h
  · intro c
    simp [lapU, Fin.sum_univ_three]

/-- **C114 (source term).** The source that the script obtains by differentiating twice, and the gradient it compares with,
are those of the manufactured solution. -/
theorem C114_source (p : Fin 3 → ℝ) (iv : IV) (w : Fin 1 → ℝ) :
    massMap trueU iv w p 0 = 600 * (p 0 - 1 / 2) + 1200 * (p 1 - 1 / 2)
      + (4000 * (p 2 - 1 / 2) ^ 2 - 2000) * Real.exp (-(p 2 - 1 / 2) ^ 2) ∧
    jacrev trueU p 0 = ![300 * (p 0 - 1 / 2) ^ 2, 600 * (p 1 - 1 / 2) ^ 2,
      -2000 * (p 2 - 1 / 2) * Real.exp (-(p 2 - 1 / 2) ^ 2)] := by
  refine ⟨?_, ?_⟩
  · exact laplacian_eq hasGrad_trueU hasDiv_gradU p
  · rw [jacrev_eq hasGrad_trueU]
    rfl

/-! ### Supports -/

theorem isclose_zero (a : ℝ) : isclose a 0 ↔ |a| ≤ 1 / 10 ^ 5 := by simp [isclose]

theorem isclose_one (a : ℝ) : isclose a 1 ↔ |a - 1| ≤ 2 / 10 ^ 5 := by
  rw [isclose]; norm_num

/-- Conditions for the same component with the same value function. -/
theorem demands_same {Q K : Type} (points : List Q) (its : List (UserBC.Cond Q K)) (val : Q → K) (n : Nat) (p : Q)
    (hp : points[n]? = some p) (h : ∀ it ∈ its, it.2.1 = 0 ∧ it.2.2 = val) :
    ((∃ it ∈ its, it.1.holds p n) → ∀ o, UserBC.Demands points its n 0 o ↔ o = some (val p)) ∧
    ((¬∃ it ∈ its, it.1.holds p n) → ∀ o, UserBC.Demands points its n 0 o ↔ o = none) := by
  have hc : ∀ it ∈ its, UserBC.Concerns points it n 0 ↔ it.1.holds p n := by
    intro it hit
    rw [UserBC.Concerns, OnDirichlet, hp]
    simp [(h it hit).1]
  refine ⟨fun hex o => ⟨fun hd => ?_, ?_⟩, fun hex o => ⟨fun hd => ?_, ?_⟩⟩
  · cases hd with
    | free hf =>
      obtain ⟨it, hit, hh⟩ := hex
      exact absurd ((hc it hit).2 hh) (hf it hit)
    | value pre it post p' e _ hp' _ _ =>
      rw [hp] at hp'
      cases hp'
      rw [(h it (by rw [e]; simp)).2]
  · rintro rfl
    have key : ∀ l : List (UserBC.Cond Q K), (∃ it ∈ l, it.1.holds p n) →
        ∃ pre it post, l = pre ++ it :: post ∧ it.1.holds p n ∧ ∀ it' ∈ post, ¬it'.1.holds p n := by
      intro l
      induction l with
      | nil => rintro ⟨it, hit, -⟩; simp at hit
      | cons a l ih =>
        intro hl
        by_cases h' : ∃ it ∈ l, it.1.holds p n
        · obtain ⟨pre, it, post, e, h1, h2⟩ := ih h'
          exact ⟨a :: pre, it, post, by rw [e]; rfl, h1, h2⟩
        · obtain ⟨it, hit, hh⟩ := hl
          rcases List.mem_cons.1 hit with rfl | hit
          · exact ⟨[], it, l, rfl, hh, fun it' hit' hh' => h' ⟨it', hit', hh'⟩⟩
          · exact absurd ⟨it, hit, hh⟩ h'
    obtain ⟨pre, it, post, e, h1, h2⟩ := key its hex
    have hi : it ∈ its := by rw [e]; simp
    have := UserBC.Demands.value (points := points) (its := its) (n := n) (c := 0) pre it post p e (h it hi).1 hp h1
      fun it' hit' => by rw [hc it' (by rw [e]; simp [hit'])]; exact h2 it' hit'
    rwa [(h it hi).2] at this
  · cases hd with
    | free hf => rfl
    | value pre it post p' e _ hp' hh _ =>
      rw [hp] at hp'
      cases hp'
      exact absurd ⟨it, by rw [e]; simp, hh⟩ hex
  · rintro rfl
    exact .free fun it hit => by rw [hc it hit]; exact fun hh => hex ⟨it, hit, hh⟩

/-- **C114 (boundary values).** The script prescribes exactly the nodes near a face of the unit cube, each with the value of the
manufactured solution, whatever condition decides. -/
theorem C114_supports (points : List (Fin 3 → ℝ)) (n : Nat) (p : Fin 3 → ℝ) (hp : points[n]? = some p) :
    (NearFace p → ∀ o, UserBC.Demands points (UserBC.conds info) n 0 o ↔ o = some (trueU p 0)) ∧
    (¬NearFace p → ∀ o, UserBC.Demands points (UserBC.conds info) n 0 o ↔ o = none) := by
  have hall : ∀ it ∈ UserBC.conds info, it.2.1 = 0 ∧ it.2.2 = dirichletVal := by
    intro it hit
    simp only [UserBC.conds, info, List.replicate, List.zip_cons_cons, List.zip_nil_right, List.mem_cons,
      List.not_mem_nil, or_false] at hit
    rcases hit with rfl | rfl | rfl | rfl | rfl | rfl <;> exact ⟨rfl, rfl⟩
  have hex : (∃ it ∈ UserBC.conds info, it.1.holds p n) ↔ NearFace p := by
    simp only [UserBC.conds, info, List.replicate, List.zip_cons_cons, List.zip_nil_right, List.mem_cons,
      List.not_mem_nil, or_false, exists_eq_or_imp, exists_eq_left, LocFn.holds, left, right, front, back, bottom, top,
      decide_eq_true_eq, isclose_zero, isclose_one, NearFace, Fin.exists_fin_succ, IsEmpty.exists_iff, or_assoc]
    rfl
  obtain ⟨h1, h2⟩ := demands_same points (UserBC.conds info) dirichletVal n p hp hall
  exact ⟨fun h => h1 (hex.2 h), fun h => h2 fun h' => h (hex.1 h')⟩

/-! ### The printed orders -/

/-- **C114 (printed order).** If the last two errors are `C h^r` for mesh sizes `h` and `h / 2`, the printed number is `r`; if they
agree with `h^r` up to factors between `c` and `C`, the printed number is off by at most `log2 (C / c)`; with fewer than two
errors there is no number. -/
theorem C114_order (pre : List ℝ) (e e' h r c C : ℝ) (hh : 0 < h) (hc : 0 < c)
    (h1 : c * h ^ r ≤ e) (h2 : e ≤ C * h ^ r) (h3 : c * (h / 2) ^ r ≤ e') (h4 : e' ≤ C * (h / 2) ^ r) :
    (∃ x, printedOrder (pre ++ [e, e']) = .ok x ∧ |x - r| ≤ Real.logb 2 (C / c)) ∧
    printedOrder [] = .error .index ∧ printedOrder [e] = .error .index := by
  refine ⟨⟨Real.logb 2 (e / e'), by simp [printedOrder], ?_⟩, rfl, rfl⟩
  have a1 : 0 < h ^ r := Real.rpow_pos_of_pos hh r
  have a2 : 0 < (h / 2) ^ r := Real.rpow_pos_of_pos (by linarith) r
  have e0 : 0 < e := lt_of_lt_of_le (mul_pos hc a1) h1
  have e0' : 0 < e' := lt_of_lt_of_le (mul_pos hc a2) h3
  have hC : 0 < C := by
    by_contra hn
    push Not at hn
    nlinarith
  have q : h ^ r = 2 ^ r * (h / 2) ^ r := by
    rw [← Real.mul_rpow (by norm_num) (by linarith)]
    congr 1
    ring
  have two : (1 : ℝ) < 2 := by norm_num
  have l2 : Real.logb 2 ((2 : ℝ) ^ r) = r := Real.logb_rpow (by norm_num) (by norm_num)
  have p2 : (0 : ℝ) < 2 ^ r := Real.rpow_pos_of_pos (by norm_num) r
  have up : Real.logb 2 (e / e') ≤ Real.logb 2 (C / c * 2 ^ r) := by
    refine Real.logb_le_logb_of_le two (div_pos e0 e0') ?_
    rw [div_le_iff₀ e0']
    calc e ≤ C * h ^ r := h2
      _ = C / c * 2 ^ r * (c * (h / 2) ^ r) := by rw [q]; field_simp
      _ ≤ C / c * 2 ^ r * e' := mul_le_mul_of_nonneg_left h3 (by positivity)
  have lo : Real.logb 2 ((C / c)⁻¹ * 2 ^ r) ≤ Real.logb 2 (e / e') := by
    refine Real.logb_le_logb_of_le two (by positivity) ?_
    rw [le_div_iff₀ e0']
    calc (C / c)⁻¹ * 2 ^ r * e' ≤ (C / c)⁻¹ * 2 ^ r * (C * (h / 2) ^ r) := mul_le_mul_of_nonneg_left h4 (by positivity)
      _ = c * h ^ r := by rw [q]; field_simp
      _ ≤ e := h1
  rw [Real.logb_mul (by positivity) p2.ne', l2] at up
  rw [Real.logb_mul (by positivity) p2.ne', l2, Real.logb_inv] at lo
  rw [abs_le]
  constructor <;> linarith

end JaxFem.Convergence
