import Verif.Thm.C91_Maximum
import Verif.Thm.C91_Taylor
import Verif.Thm.C74_LinearSolve

/-!
# C91: convergence of the Poisson problem on the rectangle mesh
-/

namespace JaxFem

variable {IV : Type} {nq nfq : Nat}

/-! ### Helper lemmas -/

/-- Second derivative as a quadratic form. -/
noncomputable def quadForm (u : (Fin 2 → ℝ) → ℝ) (x d : Fin 2 → ℝ) : ℝ :=
  iteratedFDeriv ℝ 2 u x fun _ => d

theorem dirSecond_eq {u : (Fin 2 → ℝ) → ℝ} (hu : ContDiff ℝ 4 u) (x d : Fin 2 → ℝ) :
    dirSecond u x d = quadForm u x d := by
  have e0 : (fun t : ℝ => u (x + t • d)) = fun t : ℝ => iteratedFDeriv ℝ 0 u (x + t • d) fun _ => d := by
    funext t; simp
  have d0 : deriv (fun t : ℝ => u (x + t • d)) = fun t : ℝ => iteratedFDeriv ℝ 1 u (x + t • d) fun _ => d := by
    rw [e0]
    funext t
    have := (line_deriv hu 0 (by norm_num) x d (fun _ => d) t).deriv
    rwa [cons_const] at this
  rw [dirSecond, iteratedDeriv_succ, iteratedDeriv_one, d0]
  have := (line_deriv hu 1 (by norm_num) x d (fun _ => d) 0).deriv
  rw [cons_const, zero_smul, add_zero] at this
  exact this

theorem quadForm_comb (u : (Fin 2 → ℝ) → ℝ) (x d e : Fin 2 → ℝ) (a b : ℝ) :
    quadForm u x (a • d + b • e) + quadForm u x (a • d - b • e)
      = 2 * a ^ 2 * quadForm u x d + 2 * b ^ 2 * quadForm u x e := by
  simp only [quadForm, iteratedFDeriv_two_apply, map_add, map_sub, map_smul,
    ContinuousLinearMap.add_apply, ContinuousLinearMap.sub_apply, ContinuousLinearMap.smul_apply, smul_eq_mul]
  ring

theorem quadForm_smul (u : (Fin 2 → ℝ) → ℝ) (x d : Fin 2 → ℝ) (a : ℝ) :
    quadForm u x (a • d) = a ^ 2 * quadForm u x d := by
  simp only [quadForm, iteratedFDeriv_two_apply, map_smul, ContinuousLinearMap.smul_apply, smul_eq_mul]
  ring

theorem vec_norm (a b : ℝ) : ‖![a, b]‖ = max |a| |b| := by
  apply le_antisymm
  · refine (pi_norm_le_iff_of_nonneg (le_max_of_le_left (abs_nonneg a))).2 fun i => ?_
    fin_cases i
    · exact le_max_left _ _
    · exact le_max_right _ _
  · exact max_le (norm_le_pi_norm ![a, b] 0) (norm_le_pi_norm ![a, b] 1)

/-- The rectangle is convex. -/
theorem closedRect_segment {Lx Ly : ℝ} {x d : Fin 2 → ℝ} (h0 : closedRect Lx Ly x)
    (h1 : closedRect Lx Ly (x + d)) (t : ℝ) (ht : 0 ≤ t) (ht' : t ≤ 1) : closedRect Lx Ly (x + t • d) := by
  obtain ⟨⟨a1, a2⟩, a3, a4⟩ := h0
  obtain ⟨⟨b1, b2⟩, b3, b4⟩ := h1
  simp only [Pi.add_apply] at b1 b2 b3 b4
  simp only [closedRect, Pi.add_apply, Pi.smul_apply, smul_eq_mul]
  refine ⟨⟨?_, ?_⟩, ?_, ?_⟩ <;> nlinarith

theorem closedRect_segment' {Lx Ly : ℝ} {x d : Fin 2 → ℝ} (h0 : closedRect Lx Ly x)
    (h1 : closedRect Lx Ly (x + d)) (h2 : closedRect Lx Ly (x - d)) (t : ℝ) (ht : -1 ≤ t) (ht' : t ≤ 1) :
    closedRect Lx Ly (x + t • d) := by
  rcases le_total 0 t with h | h
  · exact closedRect_segment h0 h1 t h ht'
  · have := closedRect_segment (d := -d) h0 (by rwa [← sub_eq_add_neg]) (-t) (by linarith) (by linarith)
    simpa using this

/-- Grid points. -/
theorem grid_closedRect {Nx Ny : Nat} {Lx Ly : ℝ} (hNx : 0 < Nx) (hNy : 0 < Ny) (hLx : 0 < Lx) (hLy : 0 < Ly)
    {s t : ℝ} (h1 : 0 ≤ s) (h2 : s ≤ Nx) (h3 : 0 ≤ t) (h4 : t ≤ Ny) :
    closedRect Lx Ly ![s * (Lx / Nx), t * (Ly / Ny)] := by
  have one : ∀ (N : ℝ) (L t : ℝ), 0 < N → 0 < L → 0 ≤ t → t ≤ N → 0 ≤ t * (L / N) ∧ t * (L / N) ≤ L := by
    intro N L t hN hL h0 h1
    refine ⟨by positivity, ?_⟩
    rw [mul_div_assoc', div_le_iff₀ hN, mul_comm]
    exact mul_le_mul_of_nonneg_left h1 hL.le
  exact ⟨by simpa using one Nx Lx s (Nat.cast_pos.2 hNx) hLx h1 h2,
    by simpa using one Ny Ly t (Nat.cast_pos.2 hNy) hLy h3 h4⟩

/-- Nodal values of the exact solution. -/
noncomputable def exactGrid (u : (Fin 2 → ℝ) → ℝ) (a b : ℝ) : ℤ → ℤ → ℝ := fun i j => u ![i * a, j * b]

theorem exact_secondDiff (u : (Fin 2 → ℝ) → ℝ) (a b : ℝ) (c d i j : ℤ) :
    secondDiff (exactGrid u a b) c d i j
      = u (![i * a, j * b] + ![c * a, d * b]) + u (![i * a, j * b] - ![c * a, d * b])
        - 2 * u ![i * a, j * b] := by
  have e1 : (![((i + c : ℤ) : ℝ) * a, ((j + d : ℤ) : ℝ) * b] : Fin 2 → ℝ)
      = ![i * a, j * b] + ![c * a, d * b] := by
    funext k
    fin_cases k <;> simp <;> ring
  have e2 : (![((i - c : ℤ) : ℝ) * a, ((j - d : ℤ) : ℝ) * b] : Fin 2 → ℝ)
      = ![i * a, j * b] - ![c * a, d * b] := by
    funext k
    fin_cases k <;> simp <;> ring
  rw [secondDiff, exactGrid, exactGrid, exactGrid, e1, e2]

theorem aspect_bound {a b : ℝ} (ha : 0 < a) (hb : 0 < b) (h1 : a ^ 2 ≤ 2 * b ^ 2)
    (h2 : b ^ 2 ≤ 2 * a ^ 2) : (b / a + a / b) * (max a b) ^ 2 ≤ 3 * (a * b) := by
  have e : b / a + a / b = (a ^ 2 + b ^ 2) / (a * b) := by field_simp; ring
  rw [e, div_mul_eq_mul_div, div_le_iff₀ (mul_pos ha hb)]
  rcases max_choice a b with hm | hm <;> rw [hm]
  · have := mul_le_mul_of_nonneg_right (by linarith : a ^ 2 + b ^ 2 ≤ 3 * b ^ 2) (sq_nonneg a)
    linarith
  · have := mul_le_mul_of_nonneg_right (by linarith : a ^ 2 + b ^ 2 ≤ 3 * a ^ 2) (sq_nonneg b)
    linarith

/-- Consistency of the nine-point operator. -/
theorem ninePoint_consistent {u : (Fin 2 → ℝ) → ℝ} (hu : ContDiff ℝ 4 u) {Nx Ny : Nat} {Lx Ly M : ℝ}
    (hLx : 0 < Lx) (hLy : 0 < Ly) (hM0 : 0 ≤ M)
    (hM : ∀ x, closedRect Lx Ly x → ‖iteratedFDeriv ℝ 4 u x‖ ≤ M) (I J : Nat)
    (hI : 0 < I) (hI' : I < Nx) (hJ : 0 < J) (hJ' : J < Ny) {a b r s h : ℝ} (ha : a = Lx / Nx)
    (hb : b = Ly / Ny) (hr : r = b / a) (hs : s = a / b) (hh : h = max a b)
    (h1 : a ^ 2 ≤ 2 * b ^ 2) (h2 : b ^ 2 ≤ 2 * a ^ 2) :
    |ninePoint r s (exactGrid u a b) I J - a * b * laplacian u ![I * a, J * b]|
      ≤ a * b * (M * h ^ 2 / 6) := by
  have hNx : (0 : ℝ) < Nx := by exact_mod_cast (by omega : 0 < Nx)
  have hNy : (0 : ℝ) < Ny := by exact_mod_cast (by omega : 0 < Ny)
  have hI1 : (1 : ℝ) ≤ I := by exact_mod_cast hI
  have hJ1 : (1 : ℝ) ≤ J := by exact_mod_cast hJ
  have hI2 : (I : ℝ) + 1 ≤ Nx := by exact_mod_cast hI'
  have hJ2 : (J : ℝ) + 1 ≤ Ny := by exact_mod_cast hJ'
  have ha0 : 0 < a := by rw [ha]; positivity
  have hb0 : 0 < b := by rw [hb]; positivity
  obtain ⟨c1, c2, c3⟩ := aspect_coeffs ha0 hb0 h1 h2
  rw [← hr, ← hs] at c1 c2 c3
  set x : Fin 2 → ℝ := ![I * a, J * b] with hx
  have inR : ∀ s t : ℝ, -1 ≤ s → s ≤ 1 → -1 ≤ t → t ≤ 1 → closedRect Lx Ly ![(I + s) * a, (J + t) * b] := by
    intro s t p1 p2 p3 p4
    rw [ha, hb]
    exact grid_closedRect (by omega) (by omega) hLx hLy (by linarith) (by linarith) (by linarith) (by linarith)
  have sd : ∀ c d : ℤ, -1 ≤ (c : ℝ) → (c : ℝ) ≤ 1 → -1 ≤ (d : ℝ) → (d : ℝ) ≤ 1 →
      |secondDiff (exactGrid u a b) c d I J - quadForm u x ![c * a, d * b]| ≤ M * h ^ 4 / 12 := by
    intro c d p1 p2 p3 p4
    have ex : (![((I : ℤ) : ℝ) * a, ((J : ℤ) : ℝ) * b] : Fin 2 → ℝ) = x := by rw [hx]; simp
    rw [exact_secondDiff, ex]
    have k0 : closedRect Lx Ly x := by simpa [hx] using inR 0 0 (by norm_num) (by norm_num) (by norm_num) (by norm_num)
    have k1 : closedRect Lx Ly (x + ![c * a, d * b]) := by
      have := inR c d p1 p2 p3 p4
      rwa [add_mul, add_mul, show (![I * a + c * a, J * b + d * b] : Fin 2 → ℝ) = x + ![c * a, d * b] by
        rw [hx]; funext k; fin_cases k <;> simp] at this
    have k2 : closedRect Lx Ly (x - ![c * a, d * b]) := by
      have := inR (-c) (-d) (by linarith) (by linarith) (by linarith) (by linarith)
      rwa [add_mul, add_mul, show (![I * a + -c * a, J * b + -d * b] : Fin 2 → ℝ) = x - ![c * a, d * b] by
        rw [hx]; funext k; fin_cases k <;> simp <;> ring] at this
    refine (second_difference hu x _ M hM0 fun t t1 t2 => hM _ (closedRect_segment' k0 k1 k2 t t1 t2)).trans ?_
    have hn : ‖(![c * a, d * b] : Fin 2 → ℝ)‖ ≤ h := by
      rw [vec_norm, hh]
      refine max_le_max ?_ ?_
      · rw [abs_mul, abs_of_pos ha0]
        exact mul_le_of_le_one_left ha0.le (abs_le.2 ⟨p1, p2⟩)
      · rw [abs_mul, abs_of_pos hb0]
        exact mul_le_of_le_one_left hb0.le (abs_le.2 ⟨p3, p4⟩)
    have := pow_le_pow_left₀ (norm_nonneg _) hn 4
    have := mul_le_mul_of_nonneg_left this hM0
    linarith
  have s1 := sd 1 0 (by norm_num) (by norm_num) (by norm_num) (by norm_num)
  have s2 := sd 0 1 (by norm_num) (by norm_num) (by norm_num) (by norm_num)
  have s3 := sd 1 1 (by norm_num) (by norm_num) (by norm_num) (by norm_num)
  have s4 := sd 1 (-1) (by norm_num) (by norm_num) (by norm_num) (by norm_num)
  have q1 : quadForm u x ![((1 : ℤ) : ℝ) * a, ((0 : ℤ) : ℝ) * b] = a ^ 2 * quadForm u x ![1, 0] := by
    rw [← quadForm_smul]; congr 1; funext k; fin_cases k <;> simp
  have q2 : quadForm u x ![((0 : ℤ) : ℝ) * a, ((1 : ℤ) : ℝ) * b] = b ^ 2 * quadForm u x ![0, 1] := by
    rw [← quadForm_smul]; congr 1; funext k; fin_cases k <;> simp
  have q3 : quadForm u x ![((1 : ℤ) : ℝ) * a, ((1 : ℤ) : ℝ) * b]
      + quadForm u x ![((1 : ℤ) : ℝ) * a, ((-1 : ℤ) : ℝ) * b]
      = 2 * a ^ 2 * quadForm u x ![1, 0] + 2 * b ^ 2 * quadForm u x ![0, 1] := by
    rw [← quadForm_comb]
    congr 1 <;> congr 1 <;> funext k <;> fin_cases k <;> simp
  rw [laplacian, dirSecond_eq hu, dirSecond_eq hu]
  set Q1 := quadForm u x ![1, 0]
  set Q2 := quadForm u x ![0, 1]
  set K := M * h ^ 4 / 12 with hK
  rw [q1] at s1
  rw [q2] at s2
  set S1 := secondDiff (exactGrid u a b) 1 0 I J
  set S2 := secondDiff (exactGrid u a b) 0 1 I J
  set S3 := secondDiff (exactGrid u a b) 1 1 I J
  set S4 := secondDiff (exactGrid u a b) 1 (-1) I J
  set Q3 := quadForm u x ![((1 : ℤ) : ℝ) * a, ((1 : ℤ) : ℝ) * b]
  set Q4 := quadForm u x ![((1 : ℤ) : ℝ) * a, ((-1 : ℤ) : ℝ) * b]
  have hra : r * a ^ 2 = a * b := by rw [hr]; field_simp
  have hsb : s * b ^ 2 = a * b := by rw [hs]; field_simp
  have split : ninePoint r s (exactGrid u a b) I J - a * b * (Q1 + Q2)
      = (2 * r - s) / 3 * (S1 - a ^ 2 * Q1) + (2 * s - r) / 3 * (S2 - b ^ 2 * Q2)
        + (r + s) / 6 * ((S3 - Q3) + (S4 - Q4)) := by
    show (2 * r - s) / 3 * S1 + (2 * s - r) / 3 * S2 + (r + s) / 6 * (S3 + S4) - a * b * (Q1 + Q2) = _
    linear_combination (r + s) / 6 * q3 + Q1 * hra + Q2 * hsb
  have c1' : 0 ≤ (2 * r - s) / 3 := by linarith
  have c2' : 0 ≤ (2 * s - r) / 3 := by linarith
  have c3' : 0 ≤ (r + s) / 6 := by linarith
  rw [split]
  have b1 : |(2 * r - s) / 3 * (S1 - a ^ 2 * Q1)| ≤ (2 * r - s) / 3 * K := by
    rw [abs_mul, abs_of_nonneg c1']; exact mul_le_mul_of_nonneg_left s1 c1'
  have b2 : |(2 * s - r) / 3 * (S2 - b ^ 2 * Q2)| ≤ (2 * s - r) / 3 * K := by
    rw [abs_mul, abs_of_nonneg c2']; exact mul_le_mul_of_nonneg_left s2 c2'
  have b3 : |(r + s) / 6 * ((S3 - Q3) + (S4 - Q4))| ≤ (r + s) / 6 * (K + K) := by
    rw [abs_mul, abs_of_nonneg c3']
    exact mul_le_mul_of_nonneg_left ((abs_add_le _ _).trans (add_le_add s3 s4)) c3'
  refine (abs_add_le _ _).trans ((add_le_add ((abs_add_le _ _).trans (add_le_add b1 b2)) b3).trans ?_)
  have hrs : (r + s) * h ^ 2 ≤ 3 * (a * b) := by
    rw [hr, hs, hh]; exact aspect_bound ha0 hb0 h1 h2
  have hMh : 0 ≤ M * h ^ 2 := by positivity
  have := mul_le_mul_of_nonneg_left hrs hMh
  have e : (2 * r - s) / 3 * K + (2 * s - r) / 3 * K + (r + s) / 6 * (K + K)
      = M * h ^ 2 * ((r + s) * h ^ 2) / 18 := by rw [hK]; ring
  rw [e]
  linarith

/-- The quadrature of the source is second-order accurate. -/
theorem source_consistent {u : (Fin 2 → ℝ) → ℝ} (hu : ContDiff ℝ 4 u) {Nx Ny : Nat} {Lx Ly M : ℝ}
    (hLx : 0 < Lx) (hLy : 0 < Ly) (hM0 : 0 ≤ M)
    (hM : ∀ x, closedRect Lx Ly x → ‖iteratedFDeriv ℝ 4 u x‖ ≤ M) {p : Fin nq → Fin 2 → ℝ}
    {w : Fin nq → ℝ} (hr : SquareRule p w) (f : (Fin 2 → ℝ) → ℝ)
    (hf : ∀ x, closedRect Lx Ly x → f x = -laplacian u x) (I J : Nat)
    (hI : 0 < I) (hI' : I < Nx) (hJ : 0 < J) (hJ' : J < Ny) {a b h : ℝ} (ha : a = Lx / Nx)
    (hb : b = Ly / Ny) (hh : h = max a b) :
    |sourceMean p w f a b I J + laplacian u ![I * a, J * b]| ≤ M * h ^ 2 := by
  have hNx : (0 : ℝ) < Nx := by exact_mod_cast (by omega : 0 < Nx)
  have hNy : (0 : ℝ) < Ny := by exact_mod_cast (by omega : 0 < Ny)
  have hI1 : (1 : ℝ) ≤ I := by exact_mod_cast hI
  have hJ1 : (1 : ℝ) ≤ J := by exact_mod_cast hJ
  have hI2 : (I : ℝ) + 1 ≤ Nx := by exact_mod_cast hI'
  have hJ2 : (J : ℝ) + 1 ≤ Ny := by exact_mod_cast hJ'
  have ha0 : 0 < a := by rw [ha]; positivity
  have hb0 : 0 < b := by rw [hb]; positivity
  set x : Fin 2 → ℝ := ![I * a, J * b] with hx
  -- first-order part
  let D : (Fin 2 → ℝ) → ℝ := fun d => iteratedFDeriv ℝ 3 u x (Fin.cons d fun _ => ![1, 0])
    + iteratedFDeriv ℝ 3 u x (Fin.cons d fun _ => ![0, 1])
  have hD : ∀ c1 c2 c3 c4 (d1 d2 d3 d4 : Fin 2 → ℝ), c1 • d1 + c2 • d2 + c3 • d3 + c4 • d4 = 0 →
      c1 * D d1 + c2 * D d2 + c3 * D d3 + c4 * D d4 = 0 := by
    intro c1 c2 c3 c4 d1 d2 d3 d4 e
    have lin : ∀ e' : Fin 2 → ℝ, ∀ d : Fin 2 → ℝ, iteratedFDeriv ℝ 3 u x (Fin.cons d fun _ => e')
        = (fderiv ℝ (iteratedFDeriv ℝ 2 u) x d) fun _ => e' := fun e' d => rfl
    have := congrArg (fun d => (fderiv ℝ (iteratedFDeriv ℝ 2 u) x d) (fun _ => (![1, 0] : Fin 2 → ℝ))
      + (fderiv ℝ (iteratedFDeriv ℝ 2 u) x d) (fun _ => (![0, 1] : Fin 2 → ℝ))) e
    simp only [map_add, map_smul, map_zero, _root_.add_apply,
      _root_.smul_apply, _root_.zero_apply, smul_eq_mul] at this
    simp only [D, lin]
    linear_combination this
  have inR : ∀ s t : ℝ, -1 ≤ s → s ≤ 1 → -1 ≤ t → t ≤ 1 → closedRect Lx Ly ![(I + s) * a, (J + t) * b] := by
    intro s t p1 p2 p3 p4
    rw [ha, hb]
    exact grid_closedRect (by omega) (by omega) hLx hLy (by linarith) (by linarith) (by linarith) (by linarith)
  have k0 : closedRect Lx Ly x := by simpa [hx] using inR 0 0 (by norm_num) (by norm_num) (by norm_num) (by norm_num)
  have expand : ∀ s t : ℝ, -1 ≤ s → s ≤ 1 → -1 ≤ t → t ≤ 1 →
      |f ![(I + s) * a, (J + t) * b] + laplacian u x + D ![s * a, t * b]| ≤ M * h ^ 2 := by
    intro s t p1 p2 p3 p4
    have k1 := inR s t p1 p2 p3 p4
    have ee : (![(I + s) * a, (J + t) * b] : Fin 2 → ℝ) = x + ![s * a, t * b] := by
      rw [hx]; funext k; fin_cases k <;> simp <;> ring
    rw [hf _ k1]
    rw [ee] at k1 ⊢
    rw [laplacian, laplacian, dirSecond_eq hu, dirSecond_eq hu, dirSecond_eq hu, dirSecond_eq hu]
    have n1 : ‖(![1, 0] : Fin 2 → ℝ)‖ ≤ 1 := by rw [vec_norm]; simp
    have n2 : ‖(![0, 1] : Fin 2 → ℝ)‖ ≤ 1 := by rw [vec_norm]; simp
    have hseg := fun t t1 t2 => hM _ (closedRect_segment k0 k1 t t1 t2)
    have t1 := second_derivative_expand hu x ![s * a, t * b] ![1, 0] M hM0 n1 hseg
    have t2 := second_derivative_expand hu x ![s * a, t * b] ![0, 1] M hM0 n2 hseg
    have hn : ‖(![s * a, t * b] : Fin 2 → ℝ)‖ ≤ h := by
      rw [vec_norm, hh]
      refine max_le_max ?_ ?_
      · rw [abs_mul, abs_of_pos ha0]
        exact mul_le_of_le_one_left ha0.le (abs_le.2 ⟨p1, p2⟩)
      · rw [abs_mul, abs_of_pos hb0]
        exact mul_le_of_le_one_left hb0.le (abs_le.2 ⟨p3, p4⟩)
    have hn2 := mul_le_mul_of_nonneg_left (pow_le_pow_left₀ (norm_nonneg _) hn 2) hM0
    rw [← abs_neg] at t1 t2
    have := (abs_add_le _ _).trans (add_le_add t1 t2)
    simp only [quadForm, D]
    refine le_trans (le_of_eq (congrArg abs ?_)) (this.trans (by linarith))
    ring
  have e : sourceMean p w f a b I J + laplacian u x
      = ∑ q, w q * ((1 - p q 0) * (1 - p q 1) *
            (f ![(I + p q 0) * a, (J + p q 1) * b] + laplacian u x + D ![p q 0 * a, p q 1 * b])
          + p q 0 * (1 - p q 1) *
            (f ![(I + (p q 0 - 1)) * a, (J + p q 1) * b] + laplacian u x + D ![(p q 0 - 1) * a, p q 1 * b])
          + p q 0 * p q 1 *
            (f ![(I + (p q 0 - 1)) * a, (J + (p q 1 - 1)) * b] + laplacian u x
              + D ![(p q 0 - 1) * a, (p q 1 - 1) * b])
          + (1 - p q 0) * p q 1 *
            (f ![(I + p q 0) * a, (J + (p q 1 - 1)) * b] + laplacian u x
              + D ![p q 0 * a, (p q 1 - 1) * b])) := by
    have hone : laplacian u x = ∑ q, w q * laplacian u x := by rw [← Finset.sum_mul, hr.one, one_mul]
    conv_lhs => rw [hone]
    rw [sourceMean, ← Finset.sum_add_distrib]
    refine Finset.sum_congr rfl fun q _ => ?_
    have hd := hD ((1 - p q 0) * (1 - p q 1)) (p q 0 * (1 - p q 1)) (p q 0 * p q 1) ((1 - p q 0) * p q 1)
      ![p q 0 * a, p q 1 * b] ![(p q 0 - 1) * a, p q 1 * b] ![(p q 0 - 1) * a, (p q 1 - 1) * b]
      ![p q 0 * a, (p q 1 - 1) * b] (by
        funext k; fin_cases k <;> simp <;> ring)
    have r1 : (I : ℝ) - 1 + p q 0 = I + (p q 0 - 1) := by ring
    have r2 : (J : ℝ) - 1 + p q 1 = J + (p q 1 - 1) := by ring
    rw [r1, r2]
    linear_combination -w q * hd
  rw [e]
  have hsum : M * h ^ 2 = ∑ q, w q * (M * h ^ 2) := by rw [← Finset.sum_mul, hr.one, one_mul]
  rw [hsum]
  refine (Finset.abs_sum_le_sum_abs _ _).trans (Finset.sum_le_sum fun q _ => ?_)
  rw [abs_mul, abs_of_nonneg (hr.weight q)]
  refine mul_le_mul_of_nonneg_left ?_ (hr.weight q)
  obtain ⟨a0, a1⟩ := hr.inside q 0
  obtain ⟨b0, b1⟩ := hr.inside q 1
  have a2 := sub_nonneg.2 a1
  have b2 := sub_nonneg.2 b1
  have f1 := expand (p q 0) (p q 1) (by linarith) (by linarith) (by linarith) (by linarith)
  have f2 := expand (p q 0 - 1) (p q 1) (by linarith) (by linarith) (by linarith) (by linarith)
  have f3 := expand (p q 0 - 1) (p q 1 - 1) (by linarith) (by linarith) (by linarith) (by linarith)
  have f4 := expand (p q 0) (p q 1 - 1) (by linarith) (by linarith) (by linarith) (by linarith)
  have wt : ∀ (c y : ℝ), 0 ≤ c → |y| ≤ M * h ^ 2 → |c * y| ≤ c * (M * h ^ 2) := fun c y hc hy => by
    rw [abs_mul, abs_of_nonneg hc]; exact mul_le_mul_of_nonneg_left hy hc
  refine (abs_add_le _ _).trans ((add_le_add ((abs_add_le _ _).trans (add_le_add ((abs_add_le _ _).trans
    (add_le_add (wt _ _ (mul_nonneg a2 b2) f1) (wt _ _ (mul_nonneg a0 b2) f2)))
    (wt _ _ (mul_nonneg a0 b0) f3))) (wt _ _ (mul_nonneg a2 b0) f4)).trans (le_of_eq ?_))
  ring

/-- The barrier functions. -/
theorem barrier (r s a b Lx Ly : ℝ) (hra : r * a ^ 2 = a * b) (hsb : s * b ^ 2 = a * b) (i j : ℤ) :
    ninePoint r s (fun i _ => (i * a) * (Lx - i * a) / 2) i j = -(a * b) ∧
    ninePoint r s (fun _ j => (j * b) * (Ly - j * b) / 2) i j = -(a * b) := by
  constructor
  · simp only [ninePoint, secondDiff]
    push_cast
    linear_combination -hra
  · simp only [ninePoint, secondDiff]
    push_cast
    linear_combination -hsb

theorem barrier_bound (L t : ℝ) : t * (L - t) / 2 ≤ L ^ 2 / 8 := by
  nlinarith [sq_nonneg (L - 2 * t)]

/-! ### Property theorems -/

/-- **C91 (convergence).** On the rectangle mesh with bilinear cells no longer than `√2` times as wide and
vice versa, the nodal values of the Poisson problem with the boundary values of a `C⁴` solution `u` of
`-Δu = f` differ from `u` by at most `7/48 M L² h²`, where `M` bounds the fourth derivative, `L` is the
shorter side and `h` the larger mesh width. -/
theorem C91_converges (P : Problem1 IV nq nfq 4 1 2) {Nx Ny : Nat} {Lx Ly : ℝ}
    {p : Fin nq → Fin 2 → ℝ} {w : Fin nq → ℝ} (h : OnRectangle P Nx Ny Lx Ly p w)
    (hr : SquareRule p w) (f : (Fin 2 → ℝ) → ℝ) (hP : IsPoisson P f)
    (h1 : (Lx / Nx) ^ 2 ≤ 2 * (Ly / Ny) ^ 2) (h2 : (Ly / Ny) ^ 2 ≤ 2 * (Lx / Nx) ^ 2)
    (u : (Fin 2 → ℝ) → ℝ) (hu : ContDiff ℝ 4 u)
    (hf : ∀ x, closedRect Lx Ly x → -laplacian u x = f x) (M : ℝ)
    (hM : ∀ x, closedRect Lx Ly x → ‖iteratedFDeriv ℝ 4 u x‖ ≤ M)
    (sol : List (List ℝ)) (hs : HasShapes [(P.numTotalNodes, 1)] [sol])
    (hsol : IsSolution P (fun n _ => rectInterior Nx Ny n) sol)
    (hbd : ∀ n < P.numTotalNodes, ¬ rectInterior Nx Ny n → fieldOf 1 sol n 0 = u (P.points.getD n 0)) :
    ∀ n < P.numTotalNodes, |fieldOf 1 sol n 0 - u (P.points.getD n 0)|
      ≤ 7 / 48 * M * (min Lx Ly) ^ 2 * (max (Lx / Nx) (Ly / Ny)) ^ 2 := by
  rw [C91_stencil P h hr f hP sol hs] at hsol
  obtain ⟨c1, c2, c3⟩ := aspect_coeffs h.hx.1 h.hx.2 h1 h2
  obtain ⟨ha0, hb0⟩ := h.hx
  have hM0 : 0 ≤ M := (norm_nonneg _).trans (hM 0 ⟨⟨le_rfl, h.Lx_pos.le⟩, le_rfl, h.Ly_pos.le⟩)
  have hLx := h.Lx_pos
  have hLy := h.Ly_pos
  have hNx := h.Nx_pos
  have hNy := h.Ny_pos
  have hpt : ∀ i j : Nat, i ≤ Nx → j ≤ Ny →
      P.points.getD (i * (Ny + 1) + j) 0 = ![i * (Lx / Nx), j * (Ly / Ny)] := by
    intro i j hi hj
    rw [h.points, List.getD_eq_getElem?_getD, rect_point Nx Ny Lx Ly i j hi hj]
    rfl
  have hLa : Lx = Nx * (Lx / Nx) := by
    have : (Nx : ℝ) ≠ 0 := Nat.cast_ne_zero.2 hNx.ne'
    field_simp
  have hLb : Ly = Ny * (Ly / Ny) := by
    have : (Ny : ℝ) ≠ 0 := Nat.cast_ne_zero.2 hNy.ne'
    field_simp
  have hcons := fun I J hI hI' hJ hJ' => ninePoint_consistent hu hLx hLy hM0 hM I J hI hI' hJ hJ'
    (a := Lx / Nx) (b := Ly / Ny) rfl rfl rfl rfl rfl h1 h2
  have hsrc := fun I J hI hI' hJ hJ' => source_consistent hu hLx hLy hM0 hM hr f
    (fun x hx => (hf x hx).symm) I J hI hI' hJ hJ' (a := Lx / Nx) (b := Ly / Ny) rfl rfl rfl
  set a := Lx / Nx with ha
  set b := Ly / Ny with hb
  set H := max a b with hH
  set T := 7 / 6 * M * H ^ 2 with hT
  have hT0 : 0 ≤ T := by positivity
  set E := exactGrid u a b with hE
  set S := gridOf Ny (fieldOf 1 sol) with hS
  have hra : b / a * a ^ 2 = a * b := by field_simp
  have hsb : a / b * b ^ 2 = a * b := by field_simp
  have hab : 0 < a * b := mul_pos ha0 hb0
  -- truncation
  have trunc : ∀ I J : Nat, 0 < I → I < Nx → 0 < J → J < Ny →
      |ninePoint (b / a) (a / b) S I J - ninePoint (b / a) (a / b) E I J| ≤ a * b * T := by
    intro I J hI hI' hJ hJ'
    have e1 := hsol I J hI hI' hJ hJ'
    have e2 := hcons I J hI hI' hJ hJ'
    have e3 := hsrc I J hI hI' hJ hJ'
    have e4 := mul_le_mul_of_nonneg_left e3 hab.le
    rw [← abs_of_pos hab, ← abs_mul, abs_of_pos hab] at e4
    have := (abs_add_le _ _).trans (add_le_add e4 e2)
    have e5 : ninePoint (b / a) (a / b) S I J - ninePoint (b / a) (a / b) E I J
        = -(a * b * (sourceMean p w f a b I J + laplacian u ![I * a, J * b])
          + (ninePoint (b / a) (a / b) E I J - a * b * laplacian u ![I * a, J * b])) := by
      linear_combination -e1
    rw [e5, abs_neg]
    refine this.trans (le_of_eq ?_)
    rw [hT]
    ring
  have bdry : ∀ i j : Nat, i ≤ Nx → j ≤ Ny → i = 0 ∨ i = Nx ∨ j = 0 ∨ j = Ny →
      S i j = E i j := by
    intro i j hi hj hb'
    rw [hS, gridOf_nat, hbd _ (by rw [h.nodes]; exact gridNode_lt (by omega) (by omega))
      (not_interior Nx Ny i j hj hb'), hpt i j hi hj, hE, exactGrid]
    simp
  -- comparison with a barrier
  have main : ∀ (W : ℤ → ℤ → ℝ) (C : ℝ),
      (∀ i j : ℤ, ninePoint (b / a) (a / b) W i j = -(a * b)) →
      (∀ i j : Nat, i ≤ Nx → j ≤ Ny → 0 ≤ W i j ∧ W i j ≤ C) →
      ∀ i j : Nat, i ≤ Nx → j ≤ Ny → |S i j - E i j| ≤ T * C := by
    intro W C hW hC i j hi hj
    have one : ∀ ε : ℝ, ε = 1 ∨ ε = -1 → ε * (S i j - E i j) ≤ T * C := by
      intro ε hε
      have := ninePoint_max c1 c2 c3 (Nx := Nx) (Ny := Ny) (B := 0)
        (U := fun i j => (0 + ε * (S i j + (-1) * E i j)) + (-T) * W i j)
        (fun i j hi hi' hj hj' => by
          rw [ninePoint_lin _ _ _ (fun i j => 0 + ε * (S i j + (-1) * E i j)) W,
            ninePoint_lin _ _ _ (fun _ _ => 0) (fun i j => S i j + (-1) * E i j), ninePoint_lin, hW]
          have e0 : ninePoint (b / a) (a / b) (fun _ _ => 0) i j = 0 := by simp [ninePoint, secondDiff]
          rw [e0]
          obtain ⟨t1, t2⟩ := abs_le.1 (trunc i j hi hi' hj hj')
          rcases hε with rfl | rfl <;> linarith)
        (fun i j hi hj hb' => by
          have := mul_nonneg hT0 (hC i j hi hj).1
          simp only [bdry i j hi hj hb']
          linarith) i j hi hj
      have hTC := mul_le_mul_of_nonneg_left (hC i j hi hj).2 hT0
      linarith
    rw [abs_le]
    have o1 := one 1 (Or.inl rfl)
    have o2 := one (-1) (Or.inr rfl)
    exact ⟨by linarith, by linarith⟩
  have bx := main (fun i _ => (i * a) * (Lx - i * a) / 2) (Lx ^ 2 / 8)
    (fun i j => (barrier _ _ a b Lx Ly hra hsb i j).1) (fun i j hi hj => by
      refine ⟨?_, barrier_bound _ _⟩
      have : (i : ℝ) ≤ Nx := by exact_mod_cast hi
      have : (i : ℝ) * a ≤ Lx := by rw [hLa]; exact mul_le_mul_of_nonneg_right this ha0.le
      have : 0 ≤ (i : ℝ) * a := by positivity
      simp only [Int.cast_natCast]
      nlinarith)
  have by' := main (fun _ j => (j * b) * (Ly - j * b) / 2) (Ly ^ 2 / 8)
    (fun i j => (barrier _ _ a b Lx Ly hra hsb i j).2) (fun i j hi hj => by
      refine ⟨?_, barrier_bound _ _⟩
      have : (j : ℝ) ≤ Ny := by exact_mod_cast hj
      have : (j : ℝ) * b ≤ Ly := by rw [hLb]; exact mul_le_mul_of_nonneg_right this hb0.le
      have : 0 ≤ (j : ℝ) * b := by positivity
      simp only [Int.cast_natCast]
      nlinarith)
  intro n hn
  rw [h.nodes] at hn
  obtain ⟨i, j, hi, hj, rfl⟩ := node_grid hn
  rw [hpt i j hi hj, ← gridOf_nat Ny (fieldOf 1 sol) i j, ← hS]
  have hEij : E i j = u ![i * a, j * b] := by rw [hE, exactGrid]; simp
  rw [← hEij]
  rcases le_total Lx Ly with hl | hl
  · rw [min_eq_left hl]
    refine (bx i j hi hj).trans (le_of_eq ?_)
    rw [hT]; ring
  · rw [min_eq_right hl]
    refine (by' i j hi hj).trans (le_of_eq ?_)
    rw [hT]; ring

end JaxFem
