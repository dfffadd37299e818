import Mathlib.Tactic.IntervalCases
import Verif.Thm.C91_Stencil

/-!
# C91: the discrete maximum principle of the Poisson problem
-/

namespace JaxFem

variable {IV : Type} {nq nfq : Nat}

/-! ### Helper lemmas -/

/-- A grid function with nonnegative nine-point operator takes its maximum on the boundary. -/
theorem ninePoint_max {r s : ℝ} (hax : 0 ≤ 2 * r - s) (hay : 0 ≤ 2 * s - r) (had : 0 < r + s)
    {Nx Ny : Nat} {U : ℤ → ℤ → ℝ} {B : ℝ}
    (hsub : ∀ i j : Nat, 0 < i → i < Nx → 0 < j → j < Ny → 0 ≤ ninePoint r s U i j)
    (hbd : ∀ i j : Nat, i ≤ Nx → j ≤ Ny → i = 0 ∨ i = Nx ∨ j = 0 ∨ j = Ny → U i j ≤ B)
    (i j : Nat) (hi : i ≤ Nx) (hj : j ≤ Ny) : U i j ≤ B := by
  obtain ⟨m, hm, hmax⟩ := Finset.exists_max_image
    ((Finset.range (Nx + 1)) ×ˢ (Finset.range (Ny + 1))) (fun m : Nat × Nat => U m.1 m.2)
    ⟨(0, 0), by simp⟩
  have hle : ∀ a b : Nat, a ≤ Nx → b ≤ Ny → U a b ≤ U m.1 m.2 := fun a b ha hb =>
    hmax (a, b) (by simp [Finset.mem_product]; omega)
  have walk : ∀ k a b : Nat, a + k = Nx → b ≤ Ny → U a b = U m.1 m.2 → U m.1 m.2 ≤ B := by
    intro k
    induction k with
    | zero => exact fun a b ha hb e => e ▸ hbd a b (by omega) hb (by omega)
    | succ k ih =>
      intro a b ha hb e
      by_cases hc : a = 0 ∨ a = Nx ∨ b = 0 ∨ b = Ny
      · exact e ▸ hbd a b (by omega) hb hc
      · obtain ⟨a, rfl⟩ : ∃ c, a = c + 1 := ⟨a - 1, by omega⟩
        obtain ⟨b, rfl⟩ : ∃ c, b = c + 1 := ⟨b - 1, by omega⟩
        have hs := hsub (a + 1) (b + 1) (by omega) (by omega) (by omega) (by omega)
        refine ih (a + 2) (b + 2) (by omega) (by omega) ?_
        have cast : ∀ (x y : ℤ) (X Y : Nat) (_ : x = X) (_ : y = Y), U x y = U (X : ℤ) (Y : ℤ) := by
          intro x y X Y hx hy; rw [hx, hy]
        simp only [ninePoint, secondDiff] at hs
        rw [cast (((a + 1 : Nat) : ℤ) + 1) (((b + 1 : Nat) : ℤ) + 0) (a + 2) (b + 1) (by push_cast; ring) (by push_cast; ring),
          cast (((a + 1 : Nat) : ℤ) - 1) (((b + 1 : Nat) : ℤ) - 0) a (b + 1) (by push_cast; ring) (by push_cast; ring),
          cast (((a + 1 : Nat) : ℤ) + 0) (((b + 1 : Nat) : ℤ) + 1) (a + 1) (b + 2) (by push_cast; ring) (by push_cast; ring),
          cast (((a + 1 : Nat) : ℤ) - 0) (((b + 1 : Nat) : ℤ) - 1) (a + 1) b (by push_cast; ring) (by push_cast; ring),
          cast (((a + 1 : Nat) : ℤ) + 1) (((b + 1 : Nat) : ℤ) + 1) (a + 2) (b + 2) (by push_cast; ring) (by push_cast; ring),
          cast (((a + 1 : Nat) : ℤ) - 1) (((b + 1 : Nat) : ℤ) - 1) a b (by push_cast; ring) (by push_cast; ring),
          cast (((a + 1 : Nat) : ℤ) + 1) (((b + 1 : Nat) : ℤ) + -1) (a + 2) b (by push_cast; ring) (by push_cast; ring),
          cast (((a + 1 : Nat) : ℤ) - 1) (((b + 1 : Nat) : ℤ) - -1) a (b + 2) (by push_cast; ring) (by push_cast; ring),
          e] at hs
        have k1 := hle (a + 2) (b + 1) (by omega) (by omega)
        have k2 := hle a (b + 1) (by omega) (by omega)
        have k3 := hle (a + 1) (b + 2) (by omega) (by omega)
        have k4 := hle (a + 1) b (by omega) (by omega)
        have k5 := hle (a + 2) (b + 2) (by omega) (by omega)
        have k6 := hle a b (by omega) (by omega)
        have k7 := hle (a + 2) b (by omega) (by omega)
        have k8 := hle a (b + 2) (by omega) (by omega)
        set T := U m.1 m.2
        refine le_antisymm k5 ?_
        by_contra hlt
        have hlt := not_le.1 hlt
        have t1 := mul_nonneg hax (by linarith : 0 ≤ 2 * T - U ↑(a + 2) ↑(b + 1) - U ↑a ↑(b + 1))
        have t2 := mul_nonneg hay (by linarith : 0 ≤ 2 * T - U ↑(a + 1) ↑(b + 2) - U ↑(a + 1) ↑b)
        have t3 := mul_pos had (by linarith : 0 < 4 * T - U ↑(a + 2) ↑(b + 2) - U ↑a ↑b
          - U ↑(a + 2) ↑b - U ↑a ↑(b + 2))
        nlinarith
  have hm' := Finset.mem_product.1 hm
  have h1 := Finset.mem_range.1 hm'.1
  have h2 := Finset.mem_range.1 hm'.2
  exact (hle i j hi hj).trans (walk (Nx - m.1) m.1 m.2 (by omega) (by omega) rfl)

theorem secondDiff_lin (c : ℝ) (U V : ℤ → ℤ → ℝ) (a b i j : ℤ) :
    secondDiff (fun i j => U i j + c * V i j) a b i j = secondDiff U a b i j + c * secondDiff V a b i j := by
  simp only [secondDiff]
  ring

theorem ninePoint_lin (r s c : ℝ) (U V : ℤ → ℤ → ℝ) (i j : ℤ) :
    ninePoint r s (fun i j => U i j + c * V i j) i j = ninePoint r s U i j + c * ninePoint r s V i j := by
  simp only [ninePoint, secondDiff_lin]
  ring

/-- Mesh widths for which the off-diagonal entries of the matrix are not positive. -/
theorem aspect_coeffs {a b : ℝ} (ha : 0 < a) (hb : 0 < b) (h1 : a ^ 2 ≤ 2 * b ^ 2)
    (h2 : b ^ 2 ≤ 2 * a ^ 2) : 0 ≤ 2 * (b / a) - a / b ∧ 0 ≤ 2 * (a / b) - b / a ∧ 0 < b / a + a / b := by
  refine ⟨?_, ?_, by positivity⟩
  · have : 2 * (b / a) - a / b = (2 * b ^ 2 - a ^ 2) / (a * b) := by field_simp
    rw [this]
    exact div_nonneg (by linarith) (by positivity)
  · have : 2 * (a / b) - b / a = (2 * a ^ 2 - b ^ 2) / (a * b) := by field_simp
    rw [this]
    exact div_nonneg (by linarith) (by positivity)

theorem sourceMean_nonneg {p : Fin nq → Fin 2 → ℝ} {w : Fin nq → ℝ} (hr : SquareRule p w)
    (f : (Fin 2 → ℝ) → ℝ) {Nx Ny : Nat} {Lx Ly : ℝ} (hLx : 0 < Lx) (hLy : 0 < Ly)
    (hf : ∀ x, closedRect Lx Ly x → 0 ≤ f x) (I J : Nat) (hI : 0 < I) (hI' : I < Nx) (hJ : 0 < J)
    (hJ' : J < Ny) : 0 ≤ sourceMean p w f (Lx / Nx) (Ly / Ny) I J := by
  have hNx : (0 : ℝ) < Nx := by exact_mod_cast (by omega : 0 < Nx)
  have hNy : (0 : ℝ) < Ny := by exact_mod_cast (by omega : 0 < Ny)
  have hI1 : (1 : ℝ) ≤ I := by exact_mod_cast hI
  have hJ1 : (1 : ℝ) ≤ J := by exact_mod_cast hJ
  have hI2 : (I : ℝ) + 1 ≤ Nx := by exact_mod_cast hI'
  have hJ2 : (J : ℝ) + 1 ≤ Ny := by exact_mod_cast hJ'
  have one : ∀ (N : ℝ) (L t : ℝ), 0 < N → 0 < L → 0 ≤ t → t ≤ N → 0 ≤ t * (L / N) ∧ t * (L / N) ≤ L := by
    intro N L t hN hL h0 h1
    refine ⟨by positivity, ?_⟩
    rw [mul_div_assoc', div_le_iff₀ hN, mul_comm]
    exact mul_le_mul_of_nonneg_left h1 hL.le
  refine Finset.sum_nonneg fun q _ => mul_nonneg (hr.weight q) ?_
  obtain ⟨a0, a1⟩ := hr.inside q 0
  obtain ⟨b0, b1⟩ := hr.inside q 1
  have g : ∀ s t : ℝ, 0 ≤ s → s ≤ Nx → 0 ≤ t → t ≤ Ny → 0 ≤ f ![s * (Lx / Nx), t * (Ly / Ny)] :=
    fun s t h1 h2 h3 h4 => hf _ ⟨by simpa using one _ _ s hNx hLx h1 h2, by simpa using one _ _ t hNy hLy h3 h4⟩
  have f1 := g (I + p q 0) (J + p q 1) (by linarith) (by linarith) (by linarith) (by linarith)
  have f2 := g (I - 1 + p q 0) (J + p q 1) (by linarith) (by linarith) (by linarith) (by linarith)
  have f3 := g (I - 1 + p q 0) (J - 1 + p q 1) (by linarith) (by linarith) (by linarith) (by linarith)
  have f4 := g (I + p q 0) (J - 1 + p q 1) (by linarith) (by linarith) (by linarith) (by linarith)
  have a2 := sub_nonneg.2 a1
  have b2 := sub_nonneg.2 b1
  positivity

theorem sourceMean_neg (p : Fin nq → Fin 2 → ℝ) (w : Fin nq → ℝ) (f : (Fin 2 → ℝ) → ℝ) (hx hy I J : ℝ) :
    sourceMean p w (fun x => -f x) hx hy I J = -sourceMean p w f hx hy I J := by
  rw [sourceMean, sourceMean, ← Finset.sum_neg_distrib]
  exact Finset.sum_congr rfl fun q _ => by ring

theorem sourceMean_sub (p : Fin nq → Fin 2 → ℝ) (w : Fin nq → ℝ) (f g : (Fin 2 → ℝ) → ℝ) (hx hy I J : ℝ) :
    sourceMean p w (fun x => f x - g x) hx hy I J = sourceMean p w f hx hy I J - sourceMean p w g hx hy I J := by
  rw [sourceMean, sourceMean, sourceMean, ← Finset.sum_sub_distrib]
  exact Finset.sum_congr rfl fun q _ => by ring

/-- Every node of the rectangle mesh has grid coordinates. -/
theorem node_grid {Nx Ny n : Nat} (hn : n < (Nx + 1) * (Ny + 1)) :
    ∃ i j, i ≤ Nx ∧ j ≤ Ny ∧ n = i * (Ny + 1) + j := by
  refine ⟨n / (Ny + 1), n % (Ny + 1), ?_, ?_, ?_⟩
  · have : n / (Ny + 1) < Nx + 1 := Nat.div_lt_of_lt_mul (by rwa [mul_comm])
    omega
  · exact Nat.le_of_lt_succ (Nat.mod_lt n (Nat.succ_pos Ny))
  · rw [mul_comm]
    exact (Nat.div_add_mod n (Ny + 1)).symm

/-! ### Property theorems -/

/-- **C91 (comparison).** Let the cells be no longer than `√2` times as wide and vice versa.  If one
Poisson problem on the rectangle mesh has a smaller source and smaller boundary values than another, its
nodal values are smaller at all nodes. -/
theorem C91_comparison (P Q : Problem1 IV nq nfq 4 1 2) {Nx Ny : Nat} {Lx Ly : ℝ}
    {p : Fin nq → Fin 2 → ℝ} {w : Fin nq → ℝ} (h : OnRectangle P Nx Ny Lx Ly p w)
    (hQ : OnRectangle Q Nx Ny Lx Ly p w) (hr : SquareRule p w) (f g : (Fin 2 → ℝ) → ℝ)
    (hPf : IsPoisson P f) (hQg : IsPoisson Q g) (hfg : ∀ x, closedRect Lx Ly x → f x ≤ g x)
    (h1 : (Lx / Nx) ^ 2 ≤ 2 * (Ly / Ny) ^ 2) (h2 : (Ly / Ny) ^ 2 ≤ 2 * (Lx / Nx) ^ 2)
    (u v : List (List ℝ)) (hu : HasShapes [((Nx + 1) * (Ny + 1), 1)] [u])
    (hv : HasShapes [((Nx + 1) * (Ny + 1), 1)] [v])
    (su : IsSolution P (fun n _ => rectInterior Nx Ny n) u)
    (sv : IsSolution Q (fun n _ => rectInterior Nx Ny n) v)
    (hbd : ∀ n < (Nx + 1) * (Ny + 1), ¬ rectInterior Nx Ny n → fieldOf 1 u n 0 ≤ fieldOf 1 v n 0) :
    ∀ n < (Nx + 1) * (Ny + 1), fieldOf 1 u n 0 ≤ fieldOf 1 v n 0 := by
  rw [C91_stencil P h hr f hPf u (by rwa [h.nodes])] at su
  rw [C91_stencil Q hQ hr g hQg v (by rwa [hQ.nodes])] at sv
  obtain ⟨c1, c2, c3⟩ := aspect_coeffs h.hx.1 h.hx.2 h1 h2
  intro n hn
  obtain ⟨i, j, hi, hj, rfl⟩ := node_grid hn
  have := ninePoint_max c1 c2 c3 (Nx := Nx) (Ny := Ny)
    (U := fun i j => gridOf Ny (fieldOf 1 u) i j + (-1) * gridOf Ny (fieldOf 1 v) i j) (B := 0)
    (fun i j hi hi' hj hj' => by
      have e1 := su i j hi hi' hj hj'
      have e2 := sv i j hi hi' hj hj'
      have e3 := sourceMean_nonneg hr (fun x => g x - f x) h.Lx_pos h.Ly_pos
        (fun x hx => sub_nonneg.2 (hfg x hx)) i j hi hi' hj hj'
      rw [sourceMean_sub] at e3
      have e4 := mul_nonneg (mul_pos h.hx.1 h.hx.2).le e3
      rw [ninePoint_lin]
      linarith)
    (fun i j hi hj hb => by
      have := hbd (i * (Ny + 1) + j) (gridNode_lt (by omega) (by omega)) (not_interior Nx Ny i j hj hb)
      rw [gridOf_nat, gridOf_nat]
      linarith) i j hi hj
  rw [gridOf_nat, gridOf_nat] at this
  linarith

/-- **C91 (maximum principle).** For such cells the nodal values of a Poisson problem without positive
sources do not exceed the largest boundary value, and without negative sources they do not fall below the
smallest one. -/
theorem C91_maximum (P : Problem1 IV nq nfq 4 1 2) {Nx Ny : Nat} {Lx Ly : ℝ}
    {p : Fin nq → Fin 2 → ℝ} {w : Fin nq → ℝ} (h : OnRectangle P Nx Ny Lx Ly p w)
    (hr : SquareRule p w) (f : (Fin 2 → ℝ) → ℝ) (hP : IsPoisson P f)
    (h1 : (Lx / Nx) ^ 2 ≤ 2 * (Ly / Ny) ^ 2) (h2 : (Ly / Ny) ^ 2 ≤ 2 * (Lx / Nx) ^ 2)
    (u : List (List ℝ)) (hu : HasShapes [((Nx + 1) * (Ny + 1), 1)] [u])
    (su : IsSolution P (fun n _ => rectInterior Nx Ny n) u) (B : ℝ) :
    ((∀ x, closedRect Lx Ly x → f x ≤ 0) →
      (∀ n < (Nx + 1) * (Ny + 1), ¬ rectInterior Nx Ny n → fieldOf 1 u n 0 ≤ B) →
      ∀ n < (Nx + 1) * (Ny + 1), fieldOf 1 u n 0 ≤ B) ∧
    ((∀ x, closedRect Lx Ly x → 0 ≤ f x) →
      (∀ n < (Nx + 1) * (Ny + 1), ¬ rectInterior Nx Ny n → B ≤ fieldOf 1 u n 0) →
      ∀ n < (Nx + 1) * (Ny + 1), B ≤ fieldOf 1 u n 0) := by
  rw [C91_stencil P h hr f hP u (by rwa [h.nodes])] at su
  obtain ⟨c1, c2, c3⟩ := aspect_coeffs h.hx.1 h.hx.2 h1 h2
  have hw := (mul_pos h.hx.1 h.hx.2).le
  constructor
  · intro hf hbd n hn
    obtain ⟨i, j, hi, hj, rfl⟩ := node_grid hn
    rw [← gridOf_nat Ny (fieldOf 1 u) i j]
    refine ninePoint_max c1 c2 c3 (Nx := Nx) (Ny := Ny) (fun i j hi hi' hj hj' => ?_)
      (fun i j hi hj hb => ?_) i j hi hj
    · have e1 := su i j hi hi' hj hj'
      have e3 := sourceMean_nonneg hr (fun x => -f x) h.Lx_pos h.Ly_pos
        (fun x hx => neg_nonneg.2 (hf x hx)) i j hi hi' hj hj'
      rw [sourceMean_neg] at e3
      nlinarith [mul_nonneg hw e3]
    · rw [gridOf_nat]
      exact hbd _ (gridNode_lt (by omega) (by omega)) (not_interior Nx Ny i j hj hb)
  · intro hf hbd n hn
    obtain ⟨i, j, hi, hj, rfl⟩ := node_grid hn
    rw [← gridOf_nat Ny (fieldOf 1 u) i j]
    have := ninePoint_max c1 c2 c3 (Nx := Nx) (Ny := Ny)
      (U := fun i j => 0 + (-1) * gridOf Ny (fieldOf 1 u) i j) (B := -B) (fun i j hi hi' hj hj' => ?_)
      (fun i j hi hj hb => ?_) i j hi hj
    · linarith
    · have e1 := su i j hi hi' hj hj'
      have e3 := sourceMean_nonneg hr f h.Lx_pos h.Ly_pos hf i j hi hi' hj hj'
      have e0 : ninePoint ((Ly / Ny) / (Lx / Nx)) ((Lx / Nx) / (Ly / Ny)) (fun _ _ => 0) i j = 0 := by
        simp [ninePoint, secondDiff]
      rw [ninePoint_lin _ _ _ (fun _ _ => 0), e0]
      nlinarith [mul_nonneg hw e3]
    · rw [gridOf_nat]
      have := hbd (i * (Ny + 1) + j) (gridNode_lt (by omega) (by omega)) (not_interior Nx Ny i j hj hb)
      linarith

/-- **C91 (stretched cells).** The restriction on the shape of the cells cannot be dropped: on a mesh of
two by two cells that are more than `√2` times as long as wide, the Laplace equation with
nonnegative boundary values has a solution with a negative value at the middle node. -/
theorem C91_stretched (P : Problem1 IV nq nfq 4 1 2) {Lx Ly : ℝ}
    {p : Fin nq → Fin 2 → ℝ} {w : Fin nq → ℝ} (h : OnRectangle P 2 2 Lx Ly p w)
    (hr : SquareRule p w) (hP : IsPoisson P fun _ => 0) (hL : 2 * Ly ^ 2 < Lx ^ 2) :
    ∃ u : List (List ℝ), HasShapes [(9, 1)] [u] ∧ IsSolution P (fun n _ => rectInterior 2 2 n) u ∧
      (∀ n < 9, ¬ rectInterior 2 2 n → 0 ≤ fieldOf 1 u n 0) ∧ fieldOf 1 u 4 0 < 0 := by
  have hLx := h.Lx_pos
  have hLy := h.Ly_pos
  set r := Ly / Lx with hr'
  set s := Lx / Ly with hs'
  have hrs : 0 < r + s := by positivity
  have hneg : 2 * r - s < 0 := by
    have : 2 * r - s = (2 * Ly ^ 2 - Lx ^ 2) / (Lx * Ly) := by rw [hr', hs']; field_simp
    rw [this]
    exact div_neg_of_neg_of_pos (by linarith) (by positivity)
  refine ⟨[[0], [1], [0], [0], [(2 * r - s) / (2 * (r + s))], [0], [0], [1], [0]], ?_, ?_, ?_, ?_⟩
  · exact ⟨_, _, rfl, rfl, by simp, rfl⟩
  · have hshape : HasShapes [(P.numTotalNodes, 1)]
        [[[0], [1], [0], [0], [(2 * r - s) / (2 * (r + s))], [0], [0], [1], [0]]] := by
      rw [h.nodes]
      exact ⟨_, _, rfl, rfl, by simp, rfl⟩
    rw [C91_stencil P h hr _ hP _ hshape]
    intro I J hI hI' hJ hJ'
    obtain rfl : I = 1 := by omega
    obtain rfl : J = 1 := by omega
    have e1 : Ly / ((2 : Nat) : ℝ) / (Lx / ((2 : Nat) : ℝ)) = r := by rw [hr']; field_simp
    have e2 : Lx / ((2 : Nat) : ℝ) / (Ly / ((2 : Nat) : ℝ)) = s := by rw [hs']; field_simp
    rw [e1, e2]
    set sol : List (List ℝ) := [[0], [1], [0], [0], [(2 * r - s) / (2 * (r + s))], [0], [0], [1], [0]] with hsol
    have g : ∀ (x y : ℤ) (X Y : Nat) (_ : x = X) (_ : y = Y),
        gridOf 2 (fieldOf 1 sol) x y = fieldOf 1 sol (X * (2 + 1) + Y) 0 := by
      intro x y X Y hx hy
      rw [hx, hy, gridOf_nat]
    have hsm : ∀ a b c d, sourceMean p w (fun _ => 0) a b c d = 0 := by simp [sourceMean]
    rw [hsm, mul_zero]
    simp only [ninePoint, secondDiff]
    rw [g (((1 : Nat) : ℤ) + 1) (((1 : Nat) : ℤ) + 0) 2 1 rfl rfl,
      g (((1 : Nat) : ℤ) - 1) (((1 : Nat) : ℤ) - 0) 0 1 rfl rfl,
      g (((1 : Nat) : ℤ) + 0) (((1 : Nat) : ℤ) + 1) 1 2 rfl rfl,
      g (((1 : Nat) : ℤ) - 0) (((1 : Nat) : ℤ) - 1) 1 0 rfl rfl,
      g (((1 : Nat) : ℤ) + 1) (((1 : Nat) : ℤ) + 1) 2 2 rfl rfl,
      g (((1 : Nat) : ℤ) - 1) (((1 : Nat) : ℤ) - 1) 0 0 rfl rfl,
      g (((1 : Nat) : ℤ) + 1) (((1 : Nat) : ℤ) + -1) 2 0 rfl rfl,
      g (((1 : Nat) : ℤ) - 1) (((1 : Nat) : ℤ) - -1) 0 2 rfl rfl,
      g ((1 : Nat) : ℤ) ((1 : Nat) : ℤ) 1 1 rfl rfl]
    have v0 : fieldOf 1 sol (0 * (2 + 1) + 0) 0 = 0 := rfl
    have v1 : fieldOf 1 sol (0 * (2 + 1) + 1) 0 = 1 := rfl
    have v2 : fieldOf 1 sol (0 * (2 + 1) + 2) 0 = 0 := rfl
    have v3 : fieldOf 1 sol (1 * (2 + 1) + 0) 0 = 0 := rfl
    have v4 : fieldOf 1 sol (1 * (2 + 1) + 1) 0 = ((2 * r - s) / (2 * (r + s))) := rfl
    have v5 : fieldOf 1 sol (1 * (2 + 1) + 2) 0 = 0 := rfl
    have v6 : fieldOf 1 sol (2 * (2 + 1) + 0) 0 = 0 := rfl
    have v7 : fieldOf 1 sol (2 * (2 + 1) + 1) 0 = 1 := rfl
    have v8 : fieldOf 1 sol (2 * (2 + 1) + 2) 0 = 0 := rfl
    rw [v0, v1, v2, v3, v4, v5, v6, v7, v8]
    field_simp
    ring
  · intro n hn hni
    have h4 : n ≠ 4 := fun e => hni ⟨1, 1, by norm_num, by norm_num, by norm_num, by norm_num, by omega⟩
    interval_cases n <;> first | exact absurd rfl h4 | norm_num [fieldOf]
  · simp only [fieldOf]
    norm_num
    exact div_neg_of_neg_of_pos hneg (by positivity)

end JaxFem
