import Verif.Thm.C91_Converge

/-!
# C91: the solver applied to the Poisson problem on the rectangle mesh
-/

namespace JaxFem

variable {IV : Type} {nq nfq : Nat}

/-! ### Helper lemmas -/

theorem IsPoisson.mono {P : Problem1 IV nq nfq 4 1 2} {f : (Fin 2 → ℝ) → ℝ} (h : IsPoisson P f) :
    P.StrictlyMonotone := by
  intro iv G H hne
  rw [h.tensor]
  have : 0 < ∑ i : Fin 1, ∑ j : Fin 2, (G i j - H i j) * (G i j - H i j) := by
    refine lt_of_le_of_ne (Finset.sum_nonneg fun i _ => Finset.sum_nonneg fun j _ => mul_self_nonneg _) ?_
    intro h0
    apply hne
    funext i j
    have h1 := (Finset.sum_eq_zero_iff_of_nonneg (fun i _ => Finset.sum_nonneg fun j _ =>
      mul_self_nonneg (G i j - H i j))).1 h0.symm i (Finset.mem_univ i)
    have h2 := (Finset.sum_eq_zero_iff_of_nonneg (fun j _ =>
      mul_self_nonneg (G i j - H i j))).1 h1 j (Finset.mem_univ j)
    exact sub_eq_zero.1 (mul_self_eq_zero.1 h2)
  exact this

theorem IsPoisson.affine {P : Problem1 IV nq nfq 4 1 2} {f : (Fin 2 → ℝ) → ℝ} (h : IsPoisson P f) :
    P.Affine where
  tensor := fun _ => ⟨LinearMap.id, fun G => by rw [h.tensor]; simp⟩
  mass := by
    intro m hm iv x
    rw [h.mass, Option.some.injEq] at hm
    subst hm
    exact ⟨0, fun u => by simp⟩
  surface := by
    intro s hs
    rw [h.surfaces] at hs
    cases hs

theorem IsPoisson.massMono {P : Problem1 IV nq nfq 4 1 2} {f : (Fin 2 → ℝ) → ℝ} (h : IsPoisson P f) :
    P.MassMonotone := by
  intro m hm iv u w x
  rw [h.mass, Option.some.injEq] at hm
  subst hm
  simp

/-- A rule that is exact for squares has two different points. -/
theorem SquareRule.distinct {p : Fin nq → Fin 2 → ℝ} {w : Fin nq → ℝ} (hr : SquareRule p w) :
    ∃ q q' k, p q k ≠ p q' k := by
  by_contra hne
  push Not at hne
  by_cases hnq : nq = 0
  · subst hnq
    have := hr.one
    simp at this
  · let q0 : Fin nq := ⟨0, by omega⟩
    have h1 : p q0 0 = 1 / 2 := by
      have := hr.lin 0
      rw [Finset.sum_congr rfl fun q _ => by rw [hne q q0 0], ← Finset.sum_mul, hr.one, one_mul] at this
      exact this
    have h2 : p q0 0 ^ 2 = 1 / 3 := by
      have := hr.sq 0
      rw [Finset.sum_congr rfl fun q _ => by rw [hne q q0 0], ← Finset.sum_mul, hr.one, one_mul] at this
      exact this
    rw [h1] at h2
    norm_num at h2

/-! ### Property theorem -/

/-- **C91 (solver).** `solver` applied to the Poisson problem on the rectangle mesh with the boundary
values of a smooth solution `u` of `-Δu = f` on all four sides, with an exact linear solver and zero
tolerance, returns after at most one iteration nodal values within `7/48 M L² h²` of those of `u`. -/
theorem C91_solver (P : Problem1 IV nq nfq 4 1 2) {Nx Ny : Nat} {Lx Ly : ℝ}
    {p : Fin nq → Fin 2 → ℝ} {w : Fin nq → ℝ} (h : OnRectangle P Nx Ny Lx Ly p w)
    (hr : SquareRule p w) (hpos : ∀ q, 0 < w q) (f : (Fin 2 → ℝ) → ℝ) (hP : IsPoisson P f)
    (h1 : (Lx / Nx) ^ 2 ≤ 2 * (Ly / Ny) ^ 2) (h2 : (Ly / Ny) ^ 2 ≤ 2 * (Lx / Nx) ^ 2)
    (u : (Fin 2 → ℝ) → ℝ) (hu : ContDiff ℝ 4 u)
    (hf : ∀ x, closedRect Lx Ly x → -laplacian u x = f x) (M : ℝ)
    (hM : ∀ x, closedRect Lx Ly x → ‖iteratedFDeriv ℝ 4 u x‖ ≤ M)
    (bcs : List (List (BCEntry ℝ))) (hb : WFBC P.fes bcs)
    (hfree : ∀ n < P.numTotalNodes, rectInterior Nx Ny n → FreeDof (bcs.getD 0 []) n 0)
    (hfix : ∀ n < P.numTotalNodes, ¬ rectInterior Nx Ny n →
      LastPrescribes (bcs.getD 0 []) n 0 (u (P.points.getD n 0)))
    (A : (Fin (totalDofs P.fes) → ℝ) → Matrix (Fin (totalDofs P.fes)) (Fin (totalDofs P.fes)) ℝ)
    (hA : ∀ x, HasJacobianAt P.flat (A x) x) (nu : (Fin (totalDofs P.fes) → ℝ) → ℝ)
    (hnu0 : ∀ r, 0 ≤ nu r) (hnu : ∀ r, nu r = 0 ↔ r = 0)
    (solve : Matrix (Fin (totalDofs P.fes)) (Fin (totalDofs P.fes)) ℝ → (Fin (totalDofs P.fes) → ℝ) →
      (Fin (totalDofs P.fes) → ℝ) → Except Err (Fin (totalDofs P.fes) → ℝ)) (hs : ExactSolver solve)
    (hs' : ∀ A b x0, A.det ≠ 0 → ∃ x, solve A b x0 = .ok x) (ls : Bool) (relTol : ℝ)
    (hrel : relTol < 1) (u0 : Fin (totalDofs P.fes) → ℝ) (fuel : Nat) :
    ∃ uh, ∃ n ≤ 1, newtonSolve (newtonUpdate P.fes bcs P.flat A) (fun rA => .fin (nu rA.1))
        (newtonStep P.fes bcs (fun r => .fin (nu r)) P.flat solve ls) (fun _ => true) 0 relTol u0
        (fuel + 2) = some (.ok (uh, n)) ∧
      ∀ n < P.numTotalNodes, |P.vecField uh n 0 - u (P.points.getD n 0)|
        ≤ 7 / 48 * M * (min Lx Ly) ^ 2 * (max (Lx / Nx) (Ly / Ny)) ^ 2 := by
  have hposm : P.PositiveMeasure := by
    intro cell hc q
    rw [h.jac _ (List.mem_map_of_mem hc), Matrix.det_fin_two_of, mul_zero, sub_zero, h.el]
    exact mul_pos (mul_pos h.hx.1 h.hx.2) (hpos q)
  have hdet : P.el.Determines := by
    rw [h.el]; exact (C73_determines w p (fun _ _ => 0)).2.2.1 hr.distinct
  have hc0 : ∀ c : Fin 1, c = 0 := fun c => Subsingleton.elim _ _
  have hnot : ∀ n < P.numTotalNodes, ∀ c : Fin 1, ¬ rectInterior Nx Ny n →
      ¬ FreeDof (bcs.getD 0 []) n c := by
    intro n hn c hi hfr
    rw [hc0 c] at hfr
    obtain ⟨before, e, after, h1, h2, -⟩ := hfix n hn hi
    exact hfr e (by rw [h1]; simp) _ h2
  have hanch : P.Anchored fun n c => FreeDof (bcs.getD 0 []) n c := by
    intro n hn c
    obtain ⟨m, h1, h2, h3⟩ := rect_anchored P h n hn c
    exact ⟨m, hnot m h2 c h1, h2, h3⟩
  obtain ⟨uh, s1, -, s2⟩ := C74_solver P h.wf hposm hdet hP.mono hP.massMono
    (fun s hs => by rw [hP.surfaces] at hs; cases hs) hP.affine bcs hb hanch A hA nu hnu0 hnu solve hs hs' ls
    relTol hrel
  obtain ⟨n, hn, s3⟩ := s2 u0 fuel
  refine ⟨uh, n, hn, s3, ?_⟩
  obtain ⟨sol, e1, e2, e3⟩ := unravel_single P uh
  obtain ⟨⟨R, r1, r2⟩, h5⟩ := (solvesBVP_iff P h.wf bcs hb uh sol e1 e2 e3).1 s1
  have := C91_converges P h hr f hP h1 h2 u hu hf M hM sol e2
    ⟨R, r1, fun n hn c hi => r2 n hn c (by rw [hc0 c]; exact hfree n hn hi)⟩
    (fun n hn hi => h5 n hn 0 _ (hfix n hn hi))
  rwa [e3] at this

/-! ### Concrete cases

The Gauss rule with two points per direction, and the equation `-Δu = -2` with solution `u = x²` on a rectangle
with 2 × 2 cells. -/

/-- Gauss points. -/
noncomputable def gaussPts : Fin 4 → Fin 2 → ℝ :=
  ![![1 / 2 - √3 / 6, 1 / 2 - √3 / 6], ![1 / 2 - √3 / 6, 1 / 2 + √3 / 6],
    ![1 / 2 + √3 / 6, 1 / 2 - √3 / 6], ![1 / 2 + √3 / 6, 1 / 2 + √3 / 6]]

theorem gauss_square : SquareRule gaussPts fun _ => 1 / 4 := by
  have h3 : √3 ^ 2 = 3 := Real.sq_sqrt (by norm_num)
  have h0 : 0 ≤ √3 := Real.sqrt_nonneg 3
  have h2 : √3 ≤ 2 := by nlinarith
  refine ⟨fun _ => by norm_num, fun q k => ?_, by norm_num, fun k => ?_, fun k => ?_⟩
  · fin_cases q <;> fin_cases k <;> simp [gaussPts] <;> constructor <;> linarith
  · fin_cases k <;> simp [gaussPts, Fin.sum_univ_four] <;> ring
  · fin_cases k <;> simp [gaussPts, Fin.sum_univ_four] <;> nlinarith

/-- Poisson problem of the example. -/
noncomputable def exPoisson (f : (Fin 2 → ℝ) → ℝ) (Lx Ly : ℝ) : Problem1 Unit 4 1 4 1 2 where
  numTotalNodes := 9
  points := (rectangleMesh 2 2 Lx Ly).1
  cells := (rectangleMesh 2 2 Lx Ly).2.map fun c => ⟨c, fun _ => ()⟩
  el := tabulate quad4N quad4G gaussPts (fun _ => 1/4)
  fc := ⟨fun _ _ => quad4N ![1/2, 0], fun _ _ => quad4G ![1/2, 0], fun _ _ => 1, fun _ => ![0, -1]⟩
  tensorMap := fun _ G => G
  massMap := some fun _ _ x _ => -f x
  surfaces := []

theorem exPoisson_is (f : (Fin 2 → ℝ) → ℝ) (Lx Ly : ℝ) : IsPoisson (exPoisson f Lx Ly) f := ⟨rfl, rfl, rfl⟩

theorem exPoisson_rect (f : (Fin 2 → ℝ) → ℝ) (Lx Ly : ℝ) (hx : 0 < Lx) (hy : 0 < Ly) :
    OnRectangle (exPoisson f Lx Ly) 2 2 Lx Ly gaussPts (fun _ => 1/4) where
  el := rfl
  points := rfl
  conn := by simp [exPoisson, Problem1.conn, Function.comp_def]
  nodes := rfl
  Nx_pos := by decide
  Ny_pos := by decide
  Lx_pos := hx
  Ly_pos := hy
  faces := by intro s hs; simp [exPoisson] at hs

/-- The nodal values of `x²` on the square of side two, with mesh width one, satisfy the equations for `-Δu = -2` at the
interior node. -/
example : IsSolution (exPoisson (fun _ => -2) 2 2) (fun n _ => rectInterior 2 2 n)
    [[0], [0], [0], [1], [1], [1], [4], [4], [4]] := by
  rw [C91_stencil _ (exPoisson_rect _ 2 2 (by norm_num) (by norm_num)) gauss_square _ (exPoisson_is _ 2 2) _
    ⟨_, _, rfl, rfl, by simp, rfl⟩]
  intro I J hI hI' hJ hJ'
  obtain rfl : I = 1 := by omega
  obtain rfl : J = 1 := by omega
  have hsm : sourceMean gaussPts (fun _ => 1 / 4) (fun _ => -2) (2 / (2 : Nat)) (2 / (2 : Nat)) (1 : Nat) (1 : Nat)
      = -2 := by
    simp only [sourceMean, Fin.sum_univ_four]
    ring
  rw [hsm]
  have t2 : Int.toNat 2 = 2 := rfl
  simp only [ninePoint, secondDiff, gridOf, fieldOf]
  norm_num [t2]

/-- `u = x²` is smooth, its negative Laplacian is `-2`. -/
example : ContDiff ℝ 4 (fun x : Fin 2 → ℝ => x 0 ^ 2) := by fun_prop

example (x : Fin 2 → ℝ) : -laplacian (fun x : Fin 2 → ℝ => x 0 ^ 2) x = -2 := by
  have e1 : (fun t : ℝ => ((x + t • ![1, 0] : Fin 2 → ℝ) 0) ^ 2) = fun t => (x 0 + t) ^ 2 := by
    funext t; simp
  have e2 : (fun t : ℝ => ((x + t • ![0, 1] : Fin 2 → ℝ) 0) ^ 2) = fun _ => (x 0) ^ 2 := by
    funext t; simp
  have d1 : deriv (fun t : ℝ => (x 0 + t) ^ 2) = fun t => 2 * (x 0 + t) := by
    funext t
    have := ((hasDerivAt_id t).const_add (x 0)).pow 2
    exact (this.congr_deriv (by simp)).deriv
  have d2 : deriv (fun t : ℝ => 2 * (x 0 + t)) 0 = 2 := by
    have := ((hasDerivAt_id (0 : ℝ)).const_add (x 0)).const_mul 2
    exact (this.congr_deriv (by simp)).deriv
  rw [laplacian, dirSecond, dirSecond, e1, e2, iteratedDeriv_succ, iteratedDeriv_one, d1, d2, iteratedDeriv_succ,
    iteratedDeriv_one]
  simp

/-- Stretched cells: length three, width one. -/
example : ∃ u : List (List ℝ), HasShapes [(9, 1)] [u] ∧
    IsSolution (exPoisson (fun _ => 0) 6 2) (fun n _ => rectInterior 2 2 n) u ∧
      (∀ n < 9, ¬ rectInterior 2 2 n → 0 ≤ fieldOf 1 u n 0) ∧ fieldOf 1 u 4 0 < 0 :=
  C91_stretched _ (exPoisson_rect _ 6 2 (by norm_num) (by norm_num)) gauss_square (exPoisson_is _ 6 2) (by norm_num)

end JaxFem
