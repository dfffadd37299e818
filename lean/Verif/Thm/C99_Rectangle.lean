import Verif.Thm.C99_Solver

/-!
# C99: rectangle meshes, and a single cell
-/

namespace JaxFem.Modal

open scoped BigOperators Topology

/-! ### Helper lemmas -/

theorem line_zero {A B s t : ℝ} (hst : s ≠ t) (h1 : (1 - s) * A + s * B = 0) (h2 : (1 - t) * A + t * B = 0) :
    A = 0 ∧ B = 0 := by
  have h : (s - t) * (B - A) = 0 := by linear_combination h1 - h2
  have h' : B - A = 0 := (mul_eq_zero.1 h).resolve_left (sub_ne_zero.2 hst)
  have hB : B = A := by linarith
  rw [hB] at h1
  have : A = 0 := by linarith
  exact ⟨this, by rw [hB, this]⟩

theorem quad4_value {nq : Nat} (p : Fin nq → Fin 2 → ℝ) (w : Fin nq → ℝ) (x y : Fin 2 → ℝ) (hx : x 0 ≠ x 1)
    (hy : y 0 ≠ y 1) (hp : ∀ a b, ∃ q, p q = ![x a, y b]) (U : Fin 4 → ℝ)
    (hU : ∀ q, ∑ a, U a * (tabulate quad4N quad4G p w).shapeVals q a = 0) : U = 0 := by
  have h : ∀ a b, (1 - y b) * ((1 - x a) * U 0 + x a * U 1) + y b * ((1 - x a) * U 3 + x a * U 2) = 0 := by
    intro a b
    obtain ⟨q, hq⟩ := hp a b
    have := hU q
    simp only [tabulate, hq, quad4N, Fin.sum_univ_four] at this
    simp at this
    linear_combination this
  have h0 := line_zero hy (h 0 0) (h 0 1)
  have h1 := line_zero hy (h 1 0) (h 1 1)
  have e1 := line_zero hx h0.1 h1.1
  have e2 := line_zero hx h0.2 h1.2
  funext i
  fin_cases i
  · exact e1.1
  · exact e1.2
  · exact e2.2
  · exact e2.1

section

variable {nq nfq : Nat} {P : Problem1 (List ℝ) nq nfq 4 2 2} {Nx Ny : Nat} {Lx Ly : ℝ} {p : Fin nq → Fin 2 → ℝ}
  {w : Fin nq → ℝ}

theorem held_trans (free : Nat → Fin 2 → Prop) {n : Nat}
    (hn : P.Held (fun m _ => ¬ P.Held free m) n) : P.Held free n := by
  induction hn with
  | fixed n h => exact not_not.1 (h 0)
  | cell cell hc S hS _ hf m hm ih => exact .cell cell hc S hS ih hf m hm

theorem rectangle_connected (h : OnRectangle P Nx Ny Lx Ly p w) :
    ∃ cell ∈ P.conn, ∀ n < P.numTotalNodes, P.Held (fun m _ => m ∉ cell) n := by
  have hNx := h.Nx_pos
  have hNy := h.Ny_pos
  have hcell : ∀ i < Nx, ∀ j < Ny, [i * (Ny + 1) + j, (i + 1) * (Ny + 1) + j, (i + 1) * (Ny + 1) + (j + 1),
      i * (Ny + 1) + (j + 1)] ∈ P.conn := fun i hi j hj => by
    rw [h.conn]
    exact List.mem_of_getElem? (rect_cell Nx Ny Lx Ly i j hi hj)
  refine ⟨_, hcell 0 hNx 0 hNy, fun n hn => ?_⟩
  generalize hc0 : [0 * (Ny + 1) + 0, (0 + 1) * (Ny + 1) + 0, (0 + 1) * (Ny + 1) + (0 + 1), 0 * (Ny + 1) + (0 + 1)] = c0
  have hmem : ∀ m ∈ c0, P.Held (fun m _ => m ∉ c0) m := fun m hm => .fixed _ fun _ => not_not.2 hm
  refine held_trans _ (h.held _ (fun j hj _ => not_not.2 ?_) n hn)
  have key : ∀ j ≤ Ny, P.Held (fun m _ => m ∉ c0) (0 * (Ny + 1) + j) ∧
      P.Held (fun m _ => m ∉ c0) ((0 + 1) * (Ny + 1) + j) := by
    intro j
    induction j with
    | zero => exact fun _ => ⟨hmem _ (by rw [← hc0]; simp), hmem _ (by rw [← hc0]; simp)⟩
    | succ j ih =>
      intro hj
      obtain ⟨a, b⟩ := ih (by omega)
      have hall := Problem1.Held.cell (P := P) (free := fun m _ => m ∉ c0) _ (hcell 0 hNx j (by omega))
        [0 * (Ny + 1) + j, (0 + 1) * (Ny + 1) + j] (by
          intro n hn
          simp only [List.mem_cons, List.not_mem_nil, or_false] at hn ⊢
          tauto) (by
          intro n hn
          simp only [List.mem_cons, List.not_mem_nil, or_false] at hn
          rcases hn with rfl | rfl
          · exact a
          · exact b) (by
          simp only [List.map_cons, List.map_nil]
          rw [h.point 0 j (by omega) (by omega), h.point (0 + 1) j (by omega) (by omega)]
          refine C82_supports.1 _ _ fun he => ?_
          have := congrFun he 0
          simp only [Matrix.cons_val_zero] at this
          push_cast at this
          have e : Lx / Nx = 0 := by linear_combination -this
          exact absurd e h.hx.1.ne')
      exact ⟨hall _ (by simp), hall _ (by simp)⟩
  have := (key j hj).1
  rwa [Nat.zero_mul, Nat.zero_add] at this

theorem rectangle_covered (h : OnRectangle P Nx Ny Lx Ly p w) (n : Nat) (hn : n < P.numTotalNodes) :
    ∃ cell ∈ P.conn, n ∈ cell := by
  have hNx := h.Nx_pos
  have hNy := h.Ny_pos
  rw [h.nodes] at hn
  have e : n = n / (Ny + 1) * (Ny + 1) + n % (Ny + 1) := by
    rw [Nat.mul_comm]; exact (Nat.div_add_mod n (Ny + 1)).symm
  have h1 : n / (Ny + 1) < Nx + 1 := Nat.div_lt_of_lt_mul (by rwa [Nat.mul_comm] at hn)
  have h2 : n % (Ny + 1) < Ny + 1 := Nat.mod_lt _ (by omega)
  generalize n / (Ny + 1) = i at *
  generalize n % (Ny + 1) = j at *
  obtain ⟨i0, hi0, hi⟩ : ∃ i0 < Nx, i = i0 ∨ i = i0 + 1 := by
    rcases Nat.eq_zero_or_pos i with h0 | h0
    · exact ⟨0, hNx, .inl h0⟩
    · exact ⟨i - 1, by omega, .inr (by omega)⟩
  obtain ⟨j0, hj0, hj⟩ : ∃ j0 < Ny, j = j0 ∨ j = j0 + 1 := by
    rcases Nat.eq_zero_or_pos j with h0 | h0
    · exact ⟨0, hNy, .inl h0⟩
    · exact ⟨j - 1, by omega, .inr (by omega)⟩
  refine ⟨_, by rw [h.conn]; exact List.mem_of_getElem? (rect_cell Nx Ny Lx Ly i0 j0 hi0 hj0), ?_⟩
  rw [e]
  simp only [List.mem_cons, List.not_mem_nil, or_false]
  rcases hi with rfl | rfl <;> rcases hj with rfl | rfl <;> simp

/-- **C99 (rectangle meshes).** The rectangle meshes of the script, of any size, with positive weights and quadrature
points that include the four points of a two by two grid, are free bodies in the sense of the theorems. -/
theorem C99_rectangle (h : OnRectangle P Nx Ny Lx Ly p w) (hw : ∀ q, 0 < w q) (x y : Fin 2 → ℝ) (hx : x 0 ≠ x 1)
    (hy : y 0 ≠ y 1) (hp : ∀ a b, ∃ q, p q = ![x a, y b]) : FreeBody P where
  wf := h.wf
  quad := by
    obtain ⟨q, -⟩ := hp 0 0
    exact q.pos
  positive := h.positive hw
  unity := by
    rw [h.el]
    exact (C10_first_order_unity w p (fun _ _ => 0)).2.1
  strain := by
    obtain ⟨q00, e00⟩ := hp 0 0
    obtain ⟨q10, e10⟩ := hp 1 0
    obtain ⟨q01, e01⟩ := hp 0 1
    refine h.strain ⟨q00, q10, ?_⟩ ⟨q00, q01, ?_⟩
    · rw [e00, e10]; exact hx
    · rw [e00, e01]; exact hy
  value := by
    rw [h.el]
    exact quad4_value p w x y hx hy hp
  covered := rectangle_covered h
  connected := rectangle_connected h

end

/-! ### Concrete cases -/

/-- The two cells of `exCantilever`, unsupported. -/
theorem exCantilever_free : FreeBody exCantilever :=
  C99_rectangle exCantilever_rect (fun _ => by norm_num) ![1/4, 3/4] ![1/4, 3/4] (by norm_num) (by norm_num) (by
    intro a b
    fin_cases a <;> fin_cases b
    · exact ⟨0, rfl⟩
    · exact ⟨3, rfl⟩
    · exact ⟨1, rfl⟩
    · exact ⟨2, rfl⟩)

/-- On the two-cell mesh with densities `1` and `1/2` an eigensolver as expected exists, and with it the hypotheses of
`C99_feasible` are met. -/
example : ∃ (pair : Nat → ℝ × (Fin (totalDofs exCantilever.fes) → ℝ)) (c1 c2 : ℝ)
    (d1 d2 : (Fin exCantilever.cells.length → ℝ) →L[ℝ] ℝ),
    computeConstraints exCantilever ![1, 1/2] 12 pair = .ok [(c1, d1), (c2, d2)] ∧ ¬ c1 ≤ 0 := by
  have hr : ∀ c : Fin exCantilever.cells.length, 0 < (![1, 1/2] : Fin 2 → ℝ) c := by
    intro c
    have : ∀ c : Fin 2, 0 < (![1, 1/2] : Fin 2 → ℝ) c := by
      intro c
      fin_cases c <;> norm_num
    exact this c
  have hK := (stiffness_jacobian exCantilever exCantilever_free.wf exCantilever_free.positive ![1, 1/2]).2 0
  have hM := (mass_jacobian exCantilever exCantilever_free.wf exCantilever_free.positive ![1, 1/2]).2 0
  obtain ⟨pair, hn, -⟩ := C99_solver exCantilever_free ![1, 1/2] hr _ _ hK hM
  have h12 : totalDofs exCantilever.fes = 12 := rfl
  obtain ⟨c1, c2, d1, d2, h1, h2, -⟩ := C99_feasible exCantilever_free ![1, 1/2] hr _ _ hK hM
    (totalDofs exCantilever.fes) (by rw [h12]; norm_num) pair hn
  refine ⟨pair, c1, c2, d1, d2, h1, fun hc => ?_⟩
  have := h2.1 hc
  have e : (∑ c : Fin exCantilever.cells.length, (![1, 1/2] : Fin 2 → ℝ) c) = 3 / 2 := by
    show (∑ c : Fin 2, (![1, 1/2] : Fin 2 → ℝ) c) = 3 / 2
    simp [Fin.sum_univ_two]
    norm_num
  rw [e] at this
  have hl : exCantilever.cells.length = 2 := rfl
  rw [hl] at this
  norm_num at this

/-- Three kept eigenvalues of `2e6` satisfy the constraint, eigenvalues of `9e5` do not. -/
example : minEigenValsCstr 10 1000000 (fun _ : Fin 3 => 2000000) ≤ 0 ∧
    ¬ minEigenValsCstr 10 1000000 ![900000, 2000000, 3000000] ≤ 0 := by
  constructor
  · refine (C99_softmin 10 1000000 (by norm_num) (by norm_num) (by norm_num) _).2 fun i => ?_
    have := Real.log_le_sub_one_of_pos (show (0 : ℝ) < 3 by norm_num)
    push_cast
    linarith
  · intro h
    have := (C99_softmin 10 1000000 (by norm_num) (by norm_num) (by norm_num) _).1 h 0
    norm_num at this

end JaxFem.Modal
