import Verif.Spec.GridPoisson

/-!
# C91: the Poisson problem on the rectangle mesh — the stencil of the residual
-/

namespace JaxFem

variable {IV : Type} {nq nfq : Nat}

/-! ### Helper lemmas -/

/-- Stiffness of a rectangular bilinear cell with `r = hy / hx`, `s = hx / hy`, tested with `v`. -/
noncomputable def cellForm (r s u0 u1 u2 u3 v0 v1 v2 v3 : ℝ) : ℝ :=
  r / 6 * (2 * (u1 - u0) * (v1 - v0) + (u1 - u0) * (v2 - v3) + (u2 - u3) * (v1 - v0)
      + 2 * (u2 - u3) * (v2 - v3))
    + s / 6 * (2 * (u3 - u0) * (v3 - v0) + (u3 - u0) * (v2 - v1) + (u2 - u1) * (v3 - v0)
      + 2 * (u2 - u1) * (v2 - v1))

theorem rule_form {p : Fin nq → Fin 2 → ℝ} {w : Fin nq → ℝ} (hr : SquareRule p w)
    (k : Fin 2) (a a' b b' : ℝ) :
    ∑ q, ((1 - p q k) * a + p q k * a') * ((1 - p q k) * b + p q k * b') * w q
      = (2 * a * b + a * b' + a' * b + 2 * a' * b') / 6 := by
  have e : ∀ q, ((1 - p q k) * a + p q k * a') * ((1 - p q k) * b + p q k * b') * w q
      = w q * (a * b) + w q * p q k * (a * (b' - b) + (a' - a) * b)
        + w q * p q k ^ 2 * ((a' - a) * (b' - b)) := fun q => by ring
  rw [Finset.sum_congr rfl fun q _ => e q, Finset.sum_add_distrib, Finset.sum_add_distrib,
    ← Finset.sum_mul, ← Finset.sum_mul, ← Finset.sum_mul, hr.one, hr.lin, hr.sq]
  ring

/-- Tensor work on one cell. -/
theorem cell_tensor {P : Problem1 IV nq nfq 4 1 2} {Nx Ny : Nat} {Lx Ly : ℝ}
    {p : Fin nq → Fin 2 → ℝ} {w : Fin nq → ℝ} (h : OnRectangle P Nx Ny Lx Ly p w)
    (hr : SquareRule p w) (cell : List Nat) (hc : cell ∈ P.conn) (u v : Nat → Fin 1 → ℝ) :
    (cellIntegral P.el P.points cell fun q => contract (P.gradient u cell q) (P.gradient v cell q))
      = cellForm ((Ly / Ny) / (Lx / Nx)) ((Lx / Nx) / (Ly / Ny))
        (u (cell.getD 0 0) 0) (u (cell.getD 1 0) 0) (u (cell.getD 2 0) 0) (u (cell.getD 3 0) 0)
        (v (cell.getD 0 0) 0) (v (cell.getD 1 0) 0) (v (cell.getD 2 0) 0) (v (cell.getD 3 0) 0) := by
  have hx := h.hx
  have hgu := fun q => rect_gradient h cell hc u q 0
  have hgv := fun q => rect_gradient h cell hc v q 0
  have hwq : ∀ q, P.el.quadWeights q = w q := by rw [h.el]; exact fun _ => rfl
  rw [cellIntegral]
  have e : ∀ q, contract (P.gradient u cell q) (P.gradient v cell q)
      * ((mapJacobian (coords 4 P.points cell) (Matrix.of (P.el.shapeGradsRef q))).det
        * P.el.quadWeights q)
      = (Ly / Ny) / (Lx / Nx) * (((1 - p q 1) * (u (cell.getD 1 0) 0 - u (cell.getD 0 0) 0)
          + p q 1 * (u (cell.getD 2 0) 0 - u (cell.getD 3 0) 0))
          * ((1 - p q 1) * (v (cell.getD 1 0) 0 - v (cell.getD 0 0) 0)
          + p q 1 * (v (cell.getD 2 0) 0 - v (cell.getD 3 0) 0)) * w q)
        + (Lx / Nx) / (Ly / Ny) * (((1 - p q 0) * (u (cell.getD 3 0) 0 - u (cell.getD 0 0) 0)
          + p q 0 * (u (cell.getD 2 0) 0 - u (cell.getD 1 0) 0))
          * ((1 - p q 0) * (v (cell.getD 3 0) 0 - v (cell.getD 0 0) 0)
          + p q 0 * (v (cell.getD 2 0) 0 - v (cell.getD 1 0) 0)) * w q) := by
    intro q
    rw [h.jac _ hc, Matrix.det_fin_two_of, hwq, ← (hgu q).1, ← (hgu q).2, ← (hgv q).1, ← (hgv q).2]
    simp only [contract, Fin.sum_univ_one, Fin.sum_univ_two]
    have h1 := hx.1.ne'
    have h2 := hx.2.ne'
    generalize Lx / Nx = a at *
    generalize Ly / Ny = b at *
    field_simp
    ring
  rw [Finset.sum_congr rfl fun q _ => e q, Finset.sum_add_distrib, ← Finset.mul_sum, ← Finset.mul_sum,
    rule_form hr, rule_form hr, cellForm]
  ring

/-- The field that is one at node `(I, J)` and zero elsewhere. -/
def unitField (Ny I J : Nat) : Nat → Fin 1 → ℝ := fun m _ => if m = I * (Ny + 1) + J then 1 else 0

theorem unitField_grid (Ny I J i j : Nat) (hJ : J ≤ Ny) (hj : j ≤ Ny) :
    unitField Ny I J (i * (Ny + 1) + j) 0 = if i = I ∧ j = J then 1 else 0 := by
  rw [unitField]
  by_cases e : i = I ∧ j = J
  · rw [if_pos e, if_pos (by rw [e.1, e.2])]
  · rw [if_neg e, if_neg fun e' => e (gridNode_inj (W := Ny + 1) (by omega) (by omega) e')]

theorem sum_delta (N K : Nat) (hK : K < N) (g : Nat → ℝ) :
    ∑ i ∈ Finset.range N, (if i = K then g i else 0) = g K := by
  rw [Finset.sum_ite_eq' _ _ _, if_pos (Finset.mem_range.2 hK)]

/-- A sum over all cells of a form that is linear in the four nodal values of the test field, for
the unit field of an interior node: four cells contribute. -/
theorem sum_cells_unit (Nx Ny I J : Nat) (hI : 0 < I) (hI' : I < Nx) (hJ : 0 < J) (hJ' : J < Ny)
    (F : Nat → Nat → Fin 4 → ℝ) :
    ∑ i ∈ Finset.range Nx, ∑ j ∈ Finset.range Ny,
      (F i j 0 * unitField Ny I J (i * (Ny + 1) + j) 0
        + F i j 1 * unitField Ny I J ((i + 1) * (Ny + 1) + j) 0
        + F i j 2 * unitField Ny I J ((i + 1) * (Ny + 1) + (j + 1)) 0
        + F i j 3 * unitField Ny I J (i * (Ny + 1) + (j + 1)) 0)
      = F I J 0 + F (I - 1) J 1 + F (I - 1) (J - 1) 2 + F I (J - 1) 3 := by
  have key : ∀ (a b A B : Nat) (_ : A < Nx) (_ : B < Ny) (g : Nat → Nat → ℝ)
      (_ : ∀ i, (i + a = I ↔ i = A)) (_ : ∀ j, (j + b = J ↔ j = B)),
      ∑ i ∈ Finset.range Nx, ∑ j ∈ Finset.range Ny,
        g i j * (if i + a = I ∧ j + b = J then 1 else 0) = g A B := by
    intro a b A B hA hB g ha hb
    have e : ∀ i j, g i j * (if i + a = I ∧ j + b = J then (1 : ℝ) else 0)
        = if i = A then (if j = B then g i j else 0) else 0 := by
      intro i j
      simp only [ha, hb]
      by_cases h1 : i = A <;> by_cases h2 : j = B <;> simp [h1, h2]
    rw [Finset.sum_congr rfl fun i _ => Finset.sum_congr rfl fun j _ => e i j]
    have e2 : ∀ i, ∑ j ∈ Finset.range Ny, (if i = A then (if j = B then g i j else 0) else 0)
        = if i = A then ∑ j ∈ Finset.range Ny, (if j = B then g i j else 0) else 0 := by
      intro i
      by_cases h1 : i = A <;> simp [h1]
    rw [Finset.sum_congr rfl fun i _ => e2 i, sum_delta Nx A hA, sum_delta Ny B hB]
  have e : ∀ i ∈ Finset.range Nx, ∀ j ∈ Finset.range Ny,
      (F i j 0 * unitField Ny I J (i * (Ny + 1) + j) 0
        + F i j 1 * unitField Ny I J ((i + 1) * (Ny + 1) + j) 0
        + F i j 2 * unitField Ny I J ((i + 1) * (Ny + 1) + (j + 1)) 0
        + F i j 3 * unitField Ny I J (i * (Ny + 1) + (j + 1)) 0)
      = F i j 0 * (if i + 0 = I ∧ j + 0 = J then 1 else 0)
        + F i j 1 * (if i + 1 = I ∧ j + 0 = J then 1 else 0)
        + F i j 2 * (if i + 1 = I ∧ j + 1 = J then 1 else 0)
        + F i j 3 * (if i + 0 = I ∧ j + 1 = J then 1 else 0) := by
    intro i _ j hj
    have hj := Finset.mem_range.1 hj
    rw [unitField_grid _ _ _ _ _ (by omega) (by omega), unitField_grid _ _ _ _ _ (by omega) (by omega),
      unitField_grid _ _ _ _ _ (by omega) (by omega), unitField_grid _ _ _ _ _ (by omega) (by omega)]
    rfl
  rw [Finset.sum_congr rfl fun i hi => Finset.sum_congr rfl fun j hj => e i hi j hj]
  simp only [Finset.sum_add_distrib]
  rw [key 0 0 I J (by omega) (by omega) (fun i j => F i j 0) (by omega) (by omega),
    key 1 0 (I - 1) J (by omega) (by omega) (fun i j => F i j 1) (by omega) (by omega),
    key 1 1 (I - 1) (J - 1) (by omega) (by omega) (fun i j => F i j 2) (by omega) (by omega),
    key 0 1 I (J - 1) (by omega) (by omega) (fun i j => F i j 3) (by omega) (by omega)]

/-- The nine-point operator of bilinear cells with `r = hy / hx`, `s = hx / hy`. -/
noncomputable def ninePoint (r s : ℝ) (U : ℤ → ℤ → ℝ) (i j : ℤ) : ℝ :=
  (2 * r - s) / 3 * secondDiff U 1 0 i j + (2 * s - r) / 3 * secondDiff U 0 1 i j
    + (r + s) / 6 * (secondDiff U 1 1 i j + secondDiff U 1 (-1) i j)

theorem gridOf_nat (Ny : Nat) (v : Nat → Fin 1 → ℝ) (i j : Nat) :
    gridOf Ny v i j = v (i * (Ny + 1) + j) 0 := by
  simp [gridOf]

/-- Tensor work of the unit field of an interior node. -/
theorem tensor_stencil {P : Problem1 IV nq nfq 4 1 2} {Nx Ny : Nat} {Lx Ly : ℝ}
    {p : Fin nq → Fin 2 → ℝ} {w : Fin nq → ℝ} (h : OnRectangle P Nx Ny Lx Ly p w)
    (hr : SquareRule p w) (ht : P.tensorMap = fun _ G => G) (u : Nat → Fin 1 → ℝ) (I J : Nat)
    (hI : 0 < I) (hI' : I < Nx) (hJ : 0 < J) (hJ' : J < Ny) :
    P.tensorWork u (unitField Ny I J)
      = -ninePoint ((Ly / Ny) / (Lx / Nx)) ((Lx / Nx) / (Ly / Ny)) (gridOf Ny u) I J := by
  set r := (Ly / Ny) / (Lx / Nx)
  set s := (Lx / Nx) / (Ly / Ny)
  set v := unitField Ny I J with hv
  let F : List Nat → ℝ := fun cell => cellForm r s
    (u (cell.getD 0 0) 0) (u (cell.getD 1 0) 0) (u (cell.getD 2 0) 0) (u (cell.getD 3 0) 0)
    (v (cell.getD 0 0) 0) (v (cell.getD 1 0) 0) (v (cell.getD 2 0) 0) (v (cell.getD 3 0) 0)
  have e1 : P.tensorWork u v = (P.conn.map F).sum := by
    rw [Problem1.tensorWork, Problem1.conn, List.map_map, ht]
    refine congrArg List.sum (List.map_congr_left fun cell hc => ?_)
    exact cell_tensor h hr cell.nodes (List.mem_map_of_mem hc) u v
  rw [e1, h.conn, rect_sum]
  let U : Nat → Nat → ℝ := fun i j => u (i * (Ny + 1) + j) 0
  have e2 := sum_cells_unit Nx Ny I J hI hI' hJ hJ' fun i j a => cellForm r s (U i j) (U (i + 1) j)
    (U (i + 1) (j + 1)) (U i (j + 1)) (if a = 0 then 1 else 0) (if a = 1 then 1 else 0)
    (if a = 2 then 1 else 0) (if a = 3 then 1 else 0)
  refine (Finset.sum_congr rfl fun i _ => Finset.sum_congr rfl fun j _ => ?_).trans (e2.trans ?_)
  · simp only [F, U, cellForm, ← hv, List.getD_cons_zero, List.getD_cons_succ, Fin.isValue, Fin.reduceEq,
      if_true, if_false]
    ring
  · obtain ⟨I, rfl⟩ : ∃ k, I = k + 1 := ⟨I - 1, by omega⟩
    obtain ⟨J, rfl⟩ : ∃ k, J = k + 1 := ⟨J - 1, by omega⟩
    have g : ∀ (a b : ℤ) (A B : Nat) (_ : a = A) (_ : b = B), gridOf Ny u a b = U A B := by
      intro a b A B ha hb
      rw [ha, hb, gridOf_nat]
    simp only [ninePoint, secondDiff]
    rw [g (((I + 1 : Nat) : ℤ) + 1) (((J + 1 : Nat) : ℤ) + 0) (I + 2) (J + 1) (by push_cast; ring) (by push_cast; ring),
      g (((I + 1 : Nat) : ℤ) - 1) (((J + 1 : Nat) : ℤ) - 0) I (J + 1) (by push_cast; ring) (by push_cast; ring),
      g (((I + 1 : Nat) : ℤ) + 0) (((J + 1 : Nat) : ℤ) + 1) (I + 1) (J + 2) (by push_cast; ring) (by push_cast; ring),
      g (((I + 1 : Nat) : ℤ) - 0) (((J + 1 : Nat) : ℤ) - 1) (I + 1) J (by push_cast; ring) (by push_cast; ring),
      g (((I + 1 : Nat) : ℤ) + 1) (((J + 1 : Nat) : ℤ) + 1) (I + 2) (J + 2) (by push_cast; ring) (by push_cast; ring),
      g (((I + 1 : Nat) : ℤ) - 1) (((J + 1 : Nat) : ℤ) - 1) I J (by push_cast; ring) (by push_cast; ring),
      g (((I + 1 : Nat) : ℤ) + 1) (((J + 1 : Nat) : ℤ) + -1) (I + 2) J (by push_cast; ring) (by push_cast; ring),
      g (((I + 1 : Nat) : ℤ) - 1) (((J + 1 : Nat) : ℤ) - -1) I (J + 2) (by push_cast; ring) (by push_cast; ring),
      g ((I + 1 : Nat) : ℤ) ((J + 1 : Nat) : ℤ) (I + 1) (J + 1) rfl rfl]
    simp only [cellForm, Nat.add_sub_cancel, Fin.isValue, Fin.reduceEq, if_true, if_false, add_assoc,
      Nat.reduceAdd]
    ring

/-- Position of a quadrature point of a cell of the rectangle mesh. -/
theorem rect_position {P : Problem1 IV nq nfq 4 1 2} {Nx Ny : Nat} {Lx Ly : ℝ}
    {p : Fin nq → Fin 2 → ℝ} {w : Fin nq → ℝ} (h : OnRectangle P Nx Ny Lx Ly p w) (i j : Nat)
    (hi : i < Nx) (hj : j < Ny) (q : Fin nq) :
    positionIn (P.el.shapeVals q) (coords 4 P.points [i * (Ny + 1) + j, (i + 1) * (Ny + 1) + j,
        (i + 1) * (Ny + 1) + (j + 1), i * (Ny + 1) + (j + 1)])
      = ![(i + p q 0) * (Lx / Nx), (j + p q 1) * (Ly / Ny)] := by
  have hN : P.el.shapeVals q = quad4N (p q) := by rw [h.el]; rfl
  rw [hN, h.points]
  have pt := fun (a : Fin 4) (u v : Nat) (hu : u ≤ Nx) (hv : v ≤ Ny)
      (e : [i * (Ny + 1) + j, (i + 1) * (Ny + 1) + j, (i + 1) * (Ny + 1) + (j + 1),
        i * (Ny + 1) + (j + 1)].getD a 0 = u * (Ny + 1) + v) =>
    physicalCoos_of_getElem? (nn := 4) (rectangleMesh Nx Ny Lx Ly).1
      [i * (Ny + 1) + j, (i + 1) * (Ny + 1) + j, (i + 1) * (Ny + 1) + (j + 1),
        i * (Ny + 1) + (j + 1)] a _ (by rw [e]; exact rect_point Nx Ny Lx Ly u v hu hv)
  have p0 := pt 0 i j (by omega) (by omega) rfl
  have p1 := pt 1 (i + 1) j (by omega) (by omega) rfl
  have p2 := pt 2 (i + 1) (j + 1) (by omega) (by omega) rfl
  have p3 := pt 3 i (j + 1) (by omega) (by omega) rfl
  rw [← physicalCoos_eq]
  funext k
  simp only [positionIn, Matrix.vecMul, dotProduct, Fin.sum_univ_four, Matrix.of_apply, p0, p1, p2, p3, quad4N]
  fin_cases k <;> simp <;> ring

/-- Mean of the source around node `(I, J)` as computed by the quadrature of the four cells around it. -/
noncomputable def sourceMean (p : Fin nq → Fin 2 → ℝ) (w : Fin nq → ℝ) (f : (Fin 2 → ℝ) → ℝ)
    (hx hy : ℝ) (I J : ℝ) : ℝ :=
  ∑ q, w q * ((1 - p q 0) * (1 - p q 1) * f ![(I + p q 0) * hx, (J + p q 1) * hy]
    + p q 0 * (1 - p q 1) * f ![(I - 1 + p q 0) * hx, (J + p q 1) * hy]
    + p q 0 * p q 1 * f ![(I - 1 + p q 0) * hx, (J - 1 + p q 1) * hy]
    + (1 - p q 0) * p q 1 * f ![(I + p q 0) * hx, (J - 1 + p q 1) * hy])

/-- Work of the mass map for the unit field of an interior node. -/
theorem mass_stencil {P : Problem1 IV nq nfq 4 1 2} {Nx Ny : Nat} {Lx Ly : ℝ}
    {p : Fin nq → Fin 2 → ℝ} {w : Fin nq → ℝ} (h : OnRectangle P Nx Ny Lx Ly p w)
    (f : (Fin 2 → ℝ) → ℝ) (u : Nat → Fin 1 → ℝ) (I J : Nat)
    (hI : 0 < I) (hI' : I < Nx) (hJ : 0 < J) (hJ' : J < Ny) :
    P.massWork (fun _ _ x _ => -f x) u (unitField Ny I J)
      = -((Lx / Nx) * (Ly / Ny) * sourceMean p w f (Lx / Nx) (Ly / Ny) I J) := by
  set v := unitField Ny I J with hv
  have hN : ∀ q, P.el.shapeVals q = quad4N (p q) := by rw [h.el]; exact fun _ => rfl
  have hwq : ∀ q, P.el.quadWeights q = w q := by rw [h.el]; exact fun _ => rfl
  let F : List Nat → ℝ := fun cell => ∑ q, -f (positionIn (P.el.shapeVals q) (coords 4 P.points cell))
      * (quad4N (p q) 0 * v (cell.getD 0 0) 0 + quad4N (p q) 1 * v (cell.getD 1 0) 0
        + quad4N (p q) 2 * v (cell.getD 2 0) 0 + quad4N (p q) 3 * v (cell.getD 3 0) 0)
      * ((Lx / Nx) * (Ly / Ny) * w q)
  have e1 : P.massWork (fun _ _ x _ => -f x) u v = (P.conn.map F).sum := by
    rw [Problem1.massWork, Problem1.conn, List.map_map]
    refine congrArg List.sum (List.map_congr_left fun cell hc => ?_)
    rw [cellIntegral]
    refine Finset.sum_congr rfl fun q _ => ?_
    rw [h.jac _ (List.mem_map_of_mem hc), Matrix.det_fin_two_of, hwq, Fin.sum_univ_one]
    simp only [interp, restrict, Matrix.of_apply, Fin.sum_univ_four, hN, mul_zero, sub_zero]
    rfl
  rw [e1, h.conn, rect_sum]
  have e2 := sum_cells_unit Nx Ny I J hI hI' hJ hJ' fun i j a =>
    ∑ q, -f ![(i + p q 0) * (Lx / Nx), (j + p q 1) * (Ly / Ny)] * quad4N (p q) a
      * ((Lx / Nx) * (Ly / Ny) * w q)
  refine (Finset.sum_congr rfl fun i hi => Finset.sum_congr rfl fun j hj => ?_).trans (e2.trans ?_)
  · simp only [F, rect_position h i j (Finset.mem_range.1 hi) (Finset.mem_range.1 hj), ← hv,
      List.getD_cons_zero, List.getD_cons_succ, Finset.sum_mul, ← Finset.sum_add_distrib]
    exact Finset.sum_congr rfl fun q _ => by ring
  · obtain ⟨I, rfl⟩ : ∃ k, I = k + 1 := ⟨I - 1, by omega⟩
    obtain ⟨J, rfl⟩ : ∃ k, J = k + 1 := ⟨J - 1, by omega⟩
    simp only [sourceMean, Nat.add_sub_cancel, Finset.mul_sum, ← Finset.sum_add_distrib,
      ← Finset.sum_neg_distrib, quad4N]
    refine Finset.sum_congr rfl fun q _ => ?_
    simp only [Nat.cast_add, Nat.cast_one, add_sub_cancel_right, Matrix.cons_val_zero,
      Matrix.cons_val_one, Matrix.cons_val]
    ring

/-! ### Property theorem -/

/-- **C91 (stencil).** On the rectangle mesh with bilinear cells the residual of the Poisson problem
vanishes at the interior nodes exactly if the nodal values satisfy the nine-point equations
`-L u = hx hy f̄`, where `L` combines second differences in the two axes and the two diagonals and `f̄` is a
weighted mean of the source around the node. -/
theorem C91_stencil (P : Problem1 IV nq nfq 4 1 2) {Nx Ny : Nat} {Lx Ly : ℝ}
    {p : Fin nq → Fin 2 → ℝ} {w : Fin nq → ℝ} (h : OnRectangle P Nx Ny Lx Ly p w)
    (hr : SquareRule p w) (f : (Fin 2 → ℝ) → ℝ) (hP : IsPoisson P f) (sol : List (List ℝ))
    (hs : HasShapes [(P.numTotalNodes, 1)] [sol]) :
    IsSolution P (fun n _ => rectInterior Nx Ny n) sol ↔
      ∀ I J : Nat, 0 < I → I < Nx → 0 < J → J < Ny →
        -ninePoint ((Ly / Ny) / (Lx / Nx)) ((Lx / Nx) / (Ly / Ny)) (gridOf Ny (fieldOf 1 sol)) I J
          = (Lx / Nx) * (Ly / Ny) * sourceMean p w f (Lx / Nx) (Ly / Ny) I J := by
  have hwork : ∀ I J : Nat, 0 < I → I < Nx → 0 < J → J < Ny →
      P.virtualWork (fieldOf 1 sol) (unitField Ny I J)
        = -ninePoint ((Ly / Ny) / (Lx / Nx)) ((Lx / Nx) / (Ly / Ny)) (gridOf Ny (fieldOf 1 sol)) I J
          - (Lx / Nx) * (Ly / Ny) * sourceMean p w f (Lx / Nx) (Ly / Ny) I J := by
    intro I J hI hI' hJ hJ'
    have hsw : P.surfaceWork (fieldOf 1 sol) (unitField Ny I J) = 0 := by
      rw [Problem1.surfaceWork, hP.surfaces]; rfl
    rw [Problem1.virtualWork, hP.mass, hsw, add_zero]
    show _ + P.massWork _ _ _ = _
    rw [tensor_stencil h hr hP.tensor _ I J hI hI' hJ hJ', mass_stencil h f _ I J hI hI' hJ hJ', sub_eq_add_neg]
  constructor
  · intro hsol I J hI hI' hJ hJ'
    have := (C72_galerkin P h.wf sol hs _).1 hsol (unitField Ny I J) (fun n c hn => by
      rw [unitField, if_neg]
      exact fun e => hn ⟨I, J, hI, hI', hJ, hJ', e⟩)
    rw [hwork I J hI hI' hJ hJ'] at this
    exact sub_eq_zero.1 this
  · intro hst
    obtain ⟨R, r1, -, r2⟩ := C72_weak_form P h.wf sol hs
    refine ⟨R, r1, ?_⟩
    rintro n hn c ⟨I, J, hI, hI', hJ, hJ', rfl⟩
    have := hwork I J hI hI' hJ hJ'
    rw [hst I J hI hI' hJ hJ', sub_self] at this
    rw [← r2, Finset.sum_eq_single_of_mem _ (Finset.mem_range.2 hn), Fin.sum_univ_one] at this
    · rw [Subsingleton.elim c 0]
      simpa [unitField] using this
    · intro m _ hm
      simp [unitField, hm]

end JaxFem
