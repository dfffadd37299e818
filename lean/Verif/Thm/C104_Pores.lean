import Verif.Thm.C104_Geometry

/-!
# C104: rotated pores — property theorems about the geometry
-/

namespace JaxFem.Shape

open scoped BigOperators Topology

variable {nq : Nat}

/-! ### Helper lemmas -/

theorem turned_center (β : ℝ) (c : Fin 2 → ℝ) : turnedNorm β c c = 0 := by simp [turnedNorm]

theorem turned_zero (β : ℝ) (c x : Fin 2 → ℝ) (h1 : Real.cos β * (x 0 - c 0) + Real.sin β * (x 1 - c 1) = 0)
    (h2 : Real.cos β * (x 1 - c 1) - Real.sin β * (x 0 - c 0) = 0) : x = c := by
  obtain ⟨e0, e1⟩ := sq_turned β (x 0 - c 0) (x 1 - c 1)
  rw [h1, h2, mul_zero, mul_zero, sub_zero] at e0
  rw [h1, h2, mul_zero, mul_zero, add_zero] at e1
  funext i
  match i with
  | 0 => linarith
  | 1 => linarith

theorem turned_smooth (β : ℝ) (c x : Fin 2 → ℝ) (h : ¬OnDiagonal β c x) :
    ContDiffAt ℝ 1 (fun β => turnedNorm β c x) β := by
  by_cases hx : x = c
  · subst hx
    simp only [turned_center]
    exact contDiffAt_const
  · have hX : Real.cos β * (x 0 - c 0) + Real.sin β * (x 1 - c 1) ≠ 0 := fun h' => h ⟨hx, .inl h'⟩
    have hY : Real.cos β * (x 1 - c 1) - Real.sin β * (x 0 - c 0) ≠ 0 := fun h' => h ⟨hx, .inr h'⟩
    have c1 : ContDiffAt ℝ 1 (fun β => Real.cos β * (x 0 - c 0) + Real.sin β * (x 1 - c 1)) β :=
      (Real.contDiff_cos.contDiffAt.mul contDiffAt_const).add (Real.contDiff_sin.contDiffAt.mul contDiffAt_const)
    have c2 : ContDiffAt ℝ 1 (fun β => Real.cos β * (x 1 - c 1) - Real.sin β * (x 0 - c 0)) β :=
      (Real.contDiff_cos.contDiffAt.mul contDiffAt_const).sub (Real.contDiff_sin.contDiffAt.mul contDiffAt_const)
    exact (abs_contDiff _ β c1 hX).add (abs_contDiff _ β c2 hY)

theorem angle_smooth (b : ℝ) : ContDiffAt ℝ 1 angle b := by
  have e : ContDiffAt ℝ 1 (fun b : ℝ => 1 + Real.exp (-b * (1 / 10))) b := by fun_prop
  exact contDiffAt_const.add (contDiffAt_const.div e (by positivity))

theorem poreFn_smooth (x c : Fin 2 → ℝ) (L b : ℝ) (h : ¬OnDiagonal (angle b) c x) : ContDiffAt ℝ 1 (poreFn x c L) b := by
  have e : poreFn x c L = (fun β => smoothHole β (9 / 20 * L) c x) ∘ angle := funext fun b => poreFn_eq x c L b
  rw [e]
  refine ContDiffAt.comp b ?_ (angle_smooth b)
  have h1 := turned_smooth (angle b) c x h
  have h2 : ContDiffAt ℝ 1 (fun β => 1 + Real.exp (-(200 * (turnedNorm β c x - 9 / 20 * L)))) (angle b) :=
    contDiffAt_const.add ((contDiffAt_const.mul (h1.sub contDiffAt_const)).neg.exp)
  exact contDiffAt_const.div h2 (by positivity)

/-- The absolute value of a function with a simple zero has a kink. -/
theorem abs_kink (f : ℝ → ℝ) (x m : ℝ) (hf : HasDerivAt f m x) (h0 : f x = 0) (hm : m ≠ 0) :
    ¬DifferentiableAt ℝ (fun y => |f y|) x := by
  intro hd
  have hmin : IsLocalMin (fun y => |f y|) x := by
    refine Filter.Eventually.of_forall fun y => ?_
    show |f x| ≤ |f y|
    rw [h0, abs_zero]
    exact abs_nonneg _
  have h1 : HasDerivAt (fun y => |f y|) 0 x := by
    have := hd.hasDerivAt
    rwa [hmin.deriv_eq_zero] at this
  have h2 : HasDerivAt f 0 x := by
    rw [hasDerivAt_iff_isLittleO] at h1 ⊢
    simp only [h0, abs_zero, sub_zero, smul_zero] at h1 ⊢
    exact (Asymptotics.isLittleO_abs_left).1 h1
  exact hm (hf.unique h2)

theorem angle_deriv_pos (b : ℝ) : 0 < (angle b + Real.pi / 4) * (Real.pi / 4 - angle b) / (5 * Real.pi) := by
  have hp := Real.pi_pos
  obtain ⟨h1, h2⟩ := sigmoid_mem b (-Real.pi / 4) (Real.pi / 4) (1 / 10) (by linarith)
  have h1' : 0 < angle b + Real.pi / 4 := by simp only [angle]; linarith
  have h2' : 0 < Real.pi / 4 - angle b := by simp only [angle]; linarith
  positivity

theorem turned_kink (c x : Fin 2 → ℝ) (b : ℝ) (h : OnDiagonal (angle b) c x) :
    ¬DifferentiableAt ℝ (fun b => turnedNorm (angle b) c x) b := by
  obtain ⟨hx, h⟩ := h
  obtain ⟨dX, dY⟩ := turned_deriv c x (angle b)
  have dX' := HasDerivAt.comp b dX (angle_deriv b)
  have dY' := HasDerivAt.comp b dY (angle_deriv b)
  have hp := (angle_deriv_pos b).ne'
  intro hd
  rcases h with h | h
  · have hY : Real.cos (angle b) * (x 1 - c 1) - Real.sin (angle b) * (x 0 - c 0) ≠ 0 := fun h' =>
      hx (turned_zero _ c x h h')
    refine abs_kink _ b _ dX' h (mul_ne_zero hY hp) ?_
    have hy : DifferentiableAt ℝ (fun b => |Real.cos (angle b) * (x 1 - c 1) - Real.sin (angle b) * (x 0 - c 0)|) b :=
      DifferentiableAt.abs dY'.differentiableAt hY
    have := hd.sub hy
    refine this.congr_of_eventuallyEq (Filter.Eventually.of_forall fun b => ?_)
    simp only [turnedNorm, Pi.sub_apply, Function.comp_apply, add_sub_cancel_right]
  · have hX : Real.cos (angle b) * (x 0 - c 0) + Real.sin (angle b) * (x 1 - c 1) ≠ 0 := fun h' =>
      hx (turned_zero _ c x h' h)
    refine abs_kink _ b _ dY' h (mul_ne_zero (neg_ne_zero.2 hX) hp) ?_
    have hy : DifferentiableAt ℝ (fun b => |Real.cos (angle b) * (x 0 - c 0) + Real.sin (angle b) * (x 1 - c 1)|) b :=
      DifferentiableAt.abs dX'.differentiableAt hX
    have := hd.sub hy
    refine this.congr_of_eventuallyEq (Filter.Eventually.of_forall fun b => ?_)
    simp only [turnedNorm, Pi.sub_apply, Function.comp_apply, add_sub_cancel_left]

theorem poreFn_kink (x c : Fin 2 → ℝ) (L b : ℝ) (h : OnDiagonal (angle b) c x) : ¬DifferentiableAt ℝ (poreFn x c L) b := by
  intro hd
  refine turned_kink c x b h ?_
  have e : (fun b => turnedNorm (angle b) c x) = fun b => 9 / 20 * L - Real.log (1 / poreFn x c L b - 1) / 200 := by
    funext b
    rw [poreFn_eq, smoothHole, one_div_one_div, add_sub_cancel_left, Real.log_exp]
    ring
  rw [e]
  obtain ⟨h0, h1⟩ := smoothHole_pos (angle b) (9 / 20 * L) c x
  rw [← poreFn_eq] at h0 h1
  have hpos : 1 / poreFn x c L b - 1 ≠ 0 := by
    have := one_lt_one_div h0 h1
    linarith
  exact (differentiableAt_const _).sub (((((differentiableAt_const _).div hd h0.ne').sub_const 1).log hpos).div_const 200)

/-! ### Property theorems -/

/-- **C104 (angle).** For limits `lo < hi` and slope `p > 0` the scaled sigmoid is a strictly increasing bijection of the
real line onto the open interval. -/
theorem C104_angle (lo hi p : ℝ) (h : lo < hi) (hp : 0 < p) :
    StrictMono (fun x => scaledSigmoid x lo hi p) ∧ Set.range (fun x => scaledSigmoid x lo hi p) = Set.Ioo lo hi := by
  refine ⟨sigmoid_mono lo hi p h hp, Set.eq_of_subset_of_subset ?_ ?_⟩
  · rintro _ ⟨x, rfl⟩
    exact sigmoid_mem x lo hi p h
  · rintro y ⟨h1, h2⟩
    have hy : 0 < y - lo := by linarith
    have hs : 0 < (hi - lo) / (y - lo) - 1 := by
      have : 1 < (hi - lo) / (y - lo) := (one_lt_div hy).2 (by linarith)
      linarith
    refine ⟨-Real.log ((hi - lo) / (y - lo) - 1) / p, ?_⟩
    show lo + (hi - lo) / (1 + Real.exp (-(-Real.log ((hi - lo) / (y - lo) - 1) / p) * p)) = y
    have e : -(-Real.log ((hi - lo) / (y - lo) - 1) / p) * p = Real.log ((hi - lo) / (y - lo) - 1) := by
      field_simp
    rw [e, Real.exp_log hs]
    have hd : hi - lo ≠ 0 := by linarith
    rw [add_sub_cancel, div_div_cancel₀ hd, add_sub_cancel]

/-- **C104 (hole).** For every design variable `b` there is an angle `β` in `(-π/4, π/4)`, different for different
variables, such that the density of the pore is the smoothed indicator function of the square hole with half diagonal
`0.45 L0` turned by `β`: it lies strictly between 0 and 1, is below 1/2 exactly in the hole, and does not change when the
point is turned by a right angle about the centre.  Holes of different variables do not contain each other. -/
theorem C104_hole (c : Fin 2 → ℝ) (L : ℝ) (hL : 0 < L) : ∃ β : ℝ → ℝ, StrictMono β ∧
    (∀ b, -Real.pi / 4 < β b ∧ β b < Real.pi / 4) ∧
    (∀ b x, poreFn x c L b = smoothHole (β b) (9 / 20 * L) c x ∧ 0 < poreFn x c L b ∧ poreFn x c L b < 1 ∧
      (poreFn x c L b < 1 / 2 ↔ x ∈ SquareHole (β b) (9 / 20 * L) c) ∧
      poreFn ![c 0 - (x 1 - c 1), c 1 + (x 0 - c 0)] c L b = poreFn x c L b) ∧
    ∀ b b', b ≠ b' → ¬SquareHole (β b) (9 / 20 * L) c ⊆ SquareHole (β b') (9 / 20 * L) c := by
  have hp := Real.pi_pos
  refine ⟨angle, sigmoid_mono _ _ _ (by linarith) (by norm_num), fun b => sigmoid_mem b _ _ _ (by linarith), ?_, ?_⟩
  · intro b x
    obtain ⟨h0, h1⟩ := smoothHole_pos (angle b) (9 / 20 * L) c x
    refine ⟨poreFn_eq x c L b, by rwa [poreFn_eq], by rwa [poreFn_eq], by rw [poreFn_eq, smoothHole_half], ?_⟩
    rw [poreFn_eq, poreFn_eq, smoothHole, smoothHole]
    have : turnedNorm (angle b) c ![c 0 - (x 1 - c 1), c 1 + (x 0 - c 0)] = turnedNorm (angle b) c x := by
      simp only [turnedNorm, Matrix.cons_val_zero, Matrix.cons_val_one]
      rw [add_comm]
      congr 1
      · congr 1
        ring
      · rw [← abs_neg]
        congr 1
        ring
    rw [this]
  · intro b b' hb
    exact hole_not_subset _ _ _ c (by linarith) (sigmoid_mem b _ _ _ (by linarith)) (sigmoid_mem b' _ _ _ (by linarith))
      ((sigmoid_mono (-Real.pi / 4) (Real.pi / 4) (1 / 10) (by linarith) (by norm_num)).injective.ne hb)

/-- **C104 (holes and cells).** A hole stays inside its cell with a margin of `L0/20`, whatever the angle; so holes
of different cells are at least `L0/10` apart in one of the two directions. -/
theorem C104_inside (L β : ℝ) (i j : Nat) (x : Fin 2 → ℝ)
    (hx : x ∈ SquareHole β (9 / 20 * L) (midCell L i j)) :
    (i * L + L / 20 < x 0 ∧ x 0 < (i + 1) * L - L / 20) ∧ j * L + L / 20 < x 1 ∧ x 1 < (j + 1) * L - L / 20 := by
  have h0 := abs_lt.1 ((turned_ge β (midCell L i j) x 0).trans_lt hx)
  have h1 := abs_lt.1 ((turned_ge β (midCell L i j) x 1).trans_lt hx)
  simp only [midCell, Matrix.cons_val_zero, Matrix.cons_val_one] at h0 h1
  refine ⟨⟨?_, ?_⟩, ?_, ?_⟩ <;> nlinarith [h0.1, h0.2, h1.1, h1.2]

/-- **C104 (cells).** With cells of positive size, a quadrature point in cell `(i, j)` of the `nx × ny` grid gets the density
of the hole in that cell, whose angle comes from the variable number `i ny + j` (of the last one, if the vector is too
short); a point in no cell gets density 1; the points with a cell are those of the half-open rectangle
`[0, nx L) × [0, ny L)`, and no point has two. -/
theorem C104_cells {C M : Nat} (pts : Fin C → Fin nq → Fin 2 → ℝ) (L : ℝ) (hL : 0 < L) (nx ny : Nat)
    (beta : Fin (M + 1) → ℝ) (c : Fin C) (q : Fin nq) :
    (∀ i < nx, ∀ j < ny, InCell L i j (pts c q) → ∀ b, (∀ h : i * ny + j < M + 1, b = beta ⟨i * ny + j, h⟩) →
      (M + 1 ≤ i * ny + j → b = beta (Fin.last M)) →
      rhos pts L nx ny beta c q = poreFn (pts c q) (midCell L i j) L b) ∧
    ((∀ i < nx, ∀ j < ny, ¬InCell L i j (pts c q)) → rhos pts L nx ny beta c q = 1) ∧
    (∀ x, (0 ≤ x 0 ∧ x 0 < nx * L) ∧ 0 ≤ x 1 ∧ x 1 < ny * L ↔ ∃ i < nx, ∃ j < ny, InCell L i j x) ∧
    ∀ x i j i' j', InCell L i j x → InCell L i' j' x → i = i' ∧ j = j' := by
  have hmid : ∀ i j : Nat, poreCenter L (i, j) = midCell L i j := by
    intro i j
    funext k
    match k with
    | 0 => simp [poreCenter, midCell]; ring
    | 1 => simp [poreCenter, midCell]; ring
  refine ⟨?_, ?_, ?_, fun x i j i' j' h h' => inCell_unique L hL i j i' j' x h h'⟩
  · intro i hi j hj hc b hb1 hb2
    have hb : betaAt beta (i * ny + j) = b := by
      rw [betaAt]
      by_cases h : i * ny + j < M + 1
      · rw [hb1 h]
        congr 1
        exact Fin.ext (Nat.min_eq_left (by omega))
      · rw [hb2 (by omega)]
        congr 1
        exact Fin.ext (Nat.min_eq_right (by omega))
    refine fold_scatter (fun ijk : (Nat × Nat) × Nat => quadInds pts L ijk.1)
      (fun ijk cq => poreFn (pts cq.1 cq.2) (poreCenter L ijk.1) L (betaAt beta ijk.2)) c q _ _ _ ?_ (.inr ?_)
    · rintro ⟨⟨i', j'⟩, k⟩ he hm
      obtain ⟨-, -, hk⟩ := (mem_zip nx ny (i', j') k).1 he
      obtain ⟨rfl, rfl⟩ := inCell_unique L hL i j i' j' _ hc ((mem_quadInds pts L (i', j') c q).1 hm)
      simp only at hk ⊢
      rw [hk, hb, hmid]
    · exact ⟨((i, j), i * ny + j), (mem_zip nx ny (i, j) _).2 ⟨hi, hj, rfl⟩, (mem_quadInds pts L (i, j) c q).2 hc⟩
  · intro h
    refine fold_scatter (fun ijk : (Nat × Nat) × Nat => quadInds pts L ijk.1)
      (fun ijk cq => poreFn (pts cq.1 cq.2) (poreCenter L ijk.1) L (betaAt beta ijk.2)) c q _ _ _ ?_ (.inl rfl)
    rintro ⟨⟨i', j'⟩, k⟩ he hm
    obtain ⟨h1, h2, -⟩ := (mem_zip nx ny (i', j') k).1 he
    exact absurd ((mem_quadInds pts L (i', j') c q).1 hm) (h i' h1 j' h2)
  · intro x
    rw [cell_index_exists L hL, cell_index_exists L hL]
    constructor
    · rintro ⟨⟨i, hi, h1⟩, j, hj, h2⟩
      exact ⟨i, hi, j, hj, h1, h2⟩
    · rintro ⟨i, hi, j, hj, h1, h2⟩
      exact ⟨⟨i, hi, h1⟩, j, hj, h2⟩

/-- **C104 (sensitivity of the density).** As a function of the design variable the density of a pore at a point has a
derivative exactly if the point is not on a diagonal of the turned square (or is its centre); off the diagonals the
derivative is `200 ρ (1 - ρ) (sgn X · Y - sgn Y · X) β'`, where `X`, `Y` are the turned coordinates and
`β' = (β + π/4) (π/4 - β) / (5 π)` is the derivative of the angle. -/
theorem C104_sensitivity (c x : Fin 2 → ℝ) (L b : ℝ) :
    let β := scaledSigmoid b (-Real.pi / 4) (Real.pi / 4) (1 / 10)
    let X := Real.cos β * (x 0 - c 0) + Real.sin β * (x 1 - c 1)
    let Y := Real.cos β * (x 1 - c 1) - Real.sin β * (x 0 - c 0)
    let ρ := poreFn x c L b
    (DifferentiableAt ℝ (poreFn x c L) b ↔ ¬OnDiagonal β c x) ∧
    (X ≠ 0 → Y ≠ 0 → HasDerivAt (poreFn x c L) (200 * ρ * (1 - ρ) * (SignType.sign X * Y - SignType.sign Y * X)
      * ((β + Real.pi / 4) * (Real.pi / 4 - β) / (5 * Real.pi))) b) ∧
    (x = c → HasDerivAt (poreFn x c L) 0 b) := by
  intro β X Y ρ
  refine ⟨⟨fun h h' => poreFn_kink x c L b h' h, fun h => (poreFn_smooth x c L b h).differentiableAt one_ne_zero⟩, ?_, ?_⟩
  · intro hX hY
    obtain ⟨dX, dY⟩ := turned_deriv c x β
    have h1 : HasDerivAt (fun β => turnedNorm β c x) (SignType.sign X * Y - SignType.sign Y * X) β :=
      ((HasDerivAt.comp β (hasDerivAt_abs hX) dX).add (HasDerivAt.comp β (hasDerivAt_abs hY) dY)).congr_deriv (by ring)
    have h2 := HasDerivAt.comp b (smoothHole_deriv β (9 / 20 * L) c x _ h1) (angle_deriv b)
    have e : poreFn x c L = (fun β => smoothHole β (9 / 20 * L) c x) ∘ angle := funext fun b => poreFn_eq x c L b
    have e2 : ρ = smoothHole β (9 / 20 * L) c x := poreFn_eq x c L b
    rw [e2, e]
    exact h2
  · intro hx
    subst hx
    have e : poreFn x x L = fun _ => 1 / (1 + Real.exp (-(200 * (0 - 9 / 20 * L)))) := by
      funext b
      rw [poreFn_eq, smoothHole, turned_center]
    rw [e]
    exact hasDerivAt_const b _

/-- Hypotheses of `C104_hole` and `C104_cells` with the notebook's numbers: in the first cell of the `4 × 2` grid the middle
has a density below 1/2 and the corner one above. -/
example : poreFn ![1 / 8, 1 / 8] (midCell (1 / 4) 0 0) (1 / 4) 1 < 1 / 2 ∧
    ¬poreFn ![0, 0] (midCell (1 / 4) 0 0) (1 / 4) 1 < 1 / 2 ∧ InCell (1 / 4) 0 0 ![1 / 8, 1 / 8] := by
  obtain ⟨β, -, -, h, -⟩ := C104_hole (midCell (1 / 4) 0 0) (1 / 4) (by norm_num)
  refine ⟨?_, ?_, ?_⟩
  · rw [(h 1 _).2.2.2.1]
    have : (![1 / 8, 1 / 8] : Fin 2 → ℝ) = midCell (1 / 4) 0 0 := by
      funext k
      match k with
      | 0 => norm_num [midCell]
      | 1 => norm_num [midCell]
    show turnedNorm _ _ _ < _
    rw [this, turned_center]
    norm_num
  · rw [(h 1 _).2.2.2.1]
    intro hx
    have := C104_inside (1 / 4) (β 1) 0 0 _ hx
    norm_num at this
  · norm_num [InCell]

end JaxFem.Shape
