import Verif.Thm.C99_Rectangle

/-!
# C99: the dilation of a single square cell

A concrete case for `C99_sensitivity`: the unit square with one cell.  Its dilation is an eigenvector whose eigenvalue
differs from those of the rigid motions, the two shears and the two hourglass modes.
-/

namespace JaxFem.Modal

open scoped BigOperators Topology

/-- One cell on the unit square. -/
noncomputable def exSquare : Problem1 (List ℝ) 4 1 4 2 2 where
  numTotalNodes := 4
  points := (rectangleMesh 1 1 1 1).1
  cells := [⟨[0, 2, 3, 1], fun _ => [1]⟩]
  el := tabulate quad4N quad4G exPts (fun _ => 1/4)
  fc := ⟨fun _ _ => quad4N ![1, 1/2], fun _ _ => quad4G ![1, 1/2], fun _ _ => 1, fun _ => ![1, 0]⟩
  tensorMap := stress
  massMap := none
  surfaces := []

theorem exSquare_rect : OnRectangle exSquare 1 1 1 1 exPts (fun _ => 1/4) where
  el := rfl
  points := rfl
  conn := rfl
  nodes := rfl
  Nx_pos := by decide
  Ny_pos := by decide
  Lx_pos := by norm_num
  Ly_pos := by norm_num
  faces := by
    intro s hs
    simp [exSquare] at hs

theorem exSquare_free : FreeBody exSquare :=
  C99_rectangle exSquare_rect (fun _ => by norm_num) ![1/4, 3/4] ![1/4, 3/4] (by norm_num) (by norm_num) (by
    intro a b
    fin_cases a <;> fin_cases b
    · exact ⟨0, rfl⟩
    · exact ⟨3, rfl⟩
    · exact ⟨1, rfl⟩
    · exact ⟨2, rfl⟩)

/-- Eight numbers as a vector of degrees of freedom. -/
noncomputable def up (x : Fin 8 → ℝ) : Fin (totalDofs exSquare.fes) → ℝ := fun k =>
  x (Fin.cast (show totalDofs exSquare.fes = 8 from rfl) k)

/-- The other direction. -/
noncomputable def down (x : Fin (totalDofs exSquare.fes) → ℝ) : Fin 8 → ℝ := fun k =>
  x (Fin.cast (show 8 = totalDofs exSquare.fes from rfl) k)

theorem up_down (x : Fin (totalDofs exSquare.fes) → ℝ) : up (down x) = x := rfl

theorem exSquare_vecField (x : Fin 8 → ℝ) (n : Nat) (hn : n < 4) (i : Fin 2) :
    exSquare.vecField (up x) n i = x (Fin.ofNat 8 (n * 2 + i)) := by
  have hlt : n * 2 + i < totalDofs exSquare.fes := by
    show n * 2 + i < 8
    have := i.2
    omega
  rw [Problem1.vecField, dif_pos hlt, up]
  congr 1
  apply Fin.ext
  show n * 2 + i = (n * 2 + i) % 8
  have := i.2
  omega

/-- Gradients of a nodal field at the point `(s, t)` of the cell. -/
def exGrad (x : Fin 8 → ℝ) (s t : ℝ) : Fin 2 → Fin 2 → ℝ :=
  ![![(1 - t) * (x 4 - x 0) + t * (x 6 - x 2), (1 - s) * (x 2 - x 0) + s * (x 6 - x 4)],
    ![(1 - t) * (x 5 - x 1) + t * (x 7 - x 3), (1 - s) * (x 3 - x 1) + s * (x 7 - x 5)]]

/-- Values of a nodal field at the point `(s, t)` of the cell. -/
def exVal (x : Fin 8 → ℝ) (s t : ℝ) : Fin 2 → ℝ :=
  ![(1 - s) * (1 - t) * x 0 + s * (1 - t) * x 4 + s * t * x 6 + (1 - s) * t * x 2,
    (1 - s) * (1 - t) * x 1 + s * (1 - t) * x 5 + s * t * x 7 + (1 - s) * t * x 3]

theorem exSquare_gradAt (x : Fin 8 → ℝ) (c : Fin exSquare.cells.length) (q : Fin 4) :
    exSquare.gradAt (exSquare.vecField (up x)) c q = exGrad x (exPts q 0) (exPts q 1) := by
  have hc : c = ⟨0, by decide⟩ := by
    have := c.2
    apply Fin.ext
    show (c : Nat) = 0
    have h1 : exSquare.cells.length = 1 := rfl
    omega
  subst hc
  have hJ := exSquare_rect.jac [0, 2, 3, 1] (by simp [exSquare, Problem1.conn]) q
  have hJ1 : (!![(1 : ℝ) / (1 : Nat), 0; 0, 1 / (1 : Nat)] : Matrix (Fin 2) (Fin 2) ℝ) = 1 := by
    ext i j
    fin_cases i <;> fin_cases j <;> simp
  rw [hJ1] at hJ
  show physGrad (coords 4 exSquare.points [0, 2, 3, 1]) (Matrix.of (exSquare.el.shapeGradsRef q))
    (restrict 4 (exSquare.vecField (up x)) [0, 2, 3, 1]) = _
  rw [physGrad, hJ, inv_one, Matrix.mul_one]
  funext i j
  have v := exSquare_vecField x
  rw [Matrix.mul_apply, Fin.sum_univ_four]
  simp only [Matrix.transpose_apply, restrict, Matrix.of_apply]
  have e0 : ([0, 2, 3, 1] : List Nat).getD (0 : Fin 4) 0 = 0 := rfl
  have e1 : ([0, 2, 3, 1] : List Nat).getD (1 : Fin 4) 0 = 2 := rfl
  have e2 : ([0, 2, 3, 1] : List Nat).getD (2 : Fin 4) 0 = 3 := rfl
  have e3 : ([0, 2, 3, 1] : List Nat).getD (3 : Fin 4) 0 = 1 := rfl
  rw [e0, e1, e2, e3, v 0 (by omega), v 1 (by omega), v 2 (by omega), v 3 (by omega)]
  simp only [exSquare, tabulate]
  fin_cases i <;> fin_cases j <;> simp [quad4G, exGrad, Fin.ofNat] <;> ring

theorem exSquare_valueAt (x : Fin 8 → ℝ) (i : Fin exSquare.cells.length × Fin 4) :
    valueAt exSquare (up x) i = exVal x (exPts i.2 0) (exPts i.2 1) := by
  obtain ⟨c, q⟩ := i
  have hc : c = ⟨0, by decide⟩ := by
    have := c.2
    apply Fin.ext
    show (c : Nat) = 0
    have h1 : exSquare.cells.length = 1 := rfl
    omega
  subst hc
  funext i
  have v := exSquare_vecField x
  show interp (exSquare.el.shapeVals q) (restrict 4 (exSquare.vecField (up x)) [0, 2, 3, 1]) i = _
  refine (Fin.sum_univ_four _).trans ?_
  simp only [restrict, Matrix.of_apply]
  have e0 : ([0, 2, 3, 1] : List Nat).getD (0 : Fin 4) 0 = 0 := rfl
  have e1 : ([0, 2, 3, 1] : List Nat).getD (1 : Fin 4) 0 = 2 := rfl
  have e2 : ([0, 2, 3, 1] : List Nat).getD (2 : Fin 4) 0 = 3 := rfl
  have e3 : ([0, 2, 3, 1] : List Nat).getD (3 : Fin 4) 0 = 1 := rfl
  rw [e0, e1, e2, e3, v 0 (by omega), v 1 (by omega), v 2 (by omega), v 3 (by omega)]
  simp only [exSquare, tabulate]
  fin_cases i <;> simp [quad4N, exVal, Fin.ofNat] <;> ring

theorem exSquare_measure (c : Fin exSquare.cells.length) (q : Fin 4) : exSquare.measureAt c q = 1 / 4 := by
  have hJ := exSquare_rect.jac _ (List.mem_map_of_mem (List.getElem_mem c.2)) q
  rw [Problem1.measureAt]
  refine (congrArg (fun A : Matrix (Fin 2) (Fin 2) ℝ => A.det * (1/4 : ℝ)) hJ).trans ?_
  simp [Matrix.det_fin_two_of]

/-- Stiffness of the full cell in explicit form. -/
theorem exSquare_stiff (x y : Fin 8 → ℝ) :
    dotProduct (up y) ((stiffness exSquare fun _ => 1).mulVec (up x)) = 70000000000 * ∑ q : Fin 4,
      (let g := exGrad x (exPts q 0) (exPts q 1)
       let h := exGrad y (exPts q 0) (exPts q 1)
       (((g 0 0 + 0.3 * g 1 1) * h 0 0 + (0.3 * g 0 0 + g 1 1) * h 1 1) / (1 - 0.3 ^ 2)
        + (g 0 1 + g 1 0) * (h 0 1 + h 1 0) / (2 * (1 + 0.3))) * (1 / 4)) := by
  refine (formMatrix_dot _ _ (stiffForm_psd exSquare exSquare_free.positive) (up x) (up y)).trans ?_
  rw [Fintype.sum_prod_type]
  show ∑ c : Fin 1, _ = _
  rw [Fin.sum_univ_one, Finset.mul_sum]
  refine Finset.sum_congr rfl fun q _ => ?_
  have e := planeLaw_energy 0.3 (by norm_num) (by norm_num) (exGrad x (exPts q 0) (exPts q 1))
    (exGrad y (exPts q 0) (exPts q 1))
  have e2 : stiffForm exSquare (⟨0, by decide⟩, q) (up x) (up y)
      = contract (planeLaw 0.3 (exGrad x (exPts q 0) (exPts q 1))) (exGrad y (exPts q 0) (exPts q 1)) * (1 / 4) := by
    rw [← exSquare_gradAt x ⟨0, by decide⟩, ← exSquare_gradAt y ⟨0, by decide⟩, ← exSquare_measure ⟨0, by decide⟩ q]
    rfl
  show modulus 1 * stiffForm exSquare (⟨0, by decide⟩, q) (up x) (up y) = _
  rw [e2, e, modulus]
  norm_num

/-- Mass of the full cell in explicit form. -/
theorem exSquare_mass (x y : Fin 8 → ℝ) :
    dotProduct (up y) ((mass exSquare fun _ => 1).mulVec (up x)) = 2700 * ∑ q : Fin 4,
      (∑ i, exVal x (exPts q 0) (exPts q 1) i * exVal y (exPts q 0) (exPts q 1) i) * (1 / 4) := by
  refine (formMatrix_dot _ _ (massForm_psd exSquare exSquare_free.positive) (up x) (up y)).trans ?_
  rw [Fintype.sum_prod_type]
  show ∑ c : Fin 1, _ = _
  rw [Fin.sum_univ_one, Finset.mul_sum]
  refine Finset.sum_congr rfl fun q _ => ?_
  show 2700 * 1 * massForm exSquare (⟨0, by decide⟩, q) (up x) (up y) = _
  rw [massForm, exSquare_valueAt, exSquare_valueAt, exSquare_measure]
  ring

/-- The dilation. -/
noncomputable def exDilation : Fin 8 → ℝ := ![-1/2, -1/2, -1/2, 1/2, 1/2, -1/2, 1/2, 1/2]

/-- Its eigenvalue. -/
noncomputable def exLam : ℝ := 70000000000 * (2 / 0.7) / (2700 / 8)

theorem exDilation_test (w : Fin 8 → ℝ) :
    dotProduct (up w) ((stiffness exSquare fun _ => 1).mulVec (up exDilation))
      = exLam * dotProduct (up w) ((mass exSquare fun _ => 1).mulVec (up exDilation)) := by
  rw [exSquare_stiff, exSquare_mass]
  simp only [Fin.sum_univ_four, Fin.sum_univ_two, exGrad, exVal, exPts, exDilation, exLam]
  simp
  ring

theorem exDilation_eigen : IsEigenpair (stiffness exSquare fun _ => 1) (mass exSquare fun _ => 1) exLam (up exDilation) := by
  refine ⟨fun h => ?_, funext fun k => ?_⟩
  · have : exDilation 0 = 0 := congrFun h ⟨0, by decide⟩
    simp [exDilation] at this
  · have := exDilation_test (down (Pi.single k 1))
    rw [up_down, single_one_dotProduct, single_one_dotProduct] at this
    rw [this]
    rfl

theorem exDilation_norm : dotProduct (up exDilation) ((mass exSquare fun _ => 1).mulVec (up exDilation)) = 2700 / 8 := by
  rw [exSquare_mass]
  simp only [Fin.sum_univ_four, Fin.sum_univ_two, exVal, exPts, exDilation]
  simp
  ring

/-- The equation of an eigenvector, tested with a vector. -/
def ExTest (w y : Fin 8 → ℝ) : Prop :=
  70000000000 * ∑ q : Fin 4,
      (let g := exGrad w (exPts q 0) (exPts q 1)
       let h := exGrad y (exPts q 0) (exPts q 1)
       (((g 0 0 + 0.3 * g 1 1) * h 0 0 + (0.3 * g 0 0 + g 1 1) * h 1 1) / (1 - 0.3 ^ 2)
        + (g 0 1 + g 1 0) * (h 0 1 + h 1 0) / (2 * (1 + 0.3))) * (1 / 4))
    = exLam * (2700 * ∑ q : Fin 4,
      (∑ i, exVal w (exPts q 0) (exPts q 1) i * exVal y (exPts q 0) (exPts q 1) i) * (1 / 4))

theorem exTest1 (w : Fin 8 → ℝ) (t : ExTest w ![1, 0, 1, 0, 1, 0, 1, 0]) : w 0 + w 2 + w 4 + w 6 = 0 := by
  simp only [ExTest, Fin.sum_univ_four, Fin.sum_univ_two, exGrad, exVal, exPts, exLam] at t
  simp at t
  norm_num at t
  linarith

theorem exTest2 (w : Fin 8 → ℝ) (t : ExTest w ![0, 1, 0, 1, 0, 1, 0, 1]) : w 1 + w 3 + w 5 + w 7 = 0 := by
  simp only [ExTest, Fin.sum_univ_four, Fin.sum_univ_two, exGrad, exVal, exPts, exLam] at t
  simp at t
  norm_num at t
  linarith

theorem exTest3 (w : Fin 8 → ℝ) (t : ExTest w ![1, -1, -1, -1, 1, 1, -1, 1]) : w 0 - w 1 - w 2 - w 3 + w 4 + w 5 - w 6 + w 7 = 0 := by
  simp only [ExTest, Fin.sum_univ_four, Fin.sum_univ_two, exGrad, exVal, exPts, exLam] at t
  simp at t
  norm_num at t
  linarith

theorem exTest4 (w : Fin 8 → ℝ) (t : ExTest w ![-1, 1, -1, -1, 1, 1, 1, -1]) : -w 0 + w 1 - w 2 - w 3 + w 4 + w 5 + w 6 - w 7 = 0 := by
  simp only [ExTest, Fin.sum_univ_four, Fin.sum_univ_two, exGrad, exVal, exPts, exLam] at t
  simp at t
  norm_num at t
  linarith

theorem exTest5 (w : Fin 8 → ℝ) (t : ExTest w ![-1, -1, 1, -1, -1, 1, 1, 1]) : -w 0 - w 1 + w 2 - w 3 - w 4 + w 5 + w 6 + w 7 = 0 := by
  simp only [ExTest, Fin.sum_univ_four, Fin.sum_univ_two, exGrad, exVal, exPts, exLam] at t
  simp at t
  norm_num at t
  linarith

theorem exTest6 (w : Fin 8 → ℝ) (t : ExTest w ![1, 0, -1, 0, -1, 0, 1, 0]) : w 0 - w 2 - w 4 + w 6 = 0 := by
  simp only [ExTest, Fin.sum_univ_four, Fin.sum_univ_two, exGrad, exVal, exPts, exLam] at t
  simp at t
  norm_num at t
  linarith

theorem exTest7 (w : Fin 8 → ℝ) (t : ExTest w ![0, 1, 0, -1, 0, -1, 0, 1]) : w 1 - w 3 - w 5 + w 7 = 0 := by
  simp only [ExTest, Fin.sum_univ_four, Fin.sum_univ_two, exGrad, exVal, exPts, exLam] at t
  simp at t
  norm_num at t
  linarith

theorem exDilation_multiple (w : Fin 8 → ℝ)
    (hw : IsEigenpair (stiffness exSquare fun _ => 1) (mass exSquare fun _ => 1) exLam (up w)) :
    w = (2 * w 6) • exDilation := by
  have t : ∀ y : Fin 8 → ℝ, ExTest w y := fun y => by
    have : dotProduct (up y) ((stiffness exSquare fun _ => 1).mulVec (up w))
        = exLam * dotProduct (up y) ((mass exSquare fun _ => 1).mulVec (up w)) := by
      rw [hw.2, dotProduct_smul, smul_eq_mul]
    rw [exSquare_stiff, exSquare_mass] at this
    exact this
  have t1 := exTest1 w (t _)
  have t2 := exTest2 w (t _)
  have t3 := exTest3 w (t _)
  have t4 := exTest4 w (t _)
  have t5 := exTest5 w (t _)
  have t6 := exTest6 w (t _)
  have t7 := exTest7 w (t _)
  clear t hw
  funext k
  fin_cases k <;> simp [exDilation] <;> linarith

/-- **C99 (a single cell).** The dilation of a square cell is a simple eigenvector, so that `C99_sensitivity` applies
to it; its sensitivity is four times the eigenvalue, up to the part of `Emin`. -/
theorem C99_single_cell :
    ∃ K M : (Fin exSquare.cells.length → ℝ) → Matrix (Fin (totalDofs exSquare.fes)) (Fin (totalDofs exSquare.fes)) ℝ,
      (∀ r, HasJacobianAt (residual (problemK exSquare) (column r)) (K r) 0) ∧
      (∀ r, HasJacobianAt (residual (problemM exSquare) (column r)) (M r) 0) ∧
      IsEigenpair (K fun _ => 1) (M fun _ => 1) exLam (up exDilation) ∧ IsSimple (K fun _ => 1) (M fun _ => 1) exLam ∧
      ∃ lam : (Fin exSquare.cells.length → ℝ) → ℝ,
        (∀ᶠ r in 𝓝 fun _ => 1, ∃ v, IsEigenpair (K r) (M r) (lam r) v) ∧ lam (fun _ => 1) = exLam ∧
        ∃ d : (Fin exSquare.cells.length → ℝ) →L[ℝ] ℝ, HasFDerivAt lam d (fun _ => 1) ∧ d (Pi.single ⟨0, by decide⟩ 1) = (4 - 0.005) * exLam := by
  have hwf := exSquare_free.wf
  have hpos := exSquare_free.positive
  have hs : IsSimple (stiffness exSquare fun _ => 1) (mass exSquare fun _ => 1) exLam := by
    intro v w hv hw
    have ev := exDilation_multiple (down v) hv
    have ew := exDilation_multiple (down w) hw
    generalize 2 * down v 6 = a at ev
    generalize 2 * down w 6 = b at ew
    have h0 : a ≠ 0 := fun h => hv.1 (by rw [← up_down v, ev, h, zero_smul]; rfl)
    refine ⟨b / a, ?_⟩
    rw [← up_down v, ← up_down w, ew, ev]
    show up (b • exDilation) = up ((b / a) • (a • exDilation))
    rw [smul_smul, div_mul_cancel₀ _ h0]
  have hK := fun r => (stiffness_jacobian exSquare hwf hpos r).2 0
  have hM := fun r => (mass_jacobian exSquare hwf hpos r).2 0
  refine ⟨stiffness exSquare, mass exSquare, hK, hM, exDilation_eigen, hs, ?_⟩
  obtain ⟨⟨lam, v, h1, -, h3, -, -, h6⟩, h7⟩ := C99_sensitivity hwf hpos (fun _ => 1) _ _ hK hM exLam (up exDilation)
    exDilation_eigen hs (by rw [exDilation_norm]; norm_num)
  refine ⟨lam, h3.mono fun r hr => ⟨v r, hr⟩, h1, _, h6, ?_⟩
  rw [h7, exDilation_norm]
  have e1 : ∑ q, exSquare.energyAt (planeLaw 0.3) (exSquare.vecField (up exDilation)) ⟨0, by decide⟩ q = 2 / 0.7 := by
    have : ∀ q, exSquare.energyAt (planeLaw 0.3) (exSquare.vecField (up exDilation)) ⟨0, by decide⟩ q = (2 / 0.7) * (1 / 4) := by
      intro q
      rw [Problem1.energyAt, exSquare_measure, exSquare_gradAt exDilation, planeLaw_energy _ (by norm_num) (by norm_num)]
      simp only [exGrad, exDilation]
      simp
      ring
    simp only [this, Fin.sum_univ_four]
    ring
  have e2 : ∑ q, squareAt exSquare (exSquare.vecField (up exDilation)) ⟨0, by decide⟩ q = 1 / 8 := by
    have : ∀ q, squareAt exSquare (exSquare.vecField (up exDilation)) ⟨0, by decide⟩ q = (1 / 8) * (1 / 4) := by
      intro q
      have := exSquare_valueAt exDilation (⟨0, by decide⟩, q)
      rw [valueAt] at this
      rw [squareAt, exSquare_measure, this]
      fin_cases q <;> simp [Fin.sum_univ_two, exVal, exPts, exDilation] <;> ring
    simp only [this, Fin.sum_univ_four]
    ring
  rw [e1, e2, exLam]
  norm_num

end JaxFem.Modal
