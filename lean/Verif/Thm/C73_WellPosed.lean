import Verif.Thm.C72_WeakForm
import Verif.Thm.C10_Patch
import Verif.Thm.C13_Measure

/-!
# C73: well-posedness of monotone problems and the patch test of the solution
-/

namespace JaxFem

variable {IV : Type} {nq nfq nn vec dim : Nat}

/-! ### Helper lemmas -/

theorem list_sum_nonneg_zero {α : Type} (l : List α) (F : α → ℝ) (h0 : ∀ a ∈ l, 0 ≤ F a)
    (hs : (l.map F).sum = 0) : ∀ a ∈ l, F a = 0 := by
  induction l with
  | nil => simp
  | cons b l ih =>
    rw [List.map_cons, List.sum_cons] at hs
    have hb := h0 b (by simp)
    have hl : 0 ≤ (l.map F).sum := List.sum_nonneg (by
      intro x hx
      obtain ⟨a, ha, rfl⟩ := List.mem_map.1 hx
      exact h0 a (by simp [ha]))
    intro a ha
    rcases List.mem_cons.1 ha with rfl | ha
    · linarith
    · exact ih (fun a ha => h0 a (by simp [ha])) (by linarith) a ha

theorem list_sum_sub {α : Type} (l : List α) (F G : α → ℝ) :
    (l.map F).sum - (l.map G).sum = (l.map fun a => F a - G a).sum := by
  induction l with
  | nil => simp
  | cons a l ih => simp only [List.map_cons, List.sum_cons, ← ih]; ring

theorem gradient_sub (P : Problem1 IV nq nfq nn vec dim) (u w : Nat → Fin vec → ℝ) (cell : List Nat)
    (q : Fin nq) (i : Fin vec) (j : Fin dim) :
    P.gradient (fun n c => u n c - w n c) cell q i j
      = P.gradient u cell q i j - P.gradient w cell q i j := by
  rw [gradient_eq, gradient_eq, gradient_eq, ← Finset.sum_sub_distrib]
  exact Finset.sum_congr rfl fun a _ => by ring

theorem interp_sub (N : Fin nn → ℝ) (u w : Nat → Fin vec → ℝ) (cell : List Nat) (c : Fin vec) :
    interp N (restrict nn (fun n c => u n c - w n c) cell) c
      = interp N (restrict nn u cell) c - interp N (restrict nn w cell) c := by
  simp only [interp, restrict, Matrix.of_apply, ← Finset.sum_sub_distrib]
  exact Finset.sum_congr rfl fun a _ => by ring

/-- A zero physical gradient at a point with invertible Jacobian means a zero reference gradient. -/
theorem ref_of_physGrad {X G : Matrix (Fin nn) (Fin dim) ℝ} {U : Matrix (Fin nn) (Fin vec) ℝ}
    (hdet : (mapJacobian X G).det ≠ 0) (h : physGrad X G U = 0) : U.transpose * G = 0 := by
  have : U.transpose * G * (mapJacobian X G)⁻¹ * mapJacobian X G = 0 := by
    rw [← physGrad, h, Matrix.zero_mul]
  rwa [Matrix.mul_assoc, Matrix.nonsing_inv_mul _ (Ne.isUnit hdet), Matrix.mul_one] at this

/-- Equal virtual work for the difference as test field forces related gradients everywhere, if the tensor map
is strictly monotone except for related gradients. -/
theorem gradient_related (P : Problem1 IV nq nfq nn vec dim) (hpos : P.PositiveMeasure)
    (S : (Fin vec → Fin dim → ℝ) → (Fin vec → Fin dim → ℝ) → Prop)
    (hmono0 : ∀ iv G H, 0 ≤ contract (fun i j => P.tensorMap iv G i j - P.tensorMap iv H i j)
      fun i j => G i j - H i j)
    (hmono : ∀ iv G H, ¬ S G H → 0 < contract (fun i j => P.tensorMap iv G i j - P.tensorMap iv H i j)
      fun i j => G i j - H i j) (hmass : P.MassMonotone) (hsm : P.SurfaceMonotone)
    (u w : Nat → Fin vec → ℝ)
    (hw : P.virtualWork u (fun n c => u n c - w n c) = P.virtualWork w fun n c => u n c - w n c) :
    ∀ cell ∈ P.cells, ∀ q, S (P.gradient u cell.nodes q) (P.gradient w cell.nodes q) := by
  have hsurf : 0 ≤ P.surfaceWork u (fun n c => u n c - w n c)
      - P.surfaceWork w fun n c => u n c - w n c := by
    rw [Problem1.surfaceWork, Problem1.surfaceWork, list_sum_sub]
    refine List.sum_nonneg fun x hx => ?_
    obtain ⟨s, hs, rfl⟩ := List.mem_map.1 hx
    rw [list_sum_sub]
    refine List.sum_nonneg fun x hx => ?_
    obtain ⟨f, hf, rfl⟩ := List.mem_map.1 hx
    rw [← Finset.sum_sub_distrib]
    refine Finset.sum_nonneg fun q _ => ?_
    rw [← sub_mul]
    refine (hsm s hs f hf q
      (interp (P.fc.shapeVals f.face q) (restrict nn u (P.conn.getD f.cell [])))
      (interp (P.fc.shapeVals f.face q) (restrict nn w (P.conn.getD f.cell [])))
      (positionIn (P.fc.shapeVals f.face q) (coords nn P.points (P.conn.getD f.cell [])))).trans_eq ?_
    congr 1
    rw [← Finset.sum_sub_distrib]
    refine Finset.sum_congr rfl fun c _ => ?_
    rw [interp_sub]
    ring
  have hlocal : ∀ (cell : CellSpec IV nq) q, contract
      (fun i j => P.tensorMap (cell.iv q) (P.gradient u cell.nodes q) i j
        - P.tensorMap (cell.iv q) (P.gradient w cell.nodes q) i j)
      (fun i j => P.gradient u cell.nodes q i j - P.gradient w cell.nodes q i j)
      = contract (P.tensorMap (cell.iv q) (P.gradient u cell.nodes q))
          (P.gradient (fun n c => u n c - w n c) cell.nodes q)
        - contract (P.tensorMap (cell.iv q) (P.gradient w cell.nodes q))
          (P.gradient (fun n c => u n c - w n c) cell.nodes q) := by
    intro cell q
    simp only [contract, gradient_sub, ← Finset.sum_sub_distrib]
    exact Finset.sum_congr rfl fun i _ => Finset.sum_congr rfl fun j _ => by ring
  have hnn : ∀ (cell : CellSpec IV nq) q, 0 ≤ contract
      (fun i j => P.tensorMap (cell.iv q) (P.gradient u cell.nodes q) i j
        - P.tensorMap (cell.iv q) (P.gradient w cell.nodes q) i j)
      (fun i j => P.gradient u cell.nodes q i j - P.gradient w cell.nodes q i j) := by
    intro cell q
    exact hmono0 (cell.iv q) _ _
  -- the tensor work difference is at most zero
  have htens : P.tensorWork u (fun n c => u n c - w n c)
      - P.tensorWork w (fun n c => u n c - w n c) ≤ 0 := by
    rw [Problem1.virtualWork, Problem1.virtualWork] at hw
    cases hm : P.massMap with
    | none => rw [hm] at hw; dsimp only at hw; linarith
    | some m =>
      rw [hm] at hw
      dsimp only at hw
      have hge : 0 ≤ P.massWork m u (fun n c => u n c - w n c)
          - P.massWork m w fun n c => u n c - w n c := by
        rw [Problem1.massWork, Problem1.massWork, list_sum_sub]
        refine List.sum_nonneg fun x hx => ?_
        obtain ⟨cell, hc, rfl⟩ := List.mem_map.1 hx
        rw [cellIntegral, cellIntegral, ← Finset.sum_sub_distrib]
        refine Finset.sum_nonneg fun q _ => ?_
        rw [← sub_mul]
        refine mul_nonneg ?_ (hpos cell hc q).le
        have := hmass m hm (cell.iv q)
          (interp (P.el.shapeVals q) (restrict nn u cell.nodes))
          (interp (P.el.shapeVals q) (restrict nn w cell.nodes))
          (positionIn (P.el.shapeVals q) (coords nn P.points cell.nodes))
        refine this.trans_eq ?_
        rw [← Finset.sum_sub_distrib]
        refine Finset.sum_congr rfl fun c _ => ?_
        rw [interp_sub]
        ring
      linarith
  rw [Problem1.tensorWork, Problem1.tensorWork, list_sum_sub] at htens
  have hcell0 : ∀ cell ∈ P.cells, 0 ≤ (cellIntegral P.el P.points cell.nodes fun q =>
      contract (P.tensorMap (cell.iv q) (P.gradient u cell.nodes q))
        (P.gradient (fun n c => u n c - w n c) cell.nodes q))
      - cellIntegral P.el P.points cell.nodes fun q =>
      contract (P.tensorMap (cell.iv q) (P.gradient w cell.nodes q))
        (P.gradient (fun n c => u n c - w n c) cell.nodes q) := by
    intro cell hc
    rw [cellIntegral, cellIntegral, ← Finset.sum_sub_distrib]
    refine Finset.sum_nonneg fun q _ => ?_
    rw [← sub_mul, ← hlocal]
    exact mul_nonneg (hnn cell q) (hpos cell hc q).le
  have hzero := list_sum_nonneg_zero P.cells _ hcell0 (le_antisymm htens (List.sum_nonneg (by
    intro x hx
    obtain ⟨cell, hc, rfl⟩ := List.mem_map.1 hx
    exact hcell0 cell hc)))
  intro cell hc q
  by_contra hne
  have h1 := hzero cell hc
  rw [cellIntegral, cellIntegral, ← Finset.sum_sub_distrib] at h1
  have h2 := (Finset.sum_eq_zero_iff_of_nonneg (fun q _ => by
    rw [← sub_mul, ← hlocal]
    exact mul_nonneg (hnn cell q) (hpos cell hc q).le)).1 h1 q (Finset.mem_univ q)
  rw [← sub_mul, ← hlocal] at h2
  have h3 := mul_pos (hmono (cell.iv q) _ _ hne) (hpos cell hc q)
  linarith

/-- Equal virtual work for the difference as test field forces equal gradients everywhere. -/
theorem gradient_unique (P : Problem1 IV nq nfq nn vec dim) (hpos : P.PositiveMeasure)
    (hmono : P.StrictlyMonotone) (hmass : P.MassMonotone) (hsm : P.SurfaceMonotone)
    (u w : Nat → Fin vec → ℝ)
    (hw : P.virtualWork u (fun n c => u n c - w n c) = P.virtualWork w fun n c => u n c - w n c) :
    ∀ cell ∈ P.cells, ∀ q, P.gradient u cell.nodes q = P.gradient w cell.nodes q := by
  refine gradient_related P hpos (fun G H => G = H) (fun iv G H => ?_) hmono hmass hsm u w hw
  by_cases he : G = H
  · simp [contract, he]
  · exact (hmono iv _ _ he).le

/-- Fields with equal gradients and equal values at constrained nodes are equal. -/
theorem field_unique (P : Problem1 IV nq nfq nn vec dim) (h : P.WF) (hpos : P.PositiveMeasure)
    (hdet : P.el.Determines) (free : Nat → Fin vec → Prop) (hanch : P.Anchored free)
    (u w : Nat → Fin vec → ℝ)
    (hgrad : ∀ cell ∈ P.cells, ∀ q, P.gradient u cell.nodes q = P.gradient w cell.nodes q)
    (hbc : ∀ n c, ¬ free n c → u n c = w n c) : ∀ n < P.numTotalNodes, ∀ c, u n c = w n c := by
  -- the difference is constant on every cell
  have hconst : ∀ cell ∈ P.cells, ∀ c, ∀ n ∈ cell.nodes, ∀ m ∈ cell.nodes,
      u n c - w n c = u m c - w m c := by
    intro cell hc c n hn m hm
    have hlen := h.cell_length cell hc
    obtain ⟨a, ha, rfl⟩ := List.mem_iff_getElem.1 hn
    obtain ⟨b, hb, rfl⟩ := List.mem_iff_getElem.1 hm
    have key := hdet (fun a => u (cell.nodes.getD a 0) c
      - w (cell.nodes.getD a 0) c) (fun q j => by
        have hz : physGrad (coords nn P.points cell.nodes) (Matrix.of (P.el.shapeGradsRef q))
            (restrict nn (fun n c => u n c - w n c) cell.nodes) = 0 := by
          ext i j
          have e := gradient_sub P u w cell.nodes q i j
          rw [hgrad cell hc q, sub_self] at e
          exact e
        have hr := ref_of_physGrad (left_ne_zero_of_mul (hpos cell hc q).ne') hz
        have := congrFun (congrFun hr c) j
        simpa [Matrix.mul_apply, restrict] using this) ⟨a, hlen ▸ ha⟩ ⟨b, hlen ▸ hb⟩
    simpa only [List.getD_eq_getElem _ _ ha, List.getD_eq_getElem _ _ hb] using key
  intro n hn c
  obtain ⟨m, hm, -, hpath⟩ := hanch n hn c
  have : u m c - w m c = u n c - w n c := by
    clear hn
    induction hpath with
    | refl => rfl
    | tail _ hl ih =>
      obtain ⟨cell, hcell, ha, hb⟩ := hl
      obtain ⟨cs, hcs, rfl⟩ := List.mem_map.1 hcell
      exact ih.trans (hconst cs hcs c _ ha _ hb)
  rw [hbc m c hm, sub_self] at this
  exact sub_eq_zero.1 this.symm

/-! The rectangle mesh -/

theorem affine_gradient (P : Problem1 IV nq nfq nn vec dim) (hel : P.el.Unity) (cell : List Nat)
    (hcell : cell.length = nn) (u : Nat → Fin vec → ℝ) (G : Fin vec → Fin dim → ℝ) (b : Fin vec → ℝ)
    (hu : ∀ n ∈ cell, ∀ i, u n i = ∑ j, G i j * (P.points.getD n 0) j + b i) (q : Fin nq)
    (hdet : (mapJacobian (coords nn P.points cell) (Matrix.of (P.el.shapeGradsRef q))).det ≠ 0) :
    P.gradient u cell q = G := by
  have hmem : ∀ a : Fin nn, cell.getD a 0 ∈ cell := fun a => by
    have ha : (a : Nat) < cell.length := by rw [hcell]; exact a.2
    rw [List.getD_eq_getElem _ _ ha]; exact List.getElem_mem ha
  rw [← physicalCoos_eq, ← jacobian_eq] at hdet
  funext i j
  rw [gradient_eq]
  simp only [hu _ (hmem _), add_mul, Finset.sum_mul]
  rw [Finset.sum_add_distrib, ← Finset.mul_sum, grads_sum_zero _ _ (hel q).2, mul_zero, add_zero,
    Finset.sum_comm]
  have : ∀ k : Fin dim, ∑ a : Fin nn, G i k * (P.points.getD (cell.getD a 0) 0) k *
      shapeGradsPhysical (physicalCoos nn P.points cell) (P.el.shapeGradsRef q) a j
      = G i k * if k = j then 1 else 0 := by
    intro k
    rw [← coords_grads _ _ hdet k j, Finset.mul_sum]
    exact Finset.sum_congr rfl fun a _ => by rw [mul_assoc]; rfl
  simp only [this]
  simp

theorem rect_jacobian (Nx Ny : Nat) (Lx Ly : ℝ) (i j : Nat) (hi : i < Nx) (hj : j < Ny)
    (p : Fin 2 → ℝ) :
    mapJacobian (coords 4 (rectangleMesh Nx Ny Lx Ly).1 [i * (Ny + 1) + j, (i + 1) * (Ny + 1) + j,
        (i + 1) * (Ny + 1) + (j + 1), i * (Ny + 1) + (j + 1)]) (Matrix.of (quad4G p))
      = !![Lx / Nx, 0; 0, Ly / Ny] := by
  have pt := fun (a : Fin 4) (u v : Nat) (hu : u ≤ Nx) (hv : v ≤ Ny)
      (e : [i * (Ny + 1) + j, (i + 1) * (Ny + 1) + j, (i + 1) * (Ny + 1) + (j + 1),
        i * (Ny + 1) + (j + 1)].getD a 0 = u * (Ny + 1) + v) =>
    physicalCoos_of_getElem? (nn := 4) (rectangleMesh Nx Ny Lx Ly).1
      [i * (Ny + 1) + j, (i + 1) * (Ny + 1) + j, (i + 1) * (Ny + 1) + (j + 1),
        i * (Ny + 1) + (j + 1)] a _ (by rw [e]; exact rect_point Nx Ny Lx Ly u v hu hv)
  have p0 := pt 0 i j (by omega) (by omega) rfl
  have p1 := pt 1 (i + 1) j (by omega) (by omega) rfl
  have p2 := pt 2 (i + 1) (j + 1) (by omega) (by omega) rfl
  have p3 := pt 3 i (j + 1) (by omega) (by omega) rfl
  rw [← physicalCoos_eq, ← jacobian_eq]
  ext k l
  simp only [jacobianDxDeta, Matrix.of_apply, Fin.sum_univ_four, p0, p1, p2, p3, quad4G]
  fin_cases k <;> fin_cases l <;> simp <;> ring

/-- A problem on the rectangle mesh. -/
structure OnRectangle (P : Problem1 IV nq nfq 4 vec 2) (Nx Ny : Nat) (Lx Ly : ℝ)
    (p : Fin nq → Fin 2 → ℝ) (w : Fin nq → ℝ) : Prop where
  el : P.el = tabulate quad4N quad4G p w
  points : P.points = (rectangleMesh Nx Ny Lx Ly).1
  conn : P.conn = (rectangleMesh Nx Ny Lx Ly).2
  nodes : P.numTotalNodes = (Nx + 1) * (Ny + 1)
  Nx_pos : 0 < Nx
  Ny_pos : 0 < Ny
  Lx_pos : 0 < Lx
  Ly_pos : 0 < Ly
  faces : ∀ s ∈ P.surfaces, ∀ f ∈ s.faces, f.cell < Nx * Ny

theorem OnRectangle.cell_mem {P : Problem1 IV nq nfq 4 vec 2} {Nx Ny : Nat} {Lx Ly : ℝ}
    {p : Fin nq → Fin 2 → ℝ} {w : Fin nq → ℝ} (h : OnRectangle P Nx Ny Lx Ly p w)
    (cell : CellSpec IV nq) (hc : cell ∈ P.cells) : ∃ i j, i < Nx ∧ j < Ny ∧
      cell.nodes = [i * (Ny + 1) + j, (i + 1) * (Ny + 1) + j,
        (i + 1) * (Ny + 1) + (j + 1), i * (Ny + 1) + (j + 1)] := by
  refine rect_cell_mem Nx Ny Lx Ly cell.nodes ?_
  rw [← h.conn]
  exact List.mem_map_of_mem hc

theorem OnRectangle.jac {P : Problem1 IV nq nfq 4 vec 2} {Nx Ny : Nat} {Lx Ly : ℝ}
    {p : Fin nq → Fin 2 → ℝ} {w : Fin nq → ℝ} (h : OnRectangle P Nx Ny Lx Ly p w)
    (cell : List Nat) (hc : cell ∈ P.conn) (q : Fin nq) :
    mapJacobian (coords 4 P.points cell) (Matrix.of (P.el.shapeGradsRef q))
      = !![Lx / Nx, 0; 0, Ly / Ny] := by
  rw [h.conn] at hc
  obtain ⟨i, j, hi, hj, rfl⟩ := rect_cell_mem Nx Ny Lx Ly cell hc
  rw [h.points, h.el]
  exact rect_jacobian Nx Ny Lx Ly i j hi hj (p q)

theorem OnRectangle.hx {P : Problem1 IV nq nfq 4 vec 2} {Nx Ny : Nat} {Lx Ly : ℝ}
    {p : Fin nq → Fin 2 → ℝ} {w : Fin nq → ℝ} (h : OnRectangle P Nx Ny Lx Ly p w) :
    0 < Lx / Nx ∧ 0 < Ly / Ny :=
  ⟨div_pos h.Lx_pos (Nat.cast_pos.2 h.Nx_pos), div_pos h.Ly_pos (Nat.cast_pos.2 h.Ny_pos)⟩

theorem OnRectangle.wf {P : Problem1 IV nq nfq 4 vec 2} {Nx Ny : Nat} {Lx Ly : ℝ}
    {p : Fin nq → Fin 2 → ℝ} {w : Fin nq → ℝ} (h : OnRectangle P Nx Ny Lx Ly p w) : P.WF where
  nonempty := by
    intro he
    have := congrArg List.length h.conn
    rw [Problem1.conn, he, (C41_cells Nx Ny Lx Ly).1] at this
    simp only [List.map_nil, List.length_nil] at this
    exact absurd this.symm (Nat.mul_pos h.Nx_pos h.Ny_pos).ne'
  points := by rw [h.points, h.nodes, (C41_points Nx Ny Lx Ly).1]
  cell_length := fun c hc => by
    obtain ⟨i, j, -, -, e⟩ := h.cell_mem c hc
    rw [e]; rfl
  cell_lt := fun c hc n hn => by
    have := ((C41_indices Nx Ny Lx Ly).1 c.nodes (by rw [← h.conn]; exact List.mem_map_of_mem hc)).2.2 n hn
    rwa [(C41_points Nx Ny Lx Ly).1, ← h.nodes] at this
  face_lt := fun s hs f hf => by
    have := congrArg List.length h.conn
    rw [Problem1.conn, List.length_map, (C41_cells Nx Ny Lx Ly).1] at this
    rw [this]
    exact h.faces s hs f hf

/-- Gradient of a nodal field on a cell of the rectangle mesh, scaled by the measure. -/
theorem rect_gradient {P : Problem1 IV nq nfq 4 vec 2} {Nx Ny : Nat} {Lx Ly : ℝ}
    {p : Fin nq → Fin 2 → ℝ} {w : Fin nq → ℝ} (h : OnRectangle P Nx Ny Lx Ly p w)
    (cell : List Nat) (hc : cell ∈ P.conn) (v : Nat → Fin vec → ℝ) (q : Fin nq) (c : Fin vec) :
    P.gradient v cell q c 0 * (Lx / Nx) = (1 - p q 1) * (v (cell.getD 1 0) c - v (cell.getD 0 0) c)
        + p q 1 * (v (cell.getD 2 0) c - v (cell.getD 3 0) c) ∧
      P.gradient v cell q c 1 * (Ly / Ny) = (1 - p q 0) * (v (cell.getD 3 0) c - v (cell.getD 0 0) c)
        + p q 0 * (v (cell.getD 2 0) c - v (cell.getD 1 0) c) := by
  have hx := h.hx
  have hdet : (!![Lx / Nx, 0; 0, Ly / Ny] : Matrix (Fin 2) (Fin 2) ℝ).det ≠ 0 := by
    rw [Matrix.det_fin_two_of, mul_zero, sub_zero]
    exact (mul_pos hx.1 hx.2).ne'
  have e : P.gradient v cell q * !![Lx / Nx, 0; 0, Ly / Ny]
      = (restrict 4 v cell).transpose * Matrix.of (P.el.shapeGradsRef q) := by
    rw [Problem1.gradient, physGrad, h.jac cell hc, Matrix.mul_assoc,
      Matrix.nonsing_inv_mul _ (Ne.isUnit hdet), Matrix.mul_one]
  have e0 := congrFun (congrFun e c) 0
  have e1 := congrFun (congrFun e c) 1
  rw [h.el] at e0 e1
  simp only [Matrix.mul_apply, Fin.sum_univ_two, Fin.sum_univ_four, tabulate, quad4G, restrict,
    Matrix.transpose_apply, Matrix.of_apply] at e0 e1
  simp at e0 e1
  constructor
  · rw [e0]; simp; ring
  · rw [e1]; simp; ring

theorem rect_sum (Nx Ny : Nat) (Lx Ly : ℝ) (F : List Nat → ℝ) :
    ((rectangleMesh Nx Ny Lx Ly).2.map F).sum = ∑ i ∈ Finset.range Nx, ∑ j ∈ Finset.range Ny,
      F [i * (Ny + 1) + j, (i + 1) * (Ny + 1) + j,
        (i + 1) * (Ny + 1) + (j + 1), i * (Ny + 1) + (j + 1)] := by
  rw [rectangleMesh_eq]
  have h1 : ∀ (l : List Nat) (f : Nat → List ℝ), (l.flatMap f).sum = (l.map fun a => (f a).sum).sum := by
    intro l f
    induction l with
    | nil => rfl
    | cons a l ih => rw [List.flatMap_cons, List.sum_append, ih, List.map_cons, List.sum_cons]
  have h2 : ∀ (n : Nat) (f : Nat → ℝ), ((List.range n).map f).sum = ∑ i ∈ Finset.range n, f i := by
    intro n f
    induction n with
    | zero => rfl
    | succ n ih => rw [List.range_succ, List.map_append, List.sum_append, ih, Finset.sum_range_succ]; simp
  simp only [List.map_flatMap, List.map_map, h1, h2]
  rfl

/-- The integral of the gradient of a nodal field that vanishes on the boundary vanishes. -/
theorem telescope_x (Nx Ny : Nat) (v : Nat → Nat → ℝ) (h0 : ∀ j ≤ Ny, v 0 j = 0)
    (h1 : ∀ j ≤ Ny, v Nx j = 0) :
    ∑ i ∈ Finset.range Nx, ∑ j ∈ Finset.range Ny,
      ((v (i + 1) j - v i j) + (v (i + 1) (j + 1) - v i (j + 1))) = 0 := by
  rw [Finset.sum_comm]
  refine Finset.sum_eq_zero fun j hj => ?_
  have hj := Finset.mem_range.1 hj
  rw [Finset.sum_add_distrib, Finset.sum_range_sub (fun i => v i j),
    Finset.sum_range_sub (fun i => v i (j + 1)), h0 j (by omega), h1 j (by omega),
    h0 (j + 1) (by omega), h1 (j + 1) (by omega)]
  ring

theorem telescope_y (Nx Ny : Nat) (v : Nat → Nat → ℝ) (h0 : ∀ i ≤ Nx, v i 0 = 0)
    (h1 : ∀ i ≤ Nx, v i Ny = 0) :
    ∑ i ∈ Finset.range Nx, ∑ j ∈ Finset.range Ny,
      ((v i (j + 1) - v i j) + (v (i + 1) (j + 1) - v (i + 1) j)) = 0 := by
  refine Finset.sum_eq_zero fun i hi => ?_
  have hi := Finset.mem_range.1 hi
  rw [Finset.sum_add_distrib, Finset.sum_range_sub (fun j => v i j),
    Finset.sum_range_sub (fun j => v (i + 1) j), h0 i (by omega), h1 i (by omega),
    h0 (i + 1) (by omega), h1 (i + 1) (by omega)]
  ring

/-- Interior nodes of the rectangle mesh. -/
def rectInterior (Nx Ny n : Nat) : Prop :=
  ∃ i j, 0 < i ∧ i < Nx ∧ 0 < j ∧ j < Ny ∧ n = i * (Ny + 1) + j

theorem not_interior (Nx Ny i j : Nat) (hj : j ≤ Ny) (h : i = 0 ∨ i = Nx ∨ j = 0 ∨ j = Ny) :
    ¬ rectInterior Nx Ny (i * (Ny + 1) + j) := by
  rintro ⟨a, b, ha, ha', hb, hb', e⟩
  obtain ⟨rfl, rfl⟩ := gridNode_inj (W := Ny + 1) (by omega) (by omega) e
  omega

/-! ### Property theorems -/

/-- **C73 (uniqueness).** A problem with a strictly monotone tensor map, a mass map that is monotone in
the solution (or absent) and monotone surface maps, on a mesh with positive measures
whose quadrature points determine gradients and whose nodes are all connected with constrained
ones, has at most one solution: two arrays with zero residual at the free and equal values at the
constrained degrees of freedom are equal. -/
theorem C73_unique (P : Problem1 IV nq nfq nn vec dim) (h : P.WF) (hpos : P.PositiveMeasure)
    (hdet : P.el.Determines) (hmono : P.StrictlyMonotone) (hmass : P.MassMonotone)
    (hsm : P.SurfaceMonotone) (free : Nat → Fin vec → Prop) (hanch : P.Anchored free)
    (sol sol' : List (List ℝ)) (hs : HasShapes [(P.numTotalNodes, vec)] [sol])
    (hs' : HasShapes [(P.numTotalNodes, vec)] [sol']) (h1 : IsSolution P free sol)
    (h2 : IsSolution P free sol')
    (hbc : ∀ n c, ¬ free n c → fieldOf vec sol n c = fieldOf vec sol' n c) : sol = sol' := by
  have hv : ∀ n c, ¬ free n c → (fun n c => fieldOf vec sol n c - fieldOf vec sol' n c) n c = 0 :=
    fun n c hf => sub_eq_zero.2 (hbc n c hf)
  have w1 := (C72_galerkin P h sol hs free).1 h1 _ hv
  have w2 := (C72_galerkin P h sol' hs' free).1 h2 _ hv
  have hgrad := gradient_unique P hpos hmono hmass hsm (fieldOf vec sol) (fieldOf vec sol')
    (w1.trans w2.symm)
  have hall := field_unique P h hpos hdet free hanch (fieldOf vec sol) (fieldOf vec sol') hgrad hbc
  obtain ⟨_, _, e1, e2, e3, e4⟩ := hs
  obtain ⟨_, _, e1', e2', e3', e4'⟩ := hs'
  cases e1
  cases e1'
  refine List.ext_getElem (by rw [e2, e2']) fun n h1 h2 => ?_
  have hr := e3 _ (List.getElem_mem h1)
  have hr' := e3' _ (List.getElem_mem h2)
  refine List.ext_getElem (by rw [hr, hr']) fun c k1 k2 => ?_
  have := hall n (by rw [← e2]; exact h1) ⟨c, hr ▸ k1⟩
  simpa only [fieldOf, List.getD_eq_getElem _ _ h1, List.getD_eq_getElem _ _ h2,
    List.getD_eq_getElem _ _ k1, List.getD_eq_getElem _ _ k2] using this

/-- **C73 (elements).** The first-order triangle and tetrahedron determine gradients with any
quadrature rule (with at least one point); the quadrilateral does if two quadrature points differ in a coordinate; the
hexahedron does if four quadrature points project to the corners of a rectangle in the last two
coordinates (as those of the product rules with at least two points per direction do). -/
theorem C73_determines (w : Fin nq → ℝ) (p2 : Fin nq → Fin 2 → ℝ) (p3 : Fin nq → Fin 3 → ℝ) :
    (0 < nq → (tabulate tri3N tri3G p2 w).Determines) ∧
    (0 < nq → (tabulate tet4N tet4G p3 w).Determines) ∧
    ((∃ q q' k, p2 q k ≠ p2 q' k) → (tabulate quad4N quad4G p2 w).Determines) ∧
    ((∃ q : Fin 2 → Fin 2 → Fin nq, ∃ y z : Fin 2 → ℝ, y 0 ≠ y 1 ∧ z 0 ≠ z 1 ∧
      ∀ a b, p3 (q a b) 1 = y a ∧ p3 (q a b) 2 = z b) → (tabulate hex8N hex8G p3 w).Determines) := by
  refine ⟨fun hq U hU => ?_, fun hq U hU => ?_, ?_, ?_⟩
  · have e0 := hU ⟨0, hq⟩ 0
    have e1 := hU ⟨0, hq⟩ 1
    simp [tabulate, tri3G, Fin.sum_univ_three] at e0 e1
    have h1 : U 1 = U 0 := by linarith
    have h2 : U 2 = U 0 := by linarith
    intro a b
    fin_cases a <;> fin_cases b <;> simp [h1, h2]
  · have e0 := hU ⟨0, hq⟩ 0
    have e1 := hU ⟨0, hq⟩ 1
    have e2 := hU ⟨0, hq⟩ 2
    simp [tabulate, tet4G, Fin.sum_univ_four] at e0 e1 e2
    have h1 : U 1 = U 0 := by linarith
    have h2 : U 2 = U 0 := by linarith
    have h3 : U 3 = U 0 := by linarith
    intro a b
    fin_cases a <;> fin_cases b <;> simp [h1, h2, h3]
  · rintro ⟨q, q', k, hk⟩ U hU
    have e0 := hU q 0
    have e1 := hU q 1
    have e0' := hU q' 0
    have e1' := hU q' 1
    simp [tabulate, quad4G, Fin.sum_univ_four] at e0 e1 e0' e1'
    have hall : U 1 = U 0 ∧ U 2 = U 0 ∧ U 3 = U 0 := by
      fin_cases k
      · have hk' : p2 q 0 - p2 q' 0 ≠ 0 := sub_ne_zero.2 hk
        have h1 : (p2 q 0 - p2 q' 0) * (U 0 - U 1 + U 2 - U 3) = 0 := by linear_combination e1 - e1'
        have h2 := (mul_eq_zero.1 h1).resolve_left hk'
        have h3 : U 3 - U 0 = 0 := by linear_combination e1 - p2 q 0 * h2
        have h4 : U 1 - U 0 = 0 := by linear_combination e0 - p2 q 1 * h2
        exact ⟨by linarith, by linarith, by linarith⟩
      · have hk' : p2 q 1 - p2 q' 1 ≠ 0 := sub_ne_zero.2 hk
        have h1 : (p2 q 1 - p2 q' 1) * (U 0 - U 1 + U 2 - U 3) = 0 := by linear_combination e0 - e0'
        have h2 := (mul_eq_zero.1 h1).resolve_left hk'
        have h3 : U 3 - U 0 = 0 := by linear_combination e1 - p2 q 0 * h2
        have h4 : U 1 - U 0 = 0 := by linear_combination e0 - p2 q 1 * h2
        exact ⟨by linarith, by linarith, by linarith⟩
    obtain ⟨h1, h2, h3⟩ := hall
    intro a b
    fin_cases a <;> fin_cases b <;> simp [h1, h2, h3]
  · rintro ⟨q, y, z, hy, hz, hq⟩ U hU
    have ex : ∀ a b, (1 - y a) * (1 - z b) * (U 1 - U 0) + y a * (1 - z b) * (U 2 - U 3)
        + (1 - y a) * z b * (U 5 - U 4) + y a * z b * (U 6 - U 7) = 0 := by
      intro a b
      have e0 := hU (q a b) 0
      simp [tabulate, hex8G, Fin.sum_univ_eight, (hq a b).1, (hq a b).2] at e0
      linear_combination e0
    have hy' : y 0 - y 1 ≠ 0 := sub_ne_zero.2 hy
    have hz' : z 0 - z 1 ≠ 0 := sub_ne_zero.2 hz
    -- bilinear function vanishing at the corners of a rectangle
    have bil : ∀ A B C D : ℝ, (∀ a b, (1 - y a) * (1 - z b) * A + y a * (1 - z b) * B
        + (1 - y a) * z b * C + y a * z b * D = 0) → A = 0 ∧ B = 0 ∧ C = 0 ∧ D = 0 := by
      intro A B C D hh
      have k1 : ∀ b, (y 0 - y 1) * ((1 - z b) * (B - A) + z b * (D - C)) = 0 := fun b => by
        linear_combination hh 0 b - hh 1 b
      have k2 : ∀ b, (1 - z b) * (B - A) + z b * (D - C) = 0 := fun b =>
        (mul_eq_zero.1 (k1 b)).resolve_left hy'
      have k3 : (z 0 - z 1) * ((D - C) - (B - A)) = 0 := by linear_combination k2 0 - k2 1
      have k4 := (mul_eq_zero.1 k3).resolve_left hz'
      have k5 : B - A = 0 := by linear_combination k2 0 - z 0 * k4
      have k6 : ∀ b, (1 - z b) * A + z b * C = 0 := fun b => by
        linear_combination hh 0 b - y 0 * k2 b
      have k7 : (z 0 - z 1) * (C - A) = 0 := by linear_combination k6 0 - k6 1
      have k8 := (mul_eq_zero.1 k7).resolve_left hz'
      have k9 : A = 0 := by linear_combination k6 0 - z 0 * k8
      exact ⟨k9, by linarith, by linarith, by linarith⟩
    obtain ⟨x1, x2, x3, x4⟩ := bil _ _ _ _ ex
    have ey : ∀ b, (1 - z b) * (U 3 - U 0) + z b * (U 7 - U 4) = 0 := by
      intro b
      have e1 := hU (q 0 b) 1
      simp [tabulate, hex8G, Fin.sum_univ_eight, (hq 0 b).2] at e1
      linear_combination e1 - p3 (q 0 b) 0 * (1 - z b) * (x2 - x1) - p3 (q 0 b) 0 * z b * (x4 - x3)
    have k3 : (z 0 - z 1) * ((U 7 - U 4) - (U 3 - U 0)) = 0 := by linear_combination ey 0 - ey 1
    have k4 := (mul_eq_zero.1 k3).resolve_left hz'
    have k5 : U 3 - U 0 = 0 := by linear_combination ey 0 - z 0 * k4
    have e2 := hU (q 0 0) 2
    simp [tabulate, hex8G, Fin.sum_univ_eight] at e2
    have h1 : U 1 = U 0 := by linarith
    have h3 : U 3 = U 0 := by linarith
    have h2 : U 2 = U 0 := by linarith
    have h5 : U 5 = U 4 := by linarith
    have h7 : U 7 = U 4 := by linarith
    have h6 : U 6 = U 4 := by linarith
    have h4 : U 4 = U 0 := by
      rw [h1, h2, h3, h5, h6, h7] at e2
      linear_combination e2
    rw [h4] at h5 h6 h7
    intro a b
    fin_cases a <;> fin_cases b <;> simp [h1, h2, h3, h4, h5, h6, h7]

/-- **C73 (hourglass).** With a single quadrature point the quadrilateral does not determine the
gradient: at the centre the alternating nodal field has zero gradient. -/
theorem C73_hourglass (w : Fin 1 → ℝ) :
    ¬ (tabulate quad4N quad4G (fun _ : Fin 1 => ![1/2, 1/2]) w).Determines := by
  intro h
  have := h ![1, -1, 1, -1] (fun q j => by
    fin_cases j <;> simp [tabulate, quad4G, Fin.sum_univ_four] <;> norm_num) 0 1
  norm_num at this

/-- **C73 (patch test of the equilibrium).** On the rectangle mesh with bilinear cells and a
quadrature rule that integrates linear functions exactly, the nodal values of an affine field are in
equilibrium at all interior nodes, for every material law that is the same at all quadrature points. -/
theorem C73_patch (P : Problem1 IV nq nfq 4 vec 2) {Nx Ny : Nat} {Lx Ly : ℝ}
    {p : Fin nq → Fin 2 → ℝ} {w : Fin nq → ℝ} (h : OnRectangle P Nx Ny Lx Ly p w)
    (hw : ∑ q, w q = 1) (hw0 : ∑ q, w q * p q 0 = 1 / 2) (hw1 : ∑ q, w q * p q 1 = 1 / 2)
    (hiv : ∀ iv iv' G, P.tensorMap iv G = P.tensorMap iv' G) (hmass : P.massMap = none)
    (hsurf : P.surfaces = []) (sol : List (List ℝ))
    (hs : HasShapes [(P.numTotalNodes, vec)] [sol]) (G : Fin vec → Fin 2 → ℝ) (b : Fin vec → ℝ)
    (hsol : ∀ n < P.numTotalNodes, ∀ i, fieldOf vec sol n i = ∑ j, G i j * (P.points.getD n 0) j + b i) :
    IsSolution P (fun n _ => rectInterior Nx Ny n) sol := by
  rw [C72_galerkin P h.wf sol hs]
  intro v hv
  have hsw : P.surfaceWork (fieldOf vec sol) v = 0 := by
    rw [Problem1.surfaceWork, hsurf]; rfl
  rw [Problem1.virtualWork, hmass, hsw, add_zero, add_zero]
  have hx := h.hx
  have hunity : P.el.Unity := by
    rw [h.el]; exact (C10_first_order_unity w p (fun _ _ => 0)).2.1
  have hne := h.wf.nonempty
  obtain ⟨c0, hc0⟩ := List.exists_mem_of_ne_nil _ hne
  by_cases hnq : nq = 0
  · subst hnq; simp at hw
  have q0 : Fin nq := ⟨0, by omega⟩
  -- the constant stress
  set S := P.tensorMap (c0.iv q0) G with hS
  have hcell : ∀ cell ∈ P.cells, (cellIntegral P.el P.points cell.nodes fun q =>
      contract (P.tensorMap (cell.iv q) (P.gradient (fieldOf vec sol) cell.nodes q))
        (P.gradient v cell.nodes q))
      = (fun nodes : List Nat => ∑ c, (S c 0 * ((Ly / Ny) / 2) *
          ((v (nodes.getD 1 0) c - v (nodes.getD 0 0) c) + (v (nodes.getD 2 0) c - v (nodes.getD 3 0) c))
        + S c 1 * ((Lx / Nx) / 2) *
          ((v (nodes.getD 3 0) c - v (nodes.getD 0 0) c) + (v (nodes.getD 2 0) c - v (nodes.getD 1 0) c))))
        cell.nodes := by
    intro cell hc
    have hcm : cell.nodes ∈ P.conn := List.mem_map_of_mem hc
    have hg : ∀ q, P.gradient (fieldOf vec sol) cell.nodes q = G := fun q =>
      affine_gradient P hunity cell.nodes (h.wf.cell_length cell hc) _ G b
        (fun n hn i => hsol n (h.wf.cell_lt cell hc n hn) i) q (by
          rw [h.jac _ hcm, Matrix.det_fin_two_of, mul_zero, sub_zero]
          exact (mul_pos hx.1 hx.2).ne')
    rw [cellIntegral]
    have hterm : ∀ q, contract (P.tensorMap (cell.iv q) (P.gradient (fieldOf vec sol) cell.nodes q))
        (P.gradient v cell.nodes q) * ((mapJacobian (coords 4 P.points cell.nodes)
          (Matrix.of (P.el.shapeGradsRef q))).det * P.el.quadWeights q)
        = ∑ c, (S c 0 * (Ly / Ny) * (
          (w q - w q * p q 1) * (v (cell.nodes.getD 1 0) c - v (cell.nodes.getD 0 0) c)
            + w q * p q 1 * (v (cell.nodes.getD 2 0) c - v (cell.nodes.getD 3 0) c))
          + S c 1 * (Lx / Nx) * (
          (w q - w q * p q 0) * (v (cell.nodes.getD 3 0) c - v (cell.nodes.getD 0 0) c)
            + w q * p q 0 * (v (cell.nodes.getD 2 0) c - v (cell.nodes.getD 1 0) c))) := by
      intro q
      have hwq : P.el.quadWeights q = w q := by rw [h.el]; rfl
      rw [hg, hiv (cell.iv q) (c0.iv q0), ← hS, h.jac _ hcm, Matrix.det_fin_two_of, hwq]
      simp only [contract]
      rw [Finset.sum_mul]
      refine Finset.sum_congr rfl fun c _ => ?_
      obtain ⟨g0, g1⟩ := rect_gradient h cell.nodes hcm v q c
      rw [Fin.sum_univ_two]
      linear_combination S c 0 * (Ly / Ny) * w q * g0 + S c 1 * (Lx / Nx) * w q * g1
    rw [Finset.sum_congr rfl fun q _ => hterm q, Finset.sum_comm]
    refine Finset.sum_congr rfl fun c _ => ?_
    rw [Finset.sum_add_distrib, ← Finset.mul_sum, ← Finset.mul_sum, Finset.sum_add_distrib,
      Finset.sum_add_distrib, ← Finset.sum_mul, ← Finset.sum_mul, ← Finset.sum_mul, ← Finset.sum_mul,
      Finset.sum_sub_distrib, Finset.sum_sub_distrib, hw, hw0, hw1]
    ring
  rw [Problem1.tensorWork, List.map_congr_left hcell]
  have hmap : P.cells.map (fun cell => (fun nodes : List Nat => ∑ c, (S c 0 * ((Ly / Ny) / 2) *
          ((v (nodes.getD 1 0) c - v (nodes.getD 0 0) c) + (v (nodes.getD 2 0) c - v (nodes.getD 3 0) c))
        + S c 1 * ((Lx / Nx) / 2) *
          ((v (nodes.getD 3 0) c - v (nodes.getD 0 0) c) + (v (nodes.getD 2 0) c - v (nodes.getD 1 0) c))))
        cell.nodes) = P.conn.map (fun nodes : List Nat => ∑ c, (S c 0 * ((Ly / Ny) / 2) *
          ((v (nodes.getD 1 0) c - v (nodes.getD 0 0) c) + (v (nodes.getD 2 0) c - v (nodes.getD 3 0) c))
        + S c 1 * ((Lx / Nx) / 2) *
          ((v (nodes.getD 3 0) c - v (nodes.getD 0 0) c) + (v (nodes.getD 2 0) c - v (nodes.getD 1 0) c)))) := by
    rw [Problem1.conn, List.map_map]; rfl
  rw [hmap, h.conn, rect_sum]
  simp only [List.getD_cons_zero, List.getD_cons_succ]
  have hswap : ∀ F : Nat → Nat → Fin vec → ℝ, ∑ i ∈ Finset.range Nx, ∑ j ∈ Finset.range Ny, ∑ c, F i j c
      = ∑ c, ∑ i ∈ Finset.range Nx, ∑ j ∈ Finset.range Ny, F i j c := by
    intro F
    rw [Finset.sum_comm (s := Finset.univ)]
    refine Finset.sum_congr rfl fun i _ => ?_
    rw [Finset.sum_comm]
  rw [hswap]
  refine Finset.sum_eq_zero fun c _ => ?_
  have tx := telescope_x Nx Ny (fun i j => v (i * (Ny + 1) + j) c)
    (fun j hj => hv _ c (not_interior Nx Ny 0 j hj (by simp)))
    (fun j hj => hv _ c (not_interior Nx Ny Nx j hj (by simp)))
  have ty := telescope_y Nx Ny (fun i j => v (i * (Ny + 1) + j) c)
    (fun i _ => hv _ c (not_interior Nx Ny i 0 (by omega) (by simp)))
    (fun i _ => hv _ c (not_interior Nx Ny i Ny (by omega) (by simp)))
  simp only [Finset.sum_add_distrib, ← Finset.mul_sum] at tx ty ⊢
  rw [tx, ty, mul_zero, mul_zero, add_zero]

/-- The nodes of the rectangle mesh are connected with the boundary. -/
theorem rect_anchored (P : Problem1 IV nq nfq 4 vec 2) {Nx Ny : Nat} {Lx Ly : ℝ}
    {p : Fin nq → Fin 2 → ℝ} {w : Fin nq → ℝ} (h : OnRectangle P Nx Ny Lx Ly p w) :
    P.Anchored fun n _ => rectInterior Nx Ny n := by
  intro n hn c
  rw [h.nodes] at hn
  have h1 := Nat.div_lt_of_lt_mul (m := n) (n := Ny + 1) (k := Nx + 1) (by rw [mul_comm]; exact hn)
  have h2 := Nat.mod_lt n (y := Ny + 1) (by omega)
  have h3 : n / (Ny + 1) * (Ny + 1) + n % (Ny + 1) = n := by
    rw [mul_comm]; exact Nat.div_add_mod n (Ny + 1)
  generalize n / (Ny + 1) = a at *
  generalize n % (Ny + 1) = b at *
  subst h3
  refine ⟨0 * (Ny + 1) + b, not_interior Nx Ny 0 b (by omega) (by simp), ?_, ?_⟩
  · rw [h.nodes]; exact gridNode_lt (by omega) (by omega)
  · induction a with
    | zero => exact Relation.ReflTransGen.refl
    | succ a ih =>
      refine Relation.ReflTransGen.tail (ih (by omega) (gridNode_lt (by omega) (by omega))) ?_
      by_cases hb : b < Ny
      · refine ⟨[a * (Ny + 1) + b, (a + 1) * (Ny + 1) + b,
          (a + 1) * (Ny + 1) + (b + 1), a * (Ny + 1) + (b + 1)], ?_, by simp, by simp⟩
        rw [h.conn]
        exact List.mem_of_getElem? (rect_cell Nx Ny Lx Ly a b (by omega) hb)
      · obtain ⟨b, rfl⟩ : ∃ b', b = b' + 1 := ⟨b - 1, by have := h.Ny_pos; omega⟩
        refine ⟨[a * (Ny + 1) + b, (a + 1) * (Ny + 1) + b,
          (a + 1) * (Ny + 1) + (b + 1), a * (Ny + 1) + (b + 1)], ?_, by simp, by simp⟩
        rw [h.conn]
        exact List.mem_of_getElem? (rect_cell Nx Ny Lx Ly a b (by omega) (by omega))

/-- **C73 (patch test of the solution).** With a strictly monotone material law and affine boundary
values on the rectangle mesh, an array has zero residual at all interior nodes if and only if it holds
the nodal values of the affine field. -/
theorem C73_patch_solution (P : Problem1 IV nq nfq 4 vec 2) {Nx Ny : Nat} {Lx Ly : ℝ}
    {p : Fin nq → Fin 2 → ℝ} {w : Fin nq → ℝ} (h : OnRectangle P Nx Ny Lx Ly p w)
    (hw : ∑ q, w q = 1) (hw0 : ∑ q, w q * p q 0 = 1 / 2) (hw1 : ∑ q, w q * p q 1 = 1 / 2)
    (hpos : ∀ q, 0 < w q) (hp : ∃ q q' k, p q k ≠ p q' k)
    (hiv : ∀ iv iv' G, P.tensorMap iv G = P.tensorMap iv' G) (hmono : P.StrictlyMonotone)
    (hmass : P.massMap = none) (hsurf : P.surfaces = []) (sol : List (List ℝ))
    (hs : HasShapes [(P.numTotalNodes, vec)] [sol]) (G : Fin vec → Fin 2 → ℝ) (b : Fin vec → ℝ)
    (hbc : ∀ n < P.numTotalNodes, ¬ rectInterior Nx Ny n → ∀ i,
      fieldOf vec sol n i = ∑ j, G i j * (P.points.getD n 0) j + b i) :
    IsSolution P (fun n _ => rectInterior Nx Ny n) sol ↔
      ∀ n < P.numTotalNodes, ∀ i, fieldOf vec sol n i = ∑ j, G i j * (P.points.getD n 0) j + b i := by
  refine ⟨fun hsol => ?_, fun hsol => C73_patch P h hw hw0 hw1 hiv hmass hsurf sol hs G b hsol⟩
  -- the array of the affine field
  set aff : List (List ℝ) := (List.range P.numTotalNodes).map fun n =>
    List.ofFn fun i : Fin vec => ∑ j, G i j * (P.points.getD n 0) j + b i with haff
  have hval : ∀ n < P.numTotalNodes, ∀ i,
      fieldOf vec aff n i = ∑ j, G i j * (P.points.getD n 0) j + b i := by
    intro n hn i
    have hl : n < aff.length := by rw [haff]; simpa using hn
    rw [fieldOf, List.getD_eq_getElem _ _ hl]
    simp only [haff, List.getElem_map, List.getElem_range]
    rw [List.getD_eq_getElem _ _ (by simp)]
    simp
  have hsa : HasShapes [(P.numTotalNodes, vec)] [aff] :=
    ⟨_, _, rfl, by simp [haff], by
      intro r hr
      obtain ⟨n, -, rfl⟩ := List.mem_map.1 hr
      simp, rfl⟩
  have hposm : P.PositiveMeasure := by
    intro cell hc q
    rw [h.jac _ (List.mem_map_of_mem hc), Matrix.det_fin_two_of, mul_zero, sub_zero, h.el]
    exact mul_pos (mul_pos h.hx.1 h.hx.2) (hpos q)
  have hdet : P.el.Determines := by
    rw [h.el]; exact (C73_determines w p (fun _ _ => 0)).2.2.1 hp
  have hout : ∀ s : List (List ℝ), HasShapes [(P.numTotalNodes, vec)] [s] →
      ∀ n, ¬ n < P.numTotalNodes → ∀ c, fieldOf vec s n c = 0 := by
    intro s hs n hn c
    obtain ⟨_, _, e1, e2, -, -⟩ := hs
    cases e1
    rw [fieldOf, List.getD_eq_default s _ (by rw [e2]; omega)]
    simp
  have := C73_unique P h.wf hposm hdet hmono (fun m hm => by rw [hmass] at hm; cases hm)
    (fun s hs => by rw [hsurf] at hs; cases hs) _ (rect_anchored P h) sol aff hs hsa hsol
    (C73_patch P h hw hw0 hw1 hiv hmass hsurf aff hsa G b hval) (by
      intro n c hn
      by_cases hlt : n < P.numTotalNodes
      · rw [hbc n hlt hn c, hval n hlt c]
      · rw [hout sol hs n hlt, hout aff hsa n hlt])
  rw [this]
  exact hval

end JaxFem
