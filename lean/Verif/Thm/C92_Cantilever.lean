import Verif.Thm.C92_Simp

/-!
# C92: the cantilever of the notebook
-/

namespace JaxFem

open scoped BigOperators Topology

variable {nq nfq : Nat}

section

variable {IV : Type} {P : Problem1 IV nq nfq 4 2 2} {Nx Ny : Nat} {Lx Ly : ℝ} {p : Fin nq → Fin 2 → ℝ} {w : Fin nq → ℝ}

theorem OnRectangle.point (h : OnRectangle P Nx Ny Lx Ly p w) (i j : Nat) (hi : i ≤ Nx) (hj : j ≤ Ny) :
    P.points.getD (i * (Ny + 1) + j) 0 = ![(i : ℝ) * (Lx / Nx), (j : ℝ) * (Ly / Ny)] := by
  rw [h.points, List.getD_eq_getElem?_getD, rect_point Nx Ny Lx Ly i j hi hj]
  rfl

/-- Cells of the rectangle mesh have no zero-strain modes besides rigid motions. -/
theorem OnRectangle.strain (h : OnRectangle P Nx Ny Lx Ly p w) (hx : ∃ q q', p q 0 ≠ p q' 0)
    (hy : ∃ q q', p q 1 ≠ p q' 1) :
    ∀ cell ∈ P.cells, P.el.StrainDetermines (coords 4 P.points cell.nodes) := by
  intro cell hc
  obtain ⟨i, j, hi, hj, e⟩ := h.cell_mem cell hc
  have hdet : (!![Lx / Nx, 0; 0, Ly / Ny] : Matrix (Fin 2) (Fin 2) ℝ).det ≠ 0 := by
    rw [Matrix.det_fin_two_of, mul_zero, sub_zero]
    exact (mul_pos h.hx.1 h.hx.2).ne'
  have := (C82_rigid w p (fun _ _ => 0)).2.2.1 hx hy !![Lx / Nx, 0; 0, Ly / Ny]
    ![(i : ℝ) * (Lx / Nx), (j : ℝ) * (Ly / Ny)] hdet
  rw [h.el, e]
  have ee : coords 4 P.points [i * (Ny + 1) + j, (i + 1) * (Ny + 1) + j, (i + 1) * (Ny + 1) + (j + 1),
        i * (Ny + 1) + (j + 1)]
      = fun a c => ∑ l, !![Lx / Nx, 0; 0, Ly / Ny] c l * quad4V a l
        + ![(i : ℝ) * (Lx / Nx), (j : ℝ) * (Ly / Ny)] c := by
    funext a c
    have p0 := h.point i j (by omega) (by omega)
    have p1 := h.point (i + 1) j (by omega) (by omega)
    have p2 := h.point (i + 1) (j + 1) (by omega) (by omega)
    have p3 := h.point i (j + 1) (by omega) (by omega)
    simp only [JaxFem.coords, Matrix.of_apply]
    fin_cases a <;>
      [refine (congrFun p0 c).trans ?_; refine (congrFun p1 c).trans ?_; refine (congrFun p2 c).trans ?_;
        refine (congrFun p3 c).trans ?_] <;>
      fin_cases c <;> simp [Fin.sum_univ_two, quad4V] <;> try ring
  rw [ee]
  exact this

/-- Fixing the left edge holds all nodes. -/
theorem OnRectangle.held (h : OnRectangle P Nx Ny Lx Ly p w) (free : Nat → Fin 2 → Prop)
    (hfix : ∀ j ≤ Ny, ∀ c, ¬ free j c) : ∀ n < P.numTotalNodes, P.Held free n := by
  have key : ∀ i ≤ Nx, ∀ j ≤ Ny, P.Held free (i * (Ny + 1) + j) := by
    intro i
    induction i with
    | zero => exact fun _ j hj => .fixed _ (by rw [Nat.zero_mul, Nat.zero_add]; exact hfix j hj)
    | succ i ih =>
      intro hi j hj
      have hNy := h.Ny_pos
      obtain ⟨j0, hj0, hjj⟩ : ∃ j0 < Ny, j = j0 ∨ j = j0 + 1 := by
        rcases Nat.eq_zero_or_pos j with h0 | h0
        · exact ⟨0, hNy, .inl h0⟩
        · exact ⟨j - 1, by omega, .inr (by omega)⟩
      refine .cell [i * (Ny + 1) + j0, (i + 1) * (Ny + 1) + j0, (i + 1) * (Ny + 1) + (j0 + 1),
        i * (Ny + 1) + (j0 + 1)] ?_ [i * (Ny + 1) + j0, i * (Ny + 1) + (j0 + 1)] ?_ ?_ ?_ _ ?_
      · rw [h.conn]
        exact List.mem_of_getElem? (rect_cell Nx Ny Lx Ly i j0 (by omega) hj0)
      · intro n hn
        simp only [List.mem_cons, List.not_mem_nil, or_false] at hn ⊢
        tauto
      · intro n hn
        simp only [List.mem_cons, List.not_mem_nil, or_false] at hn
        rcases hn with rfl | rfl
        · exact ih (by omega) _ (by omega)
        · exact ih (by omega) _ (by omega)
      · simp only [List.map_cons, List.map_nil]
        rw [h.point i j0 (by omega) (by omega), h.point i (j0 + 1) (by omega) (by omega)]
        refine C82_supports.1 _ _ fun he => ?_
        have := congrFun he 1
        simp only [Matrix.cons_val_one, Matrix.cons_val_fin_one] at this
        push_cast at this
        have e : Ly / Ny = 0 := by linear_combination -this
        exact absurd e h.hx.2.ne'
      · simp only [List.mem_cons, List.not_mem_nil, or_false]
        rcases hjj with rfl | rfl <;> tauto
  intro n hn
  rw [h.nodes] at hn
  have e : n = n / (Ny + 1) * (Ny + 1) + n % (Ny + 1) := by
    rw [Nat.mul_comm]; exact (Nat.div_add_mod n (Ny + 1)).symm
  have h1 : n / (Ny + 1) < Nx + 1 := Nat.div_lt_of_lt_mul (by rwa [Nat.mul_comm] at hn)
  have h2 : n % (Ny + 1) < Ny + 1 := Nat.mod_lt _ (by omega)
  rw [e]
  exact key _ (by omega) _ (by omega)

theorem OnRectangle.positive (h : OnRectangle P Nx Ny Lx Ly p w) (hw : ∀ q, 0 < w q) : P.PositiveMeasure := by
  intro cell hc q
  rw [h.jac _ (List.mem_map_of_mem hc), Matrix.det_fin_two_of, mul_zero, sub_zero, h.el]
  exact mul_pos (mul_pos h.hx.1 h.hx.2) (hw q)

end

/-- **C92 (cantilever).** The problem of the notebook (plane stress, `Emax = 70000`, penalty 3, rectangle mesh, the
edge `x = 0` clamped, traction `(0, 100)` up to sign on one boundary subset, all cells design cells) on a mesh of any
size with any positive quadrature whose points differ in both coordinates: for all nonnegative densities there is
exactly one equilibrium, `compute_compliance` returns a nonnegative number for it that does not increase with the
densities and is at most a thousand times the value of the full structure for densities up to one, and its gradient
is minus the derivative of the modulus times the energy of the cell. -/
theorem C92_cantilever {P : Problem1 (List ℝ) nq nfq 4 2 2} {Nx Ny : Nat} {Lx Ly : ℝ} {p : Fin nq → Fin 2 → ℝ}
    {w : Fin nq → ℝ} (h : OnRectangle P Nx Ny Lx Ly p w) (hw : ∀ q, 0 < w q) (hx : ∃ q q', p q 0 ≠ p q' 0)
    (hy : ∃ q q', p q 1 ≠ p q' 1) (htensor : P.tensorMap = TopOpt.stress) (hmass : P.massMap = none)
    (s : Surface ℝ (List ℝ) nfq 2 2) (hsurf : P.surfaces = [s]) (hs : s.map = TopOpt.surfaceMap)
    (bcs : List (List (BCEntry ℝ))) (hb : WFBC P.fes bcs) (hz : ZeroValues bcs)
    (hfix : ∀ j ≤ Ny, ∀ c : Fin 2, ¬ FreeDof (bcs.getD 0 []) j c) :
    ∃ J : (Fin P.cells.length → ℝ) → ℝ,
    (∀ rho, (∀ i, 0 ≤ rho i) → ∃ u,
      SolvesBVP P.fes bcs (P.flatIv fun c _ => if hc : c < P.cells.length then [rho ⟨c, hc⟩] else []) u ∧
      (∀ w, SolvesBVP P.fes bcs (P.flatIv fun c _ => if hc : c < P.cells.length then [rho ⟨c, hc⟩] else []) w → w = u) ∧
      TopOpt.computeCompliance (TopOpt.setParams P (List.range P.cells.length) (List.ofFn fun i => [rho i]))
        (P.solArray u) = .ok (J rho) ∧ 0 ≤ J rho ∧
      HasFDerivAt J (dotCLM fun i => -(3 * 69930 * rho i ^ 2)
        * ∑ q, P.energyAt (planeLaw 0.3) (P.vecField u) i q) rho) ∧
    (∀ rho rho', (∀ i, 0 ≤ rho i) → (∀ i, rho i ≤ rho' i) → J rho' ≤ J rho) ∧
    (∀ rho, (∀ i, 0 ≤ rho i ∧ rho i ≤ 1) → J 1 ≤ J rho ∧ J rho ≤ 1000 * J 1) := by
  have hC : P.Scaled (TopOpt.young 70000 70 3) (planeLaw 0.3) :=
    (C92_materials (nq := nq) (nfq := nfq) (nn := 4)).1 P htensor
  have hl : P.DeadLoad := ⟨hmass, s, hsurf, fun iv u w x => by rw [hs]; rfl⟩
  have hdef : ∀ G, contract (planeLaw 0.3 G) G = 0 → symPart G = 0 := by
    intro G hG
    by_contra hne
    exact ((planeLaw_pos 0.3 (by norm_num) (by norm_num) G).2 hne).ne' hG
  have hcells : P.cells.length = Nx * Ny := by
    have := congrArg List.length h.conn
    rwa [Problem1.conn, List.length_map, (C41_cells Nx Ny Lx Ly).1] at this
  have hn : 0 < P.cells.length := by rw [hcells]; exact Nat.mul_pos h.Nx_pos h.Ny_pos
  obtain ⟨J, h1, h2, h3⟩ := C92_densities P h.wf (h.positive hw) hl 70000 70 3 (by norm_num) (by norm_num)
    (planeLaw 0.3) hC hdef (h.strain hx hy) bcs hb hz (h.held _ hfix) hn id Function.injective_id
  have hinds : inds (id : Fin P.cells.length → Fin P.cells.length) = List.range P.cells.length := by
    rw [inds]
    refine List.ext_getElem (by simp) fun i h1 h2 => by simp
  have hth : ∀ rho : Fin P.cells.length → ℝ, (TopOpt.thetas P.cells.length
      (inds (id : Fin P.cells.length → Fin P.cells.length)) (rows rho)
      : Nat → Fin nq → List ℝ) = fun c _ => if hc : c < P.cells.length then [rho ⟨c, hc⟩] else [] := by
    intro rho
    funext c q
    by_cases hc : c < P.cells.length
    · rw [dif_pos hc]
      exact thetas_flex id Function.injective_id rho ⟨c, hc⟩ q
    · rw [dif_neg hc, TopOpt.thetas, List.getD_eq_getElem?_getD, List.getElem?_eq_none]
      · rfl
      · rw [TopOpt.fullParams, foldl_setRow_length, List.length_replicate]; omega
  refine ⟨J, fun rho hr => ?_, h2, fun rho hr => ?_⟩
  · obtain ⟨u, a1, a2, a3, a4, a5, -⟩ := h1 rho hr
    rw [hth] at a1 a2
    rw [hinds] at a3
    refine ⟨u, a1, a2, a3, a4, a5.congr_fderiv ?_⟩
    congr 1
    funext i
    norm_num
  · have := h3 rho hr
    norm_num at this
    exact this

/-- **C92 (load).** The loads of the notebook do no work on horizontal displacements; on vertical ones their virtual work is 100 times the
integral over the boundary subset, so that the total force is 100 times its length, whatever the densities and displacements. -/
theorem C92_load (P : Problem1 (List ℝ) nq nfq 4 2 2) (s : Surface ℝ (List ℝ) nfq 2 2) (hsurf : P.surfaces = [s])
    (hs : s.map = TopOpt.surfaceMap) (u v : Nat → Fin 2 → ℝ) :
    P.surfaceWork u v = 100 * (s.faces.map fun f => ∑ q,
      interp (P.fc.shapeVals f.face q) (restrict 4 v (P.conn.getD f.cell [])) 1
        * nansonScale (coords 4 P.points (P.conn.getD f.cell [])) (P.fc.shapeGradsRef f.face q)
          (P.fc.normals f.face) (P.fc.quadWeights f.face q)).sum := by
  unfold Problem1.surfaceWork
  rw [hsurf, List.map_cons, List.map_nil, List.sum_cons, List.sum_nil, add_zero, ← List.sum_map_mul_left]
  refine congrArg List.sum (List.map_congr_left fun f _ => ?_)
  rw [Finset.mul_sum]
  refine Finset.sum_congr rfl fun q _ => ?_
  rw [hs, Fin.sum_univ_two]
  simp only [TopOpt.surfaceMap, Matrix.cons_val_zero, Matrix.cons_val_one]
  ring

/-! ### A concrete case

Two cells, the right edge loaded. -/

/-- The cantilever of the example. -/
noncomputable def exCantilever : Problem1 (List ℝ) 4 1 4 2 2 where
  numTotalNodes := 6
  points := (rectangleMesh 2 1 2 1).1
  cells := (rectangleMesh 2 1 (2 : ℝ) 1).2.map fun c => ⟨c, fun _ => [1]⟩
  el := tabulate quad4N quad4G exPts (fun _ => 1/4)
  fc := ⟨fun _ _ => quad4N ![1, 1/2], fun _ _ => quad4G ![1, 1/2], fun _ _ => 1, fun _ => ![1, 0]⟩
  tensorMap := TopOpt.stress
  massMap := none
  surfaces := [⟨TopOpt.surfaceMap, [⟨1, 0, fun _ => []⟩]⟩]

/-- The left edge is clamped. -/
noncomputable def exCantileverBcs : List (List (BCEntry ℝ)) := [[⟨[0, 1], [0, 0], [0, 0]⟩, ⟨[0, 1], [1, 1], [0, 0]⟩]]

theorem exCantilever_rect : OnRectangle exCantilever 2 1 2 1 exPts (fun _ => 1/4) where
  el := rfl
  points := rfl
  conn := by simp [exCantilever, Problem1.conn, Function.comp_def]
  nodes := rfl
  Nx_pos := by decide
  Ny_pos := by decide
  Lx_pos := by norm_num
  Ly_pos := by norm_num
  faces := by
    intro s hs f hf
    simp only [exCantilever, List.mem_singleton] at hs
    subst hs
    simp only [List.mem_singleton] at hf
    subst hf
    decide

theorem exCantilever_wfbc : WFBC exCantilever.fes exCantileverBcs where
  len := rfl
  comps := by simp [exCantileverBcs]
  vals := by simp [exCantileverBcs]
  nodup := by simp [exCantileverBcs]
  valid := by
    intro i fe es h1 h2 e he
    rcases i with _ | i
    · simp only [exCantileverBcs, List.getElem?_cons_zero, Option.some.injEq] at h2
      simp only [Problem1.fes, List.getElem?_cons_zero, Option.some.injEq] at h1
      subst h2 h1
      simp only [List.mem_cons, List.not_mem_nil, or_false] at he
      rcases he with rfl | rfl <;> simp [exCantilever]
    · simp [exCantileverBcs] at h2

/-- The example meets the hypotheses of `C92_cantilever` (and with it those of `C92_densities`). -/
example : ∃ J : (Fin exCantilever.cells.length → ℝ) → ℝ,
    ∀ rho, (∀ i, 0 ≤ rho i ∧ rho i ≤ 1) → J 1 ≤ J rho ∧ J rho ≤ 1000 * J 1 := by
  obtain ⟨J, -, -, h⟩ := C92_cantilever exCantilever_rect (fun _ => by norm_num)
    ⟨0, 1, by simp [exPts]; norm_num⟩ ⟨0, 2, by simp [exPts]; norm_num⟩ rfl rfl _ rfl rfl exCantileverBcs
    exCantilever_wfbc (by simp [ZeroValues, exCantileverBcs]) (by
      intro j hj c hfr
      refine hfr ⟨[0, 1], [c, c], [0, 0]⟩ ?_ 0 ⟨j, ?_, ?_, ?_⟩
      · fin_cases c <;> simp [exCantileverBcs]
      all_goals
        rcases (by omega : j = 0 ∨ j = 1) with rfl | rfl <;> rfl)
  exact ⟨J, h⟩

/-- Plane stress of a bar in tension: the lateral strain is minus Poisson's ratio times the strain. -/
example : TopOpt.planeStress 70000 0.3 ![![1, 0], ![0, -0.3]] = ![![70000, 0], ![0, 0]] := by
  funext i j
  fin_cases i <;> fin_cases j <;> simp [TopOpt.planeStress] <;> norm_num

/-- Design variables for the second of three cells only. -/
example : TopOpt.fullParams 3 [1] [[(1 / 2 : ℝ)]] = [[1], [1 / 2], [1]] := rfl

end JaxFem
