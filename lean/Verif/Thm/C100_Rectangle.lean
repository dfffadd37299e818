import Verif.Thm.C100_Identify
import Verif.Thm.C99_Rectangle
import Verif.Thm.C91_Solver

/-!
# C100: the rectangle mesh of the tutorial
-/

namespace JaxFem.Inverse

open scoped BigOperators

variable {nq nfq : Nat} {P : Problem1 ℝ nq nfq 4 1 2} {Nx Ny : Nat} {Lx Ly : ℝ} {p : Fin nq → Fin 2 → ℝ}
  {w : Fin nq → ℝ} {bcs : List (List (BCEntry ℝ))}

/-! ### Helper lemmas -/

theorem rectangle_positive {IV : Type} {P : Problem1 IV nq nfq 4 1 2} (h : OnRectangle P Nx Ny Lx Ly p w) (hw : ∀ q, 0 < w q) : P.PositiveMeasure := by
  intro cell hc q
  rw [h.jac _ (List.mem_map_of_mem hc), Matrix.det_fin_two_of, mul_zero, sub_zero, h.el]
  exact mul_pos (mul_pos h.hx.1 h.hx.2) (hw q)

/-- Fixing the left edge anchors all nodes. -/
theorem rectangle_left {IV : Type} {P : Problem1 IV nq nfq 4 1 2} (h : OnRectangle P Nx Ny Lx Ly p w) (free : Nat → Fin 1 → Prop)
    (hfix : ∀ j ≤ Ny, ∀ c, ¬ free j c) : P.Anchored free := by
  intro n hn c
  rw [h.nodes] at hn
  have h1 := Nat.div_lt_of_lt_mul (m := n) (n := Ny + 1) (k := Nx + 1) (by rw [mul_comm]; exact hn)
  have h2 := Nat.mod_lt n (y := Ny + 1) (by omega)
  have h3 : n / (Ny + 1) * (Ny + 1) + n % (Ny + 1) = n := by
    rw [mul_comm]; exact Nat.div_add_mod n (Ny + 1)
  generalize n / (Ny + 1) = a at *
  generalize n % (Ny + 1) = b at *
  subst h3
  refine ⟨0 * (Ny + 1) + b, ?_, ?_, ?_⟩
  · rw [Nat.zero_mul, Nat.zero_add]
    exact hfix b (by omega) c
  · rw [h.nodes]; exact gridNode_lt (by omega) (by omega)
  · clear hn
    induction a with
    | zero => exact Relation.ReflTransGen.refl
    | succ a ih =>
      refine Relation.ReflTransGen.tail (ih (by omega)) ?_
      by_cases hb : b < Ny
      · refine ⟨[a * (Ny + 1) + b, (a + 1) * (Ny + 1) + b,
          (a + 1) * (Ny + 1) + (b + 1), a * (Ny + 1) + (b + 1)], ?_, by simp, by simp⟩
        rw [h.conn]
        exact List.mem_of_getElem? (rect_cell Nx Ny Lx Ly a b (by omega) hb)
      · obtain ⟨b, rfl⟩ : ∃ b', b = b' + 1 := ⟨b - 1, by have := h.Ny_pos; omega⟩
        refine ⟨[a * (Ny + 1) + b, (a + 1) * (Ny + 1) + b,
          (a + 1) * (Ny + 1) + (b + 1), a * (Ny + 1) + (b + 1)], ?_, by simp, by simp⟩
        rw [h.conn]
        exact List.mem_of_getElem? (rect_cell Nx Ny Lx Ly a b (by omega) (by omega))

theorem rectangle_admissible (h : OnRectangle P Nx Ny Lx Ly p w) (hw : ∀ q, 0 < w q) (x y : Fin 2 → ℝ)
    (hx : x 0 ≠ x 1) (hp : ∀ a b, ∃ q, p q = ![x a, y b]) (hb : WFBC P.fes bcs) (hz : ZeroValues bcs)
    (hfix : ∀ j ≤ Ny, ¬ FreeDof (bcs.getD 0 []) j 0) : Admissible P bcs where
  wf := h.wf
  positive := rectangle_positive h hw
  determines := by
    rw [h.el]
    obtain ⟨q, hq⟩ := hp 0 0
    obtain ⟨q', hq'⟩ := hp 1 0
    refine (C73_determines w p (fun _ _ => 0)).2.2.1 ⟨q, q', 0, ?_⟩
    rw [hq, hq']
    exact hx
  bc := hb
  zero := hz
  anchored := rectangle_left h _ fun j hj c => by
    rw [Subsingleton.elim c 0]
    exact hfix j hj

theorem rectangle_values (h : OnRectangle P Nx Ny Lx Ly p w) (x y : Fin 2 → ℝ) (hx : x 0 ≠ x 1) (hy : y 0 ≠ y 1)
    (hp : ∀ a b, ∃ q, p q = ![x a, y b]) : ValuesDetermine P.el := by
  intro U hU
  refine Modal.quad4_value p w x y hx hy hp U fun q => ?_
  rw [← h.el, ← hU q]
  exact Finset.sum_congr rfl fun a _ => mul_comm _ _

/-! ### Property theorem -/

/-- **C100 (rectangle).** The tutorial on a rectangle mesh of any size, with zero values on the left side (and possibly
elsewhere) and a quadrature rule with a two by two grid of points: data that satisfy the boundary conditions are
predicted by infinitely many sources; a source is a stationary point of the objective exactly if it is one of them; the
difference check is exact. -/
theorem C100_rectangle (h : OnRectangle P Nx Ny Lx Ly p w) (hw : ∀ q, 0 < w q) (x y : Fin 2 → ℝ)
    (hx : x 0 ≠ x 1) (hy : y 0 ≠ y 1) (hp : ∀ a b, ∃ q, p q = ![x a, y b]) (hq : 4 ≤ nq) (hb : WFBC P.fes bcs)
    (hz : ZeroValues bcs) (hfix : ∀ j ≤ Ny, ¬ FreeDof (bcs.getD 0 []) j 0)
    {S : Setup (Fin P.cells.length → Fin nq → ℝ) P.fes (totalDofs P.fes)} (hS : IsSourceSetup P bcs S)
    (ū : Fin (totalDofs P.fes) → ℝ)
    (hū : ∀ (k : Fin (totalDofs P.fes)) v, Prescribed P.fes bcs k (some v) → ū k = 0) (fuel : Nat) :
    {θ | S.fwdPred (fuel + 2) θ = some (.ok ū)}.Infinite ∧
    (∀ θ, ∃ g, S.grad (fuel + 2) (misfit P ū) θ = some (.ok g) ∧ (g = 0 ↔ S.fwdPred (fuel + 2) θ = some (.ok ū)) ∧
      ∀ (c : Fin P.cells.length) (q : Fin nq) (h : ℝ), h ≠ 0 → θ c q ≠ 0 →
        fdQuotient (S.objective (fuel + 2) (misfit P ū)) θ c q h = some (.ok (g (Pi.single c (Pi.single q 1))))) := by
  have hA := rectangle_admissible h hw x y hx hp hb hz hfix
  have hval := rectangle_values h x y hx hy hp
  have hcells : P.cells.length = Nx * Ny := by
    have := congrArg List.length h.conn
    rwa [Problem1.conn, List.length_map, (C41_cells Nx Ny Lx Ly).1] at this
  have hNx := h.Nx_pos
  have hNy := h.Ny_pos
  have hcount : totalDofs P.fes ≤ P.cells.length * nq := by
    rw [totalDofs_single, hcells, h.nodes, mul_one]
    have e1 : (Nx + 1) * (Ny + 1) ≤ (2 * Nx) * (2 * Ny) := Nat.mul_le_mul (by omega) (by omega)
    have e2 : (2 * Nx) * (2 * Ny) = Nx * Ny * 4 := by ring
    exact e1.trans (e2.le.trans (Nat.mul_le_mul_left _ hq))
  have hpres : ∃ (k : Fin (totalDofs P.fes)) (v : ℝ), Prescribed P.fes bcs k (some v) := by
    obtain ⟨es, hes⟩ : ∃ es, bcs[0]? = some es := by
      have := hb.len
      simp only [Problem1.fes, List.length_singleton] at this
      exact ⟨bcs[0], List.getElem?_eq_getElem (by omega)⟩
    have hes' : bcs.getD 0 [] = es := by rw [List.getD_eq_getElem?_getD, hes]; rfl
    have hf := hfix 0 (Nat.zero_le _)
    rw [hes'] at hf
    have h0 : 0 < P.numTotalNodes := by rw [h.nodes]; positivity
    rcases free_or_last es 0 0 with hf' | ⟨v, hv⟩
    · exact absurd hf' hf
    · refine ⟨⟨0, by rw [totalDofs_single]; omega⟩, v, .fixed 0 0 0 _ es v rfl hes h0 Nat.one_pos ?_ hv⟩
      have := dofNum_single P 0 0
      simpa using this.symm
  constructor
  · obtain ⟨θ, hθ⟩ := C100_reachable hA hval hS ū hū
    obtain ⟨δ, hδ, hamb⟩ := C100_ambiguous hA hS hcount hpres
    refine Set.infinite_of_injective_forall_mem (f := fun t : ℝ => θ + t • δ) (fun s t hst => ?_) fun t => ?_
    · have e : s • δ = t • δ := add_left_cancel hst
      rw [← sub_eq_zero, ← sub_smul] at e
      exact sub_eq_zero.1 ((smul_eq_zero.1 e).resolve_right hδ)
    · exact ((hamb θ t fuel).1).trans (hθ fuel).1
  · intro θ
    obtain ⟨g, J, h1, -, -, h2⟩ := C100_stationary hA hval hS ū θ fuel
    obtain ⟨g', h3, h4⟩ := C100_difference hA hS ū θ fuel
    rw [h1] at h3
    cases Except.ok.inj (Option.some.inj h3)
    exact ⟨g, h1, (h2 hū).2, h4⟩

/-! ### A concrete case

Two cells, Gauss points, the left and the right side fixed as in the tutorial. -/

/-- The problem of the example. -/
noncomputable def exSource : Problem1 ℝ 4 1 4 1 2 :=
  sourceProblem 6 (rectangleMesh 2 1 2 1).1 (rectangleMesh 2 1 (2 : ℝ) 1).2 (tabulate quad4N quad4G gaussPts fun _ => 1 / 4)
    ⟨fun _ _ => quad4N ![1/2, 0], fun _ _ => quad4G ![1/2, 0], fun _ _ => 1, fun _ => ![0, -1]⟩

/-- Zero on the left and on the right side. -/
noncomputable def exSourceBcs : List (List (BCEntry ℝ)) := [[⟨[0, 1], [0, 0], [0, 0]⟩, ⟨[4, 5], [0, 0], [0, 0]⟩]]

theorem exSource_rect : OnRectangle exSource 2 1 2 1 gaussPts (fun _ => 1/4) where
  el := rfl
  points := rfl
  conn := by simp [exSource, sourceProblem, Problem1.conn, Function.comp_def]
  nodes := rfl
  Nx_pos := by decide
  Ny_pos := by decide
  Lx_pos := by norm_num
  Ly_pos := by norm_num
  faces := by intro s hs; simp [exSource, sourceProblem] at hs

theorem exSource_wfbc : WFBC exSource.fes exSourceBcs where
  len := rfl
  comps := by simp [exSourceBcs]
  vals := by simp [exSourceBcs]
  nodup := by simp [exSourceBcs]
  valid := by
    intro i fe es h1 h2 e he
    rcases i with _ | i
    · simp only [exSourceBcs, List.getElem?_cons_zero, Option.some.injEq] at h2
      simp only [Problem1.fes, List.getElem?_cons_zero, Option.some.injEq] at h1
      subst h2 h1
      simp only [List.mem_cons, List.not_mem_nil, or_false] at he
      rcases he with rfl | rfl <;> simp [exSource, sourceProblem]
    · simp [exSourceBcs] at h2

theorem exSource_gauss (a b : Fin 2) :
    ∃ q, gaussPts q = ![(![1 / 2 - √3 / 6, 1 / 2 + √3 / 6] : Fin 2 → ℝ) a,
      (![1 / 2 - √3 / 6, 1 / 2 + √3 / 6] : Fin 2 → ℝ) b] := by
  fin_cases a <;> fin_cases b
  · exact ⟨0, rfl⟩
  · exact ⟨1, rfl⟩
  · exact ⟨2, rfl⟩
  · exact ⟨3, rfl⟩

/-- Exact solvers for the example: inverse matrices, maximum norm. -/
noncomputable def exSetup (P : Problem1 ℝ nq nfq 4 1 2) (bcs : List (List (BCEntry ℝ))) :
    Setup (Fin P.cells.length → Fin nq → ℝ) P.fes (totalDofs P.fes) where
  bcs := fun _ => bcs
  res := fun θ u => (setParams P θ).flat u
  tan := fun _ _ => stiffMatrix P
  norm := fun r => ‖r‖
  solve := fun A b _ => if A.det = 0 then .error .runtime else .ok (A⁻¹.mulVec b)
  lineSearch := false
  tol := 0
  relTol := 1 / 2
  guess := 0
  adjointSolve := fun _ A b => if A.det = 0 then .error .runtime else .ok (A⁻¹.mulVec b)

theorem exSetup_is (hP : ∃ n points cells el fc, P = sourceProblem n points cells el fc) (hA : Admissible P bcs) :
    IsSourceSetup P bcs (exSetup P bcs) where
  problem := hP
  bcs := fun _ => rfl
  res := fun _ _ => rfl
  exact :=
    { norm_nonneg := fun r => norm_nonneg r
      norm_zero := fun r => norm_eq_zero
      solve := fun A b x0 x h => by
        simp only [exSetup] at h
        split_ifs at h with hd
        cases h
        rw [Matrix.mulVec_mulVec, Matrix.mul_nonsing_inv A (isUnit_iff_ne_zero.2 hd), Matrix.one_mulVec]
      solve_total := fun A b x0 hd => ⟨A⁻¹.mulVec b, by simp only [exSetup, if_neg hd]⟩
      adjoint := fun n A b x h => by
        simp only [exSetup] at h
        split_ifs at h with hd
        cases h
        rw [Matrix.mulVec_mulVec, Matrix.mul_nonsing_inv A (isUnit_iff_ne_zero.2 hd), Matrix.one_mulVec]
      adjoint_total := fun n A b hd => ⟨A⁻¹.mulVec b, by simp only [exSetup, if_neg hd]⟩
      tol := rfl
      relTol := by norm_num [exSetup]
      tangent := fun θ u => by
        have e : (exSetup P bcs).res θ = fun u => matCLM (stiffMatrix P) u + fun k => sourceWork P θ (Pi.single k 1) := by
          funext u k
          refine (source_residual hP hA.wf θ u k).trans ?_
          rw [← stiffMatrix_mulVec]
          rfl
        rw [HasJacobianAt, e]
        exact (matCLM (stiffMatrix P)).hasFDerivAt.add_const _
      bcs := fun _ => hA.bc }

/-- The example meets the hypotheses of `C100_rectangle`, and with them those of `C100_source`, `C100_stationary`,
`C100_reachable`, `C100_ambiguous`, `C100_difference` and `C100_linear`; the data are one at the two free nodes. -/
example (fuel : Nat) : {θ | (exSetup exSource exSourceBcs).fwdPred (fuel + 2) θ
    = some (.ok fun k : Fin (totalDofs exSource.fes) => if (k : Nat) = 2 ∨ (k : Nat) = 3 then 1 else 0)}.Infinite := by
  have h3 : (0 : ℝ) < √3 := Real.sqrt_pos.2 (by norm_num)
  have hne : (![1 / 2 - √3 / 6, 1 / 2 + √3 / 6] : Fin 2 → ℝ) 0 ≠ (![1 / 2 - √3 / 6, 1 / 2 + √3 / 6] : Fin 2 → ℝ) 1 := by
    simp only [Matrix.cons_val_zero, Matrix.cons_val_one, Matrix.cons_val_fin_one]
    intro h
    linarith
  have hz : ZeroValues exSourceBcs := by simp [ZeroValues, exSourceBcs]
  have hfix : ∀ j ≤ 1, ¬ FreeDof (exSourceBcs.getD 0 []) j 0 := by
    intro j hj hfr
    refine hfr ⟨[0, 1], [0, 0], [0, 0]⟩ (by simp [exSourceBcs]) 0 ⟨j, ?_, ?_, ?_⟩
    all_goals
      rcases (by omega : j = 0 ∨ j = 1) with rfl | rfl <;> rfl
  have hA := rectangle_admissible exSource_rect (fun _ => by norm_num) _ _ hne exSource_gauss exSource_wfbc hz hfix
  refine (C100_rectangle exSource_rect (fun _ => by norm_num) _ _ hne hne exSource_gauss le_rfl exSource_wfbc hz hfix
    (exSetup_is ⟨_, _, _, _, _, rfl⟩ hA) _ (fun k v hp => if_neg fun hk => ?_) fuel).1
  have hfree : FreeDof (exSourceBcs.getD 0 []) k 0 := by
    intro e he v hv
    simp only [exSourceBcs, List.getD_cons_zero, List.mem_cons, List.not_mem_nil, or_false] at he
    obtain ⟨m, h1, -, -⟩ := hv
    rcases hk with hk | hk <;> rw [hk] at h1 <;> rcases he with rfl | rfl <;>
      rcases m with _ | _ | m <;> simp at h1
  have hf : Prescribed exSource.fes exSourceBcs k none :=
    .free 0 k 0 _ _ rfl rfl (by show (k : Nat) < 6; omega) Nat.one_pos
      (by have := dofNum_single exSource k 0; omega) hfree
  have := prescribed_unique exSource.fes exSourceBcs exSource_wfbc k _ _ hf hp
  cases this

/-- The index of the tutorial, `[10, 3]`, lies outside the array of the example: the check returns zero. -/
example (J : (Fin 2 → Fin 4 → ℝ) → Option (Except Err ℝ)) (θ : Fin 2 → Fin 4 → ℝ) (h a : ℝ) (hJ : J θ = some (.ok a)) :
    fdQuotient J θ 10 3 h = some (.ok 0) :=
  (C100_index J θ 10 3 h a).1 (by omega) (by omega) (.inl (by omega)) hJ

end JaxFem.Inverse
