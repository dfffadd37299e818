import Verif.Thm.C112_Reverse
import Verif.Thm.C88_Problem
import Verif.Thm.C89_Stress
import Verif.Thm.C92_Design
import Verif.Thm.C107_Rows

/-!
# C112: the rotation that the supports of the sensitivity scripts leave free
-/

namespace JaxFem.Sensitivity

open scoped Topology BigOperators

variable {IV : Type} {nq nfq nn : Nat}

/-! ### Helper lemmas -/

theorem axial_rotation (w : ℝ) : IsRotation (axial w) := by
  have h := Real.sin_sq_add_cos_sq w
  refine ⟨?_, ?_⟩
  · ext i j
    fin_cases i <;> fin_cases j <;> simp [axial, Matrix.mul_apply, Fin.sum_univ_three] <;> nlinarith
  · simp [axial, Matrix.det_fin_three]
    nlinarith

theorem dof_lt (P : Problem1 IV nq nfq nn 3 3) {n : Nat} (hn : n < P.numTotalNodes) (c : Fin 3) :
    n * 3 + (c : Nat) < totalDofs P.fes := by
  rw [totalDofs_single]
  exact gridNode_lt hn c.2

theorem vecField_at (P : Problem1 IV nq nfq nn 3 3) (u : Fin (totalDofs P.fes) → ℝ) {n : Nat} (hn : n < P.numTotalNodes) (c : Fin 3) :
    P.vecField u n c = u ⟨n * 3 + c, dof_lt P hn c⟩ := by
  rw [Problem1.vecField, dif_pos (dof_lt P hn c)]

/-- A vector of degrees of freedom with given nodal values. -/
noncomputable def ofField (P : Problem1 IV nq nfq nn 3 3) (v : Nat → Fin 3 → ℝ) : Fin (totalDofs P.fes) → ℝ := fun k =>
  v (k / 3) ⟨k % 3, Nat.mod_lt _ (by decide)⟩

theorem vecField_ofField (P : Problem1 IV nq nfq nn 3 3) (v : Nat → Fin 3 → ℝ) {n : Nat} (hn : n < P.numTotalNodes) (c : Fin 3) :
    P.vecField (ofField P v) n c = v n c := by
  rw [vecField_at P _ hn]
  have h1 : (n * 3 + (c : Nat)) / 3 = n := by omega
  have h2 : (n * 3 + (c : Nat)) % 3 = c := by omega
  simp only [ofField, h1]
  congr 1
  exact Fin.ext h2

theorem dof_cases (P : Problem1 IV nq nfq nn 3 3) (k : Fin (totalDofs P.fes)) :
    ∃ n, ∃ hn : n < P.numTotalNodes, ∃ c : Fin 3, k = ⟨n * 3 + c, dof_lt P hn c⟩ := by
  have hk : (k : Nat) < P.numTotalNodes * 3 := (totalDofs_single P) ▸ k.2
  exact ⟨k / 3, by omega, ⟨k % 3, by omega⟩, Fin.ext (by simp; omega)⟩

theorem ext_field (P : Problem1 IV nq nfq nn 3 3) (u u' : Fin (totalDofs P.fes) → ℝ)
    (h : ∀ n < P.numTotalNodes, ∀ c, P.vecField u n c = P.vecField u' n c) : u = u' := by
  funext k
  obtain ⟨n, hn, c, rfl⟩ := dof_cases P k
  rw [← vecField_at P u hn, ← vecField_at P u' hn]
  exact h n hn c

theorem flat_entry3 (P : Problem1 IV nq nfq nn 3 3) (h : P.WF) (hm : P.massMap = none) (hs : P.surfaces = [])
    (u y : Fin (totalDofs P.fes) → ℝ) :
    ∑ k, y k * P.flat u k = P.tensorWork (P.vecField u) (P.vecField y) := by
  rw [flat_virtualWork P h, Problem1.virtualWork, Problem1.surfaceWork, hs, hm]
  simp

/-- If the stresses are rotated, so are the nodal forces. -/
theorem flat_rotated (P : Problem1 IV nq nfq nn 3 3) (h : P.WF) (hm : P.massMap = none) (hs : P.surfaces = [])
    (Q : Matrix (Fin 3) (Fin 3) ℝ) (u u' : Fin (totalDofs P.fes) → ℝ)
    (hK : ∀ c ∈ P.cells, ∀ q, Matrix.of (P.tensorMap (c.iv q) (P.gradient (P.vecField u') c.nodes q))
      = Q * Matrix.of (P.tensorMap (c.iv q) (P.gradient (P.vecField u) c.nodes q)))
    {n : Nat} (hn : n < P.numTotalNodes) (i : Fin 3) :
    P.vecField (P.flat u') n i = ∑ k, Q i k * P.vecField (P.flat u) n k := by
  have pick : ∀ (x : Fin (totalDofs P.fes) → ℝ) (w : Fin 3 → ℝ),
      ∑ k, (ofField P fun m c => if m = n then w c else 0) k * x k = ∑ c, w c * P.vecField x n c := by
    intro x w
    have : ∀ f : Fin (totalDofs P.fes) → ℝ, ∑ k, f k
        = ∑ m ∈ Finset.range P.numTotalNodes, ∑ c : Fin 3, P.vecField f m c := by
      intro f
      have e : totalDofs P.fes = P.numTotalNodes * 3 := totalDofs_single P
      have h1 : ∑ k, f k = ∑ k ∈ Finset.range (P.numTotalNodes * 3), if hk : k < totalDofs P.fes then f ⟨k, hk⟩ else 0 := by
        rw [← e, Finset.sum_range]
        exact Finset.sum_congr rfl fun k _ => by rw [dif_pos k.2]
      rw [h1, sum_range_grid]
      rfl
    rw [this, Finset.sum_eq_single n]
    · refine Finset.sum_congr rfl fun c _ => ?_
      rw [vecField_at P _ hn, vecField_at P _ hn, ← vecField_at P (ofField P _) hn, vecField_ofField P _ hn, if_pos rfl]
    · intro m hm' hmn
      refine Finset.sum_eq_zero fun c _ => ?_
      rw [vecField_at P _ (Finset.mem_range.1 hm'), ← vecField_at P (ofField P _) (Finset.mem_range.1 hm'),
        vecField_ofField P _ (Finset.mem_range.1 hm'), if_neg hmn, zero_mul]
    · intro hm'
      exact absurd (Finset.mem_range.2 hn) hm'
  have t1 := (pick (P.flat u') (Pi.single i 1)).symm.trans (flat_entry3 P h hm hs u' _)
  have t2 := (pick (P.flat u) (fun k => Q i k)).symm.trans (flat_entry3 P h hm hs u _)
  have e1 : ∑ c : Fin 3, Pi.single (M := fun _ => ℝ) i 1 c * P.vecField (P.flat u') n c = P.vecField (P.flat u') n i := by
    rw [Finset.sum_eq_single i]
    · simp
    · intro c _ hc
      simp [hc]
    · simp
  rw [e1] at t1
  rw [t1, t2, Problem1.tensorWork, Problem1.tensorWork]
  refine congrArg List.sum (List.map_congr_left fun c hc => ?_)
  rw [cellIntegral, cellIntegral]
  refine Finset.sum_congr rfl fun q _ => ?_
  congr 1
  have hrest : ∀ v v' : Nat → Fin 3 → ℝ, (∀ m < P.numTotalNodes, v m = v' m) → P.gradient v c.nodes q = P.gradient v' c.nodes q := by
    intro v v' hv
    have : restrict nn v c.nodes = restrict nn v' c.nodes := by
      ext a k
      have ha : c.nodes.getD a 0 ∈ c.nodes := by
        have ha : (a : Nat) < c.nodes.length := by rw [h.cell_length c hc]; exact a.2
        rw [List.getD_eq_getElem _ _ ha]
        exact List.getElem_mem ha
      exact congrFun (hv _ (h.cell_lt c hc _ ha)) k
    rw [Problem1.gradient, Problem1.gradient, this]
  rw [hrest (P.vecField (ofField P fun m c => if m = n then Pi.single (M := fun _ => ℝ) i 1 c else 0))
      (fun m c => if m = n then Pi.single (M := fun _ => ℝ) i 1 c else 0) fun m hm' => funext fun k => vecField_ofField P _ hm' k,
    hrest (P.vecField (ofField P fun m c => if m = n then Q i c else 0)) (fun m c => if m = n then Q i c else 0)
      fun m hm' => funext fun k => vecField_ofField P _ hm' k]
  have e2 : P.gradient (fun m k => if m = n then Q i k else 0) c.nodes q
      = Q.transpose * P.gradient (fun m k => if m = n then Pi.single (M := fun _ => ℝ) i 1 k else 0) c.nodes q := by
    rw [← Hyper.gradient_mul]
    congr 1
    funext m k
    by_cases hm : m = n
    · simp only [if_pos hm, Matrix.transpose_apply]
      rw [Finset.sum_eq_single i]
      · simp
      · intro l _ hl
        simp [hl]
      · simp
    · simp [hm]
  have hc1 : ∀ A B : Matrix (Fin 3) (Fin 3) ℝ, contract (fun i j => A i j) (fun i j => B i j) = (A * B.transpose).trace := by
    intro A B
    simp only [contract, Matrix.trace, Matrix.diag_apply, Matrix.mul_apply, Matrix.transpose_apply]
  have h1 := hc1 (Matrix.of (P.tensorMap (c.iv q) (P.gradient (P.vecField u') c.nodes q)))
    (P.gradient (fun m k => if m = n then Pi.single (M := fun _ => ℝ) i 1 k else 0) c.nodes q)
  have h2 := hc1 (Matrix.of (P.tensorMap (c.iv q) (P.gradient (P.vecField u) c.nodes q)))
    (P.gradient (fun m k => if m = n then Q i k else 0) c.nodes q)
  refine h1.trans (Eq.trans ?_ h2.symm)
  rw [hK c hc q, e2, Matrix.transpose_mul, Matrix.transpose_transpose, Matrix.mul_assoc, Matrix.trace_mul_comm, ← Matrix.mul_assoc]

/-- Deformation gradients of a turned configuration. -/
theorem defGrad_turned (P : Problem1 IV nq nfq nn 3 3) (h : P.WF) (hu : P.el.Unity) (hreg : RegularMesh P) (w : ℝ)
    (u u' : Fin (totalDofs P.fes) → ℝ) (ht : Turned P w u u') (c : CellSpec IV nq) (hc : c ∈ P.cells) (q : Fin nq) :
    P.defGrad (P.vecField u') c.nodes q = axial w * P.defGrad (P.vecField u) c.nodes q := by
  refine Hyper.defGrad_moved P hu (axial w) 0 _ _ c.nodes (h.cell_length c hc) q (hreg c hc q) fun a ha i => ?_
  have := congrFun (ht a (h.cell_lt c hc a ha)) i
  simp only [place, Matrix.mulVec, dotProduct] at this
  rw [this, Pi.zero_apply, add_zero]

theorem flat_turned (P : Problem1 IV nq nfq nn 3 3) (h : P.WF) (hm : P.massMap = none) (hs : P.surfaces = [])
    (hu : P.el.Unity) (hreg : RegularMesh P) (hT : AxialIndifferent P.tensorMap) (w : ℝ) (u u' : Fin (totalDofs P.fes) → ℝ)
    (ht : Turned P w u u') {n : Nat} (hn : n < P.numTotalNodes) (i : Fin 3) :
    P.vecField (P.flat u') n i = ∑ k, axial w i k * P.vecField (P.flat u) n k :=
  flat_rotated P h hm hs (axial w) u u' (fun c hc q => hT w (c.iv q) _ _ (defGrad_turned P h hu hreg w u u' ht c hc q)) hn i

/-- The turned configuration. -/
noncomputable def turn (P : Problem1 IV nq nfq nn 3 3) (u : Fin (totalDofs P.fes) → ℝ) (w : ℝ) : Fin (totalDofs P.fes) → ℝ :=
  ofField P fun n i => (axial w).mulVec (place P u n) i - P.points.getD n 0 i

theorem turn_turned (P : Problem1 IV nq nfq nn 3 3) (u : Fin (totalDofs P.fes) → ℝ) (w : ℝ) : Turned P w u (turn P u w) := by
  intro n hn
  funext i
  rw [place, turn, vecField_ofField P _ hn]
  ring

theorem axial_zero : axial 0 = 1 := by
  ext i j
  fin_cases i <;> fin_cases j <;> simp [axial]

theorem turn_zero (P : Problem1 IV nq nfq nn 3 3) (u : Fin (totalDofs P.fes) → ℝ) : turn P u 0 = u := by
  refine ext_field P _ _ fun n hn c => ?_
  rw [turn, vecField_ofField P _ hn, axial_zero, Matrix.one_mulVec, place]
  ring

/-- Velocity of the rotation. -/
noncomputable def spin (P : Problem1 IV nq nfq nn 3 3) (u : Fin (totalDofs P.fes) → ℝ) : Fin (totalDofs P.fes) → ℝ :=
  ofField P fun n => ![-place P u n 1, place P u n 0, 0]

theorem spin_isSpin (P : Problem1 IV nq nfq nn 3 3) (u : Fin (totalDofs P.fes) → ℝ) : IsSpin P u (spin P u) := fun n hn =>
  funext fun c => vecField_ofField P _ hn c

theorem isSpin_eq (P : Problem1 IV nq nfq nn 3 3) (u m : Fin (totalDofs P.fes) → ℝ) (h : IsSpin P u m) : m = spin P u :=
  ext_field P _ _ fun n hn c => by rw [h n hn, spin_isSpin P u n hn]

theorem turn_deriv (P : Problem1 IV nq nfq nn 3 3) (u : Fin (totalDofs P.fes) → ℝ) : HasDerivAt (turn P u) (spin P u) 0 := by
  rw [hasDerivAt_pi]
  intro k
  obtain ⟨n, hn, c, rfl⟩ := dof_cases P k
  have e1 : (fun w => turn P u w ⟨n * 3 + c, dof_lt P hn c⟩)
      = fun w => (axial w).mulVec (place P u n) c - P.points.getD n 0 c := by
    funext w
    rw [← vecField_at P (turn P u w) hn, turn, vecField_ofField P _ hn]
  have e2 : spin P u ⟨n * 3 + c, dof_lt P hn c⟩ = (![-place P u n 1, place P u n 0, 0] : Fin 3 → ℝ) c := by
    rw [← vecField_at P (spin P u) hn, spin, vecField_ofField P _ hn]
  rw [e1, e2]
  refine HasDerivAt.sub_const _ ?_
  have hc : HasDerivAt Real.cos 0 0 := by simpa using Real.hasDerivAt_cos 0
  have hs : HasDerivAt Real.sin 1 0 := by simpa using Real.hasDerivAt_sin 0
  clear e1 e2
  generalize place P u n = y
  fin_cases c
  · have h1 : HasDerivAt (fun w => Real.cos w * y 0 - Real.sin w * y 1) (0 * y 0 - 1 * y 1) 0 :=
      (hc.mul_const _).sub (hs.mul_const _)
    have e : (fun w => (axial w).mulVec y 0) = fun w => Real.cos w * y 0 - Real.sin w * y 1 := by
      funext w
      simp [axial, Matrix.mulVec, dotProduct, Fin.sum_univ_three]
      ring
    show HasDerivAt (fun w => (axial w).mulVec y 0) (-y 1) 0
    rw [e]
    simpa using h1
  · have h1 : HasDerivAt (fun w => Real.sin w * y 0 + Real.cos w * y 1) (1 * y 0 + 0 * y 1) 0 :=
      (hs.mul_const _).add (hc.mul_const _)
    have e : (fun w => (axial w).mulVec y 1) = fun w => Real.sin w * y 0 + Real.cos w * y 1 := by
      funext w
      simp [axial, Matrix.mulVec, dotProduct, Fin.sum_univ_three]
    show HasDerivAt (fun w => (axial w).mulVec y 1) (y 0) 0
    rw [e]
    simpa using h1
  · have e : (fun w => (axial w).mulVec y 2) = fun _ => y 2 := by
      funext w
      simp [axial, Matrix.mulVec, dotProduct, Fin.sum_univ_three]
    show HasDerivAt (fun w => (axial w).mulVec y 2) 0 0
    rw [e]
    exact hasDerivAt_const _ _

/-! ### The conditions of the scripts -/

/-- What the conditions demand. -/
noncomputable def wanted (disp : ℝ) (x : Fin 3 → ℝ) (c : Fin 3) : Option ℝ :=
  open Classical in
  if c = 2 then (if Near (x 2) 1 then some disp else if Near (x 2) 0 then some 0 else none)
  else if AtCorner x then some 0 else none

theorem near_exclusive (a : ℝ) (h0 : Near a 0) (h1 : Near a 1) : False := by
  unfold Near at h0 h1
  rw [abs_le] at h0 h1
  norm_num at h0 h1
  linarith [h0.2, h1.1]

theorem holds_corner (x : Fin 3 → ℝ) (n : Nat) : corner.holds x n ↔ AtCorner x := by
  simp only [corner, LocFn.holds, decide_eq_true_eq]
  rfl

theorem holds_bottom (x : Fin 3 → ℝ) (n : Nat) : bottom.holds x n ↔ Near (x 2) 0 := by
  simp only [bottom, LocFn.holds, decide_eq_true_eq]
  rfl

theorem holds_top (x : Fin 3 → ℝ) (n : Nat) : top.holds x n ↔ Near (x 2) 1 := by
  simp only [top, LocFn.holds, decide_eq_true_eq]
  rfl

theorem concerns_iff (points : List (Fin 3 → ℝ)) (it : UserBC.Cond (Fin 3 → ℝ) ℝ) (n c : Nat) (x : Fin 3 → ℝ)
    (hx : points[n]? = some x) : UserBC.Concerns points it n c ↔ it.2.1 = c ∧ it.1.holds x n := by
  constructor
  · rintro ⟨h1, p, h2, h3⟩
    rw [hx] at h2
    cases h2
    exact ⟨h1, h3⟩
  · rintro ⟨h1, h3⟩
    exact ⟨h1, x, hx, h3⟩

theorem demands_wanted (points : List (Fin 3 → ℝ)) (disp : ℝ) (n : Nat) (c : Fin 3) (x : Fin 3 → ℝ) (hx : points[n]? = some x) :
    UserBC.Demands points (UserBC.conds (info disp)) n c (wanted disp x c) := by
  have hcon : ∀ it, UserBC.Concerns points it n c ↔ it.2.1 = (c : Nat) ∧ it.1.holds x n := fun it => concerns_iff points it n c x hx
  have hl : UserBC.conds (info disp) = [(corner, 0, fun _ => 0), (corner, 1, fun _ => 0), (bottom, 2, fun _ => 0),
      (top, 2, fun _ => disp)] := rfl
  rw [hl]
  fin_cases c
  · by_cases hc : AtCorner x
    · have e : wanted disp x 0 = some 0 := by simp [wanted, hc]
      show UserBC.Demands points _ n 0 (wanted disp x 0)
      rw [e]
      exact .value [] (corner, 0, fun _ => 0) _ x rfl rfl hx ((holds_corner x n).2 hc) (by
        intro it hit
        rw [hcon]
        simp at hit
        rcases hit with rfl | rfl | rfl <;> simp)
    · have e : wanted disp x 0 = none := by simp [wanted, hc]
      show UserBC.Demands points _ n 0 (wanted disp x 0)
      rw [e]
      refine .free fun it hit => ?_
      rw [hcon]
      simp at hit
      rcases hit with rfl | rfl | rfl | rfl
      · rw [holds_corner]; exact fun h => hc h.2
      all_goals simp
  · by_cases hc : AtCorner x
    · have e : wanted disp x 1 = some 0 := by simp [wanted, hc]
      show UserBC.Demands points _ n 1 (wanted disp x 1)
      rw [e]
      exact .value [(corner, 0, fun _ => 0)] (corner, 1, fun _ => 0) _ x rfl rfl hx ((holds_corner x n).2 hc) (by
        intro it hit
        rw [hcon]
        simp at hit
        rcases hit with rfl | rfl <;> simp)
    · have e : wanted disp x 1 = none := by simp [wanted, hc]
      show UserBC.Demands points _ n 1 (wanted disp x 1)
      rw [e]
      refine .free fun it hit => ?_
      rw [hcon]
      simp at hit
      rcases hit with rfl | rfl | rfl | rfl
      · simp
      · rw [holds_corner]; exact fun h => hc h.2
      all_goals simp
  · show UserBC.Demands points _ n 2 (wanted disp x 2)
    by_cases h1 : Near (x 2) 1
    · have e : wanted disp x 2 = some disp := by simp [wanted, h1]
      rw [e]
      exact .value [(corner, 0, fun _ => 0), (corner, 1, fun _ => 0), (bottom, 2, fun _ => 0)] (top, 2, fun _ => disp) [] x rfl rfl
        hx ((holds_top x n).2 h1) (by simp)
    · by_cases h0 : Near (x 2) 0
      · have e : wanted disp x 2 = some 0 := by simp [wanted, h1, h0]
        rw [e]
        exact .value [(corner, 0, fun _ => 0), (corner, 1, fun _ => 0)] (bottom, 2, fun _ => 0) [(top, 2, fun _ => disp)] x rfl rfl
          hx ((holds_bottom x n).2 h0) (by
            intro it hit
            rw [hcon]
            simp at hit
            subst hit
            rw [holds_top]
            exact fun h => h1 h.2)
      · have e : wanted disp x 2 = none := by simp [wanted, h1, h0]
        rw [e]
        refine .free fun it hit => ?_
        rw [hcon]
        simp at hit
        rcases hit with rfl | rfl | rfl | rfl
        · simp
        · simp
        · rw [holds_bottom]; exact fun h => h0 h.2
        · rw [holds_top]; exact fun h => h1 h.2

theorem bcs_builds (P : Problem1 IV nq nfq nn 3 3) (h : P.WF) (disp : ℝ) :
    UserBC.problemBCs (.single P.points (info disp)) = .ok (bcsOf P.points disp) ∧
      UserBC.Suits P.fes (.single P.points (info disp)) := by
  have hread : UserBC.Readable (info disp) := by
    refine ⟨rfl, rfl, ?_⟩
    intro loc hl
    simp at hl
    rcases hl with rfl | rfl | rfl <;> trivial
  have hcomp : ∀ it ∈ UserBC.conds (info disp), it.2.1 < 3 := by
    intro it hit
    simp [UserBC.conds, info] at hit
    rcases hit with rfl | rfl | rfl | rfl <;> simp
  obtain ⟨bcs, hb⟩ := (UserBC.C107_builds (.single P.points (info disp))).2 (by
    intro i hi'
    have : i = 0 := by simpa [UserBC.Args.meshes] using hi'
    subst this
    exact ⟨info disp, rfl, hread⟩)
  refine ⟨?_, rfl, ?_, ?_⟩
  · cases hd : dirichletBC P.points (info disp) with
    | error e =>
      have : UserBC.problemBCs (.single P.points (info disp)) = .error e := by
        show (dirichletBC P.points (info disp) >>= fun b => Except.ok [UserBC.entries b]) = _
        rw [hd]
        rfl
      rw [this] at hb
      cases hb
    | ok b =>
      show (dirichletBC P.points (info disp) >>= fun b => Except.ok [UserBC.entries b]) = _
      rw [bcsOf, hd]
      rfl
  · intro i fe pts h1 h2
    have h0 : i = 0 := by
      have := (List.getElem?_eq_some_iff.1 h1).1
      simpa [Problem1.fes] using this
    subst h0
    have e1 : fe = ⟨P.numTotalNodes, 3, nn, P.conn⟩ := by simpa [Problem1.fes] using h1.symm
    have e2 : pts = P.points := by simpa [UserBC.Args.meshes] using h2.symm
    rw [e1, e2]
    exact h.points
  · intro i fe info' h1 h2 it hit
    have h0 : i = 0 := by
      have := (List.getElem?_eq_some_iff.1 h1).1
      simpa [Problem1.fes] using this
    subst h0
    have e1 : fe = ⟨P.numTotalNodes, 3, nn, P.conn⟩ := by simpa [Problem1.fes] using h1.symm
    have e2 : info' = info disp := by simpa [UserBC.Args.given] using h2.symm
    rw [e2] at hit
    rw [e1]
    exact hcomp it hit

theorem bcs_wf (P : Problem1 IV nq nfq nn 3 3) (h : P.WF) (disp : ℝ) : WFBC P.fes (bcsOf P.points disp) :=
  (UserBC.C107_conditions P.fes _ (bcs_builds P h disp).2 _ (bcs_builds P h disp).1).1

theorem point_exists (P : Problem1 IV nq nfq nn 3 3) (h : P.WF) {n : Nat} (hn : n < P.numTotalNodes) :
    ∃ x, P.points[n]? = some x := ⟨_, List.getElem?_eq_getElem (by rw [h.points]; exact hn)⟩

theorem prescribed_iff (P : Problem1 IV nq nfq nn 3 3) (h : P.WF) (disp : ℝ) {n : Nat} (hn : n < P.numTotalNodes) (c : Fin 3)
    (x : Fin 3 → ℝ) (hx : P.points[n]? = some x) (o : Option ℝ) :
    Prescribed P.fes (bcsOf P.points disp) (n * 3 + c) o ↔ o = wanted disp x c := by
  have hb := bcs_builds P h disp
  have hw := bcs_wf P h disp
  have hiff := (UserBC.C107_conditions P.fes _ hb.2 _ hb.1).2 0 n c ⟨P.numTotalNodes, 3, nn, P.conn⟩ P.points (info disp)
    (by simp [Problem1.fes]) rfl rfl hn c.2
  rw [dofNum_single] at hiff
  have hp := (hiff _).2 (demands_wanted P.points disp n c x hx)
  constructor
  · intro ho
    exact prescribed_unique P.fes _ hw _ _ _ ho hp
  · rintro rfl
    exact hp

/-! ### Property theorems -/

/-- **C112 (conditions).** The boundary value problem of a step is: the cube is pulled and held at one corner. -/
theorem C112_conditions (P : Problem1 IV nq nfq nn 3 3) (h : P.WF) (disp : ℝ)
    (res : (Fin (totalDofs P.fes) → ℝ) → Fin (totalDofs P.fes) → ℝ) (u : Fin (totalDofs P.fes) → ℝ) :
    WFBC P.fes (bcsOf P.points disp) ∧ (SolvesBVP P.fes (bcsOf P.points disp) res u ↔ Pulled P disp (res u) u) := by
  refine ⟨bcs_wf P h disp, ?_⟩
  constructor
  · rintro ⟨h1, h2⟩ n hn x hx
    have hv : ∀ (c : Fin 3) v, wanted disp x c = some v → P.vecField u n c = v := fun c v hw => by
      rw [vecField_at P u hn]
      exact h1 _ v ((prescribed_iff P h disp hn c x hx _).2 hw.symm)
    have hf : ∀ c : Fin 3, wanted disp x c = none → P.vecField (res u) n c = 0 := fun c hw => by
      rw [vecField_at P _ hn]
      exact h2 _ ((prescribed_iff P h disp hn c x hx _).2 hw.symm)
    refine ⟨fun hc => ⟨hv 0 0 (by simp [wanted, hc]), hv 1 0 (by simp [wanted, hc])⟩,
      fun hc => ⟨hf 0 (by simp [wanted, hc]), hf 1 (by simp [wanted, hc])⟩, fun h0 => hv 2 0 ?_, fun h1 => hv 2 disp ?_,
      fun h0 h1 => hf 2 ?_⟩
    · simp [wanted, h0]
      exact fun h1 => (near_exclusive _ h0 h1).elim
    · simp [wanted, h1]
    · simp [wanted, h0, h1]
  · intro hp
    have key : ∀ k : Fin (totalDofs P.fes), ∃ n, ∃ hn : n < P.numTotalNodes, ∃ c : Fin 3, ∃ x,
        k = ⟨n * 3 + c, dof_lt P hn c⟩ ∧ P.points[n]? = some x := by
      intro k
      obtain ⟨n, hn, c, rfl⟩ := dof_cases P k
      obtain ⟨x, hx⟩ := point_exists P h hn
      exact ⟨n, hn, c, x, rfl, hx⟩
    have c01 : ∀ c : Fin 3, c ≠ 2 → c = 0 ∨ c = 1 := by decide
    refine ⟨fun k v hk => ?_, fun k hk => ?_⟩
    · obtain ⟨n, hn, c, x, rfl, hx⟩ := key k
      have hw := (prescribed_iff P h disp hn c x hx _).1 hk
      obtain ⟨p1, p2, p3, p4, p5⟩ := hp n hn x hx
      rw [← vecField_at P u hn]
      by_cases hc : c = 2
      · subst hc
        by_cases h1 : Near (x 2) 1
        · simp [wanted, h1] at hw; rw [p4 h1, hw]
        · by_cases h0 : Near (x 2) 0
          · simp [wanted, h1, h0] at hw; rw [p3 h0, hw]
          · simp [wanted, h1, h0] at hw
      · by_cases ha : AtCorner x
        · simp [wanted, hc, ha] at hw
          rcases c01 c hc with rfl | rfl
          · rw [(p1 ha).1, hw]
          · rw [(p1 ha).2, hw]
        · simp [wanted, hc, ha] at hw
    · obtain ⟨n, hn, c, x, rfl, hx⟩ := key k
      have hw := (prescribed_iff P h disp hn c x hx _).1 hk
      obtain ⟨p1, p2, p3, p4, p5⟩ := hp n hn x hx
      rw [← vecField_at P (res u) hn]
      by_cases hc : c = 2
      · subst hc
        by_cases h1 : Near (x 2) 1
        · simp [wanted, h1] at hw
        · by_cases h0 : Near (x 2) 0
          · simp [wanted, h1, h0] at hw
          · exact p5 h0 h1
      · by_cases ha : AtCorner x
        · simp [wanted, hc, ha] at hw
        · rcases c01 c hc with rfl | rfl
          · exact (p2 ha).1
          · exact (p2 ha).2

/-- **C112 (free rotation).** The supports do not exclude rotations about the third axis: a solution that is turned by any angle
is a solution, for every stress that is indifferent to such rotations; if a node is off the axis, other angles than multiples
of the full turn give other solutions. -/
theorem C112_rotation (P : Problem1 IV nq nfq nn 3 3) (h : P.WF) (hm : P.massMap = none) (hs : P.surfaces = [])
    (hu : P.el.Unity) (hreg : RegularMesh P) (hT : AxialIndifferent P.tensorMap) (hax : CornerOnAxis P) (disp w : ℝ)
    (u : Fin (totalDofs P.fes) → ℝ) (hp : Pulled P disp (P.flat u) u) :
    (∃ u', Turned P w u u') ∧ ∀ u', Turned P w u u' → Pulled P disp (P.flat u') u' ∧
      (OffAxis P u → Real.cos w ≠ 1 → u' ≠ u) := by
  refine ⟨⟨_, turn_turned P u w⟩, fun u' ht => ⟨?_, ?_⟩⟩
  · intro n hn x hx
    obtain ⟨p1, p2, p3, p4, p5⟩ := hp n hn x hx
    have hgd : P.points.getD n 0 = x := by simp [List.getD_eq_getElem?_getD, hx]
    have hpl : ∀ i, x i + P.vecField u' n i = (axial w).mulVec (fun i => x i + P.vecField u n i) i := by
      intro i
      have := congrFun (ht n hn) i
      have e : place P u n = fun i => x i + P.vecField u n i := by
        funext i
        rw [place, hgd]
      rw [e] at this
      rw [← this, place, hgd]
    have hz : P.vecField u' n 2 = P.vecField u n 2 := by
      have := hpl 2
      simp [axial, Matrix.mulVec, dotProduct, Fin.sum_univ_three] at this
      linarith
    have hf : ∀ i, P.vecField (P.flat u') n i = ∑ k, axial w i k * P.vecField (P.flat u) n k :=
      fun i => flat_turned P h hm hs hu hreg hT w u u' ht hn i
    have hf2 : P.vecField (P.flat u') n 2 = P.vecField (P.flat u) n 2 := by
      rw [hf]
      simp [axial, Fin.sum_univ_three]
    refine ⟨fun hc => ?_, fun hc => ?_, fun h0 => by rw [hz, p3 h0], fun h1 => by rw [hz, p4 h1], fun h0 h1 => by rw [hf2, p5 h0 h1]⟩
    · obtain ⟨x0, x1⟩ := hax n hn x hx hc
      obtain ⟨u0, u1⟩ := p1 hc
      have e0 := hpl 0
      have e1 := hpl 1
      simp [axial, Matrix.mulVec, dotProduct, Fin.sum_univ_three, x0, x1, u0, u1] at e0 e1
      exact ⟨e0, e1⟩
    · obtain ⟨f0, f1⟩ := p2 hc
      rw [hf, hf]
      simp [axial, Fin.sum_univ_three, f0, f1]
  · rintro ⟨n, hn, hoff⟩ hw rfl
    have h2 := Real.sin_sq_add_cos_sq w
    have e0 := congrFun (ht n hn) 0
    have e1 := congrFun (ht n hn) 1
    generalize place P u' n = y at hoff e0 e1
    simp [axial, Matrix.mulVec, dotProduct, Fin.sum_univ_three] at e0 e1
    have hk : (1 - Real.cos w) * (y 0 ^ 2 + y 1 ^ 2) = 0 := by linear_combination y 0 * e0 + y 1 * e1
    rcases mul_eq_zero.1 hk with hk | hk
    · exact hw (by linarith)
    · rcases hoff with ho | ho
      · have : 0 < y 0 ^ 2 := by positivity
        nlinarith [sq_nonneg (y 1)]
      · have : 0 < y 1 ^ 2 := by positivity
        nlinarith [sq_nonneg (y 0)]

/-- **C112 (singular tangent).** At every solution the row-eliminated tangent annihilates the velocity of the rotation; if a node
is off the axis, it is singular, for every value that is prescribed at the top. -/
theorem C112_singular (P : Problem1 IV nq nfq nn 3 3) (h : P.WF) (hm : P.massMap = none) (hs : P.surfaces = [])
    (hu : P.el.Unity) (hreg : RegularMesh P) (hT : AxialIndifferent P.tensorMap) (hax : CornerOnAxis P) (disp disp' : ℝ)
    (u : Fin (totalDofs P.fes) → ℝ) (hp : Pulled P disp (P.flat u) u)
    (A : Matrix (Fin (totalDofs P.fes)) (Fin (totalDofs P.fes)) ℝ) (hA : HasJacobianAt P.flat A u) :
    (∀ m, IsSpin P u m → (elimRows P.fes (bcsOf P.points disp') A).mulVec m = 0) ∧
    (OffAxis P u → (elimRows P.fes (bcsOf P.points disp') A).det = 0) ∧
    ∀ v l, (elimRows P.fes (bcsOf P.points disp') A).transpose.mulVec l = v → ∀ m, IsSpin P u m → dotProduct v m = 0 := by
  have hrows : elimRows P.fes (bcsOf P.points disp') A = elimRows P.fes (bcsOf P.points disp) A := by
    ext i j
    obtain ⟨n, hn, c, rfl⟩ := dof_cases P i
    obtain ⟨x, hx⟩ := point_exists P h hn
    have q1 := (prescribed_iff P h disp hn c x hx _).2 rfl
    have q2 := (prescribed_iff P h disp' hn c x hx _).2 rfl
    have hsome : (wanted disp x c = none ∧ wanted disp' x c = none) ∨
        ∃ v v', wanted disp x c = some v ∧ wanted disp' x c = some v' := by
      unfold wanted
      split_ifs <;> simp
    rcases hsome with ⟨a1, a2⟩ | ⟨v, v', a1, a2⟩
    · rw [a1] at q1
      rw [a2] at q2
      rw [(elimRows_spec P.fes _ (bcs_wf P h disp') A _ j).1 q2, (elimRows_spec P.fes _ (bcs_wf P h disp) A _ j).1 q1]
    · rw [a1] at q1
      rw [a2] at q2
      rw [(elimRows_spec P.fes _ (bcs_wf P h disp') A _ j).2 _ q2, (elimRows_spec P.fes _ (bcs_wf P h disp) A _ j).2 _ q1]
  have hker : (elimRows P.fes (bcsOf P.points disp') A).mulVec (spin P u) = 0 := by
    rw [hrows]
    have hd := C17_derivative P.fes (bcsOf P.points disp) (bcs_wf P h disp) 1 P.flat A u hA
    have hcurve : HasDerivAt (fun w => applyBcV P.fes (bcsOf P.points disp) 1 (P.flat (turn P u w)) (turn P u w))
        (matCLM (elimRows P.fes (bcsOf P.points disp) A) (spin P u)) 0 := by
      have hd' : HasFDerivAt (fun x => applyBcV P.fes (bcsOf P.points disp) 1 (P.flat x) x)
          (matCLM (elimRows P.fes (bcsOf P.points disp) A)) (turn P u 0) := by
        rw [turn_zero]
        exact hd
      exact hd'.comp_hasDerivAt (0 : ℝ) (turn_deriv P u)
    have hzero : (fun w => applyBcV P.fes (bcsOf P.points disp) 1 (P.flat (turn P u w)) (turn P u w)) = fun _ => 0 := by
      funext w
      have hp' := ((C112_rotation P h hm hs hu hreg hT hax disp w u hp).2 _ (turn_turned P u w)).1
      have := ((C112_conditions P h disp P.flat (turn P u w)).2).2 hp'
      exact (constraint_zero_iff P.fes (fun _ : Unit => bcsOf P.points disp) (fun _ => P.flat) () (bcs_wf P h disp) _).2 this
    rw [hzero] at hcurve
    exact hcurve.unique (hasDerivAt_const _ _)
  have hm0 : ∀ m, IsSpin P u m → (elimRows P.fes (bcsOf P.points disp') A).mulVec m = 0 := fun m hm' => by
    rw [isSpin_eq P u m hm']
    exact hker
  refine ⟨hm0, fun ⟨n, hn, hoff⟩ => ?_, fun v l hl m hm' => ?_⟩
  · refine Matrix.exists_mulVec_eq_zero_iff.1 ⟨spin P u, fun h0 => ?_, hker⟩
    have e := spin_isSpin P u n hn
    rw [h0] at e
    have z : P.vecField 0 n = 0 := by
      funext c
      simp [Problem1.vecField]
    rw [z] at e
    have e0 := congrFun e 0
    have e1 := congrFun e 1
    simp at e0 e1
    rcases hoff with ho | ho
    · exact ho e1.symm
    · exact ho e0
  · rw [← hl, Matrix.mulVec_transpose, ← Matrix.dotProduct_mulVec, hm0 m hm', dotProduct_zero]

end JaxFem.Sensitivity
