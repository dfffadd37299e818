import Verif.Thm.C116_Patch
import Verif.Thm.C113_Reduced

/-!
C116, the elements of the code, meshes with and without hanging nodes.
-/

namespace JaxFem.Patch

open Matrix Quadrature

variable {nq : Nat}

section tables

open JaxFem

theorem tri3_tab {info : ElementInfo} (h : getElements "TRI3" = .ok info) (pts : Fin nq → Fin 2 → ℝ) (w : Fin nq → ℝ) :
    (tabulateInfo info pts w : RefElement ℝ nq 3 2) = tabulate tri3N tri3G pts w := by
  cases h
  unfold tabulateInfo tabulate
  congr 1
  · funext q a
    fin_cases a <;>
      norm_num [shapeValue, reorderedShape, basixShape, basixPoints, basixVertices, lagrangeFn, bary, extend, tri3N]
  · funext q a d
    fin_cases a <;> fin_cases d <;>
      norm_num [shapeGrad, reorderedShape, basixGrad, basixPoints, basixVertices, lagrangeGrad, bary, dbary, extend, tri3G]

theorem extend3 (p : Fin 3 → ℝ) : extend p 0 = p 0 ∧ extend p 1 = p 1 ∧ extend p 2 = p 2 := ⟨rfl, rfl, rfl⟩

theorem tet4_tab {info : ElementInfo} (h : getElements "TET4" = .ok info) (pts : Fin nq → Fin 3 → ℝ) (w : Fin nq → ℝ) :
    (tabulateInfo info pts w : RefElement ℝ nq 4 3) = tabulate tet4N tet4G pts w := by
  cases h
  unfold tabulateInfo tabulate
  congr 1
  · funext q a
    fin_cases a <;>
      norm_num [shapeValue, reorderedShape, basixShape, basixPoints, basixVertices, lagrangeFn, bary, (extend3 _).1, (extend3 _).2.1, (extend3 _).2.2, tet4N]
  · funext q a d
    fin_cases a <;> fin_cases d <;>
      norm_num [shapeGrad, reorderedShape, basixGrad, basixPoints, basixVertices, lagrangeGrad, bary, dbary, (extend3 _).1, (extend3 _).2.1, (extend3 _).2.2, tet4G]

theorem quad4_tab {info : ElementInfo} (h : getElements "QUAD4" = .ok info) (pts : Fin nq → Fin 2 → ℝ) (w : Fin nq → ℝ) :
    (tabulateInfo info pts w : RefElement ℝ nq 4 2) = tabulate quad4N quad4G pts w := by
  cases h
  unfold tabulateInfo tabulate
  congr 1
  · funext q a
    fin_cases a <;>
      norm_num [shapeValue, reorderedShape, basixShape, basixPoints, basixVertices, lagrangeFn, lag1, extend, quad4N]
  · funext q a d
    fin_cases a <;> fin_cases d <;>
      norm_num [shapeGrad, reorderedShape, basixGrad, basixPoints, basixVertices, lagrangeGrad, lag1, dlag1, extend, quad4G]

theorem hex8_tab {info : ElementInfo} (h : getElements "HEX8" = .ok info) (pts : Fin nq → Fin 3 → ℝ) (w : Fin nq → ℝ) :
    (tabulateInfo info pts w : RefElement ℝ nq 8 3) = tabulate hex8N hex8G pts w := by
  cases h
  unfold tabulateInfo tabulate
  congr 1
  · funext q a
    fin_cases a <;>
      norm_num [shapeValue, reorderedShape, basixShape, basixPoints, basixVertices, lagrangeFn, lag1, (extend3 _).1, (extend3 _).2.1, (extend3 _).2.2, hex8N]
  · funext q a d
    fin_cases a <;> fin_cases d <;>
      norm_num [shapeGrad, reorderedShape, basixGrad, basixPoints, basixVertices, lagrangeGrad, lag1, dlag1, (extend3 _).1, (extend3 _).2.1, (extend3 _).2.2, hex8G] <;> ring

end tables

theorem sum_rule (R : Rule) (dim : Nat) (F : (Fin dim → ℝ) → ℝ) :
    ∑ q : Fin R.length, (R.get q).2 * F (fun d => (R.get q).1 d) = quadSum R fun x => F fun d => x d := by
  unfold quadSum
  rw [← List.sum_ofFn]
  exact congrArg List.sum (List.ext_getElem (by simp) fun n h1 h2 => by simp)

theorem gauss_sum {m : Nat} {g : List (ℝ × ℝ)} (hg : IsGauss m g) (k : Nat) (hk : k < 2 * m) :
    (g.map fun a => a.2 * a.1 ^ k).sum = 1 / (k + 1) := hg.2 k hk

/-- **C116 (the elements of the code).** The elements TRI3 and TET4 with any quadrature rule, QUAD4 with the default rule of any
order and HEX8 with the default rule of order at least two (their default order) are elements of this kind. -/
theorem C116_elements (b : Basix) :
    (∀ rule order info R, cellRule b "TRI3" rule order = .ok (info, R) → FirstOrder (tabulated info R 3 2) ClosedEdges) ∧
    (∀ rule order info R, cellRule b "TET4" rule order = .ok (info, R) → FirstOrder (tabulated info R 4 3) (ClosedFaces tetFaces)) ∧
    (∀ order info R, cellRule b "QUAD4" .none order = .ok (info, R) → Documented b .quadrilateral (order.getD 2) →
      FirstOrder (tabulated info R 4 2) ClosedEdges) ∧
    ∀ order info R, cellRule b "HEX8" .none order = .ok (info, R) → Documented b .hexahedron (order.getD 2) → 2 ≤ order.getD 2 →
      FirstOrder (tabulated info R 8 3) (ClosedFaces hexFaces) := by
  have hinfo : ∀ {s rule order info R}, cellRule b s rule order = .ok (info, R) → getElements s = .ok info := by
    intro s rule order info R hR
    unfold cellRule at hR
    cases hg : getElements s with
    | error err => rw [hg] at hR; cases hR
    | ok info' =>
      rw [hg] at hR
      simp only [bind, Except.bind] at hR
      split at hR
      · cases hR
      split at hR
      · cases hR
      · cases hR; rfl
  refine ⟨fun rule order info R h => ?_, fun rule order info R h => ?_, fun order info R h hd => ?_, fun order info R h hd ho => ?_⟩
  · rw [tabulated, tri3_tab (hinfo h)]
    exact .tri3 _ _
  · rw [tabulated, tet4_tab (hinfo h)]
    exact .tet4 _ _
  · rw [tabulated, quad4_tab (hinfo h)]
    obtain ⟨hi, rfl⟩ := cellRule_default h
    cases hi
    have hg : IsGauss ((order.getD 2 + 2) / 2) (b.gauss ((order.getD 2 + 2) / 2)) := hd
    have hm : 1 ≤ (order.getD 2 + 2) / 2 := by omega
    have e : ∀ i j : Nat, i < 2 → j < 2 → quadSum (productRule (b.gauss ((order.getD 2 + 2) / 2)) .quadrilateral)
        (fun x => x 0 ^ i * x 1 ^ j) = 1 / (i + 1) * (1 / (j + 1)) := by
      intro i j hi hj
      rw [quadSum_product2 _ (fun t => t ^ i) fun t => t ^ j, gauss_sum hg i (by omega), gauss_sum hg j (by omega)]
    refine .quad4 _ _ ?_ ?_ ?_
    · refine (Finset.sum_congr rfl fun q _ => (mul_one _).symm).trans ((sum_rule _ 2 fun _ => 1).trans ?_)
      have h1 : (fun _ : Nat → ℝ => (1 : ℝ)) = fun x => x 0 ^ 0 * x 1 ^ 0 := by funext x; simp
      exact (congrArg _ h1).trans ((e 0 0 (by omega) (by omega)).trans (by norm_num))
    · refine (sum_rule _ 2 fun x => x 0).trans ?_
      have h1 : (fun x : Nat → ℝ => x 0) = fun x => x 0 ^ 1 * x 1 ^ 0 := by funext x; simp
      exact (congrArg _ h1).trans ((e 1 0 (by omega) (by omega)).trans (by norm_num))
    · refine (sum_rule _ 2 fun x => x 1).trans ?_
      have h1 : (fun x : Nat → ℝ => x 1) = fun x => x 0 ^ 0 * x 1 ^ 1 := by funext x; simp
      exact (congrArg _ h1).trans ((e 0 1 (by omega) (by omega)).trans (by norm_num))
  · rw [tabulated, hex8_tab (hinfo h)]
    obtain ⟨hi, rfl⟩ := cellRule_default h
    cases hi
    have hg : IsGauss ((order.getD 2 + 2) / 2) (b.gauss ((order.getD 2 + 2) / 2)) := hd
    have hm : 2 ≤ (order.getD 2 + 2) / 2 := by omega
    refine .hex8 _ _ fun i j k => ?_
    have e := quadSum_product3 (b.gauss ((order.getD 2 + 2) / 2)) (fun t => t ^ (i : Nat)) (fun t => t ^ (j : Nat)) fun t => t ^ (k : Nat)
    rw [gauss_sum hg i (by omega), gauss_sum hg j (by omega), gauss_sum hg k (by omega)] at e
    refine ((sum_rule (productRule (b.gauss ((order.getD 2 + 2) / 2)) .hexahedron) 3
      fun x => x 0 ^ (i : Nat) * x 1 ^ (j : Nat) * x 2 ^ (k : Nat)).trans e).trans ?_
    field_simp

/-- It suffices to look at the faces that occur. -/
theorem closedFaces_of_mem (faces : List Nat → List (List Nat)) (conn : List (List Nat)) (n : Nat)
    (h : ∀ g ∈ conn.flatMap faces, n ∈ g → (conn.flatMap faces).countP (fun e => decide (e ~r g))
      = (conn.flatMap faces).countP fun e => decide (e ~r g.reverse)) : ClosedFaces faces conn n := by
  intro f hf
  have hcongr : ∀ g g' : List Nat, g ~r g' → (conn.flatMap faces).countP (fun e => decide (e ~r g))
      = (conn.flatMap faces).countP fun e => decide (e ~r g') := by
    intro g g' hg
    refine List.countP_congr fun e _ => ?_
    simp only [decide_eq_true_eq]
    exact ⟨fun h => h.trans hg, fun h => h.trans hg.symm⟩
  by_cases h1 : ∃ g ∈ conn.flatMap faces, g ~r f
  · obtain ⟨g, hg, hr⟩ := h1
    rw [← hcongr g f hr, ← hcongr g.reverse f.reverse hr.reverse]
    exact h g hg (hr.mem_iff.2 hf)
  by_cases h2 : ∃ g ∈ conn.flatMap faces, g ~r f.reverse
  · obtain ⟨g, hg, hr⟩ := h2
    have hr' : g.reverse ~r f := by simpa using hr.reverse
    rw [← hcongr g _ hr, ← hcongr g.reverse f hr']
    exact (h g hg (hr.mem_iff.2 (List.mem_reverse.2 hf))).symm
  · rw [List.countP_eq_zero.2 fun g hg => by simpa using fun hr => h1 ⟨g, hg, hr⟩,
      List.countP_eq_zero.2 fun g hg => by simpa using fun hr => h2 ⟨g, hg, hr⟩]

/-! ### Meshes -/

/-- Four quadrilaterals around node 4. -/
example : ClosedEdges [[0, 3, 4, 1], [1, 4, 5, 2], [3, 6, 7, 4], [4, 7, 8, 5]] 4 ∧
    ¬ClosedEdges [[0, 3, 4, 1], [1, 4, 5, 2], [3, 6, 7, 4], [4, 7, 8, 5]] 1 := by
  constructor
  · intro m
    by_cases hm : m < 9
    · interval_cases m <;> decide +kernel
    · rw [List.countP_eq_zero.2, List.countP_eq_zero.2]
      all_goals
        intro e he
        simp only [decide_eq_true_eq]
        rintro rfl
        revert he
        have : ∀ e ∈ [[0, 3, 4, 1], [1, 4, 5, 2], [3, 6, 7, 4], [4, 7, 8, 5]].flatMap polyEdges, e.1 < 9 ∧ e.2 < 9 := by
          decide +kernel
        intro he
        have := this _ he
        dsimp only at this
        omega
  · intro h
    exact absurd (h 0) (by decide +kernel)

/-- Eight tetrahedra around node 0 (an octahedron), eight hexahedra around node 13 (a block); the other nodes are not interior. -/
example : ClosedFaces tetFaces [[0, 1, 2, 3], [0, 2, 4, 3], [0, 4, 5, 3], [0, 5, 1, 3], [0, 2, 1, 6], [0, 4, 2, 6], [0, 5, 4, 6],
    [0, 1, 5, 6]] 0 := closedFaces_of_mem _ _ _ (by decide +kernel)

example : ClosedFaces hexFaces ((List.range 2).flatMap fun i => (List.range 2).flatMap fun j => (List.range 2).map fun k =>
    [9 * i + 3 * j + k, 9 * (i + 1) + 3 * j + k, 9 * (i + 1) + 3 * (j + 1) + k, 9 * i + 3 * (j + 1) + k,
      9 * i + 3 * j + (k + 1), 9 * (i + 1) + 3 * j + (k + 1), 9 * (i + 1) + 3 * (j + 1) + (k + 1), 9 * i + 3 * (j + 1) + (k + 1)]) 13 :=
  closedFaces_of_mem _ _ _ (by decide +kernel)

theorem tri3G_val (p : Fin 2 → ℝ) : tri3G p 0 0 = -1 ∧ tri3G p 0 1 = -1 ∧ tri3G p 1 0 = 1 ∧ tri3G p 1 1 = 0 ∧ tri3G p 2 0 = 0 ∧
    tri3G p 2 1 = 1 := ⟨rfl, rfl, rfl, rfl, rfl, rfl⟩

/-- Laplace's equation on four triangles of different shapes around node 0. -/
noncomputable def fanMesh : Problem1 Unit 1 0 3 1 2 where
  numTotalNodes := 5
  points := [![1 / 4, 1 / 3], ![1, 0], ![0, 1], ![-1, 0], ![0, -1]]
  cells := [⟨[0, 1, 2], fun _ => ()⟩, ⟨[0, 2, 3], fun _ => ()⟩, ⟨[0, 3, 4], fun _ => ()⟩, ⟨[0, 4, 1], fun _ => ()⟩]
  el := tabulate tri3N tri3G (fun _ => ![1 / 3, 1 / 3]) fun _ => 1 / 2
  fc := ⟨fun _ _ _ => 0, fun _ _ _ _ => 0, fun _ _ => 0, fun _ _ => 0⟩
  tensorMap := fun _ G => G
  massMap := none
  surfaces := []

theorem fan_closed (n : Nat) (hn : n < 5) : ClosedEdges fanMesh.conn n ↔ n = 0 := by
  have hc : fanMesh.conn = [[0, 1, 2], [0, 2, 3], [0, 3, 4], [0, 4, 1]] := by simp [fanMesh, Problem1.conn]
  rw [hc]
  constructor
  · intro h
    interval_cases n
    · rfl
    · exact absurd (h 2) (by decide +kernel)
    · exact absurd (h 1) (by decide +kernel)
    · exact absurd (h 2) (by decide +kernel)
    · exact absurd (h 1) (by decide +kernel)
  · rintro rfl m
    by_cases hm : m < 5
    · interval_cases m <;> decide +kernel
    · have hlt : ∀ e ∈ [[0, 1, 2], [0, 2, 3], [0, 3, 4], [0, 4, 1]].flatMap polyEdges, e.1 < 5 ∧ e.2 < 5 := by decide +kernel
      rw [List.countP_eq_zero.2, List.countP_eq_zero.2]
      all_goals
        intro e he
        simp only [decide_eq_true_eq]
        rintro rfl
        have := hlt _ he
        dsimp only at this
        omega

/-- Whatever array with the values of `2 x + 3 y + 1` at the four outer nodes has no residual at the middle node: it is that field. -/
example (sol : List (List ℝ)) (hs : HasShapes [(5, 1)] [sol])
    (hbc : ∀ n < 5, n ≠ 0 → fieldOf 1 sol n 0 = 2 * (fanMesh.points.getD n 0) 0 + 3 * (fanMesh.points.getD n 0) 1 + 1)
    (hsol : IsSolution fanMesh (fun n _ => ClosedEdges fanMesh.conn n) sol) :
    fieldOf 1 sol 0 0 = 2 * (1 / 4) + 3 * (1 / 3) + 1 := by
  have hwf : fanMesh.WF := ⟨by simp [fanMesh], rfl, by simp [fanMesh], by simp [fanMesh], by simp [fanMesh]⟩
  have hpos : fanMesh.PositiveMeasure := by
    intro cell hc q
    simp only [fanMesh, List.mem_cons, List.not_mem_nil, or_false] at hc
    rcases hc with rfl | rfl | rfl | rfl <;>
      norm_num [fanMesh, mapJacobian, coords, Matrix.det_fin_two, Matrix.mul_apply, Fin.sum_univ_three, tabulate, (tri3G_val _).1,
        (tri3G_val _).2.1, (tri3G_val _).2.2.1, (tri3G_val _).2.2.2.1, (tri3G_val _).2.2.2.2.1, (tri3G_val _).2.2.2.2.2]
  have hmono : fanMesh.StrictlyMonotone := by
    intro iv G H hne
    have : ∃ i j, G i j ≠ H i j := by
      by_contra hcon
      push Not at hcon
      exact hne (funext fun i => funext fun j => hcon i j)
    obtain ⟨i, j, hij⟩ := this
    refine Finset.sum_pos' (fun i _ => Finset.sum_nonneg fun j _ => mul_self_nonneg _) ⟨i, Finset.mem_univ _, ?_⟩
    exact Finset.sum_pos' (fun j _ => mul_self_nonneg _) ⟨j, Finset.mem_univ _, mul_self_pos.2 (sub_ne_zero.2 hij)⟩
  have hanch : fanMesh.Anchored fun n _ => ClosedEdges fanMesh.conn n := by
    intro n hn c
    have hn : n < 5 := hn
    by_cases h0 : n = 0
    · subst h0
      refine ⟨1, fun h => absurd ((fan_closed 1 (by omega)).1 h) (by omega), by simp [fanMesh], .single ⟨[0, 1, 2], ?_, by simp, by simp⟩⟩
      simp [fanMesh, Problem1.conn]
    · exact ⟨n, fun h => h0 ((fan_closed n hn).1 h), hn, .refl⟩
  have h := (C116_solution fanMesh hwf (FirstOrder.tri3 _ _) hpos
    ((C73_determines (nq := 1) (fun _ => 1 / 2) (fun _ => ![1 / 3, 1 / 3]) fun _ _ => 0).1 (by omega)) (fun _ _ _ => rfl) hmono rfl rfl hanch
    sol hs (fun _ => ![2, 3]) (fun _ => 1) (by
      intro n hn hc i
      rw [Subsingleton.elim i 0, hbc n hn fun h => hc ((fan_closed n hn).2 h)]
      simp [Fin.sum_univ_two])).1 hsol 0 (by simp [fanMesh]) 0
  rw [h]
  simp [fanMesh, Fin.sum_univ_two]

/-- Laplace's equation on three triangles: node 3 lies in the middle of an edge of the first one. -/
noncomputable def hangingMesh : Problem1 Unit 1 0 3 1 2 where
  numTotalNodes := 5
  points := [![-1, 0], ![1, 0], ![0, -1], ![0, 0], ![0, 1]]
  cells := [⟨[0, 2, 1], fun _ => ()⟩, ⟨[0, 3, 4], fun _ => ()⟩, ⟨[3, 1, 4], fun _ => ()⟩]
  el := tabulate tri3N tri3G (fun _ => ![1 / 3, 1 / 3]) fun _ => 1 / 2
  fc := ⟨fun _ _ _ => 0, fun _ _ _ _ => 0, fun _ _ => 0, fun _ _ => 0⟩
  tensorMap := fun _ G => G
  massMap := none
  surfaces := []

/-- **C116 (hanging nodes).** The condition on the mesh cannot be dropped: with a hanging node in the middle of an edge, surrounded
by three cells of positive measure, the linear field `y` has a residual at that node. -/
theorem C116_hanging : hangingMesh.WF ∧ hangingMesh.PositiveMeasure ∧
    (∀ n < 5, fieldOf 1 [[0], [0], [-1], [0], [1]] n 0 = (hangingMesh.points.getD n 0) 1) ∧
    ¬IsSolution hangingMesh (fun n _ => n = 3) [[0], [0], [-1], [0], [1]] := by
  have hwf : hangingMesh.WF := ⟨by simp [hangingMesh], rfl, by simp [hangingMesh], by simp [hangingMesh], by simp [hangingMesh]⟩
  have hpos : hangingMesh.PositiveMeasure := by
    intro cell hc q
    simp only [hangingMesh, List.mem_cons, List.not_mem_nil, or_false] at hc
    rcases hc with rfl | rfl | rfl <;>
      simp [hangingMesh, mapJacobian, coords, Matrix.det_fin_two, Matrix.mul_apply, Fin.sum_univ_three, tabulate, (tri3G_val _).1,
        (tri3G_val _).2.1, (tri3G_val _).2.2.1, (tri3G_val _).2.2.2.1, (tri3G_val _).2.2.2.2.1, (tri3G_val _).2.2.2.2.2]
  have haff : ∀ n < 5, fieldOf 1 [[0], [0], [-1], [0], [1]] n 0 = (hangingMesh.points.getD n 0) 1 := by
    intro n hn
    interval_cases n <;> norm_num [fieldOf, hangingMesh]
  refine ⟨hwf, hpos, haff, fun hsol => ?_⟩
  have hg := (C72_galerkin hangingMesh hwf _ ⟨_, _, rfl, rfl, by simp, rfl⟩ _).1 hsol (fun n _ => if n = 3 then 1 else 0)
    (fun n c hn => if_neg hn)
  have hreg := regular_of_positive hangingMesh hpos
  have hel : FirstOrder hangingMesh.el ClosedEdges := .tri3 _ _
  have e1 : hangingMesh.virtualWork (fieldOf 1 [[0], [0], [-1], [0], [1]]) (fun n _ => if n = 3 then 1 else 0)
      = (hangingMesh.cells.map fun cell => cofSum hangingMesh.el hangingMesh.points cell.nodes (fun n => if n = 3 then 1 else 0) 1).sum
        + 0 + 0 := by
    rw [Problem1.virtualWork]
    congr 2
    rw [Problem1.tensorWork]
    congr 1
    refine List.map_congr_left fun cell hc => ?_
    rw [cellIntegral, cofSum]
    refine Finset.sum_congr rfl fun q _ => ?_
    rw [affine_gradient hangingMesh (unity hel) cell.nodes (hwf.cell_length cell hc) _ (fun _ => ![0, 1]) (fun _ => 0) (by
      intro n hn i
      rw [Subsingleton.elim i 0, haff n (hwf.cell_lt cell hc n hn)]
      simp) q (hreg _ (List.mem_map_of_mem hc) q)]
    have hm := grad_measure (coords 3 hangingMesh.points cell.nodes) (Matrix.of (hangingMesh.el.shapeGradsRef q))
      (restrict 3 (fun n (_ : Fin 1) => if n = 3 then (1 : ℝ) else 0) cell.nodes) (hreg _ (List.mem_map_of_mem hc) q) 0 1
    rw [← mul_assoc]
    congr 1
    refine Eq.trans ?_ hm
    congr 1
    simp only [contract, Fin.sum_univ_two, Finset.univ_unique, Fin.default_eq_zero, Finset.sum_singleton]
    change (0 : ℝ) * _ + 1 * _ = _
    rw [zero_mul, one_mul, zero_add]
    rfl
  rw [e1] at hg
  have e2 : ∀ cell ∈ hangingMesh.cells, cofSum hangingMesh.el hangingMesh.points cell.nodes (fun n => if n = 3 then 1 else 0) 1
      = (1 / 2) * ((polyEdges cell.nodes).map fun e => edgeTerm (fun n => if n = 3 then 1 else 0) (pos hangingMesh.points) e 1).sum := by
    intro cell hc
    refine (tri3_cell _ _ hangingMesh.points cell.nodes (hwf.cell_length cell hc) _ 1).trans ?_
    simp
  rw [List.map_congr_left e2] at hg
  norm_num [hangingMesh, polyEdges, List.range_succ, edgeTerm, pos] at hg

end JaxFem.Patch
