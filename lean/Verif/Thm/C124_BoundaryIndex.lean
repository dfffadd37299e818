import Verif.Model.BoundaryIndex
import Verif.Spec.BoundaryIndex
import Verif.Thm.C108_Mesh

/-!
# C124: boundaries given by points or by node numbers
-/

namespace JaxFem.BoundaryIndex

open FinitePlasticity (isclose)

/-! ### Helper lemmas -/

theorem close_zero {N k : Nat} (hN : N < 50000) (hk : k ≤ N) : isclose ((k : ℝ) * (1 / N)) 0 ↔ k = 0 := by
  rw [isclose, sub_zero, abs_zero, mul_zero, add_zero]
  constructor
  · intro h
    by_contra h0
    have h1 : (1 : ℝ) ≤ k := by exact_mod_cast Nat.one_le_iff_ne_zero.2 h0
    have hN0 : (0 : ℝ) < N := by exact_mod_cast (Nat.pos_of_ne_zero h0).trans_le hk
    have hN' : (N : ℝ) < 50000 := by exact_mod_cast hN
    rw [abs_of_nonneg (by positivity), mul_one_div, div_le_iff₀ hN0] at h
    norm_num at h
    linarith
  · rintro rfl
    norm_num

theorem close_one {N k : Nat} (hN0 : 0 < N) (hN : N < 50000) (hk : k ≤ N) : isclose ((k : ℝ) * (1 / N)) 1 ↔ k = N := by
  have hp : (0 : ℝ) < N := by exact_mod_cast hN0
  have hN' : (N : ℝ) < 50000 := by exact_mod_cast hN
  rw [isclose, abs_one]
  constructor
  · intro h
    by_contra h0
    have h1 : (k : ℝ) + 1 ≤ N := by exact_mod_cast Nat.lt_of_le_of_ne hk h0
    have h2 := (abs_le.1 h).1
    have h3 : (k : ℝ) * (1 / N) ≤ (N - 1) * (1 / N) := mul_le_mul_of_nonneg_right (by linarith) (by positivity)
    have h4 : ((N : ℝ) - 1) * (1 / N) = 1 - 1 / N := by field_simp
    have h5 : (1 : ℝ) / 50000 < 1 / N := one_div_lt_one_div_of_lt hp hN'
    norm_num at h2 h5
    rw [h4] at h3
    norm_num at h3
    linarith
  · rintro rfl
    rw [mul_one_div, div_self hp.ne']
    norm_num

theorem exists_node {Nx Ny n : Nat} (h : n < (Nx + 1) * (Ny + 1)) : ∃ i j, i ≤ Nx ∧ j ≤ Ny ∧ n = node Ny i j := by
  refine ⟨n / (Ny + 1), n % (Ny + 1), ?_, ?_, ?_⟩
  · have := Nat.div_lt_of_lt_mul (m := n) (n := Ny + 1) (k := Nx + 1) (by rwa [mul_comm])
    omega
  · have := Nat.mod_lt n (y := Ny + 1) (by omega)
    omega
  · rw [node, mul_comm]
    exact (Nat.div_add_mod n (Ny + 1)).symm

theorem node_lt {Nx Ny i j : Nat} (hi : i ≤ Nx) (hj : j ≤ Ny) : node Ny i j < (Nx + 1) * (Ny + 1) :=
  gridNode_lt (Nat.lt_succ_of_le hi) (Nat.lt_succ_of_le hj)

theorem onNode {Nx Ny i j : Nat} (hi : i ≤ Nx) (hj : j ≤ Ny) (loc : LocFn (Fin 2 → ℝ)) :
    OnDirichlet (mesh Nx Ny).1 loc (node Ny i j) ↔ loc.holds ![(i : ℝ) * (1 / Nx), (j : ℝ) * (1 / Ny)] (node Ny i j) := by
  have hp : (mesh Nx Ny).1[node Ny i j]? = some ![(i : ℝ) * (1 / Nx), (j : ℝ) * (1 / Ny)] := rect_point Nx Ny (1 : ℝ) 1 i j hi hj
  constructor
  · rintro ⟨p, h1, h2⟩
    rw [hp, Option.some.injEq] at h1
    exact h1 ▸ h2
  · exact fun h => ⟨_, hp, h⟩

theorem onDirichlet_lt {Nx Ny n : Nat} {loc : LocFn (Fin 2 → ℝ)} (h : OnDirichlet (mesh Nx Ny).1 loc n) :
    n < (Nx + 1) * (Ny + 1) := by
  obtain ⟨p, h1, -⟩ := h
  have := (List.getElem?_eq_some_iff.1 h1).1
  rwa [mesh, (C41_points Nx Ny (1 : ℝ) 1).1] at this

theorem nodes_unique {n n' : List Nat} (s1 : n.Pairwise (· < ·)) (s2 : n'.Pairwise (· < ·)) (h : ∀ a, a ∈ n ↔ a ∈ n') : n = n' := by
  refine List.Perm.eq_of_pairwise (le := fun a b => a < b) (fun a b _ _ h1 h2 => by omega) s1 s2 ?_
  rw [List.perm_ext_iff_of_nodup (s1.imp fun h => Nat.ne_of_lt h) (s2.imp fun h => Nat.ne_of_lt h)]
  exact h

/-- The faces of QUAD4 as sides of a grid cell. -/
theorem faceOn_iff {Nx Ny i j : Nat} (hi : i < Nx) (hj : j < Ny) (loc : LocFn (Fin 2 → ℝ)) (f : Nat) :
    FaceOn (mesh Nx Ny).1 (mesh Nx Ny).2 [[0, 1], [0, 3], [1, 2], [3, 2]] loc (cell Ny i j) f ↔ f < 4 ∧
      OnDirichlet (mesh Nx Ny).1 loc (sideEnds Ny i j f).1 ∧ OnDirichlet (mesh Nx Ny).1 loc (sideEnds Ny i j f).2 := by
  have hc : (mesh Nx Ny).2[cell Ny i j]? = some [node Ny i j, node Ny (i + 1) j, node Ny (i + 1) (j + 1), node Ny i (j + 1)] :=
    rect_cell Nx Ny (1 : ℝ) 1 i j hi hj
  have key : FaceOn (mesh Nx Ny).1 (mesh Nx Ny).2 [[0, 1], [0, 3], [1, 2], [3, 2]] loc (cell Ny i j) f ↔ ∃ face,
      [[0, 1], [0, 3], [1, 2], [3, 2]][f]? = some face ∧ ∀ a ∈ face, ∃ n, [node Ny i j, node Ny (i + 1) j,
        node Ny (i + 1) (j + 1), node Ny i (j + 1)][a]? = some n ∧ OnDirichlet (mesh Nx Ny).1 loc n := by
    constructor
    · rintro ⟨c, face, h1, h2, h3⟩
      rw [hc] at h1
      cases h1
      refine ⟨face, h2, fun a ha => ?_⟩
      obtain ⟨n, p, h4, h5, h6⟩ := h3 a ha
      exact ⟨n, h4, p, h5, h6⟩
    · rintro ⟨face, h2, h3⟩
      refine ⟨_, face, hc, h2, fun a ha => ?_⟩
      obtain ⟨n, h4, p, h5, h6⟩ := h3 a ha
      exact ⟨n, p, h4, h5, h6⟩
  rw [key]
  rcases f with _ | _ | _ | _ | f <;> simp [sideEnds, and_comm]

theorem exists_cell {Nx Ny c : Nat} (h : c < Nx * Ny) : ∃ i j, i < Nx ∧ j < Ny ∧ c = cell Ny i j := by
  have hy : 0 < Ny := Nat.pos_of_ne_zero fun h0 => by simp [h0] at h
  refine ⟨c / Ny, c % Ny, Nat.div_lt_of_lt_mul (by rwa [mul_comm]), Nat.mod_lt _ hy, ?_⟩
  rw [cell, mul_comm]
  exact (Nat.div_add_mod c Ny).symm

theorem faceOn_lt {Nx Ny c f : Nat} {F : List (List Nat)} {loc : LocFn (Fin 2 → ℝ)}
    (h : FaceOn (mesh Nx Ny).1 (mesh Nx Ny).2 F loc c f) : c < Nx * Ny := by
  obtain ⟨cl, face, h1, -⟩ := h
  have := (List.getElem?_eq_some_iff.1 h1).1
  rwa [mesh, (C41_cells Nx Ny (1 : ℝ) 1).1] at this

theorem valid (Nx Ny : Nat) : ValidFaces (mesh Nx Ny).1 (mesh Nx Ny).2 [[0, 1], [0, 3], [1, 2], [3, 2]] := by
  intro cell hc face hf a ha
  obtain ⟨h1, -, h3⟩ := (C41_indices Nx Ny (1 : ℝ) 1).1 cell hc
  have ha4 : a < cell.length := by
    rw [h1]
    simp only [List.mem_cons, List.not_mem_nil, or_false] at hf
    rcases hf with rfl | rfl | rfl | rfl <;> simp at ha <;> omega
  exact ⟨_, _, List.getElem?_eq_getElem ha4, List.getElem?_eq_getElem (h3 _ (List.getElem_mem ha4))⟩

/-- Selection for arbitrary location functions. -/
theorem faces_of (Nx Ny : Nat) (locs : List (LocFn (Fin 2 → ℝ))) (l1 l2 : LocFn (Fin 2 → ℝ)) (hl : locs = [l1, l2])
    (h1 : l1.supported) (h2 : l2.supported) :
    ∃ b1 b2, (do
      let e ← getElements "QUAD4"
      let faceInds ← elementFaceInds e
      boundaryInds (mesh Nx Ny).1 (mesh Nx Ny).2 faceInds (some locs)) = .ok [b1, b2] ∧
      b1.Pairwise Beams.faceLt ∧ b2.Pairwise Beams.faceLt ∧
      (∀ c f, (c, f) ∈ b1 ↔ FaceOn (mesh Nx Ny).1 (mesh Nx Ny).2 [[0, 1], [0, 3], [1, 2], [3, 2]] l1 c f) ∧
      ∀ c f, (c, f) ∈ b2 ↔ FaceOn (mesh Nx Ny).1 (mesh Nx Ny).2 [[0, 1], [0, 3], [1, 2], [3, 2]] l2 c f := by
  obtain ⟨bs, e1, e2, e3⟩ := C15_faces (mesh Nx Ny).1 (mesh Nx Ny).2 _ locs (valid Nx Ny) (by
    subst hl
    simp only [List.mem_cons, List.not_mem_nil, or_false, forall_eq_or_imp, forall_eq]
    exact ⟨h1, h2⟩)
  subst hl
  obtain ⟨b1, b2, rfl⟩ := List.length_eq_two.1 e2
  obtain ⟨p, m⟩ := e3 0 _ _ rfl rfl
  obtain ⟨p', m'⟩ := e3 1 _ _ rfl rfl
  refine ⟨b1, b2, ?_, p, p', m, m'⟩
  have h := Beams.quad_faces
  rcases hg : getElements "QUAD4" with e | info
  · rw [hg] at h; cases h
  rw [hg] at h
  have h' : elementFaceInds info = .ok [[0, 1], [0, 3], [1, 2], [3, 2]] := h
  show (do
    let faceInds ← elementFaceInds info
    boundaryInds (mesh Nx Ny).1 (mesh Nx Ny).2 faceInds (some [l1, l2])) = _
  rw [h']
  exact e1

/-- Faces whose nodes are those of a row. -/
theorem row_faces {Nx Ny r k f0 : Nat} (hr : r = 0 ∧ k = 0 ∧ f0 = 0 ∨ r = Ny ∧ k = Ny - 1 ∧ f0 = 3) (hy : 0 < Ny)
    (loc : LocFn (Fin 2 → ℝ))
    (hloc : ∀ i ≤ Nx, ∀ j ≤ Ny, OnDirichlet (mesh Nx Ny).1 loc (node Ny i j) ↔ j = r) (c f : Nat) :
    FaceOn (mesh Nx Ny).1 (mesh Nx Ny).2 [[0, 1], [0, 3], [1, 2], [3, 2]] loc c f ↔
      (c, f) ∈ (List.range Nx).map fun i => (cell Ny i k, f0) := by
  have hk : k < Ny := by omega
  constructor
  · intro h
    obtain ⟨i, j, hi, hj, rfl⟩ := exists_cell (faceOn_lt h)
    obtain ⟨hf, ha, hb⟩ := (faceOn_iff hi hj loc f).1 h
    rw [List.mem_map]
    refine ⟨i, List.mem_range.2 hi, ?_⟩
    have d1 := hloc i hi.le j hj.le
    have d2 := hloc (i + 1) hi j hj.le
    have d3 := hloc (i + 1) hi (j + 1) hj
    have d4 := hloc i hi.le (j + 1) hj
    rcases f with _ | _ | _ | _ | f
    · rw [sideEnds, d1] at ha
      rw [show k = j by omega, show f0 = 0 by omega]
    · rw [sideEnds, d1] at ha
      rw [sideEnds, d4] at hb
      omega
    · rw [sideEnds, d2] at ha
      rw [sideEnds, d3] at hb
      omega
    · rw [sideEnds, d4] at ha
      rw [show k = j by omega, show f0 = 3 by omega]
      all_goals simp
    · omega
  · intro h
    obtain ⟨i, hi, e⟩ := List.mem_map.1 h
    have hi := List.mem_range.1 hi
    rw [Prod.mk.injEq] at e
    obtain ⟨rfl, rfl⟩ := e
    rw [faceOn_iff hi hk]
    rcases hr with ⟨rfl, rfl, rfl⟩ | ⟨rfl, rfl, rfl⟩
    · exact ⟨by norm_num, (hloc i hi.le 0 (by omega)).2 rfl, (hloc (i + 1) hi 0 (by omega)).2 rfl⟩
    · have e : r - 1 + 1 = r := by omega
      refine ⟨by norm_num, ?_, ?_⟩
      · show OnDirichlet _ loc (node r i (r - 1 + 1))
        rw [e]; exact (hloc i hi.le r le_rfl).2 rfl
      · show OnDirichlet _ loc (node r (i + 1) (r - 1 + 1))
        rw [e]; exact (hloc (i + 1) hi r le_rfl).2 rfl

theorem row_sorted (Nx Ny k f0 : Nat) (hy : 0 < Ny) : ((List.range Nx).map fun i => (cell Ny i k, f0)).Pairwise Beams.faceLt := by
  rw [List.pairwise_map]
  refine List.pairwise_lt_range.imp fun {a b} h => Or.inl ?_
  show a * Ny + k < b * Ny + k
  have := Nat.mul_lt_mul_of_pos_right h hy
  omega

theorem onBottom {Nx Ny i j : Nat} (hN : Ny < 50000) (hi : i ≤ Nx) (hj : j ≤ Ny) :
    OnDirichlet (mesh Nx Ny).1 bottom (node Ny i j) ↔ j = 0 := by
  rw [onNode hi hj, ← close_zero hN hj]
  show decide _ = true ↔ _
  rw [decide_eq_true_iff]
  rfl

theorem onLeft {Nx Ny i j : Nat} (hN : Nx < 50000) (hi : i ≤ Nx) (hj : j ≤ Ny) :
    OnDirichlet (mesh Nx Ny).1 left (node Ny i j) ↔ i = 0 := by
  rw [onNode hi hj, ← close_zero hN hi]
  show decide _ = true ↔ _
  rw [decide_eq_true_iff]
  rfl

theorem onIndex {Nx Ny i j : Nat} (hi : i ≤ Nx) (hj : j ≤ Ny) (S : List Nat) :
    (OnDirichlet (mesh Nx Ny).1 (right S) (node Ny i j) ↔ node Ny i j ∈ S) ∧
    (OnDirichlet (mesh Nx Ny).1 (top S) (node Ny i j) ↔ node Ny i j ∈ S) := by
  rw [onNode hi hj, onNode hi hj]
  exact ⟨List.contains_iff_mem, List.contains_iff_mem⟩

theorem column {Ny n : Nat} : n ∈ List.range (Ny + 1) ↔ ∃ j ≤ Ny, n = node Ny 0 j := by
  rw [List.mem_range]
  constructor
  · exact fun h => ⟨n, by omega, by rw [node]; omega⟩
  · rintro ⟨j, hj, rfl⟩
    rw [node]
    omega

/-! ### Property theorems -/

/-- **C124 (nodes).** The first list holds the nodes of the left edge, the second the existing nodes named in the set, both in increasing
order; numbers of nodes that do not exist are ignored without an error. -/
theorem C124_nodes (Nx Ny : Nat) (hx : Nx < 50000) (S : List Nat) :
    nodeIndsList Nx Ny S = .ok [List.range (Ny + 1), (List.range ((Nx + 1) * (Ny + 1))).filter (· ∈ S)] := by
  obtain ⟨ns, vs, us, h1, h2, h3, h4, h5⟩ := C14_selection (mesh Nx Ny).1 [left, right S] [0, 0]
    [fun _ => (0 : ℝ), fun _ => 0] rfl rfl (by simp [left, right, LocFn.supported])
  rw [nodeIndsList, info, h1]
  obtain ⟨n1, n2, rfl⟩ := List.length_eq_two.1 h2
  obtain ⟨v1, v2, rfl⟩ := List.length_eq_two.1 h3
  obtain ⟨u1, u2, rfl⟩ := List.length_eq_two.1 h4
  obtain ⟨s1, m1, -⟩ := h5 0 _ _ _ _ _ _ rfl rfl rfl rfl rfl rfl
  obtain ⟨s2, m2, -⟩ := h5 1 _ _ _ _ _ _ rfl rfl rfl rfl rfl rfl
  show Except.ok [n1, n2] = _
  rw [nodes_unique s1 List.pairwise_lt_range fun a => ?_, nodes_unique s2 (List.pairwise_lt_range.filter _) fun a => ?_]
  · rw [m2, List.mem_filter, List.mem_range, decide_eq_true_iff]
    constructor
    · intro h
      have hlt := onDirichlet_lt h
      obtain ⟨i, j, hi, hj, rfl⟩ := exists_node hlt
      exact ⟨hlt, (onIndex hi hj S).1.1 h⟩
    · rintro ⟨hlt, h⟩
      obtain ⟨i, j, hi, hj, rfl⟩ := exists_node hlt
      exact (onIndex hi hj S).1.2 h
  · rw [m1, column]
    constructor
    · intro h
      obtain ⟨i, j, hi, hj, rfl⟩ := exists_node (onDirichlet_lt h)
      rw [onLeft hx hi hj] at h
      exact ⟨j, hj, by rw [h]⟩
    · rintro ⟨j, hj, rfl⟩
      exact (onLeft hx (Nat.zero_le _) hj).2 rfl

/-- **C124 (right edge).** If the set names the right edge, the second list is that of a location function that looks at the point. -/
theorem C124_right (Nx Ny : Nat) (hx0 : 0 < Nx) (hx : Nx < 50000) (S : List Nat) (hS : NamesRight Nx Ny S) :
    nodeIndsList Nx Ny S = .ok [List.range (Ny + 1), (List.range (Ny + 1)).map (node Ny Nx)] ∧
    (dirichletBC (mesh Nx Ny).1 (some ([left, .one fun p => decide (isclose (p 0) 1)], [0, 0], [fun _ => (0 : ℝ), fun _ => 0]))).map
      (fun b => b.1) = nodeIndsList Nx Ny S := by
  have e : (List.range ((Nx + 1) * (Ny + 1))).filter (· ∈ S) = (List.range (Ny + 1)).map (node Ny Nx) := by
    refine nodes_unique (List.pairwise_lt_range.filter _) ?_ fun a => ?_
    · rw [List.pairwise_map]
      exact List.pairwise_lt_range.imp fun {a b} h => Nat.add_lt_add_left h _
    · rw [List.mem_filter, List.mem_range, decide_eq_true_iff, List.mem_map]
      constructor
      · rintro ⟨hlt, h⟩
        obtain ⟨i, j, hi, hj, rfl⟩ := exists_node hlt
        refine ⟨j, List.mem_range.2 (by omega), ?_⟩
        rw [(hS i hi j hj).1 h]
      · rintro ⟨j, hj, rfl⟩
        have hj := List.mem_range.1 hj
        exact ⟨node_lt le_rfl (by omega), (hS Nx le_rfl j (by omega)).2 rfl⟩
  have hn := C124_nodes Nx Ny hx S
  rw [e] at hn
  refine ⟨hn, ?_⟩
  rw [hn]
  obtain ⟨ns, vs, us, h1, h2, h3, h4, h5⟩ := C14_selection (mesh Nx Ny).1 [left, .one fun p => decide (isclose (p 0) 1)] [0, 0]
    [fun _ => (0 : ℝ), fun _ => 0] rfl rfl (by simp [left, LocFn.supported])
  rw [h1]
  obtain ⟨n1, n2, rfl⟩ := List.length_eq_two.1 h2
  obtain ⟨v1, v2, rfl⟩ := List.length_eq_two.1 h3
  obtain ⟨u1, u2, rfl⟩ := List.length_eq_two.1 h4
  obtain ⟨s1, m1, -⟩ := h5 0 _ _ _ _ _ _ rfl rfl rfl rfl rfl rfl
  obtain ⟨s2, m2, -⟩ := h5 1 _ _ _ _ _ _ rfl rfl rfl rfl rfl rfl
  show Except.ok [n1, n2] = _
  have on1 : ∀ i ≤ Nx, ∀ j ≤ Ny, OnDirichlet (mesh Nx Ny).1 (.one fun p => decide (isclose (p 0) 1)) (node Ny i j) ↔ i = Nx := by
    intro i hi j hj
    rw [onNode hi hj, ← close_one hx0 hx hi]
    show decide _ = true ↔ _
    rw [decide_eq_true_iff]
    rfl
  rw [nodes_unique s1 List.pairwise_lt_range fun a => ?_, ← e, nodes_unique s2 (List.pairwise_lt_range.filter _) fun a => ?_]
  · rw [m2, List.mem_filter, List.mem_range, decide_eq_true_iff]
    constructor
    · intro h
      have hlt := onDirichlet_lt h
      obtain ⟨i, j, hi, hj, rfl⟩ := exists_node hlt
      exact ⟨hlt, (hS i hi j hj).2 ((on1 i hi j hj).1 h)⟩
    · rintro ⟨hlt, h⟩
      obtain ⟨i, j, hi, hj, rfl⟩ := exists_node hlt
      exact (on1 i hi j hj).2 ((hS i hi j hj).1 h)
  · rw [m1, column]
    constructor
    · intro h
      obtain ⟨i, j, hi, hj, rfl⟩ := exists_node (onDirichlet_lt h)
      rw [onLeft hx hi hj] at h
      exact ⟨j, hj, by rw [h]⟩
    · rintro ⟨j, hj, rfl⟩
      exact (onLeft hx (Nat.zero_le _) hj).2 rfl

/-- **C124 (faces).** The first list holds the lower faces of the cells of the lowest row; the second, for any set of node numbers, the
faces with both end nodes in the set, numbered as drawn in the script. -/
theorem C124_faces (Nx Ny : Nat) (hy0 : 0 < Ny) (hy : Ny < 50000) (S : List Nat) :
    ∃ b, boundaryIndsList Nx Ny S = .ok [(List.range Nx).map fun i => (cell Ny i 0, 0), b] ∧ b.Nodup ∧
      ∀ c f, (c, f) ∈ b ↔ ∃ i j, i < Nx ∧ j < Ny ∧ c = cell Ny i j ∧ f < 4 ∧
        (sideEnds Ny i j f).1 ∈ S ∧ (sideEnds Ny i j f).2 ∈ S := by
  obtain ⟨b1, b2, h, p1, p2, m1, m2⟩ := faces_of Nx Ny [bottom, top S] bottom (top S) rfl trivial trivial
  refine ⟨b2, ?_, p2.imp fun {a b} h => ?_, fun c f => ?_⟩
  · rw [boundaryIndsList, h, Beams.faces_unique p1 (row_sorted Nx Ny 0 0 hy0) fun c f => (m1 c f).trans
      (row_faces (.inl ⟨rfl, rfl, rfl⟩) hy0 bottom (fun i hi j hj => onBottom hy hi hj) c f)]
  · rintro rfl
    simp [Beams.faceLt] at h
  · rw [m2]
    have on : ∀ i j, i < Nx → j < Ny → ((OnDirichlet (mesh Nx Ny).1 (top S) (sideEnds Ny i j f).1 ↔ (sideEnds Ny i j f).1 ∈ S) ∧
        (OnDirichlet (mesh Nx Ny).1 (top S) (sideEnds Ny i j f).2 ↔ (sideEnds Ny i j f).2 ∈ S)) := by
      intro i j hi hj
      have d1 := (onIndex (Nx := Nx) (Ny := Ny) hi.le hj.le S).2
      have d2 := (onIndex (Nx := Nx) (Ny := Ny) (i := i + 1) hi hj.le S).2
      have d3 := (onIndex (Nx := Nx) (Ny := Ny) (i := i + 1) (j := j + 1) hi hj S).2
      have d4 := (onIndex (Nx := Nx) (Ny := Ny) (j := j + 1) hi.le hj S).2
      rcases f with _ | _ | _ | f
      · exact ⟨d1, d2⟩
      · exact ⟨d1, d4⟩
      · exact ⟨d2, d3⟩
      · exact ⟨d4, d3⟩
    constructor
    · intro h
      obtain ⟨i, j, hi, hj, rfl⟩ := exists_cell (faceOn_lt h)
      obtain ⟨hf, ha, hb⟩ := (faceOn_iff hi hj _ f).1 h
      exact ⟨i, j, hi, hj, rfl, hf, (on i j hi hj).1.1 ha, (on i j hi hj).2.1 hb⟩
    · rintro ⟨i, j, hi, hj, rfl, hf, ha, hb⟩
      exact (faceOn_iff hi hj _ f).2 ⟨hf, (on i j hi hj).1.2 ha, (on i j hi hj).2.2 hb⟩

/-- **C124 (top edge).** If the set names the top edge, the second list holds the upper faces of the cells of the uppermost row, and is
that of a location function that looks at the point. -/
theorem C124_top (Nx Ny : Nat) (hy0 : 0 < Ny) (hy : Ny < 50000) (S : List Nat) (hS : NamesTop Nx Ny S) :
    boundaryIndsList Nx Ny S
      = .ok [(List.range Nx).map fun i => (cell Ny i 0, 0), (List.range Nx).map fun i => (cell Ny i (Ny - 1), 3)] ∧
    (do
      let e ← getElements "QUAD4"
      let faceInds ← elementFaceInds e
      boundaryInds (mesh Nx Ny).1 (mesh Nx Ny).2 faceInds (some [bottom, .one fun p => decide (isclose (p 1) 1)]))
      = boundaryIndsList Nx Ny S := by
  have key : ∀ loc : LocFn (Fin 2 → ℝ), loc.supported →
      (∀ i ≤ Nx, ∀ j ≤ Ny, OnDirichlet (mesh Nx Ny).1 loc (node Ny i j) ↔ j = Ny) → (do
        let e ← getElements "QUAD4"
        let faceInds ← elementFaceInds e
        boundaryInds (mesh Nx Ny).1 (mesh Nx Ny).2 faceInds (some [bottom, loc]))
        = .ok [(List.range Nx).map fun i => (cell Ny i 0, 0), (List.range Nx).map fun i => (cell Ny i (Ny - 1), 3)] := by
    intro loc hs hloc
    obtain ⟨b1, b2, h, p1, p2, m1, m2⟩ := faces_of Nx Ny [bottom, loc] bottom loc rfl trivial hs
    rw [h, Beams.faces_unique p1 (row_sorted Nx Ny 0 0 hy0) fun c f => (m1 c f).trans
      (row_faces (.inl ⟨rfl, rfl, rfl⟩) hy0 bottom (fun i hi j hj => onBottom hy hi hj) c f),
      Beams.faces_unique p2 (row_sorted Nx Ny (Ny - 1) 3 hy0) fun c f => (m2 c f).trans
      (row_faces (.inr ⟨rfl, rfl, rfl⟩) hy0 loc hloc c f)]
  have h1 := key (top S) trivial fun i hi j hj => (onIndex hi hj S).2.trans (hS i hi j hj)
  refine ⟨h1, (key (.one fun p => decide (isclose (p 1) 1)) trivial fun i hi j hj => ?_).trans h1.symm⟩
  rw [onNode hi hj, ← close_one hy0 hy hj]
  show decide _ = true ↔ _
  rw [decide_eq_true_iff]
  rfl

theorem script_names : NamesRight 2 2 [6, 7, 8] ∧ NamesTop 2 2 [2, 5, 8] := by
  constructor
  · intro i hi j hj
    interval_cases i <;> interval_cases j <;> simp [node]
  · intro i hi j hj
    interval_cases i <;> interval_cases j <;> simp [node]

/-- **C124 (script).** The two lists that the script prints. -/
theorem C124_script : script = .ok ([[0, 1, 2], [6, 7, 8]], [[(0, 0), (2, 0)], [(1, 3), (3, 3)]]) := by
  rw [script, (C124_right 2 2 (by norm_num) (by norm_num) _ script_names.1).1,
    (C124_top 2 2 (by norm_num) (by norm_num) _ script_names.2).1]
  rfl

/-- The hypotheses are met, and a number that does not exist is ignored. -/
example : nodeIndsList 2 2 [6, 7, 8, 90] = nodeIndsList 2 2 [6, 7, 8] ∧ nodeIndsList 2 2 [90] = .ok [[0, 1, 2], []] := by
  rw [C124_nodes 2 2 (by norm_num), C124_nodes 2 2 (by norm_num), C124_nodes 2 2 (by norm_num)]
  exact ⟨by decide, by decide⟩

end JaxFem.BoundaryIndex
