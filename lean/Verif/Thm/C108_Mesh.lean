import Verif.Model.Beams
import Verif.Spec.Beams
import Verif.Thm.C41_Rectangle
import Verif.Thm.C14_Boundary
import Verif.Thm.C107_UserBC

/-!
# C108: buckling beam: mesh, boundary nodes and loaded faces
-/

namespace JaxFem.Beams

/-! ### Helper lemmas -/

theorem mesh_length : makeMesh.1.length = 153 := (C41_points 50 2 Lx Ly).1

theorem mesh_point {n : Nat} (h : n < 153) : makeMesh.1[n]? = some ![((n / 3 : Nat) : ℝ), ((n % 3 : Nat) : ℝ)] := by
  have h1 := (C41_points 50 2 Lx Ly).2 (n / 3) (n % 3) (by omega) (by omega)
  have e : n / 3 * (2 + 1) + n % 3 = n := by omega
  rw [e] at h1
  rw [makeMesh, h1]
  norm_num [Lx, Ly]

theorem mesh_cell {c : Nat} (h : c < 100) : makeMesh.2[c]? = some [c / 2 * 3 + c % 2, (c / 2 + 1) * 3 + c % 2,
    (c / 2 + 1) * 3 + (c % 2 + 1), c / 2 * 3 + (c % 2 + 1)] := by
  have h1 := rect_cell 50 2 Lx Ly (c / 2) (c % 2) (by omega) (by omega)
  have e : c / 2 * 2 + c % 2 = c := by omega
  rw [e] at h1
  exact h1

theorem mesh_cells : makeMesh.2.length = 100 := (C41_cells 50 2 Lx Ly).1

theorem mesh_cell_ok : ∀ cell ∈ makeMesh.2, cell.length = 4 ∧ ∀ n ∈ cell, n < makeMesh.1.length := fun cell h =>
  ⟨((C41_indices 50 2 Lx Ly).1 cell h).1, ((C41_indices 50 2 Lx Ly).1 cell h).2.2⟩

theorem close_left (m : Nat) : isclose (m : ℝ) 0 ↔ m = 0 := by
  constructor
  · intro h
    by_contra hm
    have h1 : (1 : ℝ) ≤ m := by exact_mod_cast Nat.one_le_iff_ne_zero.2 hm
    rw [isclose, sub_zero, abs_of_nonneg (by positivity)] at h
    norm_num at h
    linarith
  · rintro rfl
    norm_num [isclose]

theorem close_right (m : Nat) : isclose (m : ℝ) Lx ↔ m = 50 := by
  constructor
  · intro h
    rw [isclose, Lx, abs_le] at h
    norm_num at h
    have h1 : ((49 : Nat) : ℝ) < m := by push_cast; linarith [h.1]
    have h2 : (m : ℝ) < (51 : Nat) := by push_cast; linarith [h.2]
    have h3 : 49 < m := by exact_mod_cast h1
    have h4 : m < 51 := by exact_mod_cast h2
    omega
  · rintro rfl
    norm_num [isclose, Lx]

theorem left_holds {p : Fin 2 → ℝ} {n : Nat} : locationLeft.holds p n ↔ isclose (p 0) 0 := by
  simp [locationLeft, LocFn.holds]

theorem right_holds {p : Fin 2 → ℝ} {n : Nat} : locationRight.holds p n ↔ isclose (p 0) Lx := by
  simp [locationRight, LocFn.holds]

theorem mid_holds {p : Fin 2 → ℝ} {n : Nat} :
    locationMidspanBottom.holds p n ↔ isclose (p 1) 0 ∧ Lx / 2 - 2 < p 0 ∧ p 0 < Lx / 2 + 2 := by
  simp [locationMidspanBottom, LocFn.holds]

theorem mesh_lt {n : Nat} {p : Fin 2 → ℝ} (h : makeMesh.1[n]? = some p) : n < 153 := by
  rw [← mesh_length]
  exact (List.getElem?_eq_some_iff.1 h).1

theorem mesh_point_eq {n : Nat} {p : Fin 2 → ℝ} (h : makeMesh.1[n]? = some p) : p = ![((n / 3 : Nat) : ℝ), ((n % 3 : Nat) : ℝ)] :=
  Option.some.inj (h.symm.trans (mesh_point (mesh_lt h)))

theorem onLeft_iff (n : Nat) : OnDirichlet makeMesh.1 locationLeft n ↔ n < 3 := by
  constructor
  · rintro ⟨p, hp, h⟩
    rw [left_holds, mesh_point_eq hp] at h
    have := (close_left _).1 h
    omega
  · intro h
    refine ⟨_, mesh_point (by omega), left_holds.2 ((close_left _).2 (by omega))⟩

theorem onRight_iff (n : Nat) : OnDirichlet makeMesh.1 locationRight n ↔ 150 ≤ n ∧ n < 153 := by
  constructor
  · rintro ⟨p, hp, h⟩
    rw [right_holds, mesh_point_eq hp] at h
    have := (close_right _).1 h
    exact ⟨by omega, mesh_lt hp⟩
  · intro h
    refine ⟨_, mesh_point (by omega), right_holds.2 ((close_right _).2 (by omega))⟩

theorem onMid_iff (n : Nat) : OnDirichlet makeMesh.1 locationMidspanBottom n ↔ n = 72 ∨ n = 75 ∨ n = 78 := by
  constructor
  · rintro ⟨p, hp, h⟩
    rw [mid_holds, mesh_point_eq hp] at h
    obtain ⟨h1, h2, h3⟩ := h
    have a := (close_left _).1 h1
    simp only [Lx, Matrix.cons_val_zero] at h2 h3
    have h2' : ((23 : Nat) : ℝ) < ((n / 3 : Nat) : ℝ) := by push_cast at h2 ⊢; linarith
    have h3' : ((n / 3 : Nat) : ℝ) < ((27 : Nat) : ℝ) := by push_cast at h3 ⊢; linarith
    have b : 23 < n / 3 := by exact_mod_cast h2'
    have c : n / 3 < 27 := by exact_mod_cast h3'
    omega
  · rintro (rfl | rfl | rfl) <;> refine ⟨_, mesh_point (by omega), mid_holds.2 ⟨(close_left _).2 (by omega), ?_⟩⟩ <;>
      norm_num [Lx]

theorem atX_left (n : Nat) : AtX makeMesh.1 0 n ↔ n < 3 := by
  constructor
  · rintro ⟨p, hp, h⟩
    rw [mesh_point_eq hp] at h
    have : n / 3 = 0 := by simpa using h
    omega
  · intro h
    refine ⟨_, mesh_point (by omega), ?_⟩
    have : n / 3 = 0 := by omega
    simp [this]

theorem atX_right (n : Nat) : AtX makeMesh.1 50 n ↔ 150 ≤ n ∧ n < 153 := by
  constructor
  · rintro ⟨p, hp, h⟩
    have hl := mesh_lt hp
    rw [mesh_point_eq hp] at h
    have h' : ((n / 3 : Nat) : ℝ) = ((50 : Nat) : ℝ) := by simpa using h
    have : n / 3 = 50 := by exact_mod_cast h'
    exact ⟨by omega, hl⟩
  · intro h
    refine ⟨_, mesh_point (by omega), ?_⟩
    have : n / 3 = 50 := by omega
    simp [this]

/-- Increasing lists with the same members are equal. -/
theorem sorted_unique {l l' : List Nat} (h : l.Pairwise (· < ·)) (h' : l'.Pairwise (· < ·)) (e : ∀ n, n ∈ l ↔ n ∈ l') : l = l' := by
  refine List.Perm.eq_of_pairwise (le := fun a b => a < b) ?_ h h' ?_
  · intro a b _ _ h1 h2
    omega
  · rw [List.perm_ext_iff_of_nodup (h.imp fun h => Nat.ne_of_lt h) (h'.imp fun h => Nat.ne_of_lt h)]
    exact e

/-- The order in which faces are listed. -/
abbrev faceLt (x y : Nat × Nat) : Prop := x.1 < y.1 ∨ (x.1 = y.1 ∧ x.2 < y.2)

theorem faces_unique {l l' : List (Nat × Nat)} (h : l.Pairwise faceLt) (h' : l'.Pairwise faceLt)
    (e : ∀ c f, (c, f) ∈ l ↔ (c, f) ∈ l') : l = l' := by
  have ne : ∀ {x y : Nat × Nat}, faceLt x y → x ≠ y := by
    rintro ⟨a, b⟩ ⟨c, d⟩ h1 h2
    cases h2
    simp [faceLt] at h1
  refine List.Perm.eq_of_pairwise (le := faceLt) ?_ h h' ?_
  · rintro ⟨a, b⟩ ⟨c, d⟩ _ _ h1 h2
    simp only [faceLt] at h1 h2
    omega
  · rw [List.perm_ext_iff_of_nodup (h.imp ne) (h'.imp ne)]
    exact fun x => e x.1 x.2

theorem quad_faces : (do
    let info ← getElements "QUAD4"
    elementFaceInds info) = .ok [[0, 1], [0, 3], [1, 2], [3, 2]] := by decide +kernel

theorem faces_valid : ValidFaces makeMesh.1 makeMesh.2 [[0, 1], [0, 3], [1, 2], [3, 2]] := by
  intro cell hc face hf a ha
  obtain ⟨h1, -, h3⟩ := (C41_indices 50 2 Lx Ly).1 cell hc
  have ha4 : a < cell.length := by
    rw [h1]
    simp only [List.mem_cons, List.not_mem_nil, or_false] at hf
    rcases hf with rfl | rfl | rfl | rfl <;> simp at ha <;> omega
  have hn := h3 _ (List.getElem_mem ha4)
  exact ⟨_, _, List.getElem?_eq_getElem ha4, List.getElem?_eq_getElem hn⟩

theorem faceOn_iff (loc : LocFn (Fin 2 → ℝ)) (c f : Nat) :
    FaceOn makeMesh.1 makeMesh.2 [[0, 1], [0, 3], [1, 2], [3, 2]] loc c f ↔ c < 100 ∧ ∃ face,
      [[0, 1], [0, 3], [1, 2], [3, 2]][f]? = some face ∧ ∀ a ∈ face, ∃ n, [c / 2 * 3 + c % 2, (c / 2 + 1) * 3 + c % 2,
        (c / 2 + 1) * 3 + (c % 2 + 1), c / 2 * 3 + (c % 2 + 1)][a]? = some n ∧ OnDirichlet makeMesh.1 loc n := by
  constructor
  · rintro ⟨cell, face, h1, h2, h3⟩
    have hc : c < 100 := by
      rw [← mesh_cells]
      exact (List.getElem?_eq_some_iff.1 h1).1
    rw [mesh_cell hc] at h1
    cases h1
    refine ⟨hc, face, h2, fun a ha => ?_⟩
    obtain ⟨n, p, h4, h5, h6⟩ := h3 a ha
    exact ⟨n, h4, p, h5, h6⟩
  · rintro ⟨hc, face, h2, h3⟩
    refine ⟨_, face, mesh_cell hc, h2, fun a ha => ?_⟩
    obtain ⟨n, h4, p, h5, h6⟩ := h3 a ha
    exact ⟨n, p, h4, h5, h6⟩

theorem faces_right (c f : Nat) :
    FaceOn makeMesh.1 makeMesh.2 [[0, 1], [0, 3], [1, 2], [3, 2]] locationRight c f ↔ (c, f) ∈ rightFaces := by
  rw [faceOn_iff]
  simp only [onRight_iff]
  rcases f with _ | _ | _ | _ | f <;> simp [rightFaces] <;> omega

theorem faces_mid (c f : Nat) :
    FaceOn makeMesh.1 makeMesh.2 [[0, 1], [0, 3], [1, 2], [3, 2]] locationMidspanBottom c f ↔ (c, f) ∈ midFaces := by
  rw [faceOn_iff]
  simp only [onMid_iff]
  rcases f with _ | _ | _ | _ | f <;> simp [midFaces] <;> omega

theorem boundaryFaces_eq (locs : List (LocFn (Fin 2 → ℝ))) :
    boundaryFaces locs = boundaryInds makeMesh.1 makeMesh.2 [[0, 1], [0, 3], [1, 2], [3, 2]] (some locs) := by
  have h := quad_faces
  rw [boundaryFaces]
  rcases h1 : getElements "QUAD4" with e | info
  · rw [h1] at h; cases h
  rw [h1] at h
  have h' : elementFaceInds info = .ok [[0, 1], [0, 3], [1, 2], [3, 2]] := h
  show (do
    let faceInds ← elementFaceInds info
    boundaryInds makeMesh.1 makeMesh.2 faceInds (some locs)) = _
  rw [h']
  rfl

theorem rightFaces_sorted : rightFaces.Pairwise faceLt := by simp [rightFaces, faceLt]

theorem midFaces_sorted : midFaces.Pairwise faceLt := by simp [midFaces, faceLt]

theorem boundaryFaces_right : boundaryFaces [locationRight] = .ok [rightFaces] := by
  rw [boundaryFaces_eq]
  obtain ⟨bs, h1, h2, h3⟩ := C15_faces makeMesh.1 makeMesh.2 _ [locationRight] faces_valid (by simp [locationRight, LocFn.supported])
  obtain ⟨b, rfl⟩ := List.length_eq_one_iff.1 h2
  obtain ⟨p, m⟩ := h3 0 _ _ rfl rfl
  rw [h1, faces_unique p rightFaces_sorted fun c f => (m c f).trans (faces_right c f)]

theorem boundaryFaces_mid : boundaryFaces [locationMidspanBottom] = .ok [midFaces] := by
  rw [boundaryFaces_eq]
  obtain ⟨bs, h1, h2, h3⟩ := C15_faces makeMesh.1 makeMesh.2 _ [locationMidspanBottom] faces_valid
    (by simp [locationMidspanBottom, LocFn.supported])
  obtain ⟨b, rfl⟩ := List.length_eq_one_iff.1 h2
  obtain ⟨p, m⟩ := h3 0 _ _ rfl rfl
  rw [h1, faces_unique p midFaces_sorted fun c f => (m c f).trans (faces_mid c f)]

theorem boundaryFaces_both : boundaryFaces [locationMidspanBottom, locationRight] = .ok [midFaces, rightFaces] := by
  rw [boundaryFaces_eq]
  obtain ⟨bs, h1, h2, h3⟩ := C15_faces makeMesh.1 makeMesh.2 _ [locationMidspanBottom, locationRight] faces_valid
    (by simp [locationMidspanBottom, locationRight, LocFn.supported])
  obtain ⟨b, b', rfl⟩ := List.length_eq_two.1 h2
  obtain ⟨p, m⟩ := h3 0 _ _ rfl rfl
  obtain ⟨p', m'⟩ := h3 1 _ _ rfl rfl
  rw [h1, faces_unique p midFaces_sorted fun c f => (m c f).trans (faces_mid c f),
    faces_unique p' rightFaces_sorted fun c f => (m' c f).trans (faces_right c f)]

/-! ### Property theorems -/

/-- **C108 (loaded faces).** The three problems can be built. The end traction and the counter load act on the two element
sides that make up the right end, from (50, 0) to (50, 1) and on to (50, 2). The imperfection acts on the sides from (24, 0)
to (25, 0) and on to (26, 0): half of the window of width four around the middle, since the location function leaves out the
ends of the window. -/
theorem C108_faces {nq nfq : Nat} (el : RefElement ℝ nq 4 2) (fc : RefFaces ℝ nfq 4 2) :
    forceProblem el fc = .ok (beam el fc (Hyper.firstPK energy) [(imperfection, midFaces), (endTractionMap, rightFaces)]) ∧
    counterProblem el fc = .ok (beam el fc (fun _ => 0) [(counterMap, rightFaces)]) ∧
    dispProblem el fc = .ok (beam el fc (Hyper.firstPK energy) [(imperfection, midFaces)]) ∧
    ∀ (c f : Nat) (cell : List Nat), makeMesh.2[c]? = some cell →
      ((c, f) ∈ midFaces → ∃ x : ℝ, (x = 24 ∨ x = 25) ∧ (cell.take 2).map (fun n => makeMesh.1[n]?) = [some ![x, 0], some ![x + 1, 0]]) ∧
      ((c, f) ∈ rightFaces → ∃ y : ℝ, (y = 0 ∨ y = 1) ∧
        ((cell.drop 1).take 2).map (fun n => makeMesh.1[n]?) = [some ![50, y], some ![50, y + 1]]) := by
  refine ⟨?_, ?_, ?_, ?_⟩
  · rw [forceProblem, build, boundaryFaces_both]; rfl
  · rw [counterProblem, build, boundaryFaces_right]; rfl
  · rw [dispProblem, build, boundaryFaces_mid]; rfl
  · intro c f cell hc
    constructor
    · intro h
      simp only [midFaces, List.mem_cons, Prod.mk.injEq, List.not_mem_nil, or_false] at h
      rcases h with ⟨rfl, -⟩ | ⟨rfl, -⟩
      · rw [mesh_cell (by omega)] at hc
        cases hc
        refine ⟨24, .inl rfl, ?_⟩
        simp only [List.take_succ_cons, List.take_zero, List.map_cons, List.map_nil]
        rw [mesh_point (by omega), mesh_point (by omega)]
        norm_num
      · rw [mesh_cell (by omega)] at hc
        cases hc
        refine ⟨25, .inr rfl, ?_⟩
        simp only [List.take_succ_cons, List.take_zero, List.map_cons, List.map_nil]
        rw [mesh_point (by omega), mesh_point (by omega)]
        norm_num
    · intro h
      simp only [rightFaces, List.mem_cons, Prod.mk.injEq, List.not_mem_nil, or_false] at h
      rcases h with ⟨rfl, -⟩ | ⟨rfl, -⟩
      · rw [mesh_cell (by omega)] at hc
        cases hc
        refine ⟨0, .inl rfl, ?_⟩
        simp only [List.drop_succ_cons, List.drop_zero, List.take_succ_cons, List.take_zero, List.map_cons, List.map_nil]
        rw [mesh_point (by omega), mesh_point (by omega)]
        norm_num
      · rw [mesh_cell (by omega)] at hc
        cases hc
        refine ⟨1, .inr rfl, ?_⟩
        simp only [List.drop_succ_cons, List.drop_zero, List.take_succ_cons, List.take_zero, List.map_cons, List.map_nil]
        rw [mesh_point (by omega), mesh_point (by omega)]
        norm_num

/-- **C108 (boundary nodes).** The lists of boundary nodes of the displacement example are the three nodes of the left end,
twice, and the three nodes of the right end, twice; the assertion about their lengths holds. -/
theorem C108_nodes : ∃ vs us, dirichletBC makeMesh.1 compression = .ok ([[0, 1, 2], [0, 1, 2], [150, 151, 152], [150, 151, 152]], vs, us) ∧
    checkEdges [[0, 1, 2], [0, 1, 2], [150, 151, 152], [150, 151, 152]] = .ok () ∧
    (∀ n, n ∈ [0, 1, 2] ↔ AtX makeMesh.1 0 n) ∧ ∀ n, n ∈ [150, 151, 152] ↔ AtX makeMesh.1 50 n := by
  obtain ⟨ns, vs, us, h, l1, l2, l3, hsp⟩ := C14_selection makeMesh.1
    [locationLeft, locationLeft, locationRight, locationRight] [0, 1, 0, 1]
    [fun _ => (0 : ℝ), fun _ => 0, fun _ => endCompression, fun _ => 0] rfl rfl
    (by simp [locationLeft, locationRight, LocFn.supported])
  have hl : ∀ {l : List Nat} {i : Nat} {v : (Fin 2 → ℝ) → ℝ} {a b}, EntrySpec makeMesh.1 locationLeft i v l a b → l = [0, 1, 2] := by
    intro l i v a b hs
    refine sorted_unique hs.1 (by simp) fun n => ?_
    rw [hs.2.1 n, onLeft_iff]
    simp
    omega
  have hr : ∀ {l : List Nat} {i : Nat} {v : (Fin 2 → ℝ) → ℝ} {a b}, EntrySpec makeMesh.1 locationRight i v l a b → l = [150, 151, 152] := by
    intro l i v a b hs
    refine sorted_unique hs.1 (by simp) fun n => ?_
    rw [hs.2.1 n, onRight_iff]
    simp
    omega
  match ns, vs, us, l1, l2, l3 with
  | [n0, n1, n2, n3], [v0, v1, v2, v3], [u0, u1, u2, u3], _, _, _ =>
    refine ⟨[v0, v1, v2, v3], [u0, u1, u2, u3], ?_, ?_, fun n => ?_, fun n => ?_⟩
    · rw [compression, h, hl (hsp 0 _ _ _ _ _ _ rfl rfl rfl rfl rfl rfl), hl (hsp 1 _ _ _ _ _ _ rfl rfl rfl rfl rfl rfl),
        hr (hsp 2 _ _ _ _ _ _ rfl rfl rfl rfl rfl rfl), hr (hsp 3 _ _ _ _ _ _ rfl rfl rfl rfl rfl rfl)]
    · rw [checkEdges, if_pos (by simp)]
    · rw [atX_left]; simp; omega
    · rw [atX_right]; simp; omega

end JaxFem.Beams
