import Verif.Model.MeshTools
import Verif.Spec.RefShapes
import Mathlib.LinearAlgebra.Matrix.Determinant.Basic
import Mathlib.Tactic.LinearCombination
import Mathlib.Tactic.FinCases
import Mathlib.Tactic.Linarith
import Verif.Thm.Lists

/-!
# C43, C44, C53: mesh tools
-/

namespace JaxFem

/-! ## C43 -/

/-- **C43.** For every point list and every connectivity that references existing points other than 0
and 14, each entry of the new connectivity names, in the new point list, the same point as before; the
shape of the connectivity is kept, and apart from the two dropped ones all points are kept in order. -/
theorem C43_cells {P : Type} (points : List P) (cells : List (List Int))
    (h : ∀ c ∈ cells, ∀ i ∈ c, 0 < i ∧ i < points.length ∧ i ≠ 14) :
    (cylinderCells cells).length = cells.length ∧
    (∀ c (h1 : c < cells.length) (h2 : c < (cylinderCells cells).length),
      (cylinderCells cells)[c].map (pyGet (cylinderPoints points)) = cells[c].map (pyGet points)) ∧
    (15 ≤ points.length → ∃ p0 p14, points = p0 :: ((cylinderPoints points).take 13 ++
      p14 :: (cylinderPoints points).drop 13)) := by
  refine ⟨by simp [cylinderCells], ?_, ?_⟩
  · intro c h1 h2
    simp only [cylinderCells, List.getElem_map, List.map_map]
    apply List.map_congr_left
    intro i hi
    obtain ⟨hi0, hin, hi14⟩ := h _ (List.getElem_mem h1) i hi
    obtain ⟨n, rfl⟩ := Int.eq_ofNat_of_zero_le hi0.le
    have hn0 : 0 < n := by exact_mod_cast hi0
    have hn : n < points.length := by exact_mod_cast hin
    have hn14 : n ≠ 14 := by exact_mod_cast hi14
    simp only [Function.comp]
    have e : pyGet points (n : Int) = points[n]? := by
      simp [pyGet]
    have hl : (slice points 1 14).length = min 14 points.length - 1 := by simp [slice]
    rw [e]
    by_cases h14 : (n : Int) > 14
    · have h14' : 14 < n := by exact_mod_cast h14
      rw [if_pos h14, pyGet, if_pos (by omega), cylinderPoints]
      have : ((n : Int) - 2).toNat = n - 2 := by omega
      rw [this, List.getElem?_append_right (by rw [hl]; omega), hl, List.getElem?_drop]
      congr 1; omega
    · have h14' : n < 14 := by omega
      rw [if_neg h14, pyGet, if_pos (by omega), cylinderPoints]
      have : ((n : Int) - 1).toNat = n - 1 := by omega
      rw [this, List.getElem?_append_left (by rw [hl]; omega), slice, List.getElem?_drop,
        List.getElem?_take_of_lt (by omega)]
      congr 1; omega
  · intro hlen
    have hl : (slice points 1 14).length = 13 := by simp [slice]; omega
    refine ⟨points[0], points[14], ?_⟩
    rw [cylinderPoints, List.take_left' hl, List.drop_left' hl]
    apply List.ext_getElem?
    intro k
    rcases k with _ | k
    · simp
    · rw [List.getElem?_cons_succ]
      rcases lt_trichotomy k 13 with hk | hk | hk
      · rw [List.getElem?_append_left (by omega), slice, List.getElem?_drop,
          List.getElem?_take_of_lt (by omega)]
        congr 1; omega
      · subst hk
        rw [List.getElem?_append_right (by omega), hl]
        simp
      · rw [List.getElem?_append_right (by omega), hl]
        obtain ⟨j, rfl⟩ : ∃ j, k = 14 + j := ⟨k - 14, by omega⟩
        have : 14 + j - 13 = j + 1 := by omega
        rw [this, List.getElem?_cons_succ, List.getElem?_drop]
        congr 1; omega

/-- **C43 (dropped points).** A reference to point 0 silently becomes a reference to the last point, and a
reference to point 14 becomes one to point 15. -/
theorem C43_dropped {P : Type} (points : List P) (hlen : 15 < points.length) :
    (cylinderCells [[0, 14]]).map (fun c => c.map (pyGet (cylinderPoints points))) =
      [[points[points.length - 1]?, points[15]?]] := by
  have hl : (slice points 1 14).length = 13 := by simp [slice]; omega
  have h0 : (cylinderPoints points).length = points.length - 2 := by
    rw [cylinderPoints, List.length_append, hl, List.length_drop]; omega
  have e : cylinderCells [[0, 14]] = [[-1, 13]] := rfl
  rw [e]
  simp only [List.map_cons, List.map_nil]
  have e1 : pyGet (cylinderPoints points) (-1) = points[points.length - 1]? := by
    rw [pyGet, if_neg (by omega), if_pos (by omega), h0]
    have : ((points.length - 2 : Nat) + (-1 : Int)).toNat = points.length - 3 := by omega
    rw [this, cylinderPoints]
    rw [List.getElem?_append_right (by omega), hl, List.getElem?_drop]
    congr 1; omega
  have e2 : pyGet (cylinderPoints points) 13 = points[15]? := by
    rw [pyGet, if_pos (by omega)]
    have : (13 : Int).toNat = 13 := rfl
    rw [this, cylinderPoints, List.getElem?_append_right (by omega), hl, List.getElem?_drop]
  rw [e1, e2]

/-- A concrete mesh meeting the hypotheses. -/
example : (cylinderCells [[1, 13, 15, 19]]).map (fun c => c.map (pyGet (cylinderPoints (List.range 20)))) =
    [[some 1, some 13, some 15, some 19]] := by decide +kernel

/-! ## C44 -/

section
variable {K : Type} [Field K]

/-- Six times the signed volume of a tetrahedron: determinant of the homogeneous vertex coordinates. -/
def tetVolume6 (X : Fin 4 → Fin 3 → K) : K :=
  (Matrix.of fun i => ![1, X i 0, X i 1, X i 2]).det

theorem tetQuality_eq (X : Fin 4 → Fin 3 → K) : tetQuality X = tetVolume6 X := by
  rw [tetVolume6, Matrix.det_succ_row_zero]
  simp only [Fin.sum_univ_four, Matrix.det_fin_three, Matrix.submatrix_apply, Matrix.of_apply, tetQuality,
    Fin.sum_univ_three, cross3, Pi.sub_apply]
  simp [Fin.succAbove]
  ring

/-- **C44 (values).** On a mesh of four-node cells the check returns one number per cell; it is six times
the signed volume, which is the determinant of the element Jacobian that is used for integration, at every
quadrature point. -/
theorem C44_values (points : List (Fin 3 → K)) (cells : List (List Nat)) (h4 : ∀ c ∈ cells, c.length = 4) :
    ∃ q, checkMeshTET4 points cells = .ok q ∧ q.length = cells.length ∧
      ∀ (i : Nat) (c : List Nat), cells[i]? = some c →
        q[i]? = some (tetVolume6 (physicalCoos 4 points c)) ∧
        ∀ p, tetVolume6 (physicalCoos 4 points c) = (jacobianDxDeta (physicalCoos 4 points c) (tet4G p)).det := by
  have hall : (cells.all fun c => c.length == 4) = true := by
    rw [List.all_eq_true]; intro c hc; rw [h4 c hc]; rfl
  refine ⟨cells.map fun c => tetQuality (physicalCoos 4 points c), by rw [checkMeshTET4, if_pos hall],
    List.length_map .., ?_⟩
  intro i c hc
  refine ⟨by rw [List.getElem?_map, hc, Option.map_some, tetQuality_eq], fun p => ?_⟩
  rw [← tetQuality_eq]
  generalize physicalCoos 4 points c = X
  rw [Matrix.det_fin_three]
  simp only [jacobianDxDeta, Matrix.of_apply, Fin.sum_univ_four, tet4G, tetQuality, Fin.sum_univ_three, cross3,
    Pi.sub_apply]
  simp
  ring

/-- **C44 (errors).** A mesh with a cell that does not have four nodes is rejected. -/
theorem C44_rejects (points : List (Fin 3 → K)) (cells : List (List Nat)) (c : List Nat) (hc : c ∈ cells)
    (h4 : c.length ≠ 4) : checkMeshTET4 points cells = .error .value := by
  have hall : ¬(cells.all fun c => c.length == 4) = true := by
    rw [List.all_eq_true]
    intro h
    exact h4 (beq_iff_eq.1 (h c hc))
  rw [checkMeshTET4, if_neg hall]

/-- **C44 (symmetries).** Renumbering the vertices multiplies the number by the sign of the permutation, so
swapping two flips it; translating the mesh leaves it. -/
theorem C44_symmetry (X : Fin 4 → Fin 3 → K) :
    (∀ σ : Equiv.Perm (Fin 4), tetQuality (X ∘ σ) = ((Equiv.Perm.sign σ : ℤ) : K) * tetQuality X) ∧
    (∀ a b : Fin 4, a ≠ b → tetQuality (X ∘ Equiv.swap a b) = -tetQuality X) ∧
    ∀ t : Fin 3 → K, tetQuality (fun a => X a + t) = tetQuality X := by
  have h1 : ∀ σ : Equiv.Perm (Fin 4), tetQuality (X ∘ σ) = ((Equiv.Perm.sign σ : ℤ) : K) * tetQuality X := by
    intro σ
    rw [tetQuality_eq, tetQuality_eq, tetVolume6, tetVolume6, ← Matrix.det_permute]
    rfl
  refine ⟨h1, ?_, ?_⟩
  · intro a b hab
    rw [h1, Equiv.Perm.sign_swap hab]; simp
  · intro t
    simp only [tetQuality, Pi.sub_apply, cross3, Fin.sum_univ_three, Pi.add_apply]
    simp

end

/-- The reference tetrahedron has volume 1/6; with two vertices exchanged it is inverted. -/
example : tetQuality (tet4V : Fin 4 → Fin 3 → ℚ) = 1 ∧
    checkMeshTET4 [tet4V 0, tet4V 1, tet4V 2, (tet4V 3 : Fin 3 → ℚ)] [[0, 1, 2, 3], [0, 2, 1, 3]] = .ok [1, -1] := by
  decide +kernel

/-! ## C53 -/

section
variable {K : Type} [Field K] [LinearOrder K] [IsStrictOrderedRing K]

/-- Twice the signed area of a triangle. -/
def triArea2 (a b c : K × K) : K := (b.1 - a.1) * (c.2 - a.2) - (c.1 - a.1) * (b.2 - a.2)

/-- Coordinates of the vertices of a cell. -/
def cellPt (points : List (K × K)) (cell : List Nat) (i : Nat) : K × K := points.getD (cell.getD i 0) (0, 0)

theorem orientation_spec (p1 p2 p3 : K × K) :
    (orientation p1 p2 p3 = 0 ↔ triArea2 p1 p2 p3 = 0) ∧ (orientation p1 p2 p3 = 1 ↔ triArea2 p1 p2 p3 < 0) := by
  have e : (p2.2 - p1.2) * (p3.1 - p2.1) - (p2.1 - p1.1) * (p3.2 - p2.2) = -triArea2 p1 p2 p3 := by
    rw [triArea2]; ring
  simp only [orientation]
  rw [e]
  rcases lt_trichotomy (triArea2 p1 p2 p3) 0 with h | h | h
  · rw [if_pos (by linarith)]
    exact ⟨⟨fun h => by omega, fun h' => by linarith⟩, fun _ => h, fun _ => rfl⟩
  · rw [h, neg_zero, if_neg (lt_irrefl _), if_neg (lt_irrefl _)]
    exact ⟨⟨fun _ => rfl, fun _ => rfl⟩, fun h => by omega, fun h => absurd h (lt_irrefl _)⟩
  · rw [if_neg (by linarith), if_pos (by linarith)]
    exact ⟨⟨fun h => by omega, fun h' => by linarith⟩, fun h => by omega, fun h' => by linarith⟩

/-- Mid-side nodes with the vertices of their edges (mesh numbering of TRI6), edges as unordered pairs. -/
def midSides (cell : List Nat) : List (Nat × Nat × Nat) :=
  [(cell.getD 3 0, cell.getD 0 0, cell.getD 1 0), (cell.getD 4 0, cell.getD 1 0, cell.getD 2 0),
   (cell.getD 5 0, cell.getD 2 0, cell.getD 0 0)]

/-- What one cell must become. -/
def RepairedCell (points : List (K × K)) (eleType : String) (cell new : List Nat) : Prop :=
  triArea2 (cellPt points new 0) (cellPt points new 1) (cellPt points new 2) =
    |triArea2 (cellPt points cell 0) (cellPt points cell 1) (cellPt points cell 2)| ∧
  0 < triArea2 (cellPt points new 0) (cellPt points new 1) (cellPt points new 2) ∧
  new.Perm cell ∧ (new.take 3).Perm (cell.take 3) ∧
  (0 < triArea2 (cellPt points cell 0) (cellPt points cell 1) (cellPt points cell 2) → new = cell) ∧
  (eleType = "TRI6" → ∀ m a b, (m, a, b) ∈ midSides cell → (m, a, b) ∈ midSides new ∨ (m, b, a) ∈ midSides new)

theorem transformCell_spec (points : List (K × K)) (eleType : String) (cell : List Nat)
    (ht : (eleType = "TRI3" ∧ cell.length = 3) ∨ (eleType = "TRI6" ∧ cell.length = 6))
    (h : triArea2 (cellPt points cell 0) (cellPt points cell 1) (cellPt points cell 2) ≠ 0) :
    ∃ new, transformCell points eleType cell = .ok new ∧ RepairedCell points eleType cell new := by
  obtain ⟨o0, o1⟩ := orientation_spec (cellPt points cell 0) (cellPt points cell 1) (cellPt points cell 2)
  have hswap : ∀ a b c : K × K, triArea2 a c b = -triArea2 a b c := by
    intro a b c; rw [triArea2, triArea2]; ring
  rcases lt_or_gt_of_ne h with hlt | hgt
  · have c1 := o1.2 hlt
    have c0 : ¬orientation (cellPt points cell 0) (cellPt points cell 1) (cellPt points cell 2) = 0 := by
      rw [c1]; exact one_ne_zero
    rcases ht with ⟨rfl, hl⟩ | ⟨rfl, hl⟩
    · obtain ⟨x, y, z, rfl⟩ : ∃ x y z, cell = [x, y, z] := by
        match cell, hl with
        | [x, y, z], _ => exact ⟨x, y, z, rfl⟩
      refine ⟨[x, z, y], ?_, ?_⟩
      · unfold transformCell
        exact (if_neg c0).trans ((if_pos c1).trans (if_pos rfl))
      · have e : triArea2 (cellPt points [x, z, y] 0) (cellPt points [x, z, y] 1) (cellPt points [x, z, y] 2) =
            -triArea2 (cellPt points [x, y, z] 0) (cellPt points [x, y, z] 1) (cellPt points [x, y, z] 2) :=
          hswap _ _ _
        refine ⟨by rw [e, abs_of_neg hlt], by rw [e]; linarith, ?_, ?_, fun h => absurd h (by linarith),
          fun h => absurd h (by decide)⟩
        · exact (List.Perm.swap _ _ _).cons _
        · exact (List.Perm.swap _ _ _).cons _
    · obtain ⟨x, y, z, a, b, c, rfl⟩ : ∃ x y z a b c, cell = [x, y, z, a, b, c] := by
        match cell, hl with
        | [x, y, z, a, b, c], _ => exact ⟨x, y, z, a, b, c, rfl⟩
      refine ⟨[x, z, y, c, b, a], ?_, ?_⟩
      · unfold transformCell
        exact (if_neg c0).trans ((if_pos c1).trans ((if_neg (by decide)).trans (if_pos rfl)))
      · have e : triArea2 (cellPt points [x, z, y, c, b, a] 0) (cellPt points [x, z, y, c, b, a] 1)
            (cellPt points [x, z, y, c, b, a] 2) =
            -triArea2 (cellPt points [x, y, z, a, b, c] 0) (cellPt points [x, y, z, a, b, c] 1)
              (cellPt points [x, y, z, a, b, c] 2) := hswap _ _ _
        refine ⟨by rw [e, abs_of_neg hlt], by rw [e]; linarith, ?_, ?_, fun h => absurd h (by linarith), ?_⟩
        · have : [c, b, a].Perm [a, b, c] := List.reverse_perm [a, b, c]
          exact ((List.Perm.swap y z _).trans ((this.cons z).cons y)).cons x
        · exact (List.Perm.swap y z _).cons x
        · intro _ m u v hm
          simp only [midSides, List.getD_cons_zero, List.getD_cons_succ, List.mem_cons, Prod.mk.injEq,
            List.not_mem_nil, or_false] at hm ⊢
          rcases hm with ⟨rfl, rfl, rfl⟩ | ⟨rfl, rfl, rfl⟩ | ⟨rfl, rfl, rfl⟩ <;> simp
  · have c1 : ¬orientation (cellPt points cell 0) (cellPt points cell 1) (cellPt points cell 2) = 1 :=
      fun h' => absurd (o1.1 h') (by linarith)
    have c0 : ¬orientation (cellPt points cell 0) (cellPt points cell 1) (cellPt points cell 2) = 0 :=
      fun h' => h (o0.1 h')
    refine ⟨cell, ?_, ?_⟩
    · unfold transformCell
      exact (if_neg c0).trans (if_neg c1)
    · exact ⟨(abs_of_pos hgt).symm, hgt, List.Perm.refl _, List.Perm.refl _, fun _ => rfl,
        fun _ m a b hm => Or.inl hm⟩

/-- **C53.** For every non-empty TRI3 or TRI6 mesh without degenerate triangles the repair succeeds and
every cell becomes counterclockwise with the same area, the same nodes and the same vertices; cells that
already were counterclockwise are untouched, and every mid-side node stays on its edge. -/
theorem C53_repair (points : List (K × K)) (eleType : String) (cells : List (List Nat)) (hne : cells ≠ [])
    (ht : ∀ cell ∈ cells, (eleType = "TRI3" ∧ cell.length = 3) ∨ (eleType = "TRI6" ∧ cell.length = 6))
    (h : ∀ cell ∈ cells, triArea2 (cellPt points cell 0) (cellPt points cell 1) (cellPt points cell 2) ≠ 0) :
    ∃ news, transformCells cells points eleType = .ok news ∧
      List.Forall₂ (RepairedCell points eleType) cells news := by
  have key : ∀ cells : List (List Nat),
      (∀ cell ∈ cells, ∃ new, transformCell points eleType cell = .ok new ∧ RepairedCell points eleType cell new) →
      ∃ news, cells.mapM (transformCell points eleType) = .ok news ∧
        List.Forall₂ (RepairedCell points eleType) cells news := by
    intro cells
    induction cells with
    | nil => intro _; exact ⟨[], rfl, .nil⟩
    | cons c cs ih =>
      intro hall
      obtain ⟨new, e1, r1⟩ := hall c (List.mem_cons_self ..)
      obtain ⟨news, e2, r2⟩ := ih fun c hc => hall c (List.mem_cons_of_mem _ hc)
      refine ⟨new :: news, ?_, .cons r1 r2⟩
      rw [List.mapM_cons, e1, e2]; rfl
  obtain ⟨news, e, r⟩ := key cells fun c hc => transformCell_spec points eleType c (ht c hc) (h c hc)
  refine ⟨news, ?_, r⟩
  have hn : news ≠ [] := by
    rintro rfl
    cases r
    exact hne rfl
  unfold transformCells
  rw [e]
  exact if_neg hn

/-- **C53 (degenerate).** A mesh with a degenerate triangle is never returned. -/
theorem C53_degenerate (points : List (K × K)) (eleType : String) (cells : List (List Nat)) (cell : List Nat)
    (hc : cell ∈ cells)
    (h : triArea2 (cellPt points cell 0) (cellPt points cell 1) (cellPt points cell 2) = 0) :
    ∃ e, transformCells cells points eleType = .error e := by
  have h1 : transformCell points eleType cell = .error .runtime := by
    unfold transformCell
    exact if_pos ((orientation_spec _ _ _).1.2 h)
  have key : ∃ e, cells.mapM (transformCell points eleType) = .error e := by
    induction cells with
    | nil => cases hc
    | cons c cs ih =>
      rw [List.mapM_cons]
      rcases hx : transformCell points eleType c with e | x
      · exact ⟨e, rfl⟩
      · rcases List.mem_cons.1 hc with rfl | hc'
        · rw [h1] at hx; cases hx
        · obtain ⟨e, he⟩ := ih hc'
          exact ⟨e, by rw [he]; rfl⟩
  obtain ⟨e, he⟩ := key
  exact ⟨e, by unfold transformCells; rw [he]; rfl⟩

/-- **C53 (no cells).** An empty list of cells raises, whatever the element type. -/
theorem C53_empty (points : List (K × K)) (eleType : String) : transformCells [] points eleType = .error .value := rfl

end

/-- A clockwise and a counterclockwise TRI6 cell. -/
example : transformCells [[0, 1, 2, 3, 4, 5], [0, 2, 1, 5, 4, 3]]
    [((0 : ℚ), 0), (0, 2), (2, 0), (0, 1), (1, 1), (1, 0)] "TRI6" =
    .ok [[0, 2, 1, 5, 4, 3], [0, 2, 1, 5, 4, 3]] := by decide +kernel

end JaxFem
