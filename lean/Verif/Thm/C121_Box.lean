import Verif.Thm.C121_Elastic
import Verif.Thm.C119_Box

/-!
# C121: resultants, and the cube on a generated mesh
-/

namespace JaxFem.ElasticBench

variable {nq nfq nn : Nat}

theorem sum_map_const_mul {α : Type} (l : List α) (k : ℝ) (f : α → ℝ) : (l.map fun x => k * f x).sum = k * (l.map f).sum := by
  induction l with
  | nil => simp
  | cons a l ih => simp only [List.map_cons, List.sum_cons, ih]; ring

theorem interp_const (N : Fin nn → ℝ) (hN : ∑ a, N a = 1) (w : Fin 3 → ℝ) (c : List Nat) (i : Fin 3) :
    interp N (restrict nn (fun _ i => w i) c) i = w i := by
  show ∑ a, N a * w i = w i
  rw [← Finset.sum_mul, hN, one_mul]

theorem bodyPower_const (M : Body nq nfq nn) (hu : M.el.Unity) (b w : Fin 3 → ℝ) :
    M.bodyPower (fun _ => b) (fun _ i => w i) = (∑ i, b i * w i) * M.volume := by
  rw [Body.bodyPower, Body.volume, ← sum_map_const_mul]
  refine congrArg List.sum (List.map_congr_left fun c _ => ?_)
  rw [cellIntegral, cellIntegral, Finset.mul_sum]
  refine Finset.sum_congr rfl fun q _ => ?_
  simp only [interp_const _ (hu q).1]
  ring

theorem facePower_const (M : Body nq nfq nn) (hu : M.fc.Unity) (faces : List (Nat × Nat)) (t w : Fin 3 → ℝ) :
    M.facePower faces (fun _ => t) (fun _ i => w i) = (∑ i, t i * w i) * M.area faces := by
  rw [Body.facePower, Body.area, ← sum_map_const_mul]
  refine congrArg List.sum (List.map_congr_left fun a _ => ?_)
  rw [Finset.mul_sum]
  refine Finset.sum_congr rfl fun q _ => ?_
  simp only [interp_const _ (hu _ q).1]

/-- **C121 (resultant).** On every sound mesh the reactions of the supports of the cube sum up to `-10` times the loaded area in the
direction `x` and to `-10` times the volume in the directions `y` and `z`. -/
theorem C121_resultant (M : Body nq nfq nn) (hM : M.Sound) (hu : M.el.Unity) (hfu : M.fc.Unity) (on : (Fin 3 → ℝ) → Prop) (val : ℝ)
    (faces : List (Nat × Nat)) (u : Nat → Fin 3 → ℝ) (S : List Nat → Fin nq → Fin 3 → Fin 3 → ℝ)
    (h : M.Equilibrium on val (fun _ => ![0, 10, 10]) (fun _ => ![10, 0, 0]) faces u S) :
    M.reaction on (fun _ => ![0, 10, 10]) (fun _ => ![10, 0, 0]) faces S (fun _ => ![1, 0, 0]) = -(10 * M.area faces) ∧
    M.reaction on (fun _ => ![0, 10, 10]) (fun _ => ![10, 0, 0]) faces S (fun _ => ![0, 1, 0]) = -(10 * M.volume) ∧
    M.reaction on (fun _ => ![0, 10, 10]) (fun _ => ![10, 0, 0]) faces S (fun _ => ![0, 0, 1]) = -(10 * M.volume) := by
  have key : ∀ w : Fin 3 → ℝ, M.reaction on (fun _ => ![0, 10, 10]) (fun _ => ![10, 0, 0]) faces S (fun _ => w)
      = -((10 * w 1 + 10 * w 2) * M.volume + 10 * w 0 * M.area faces) := by
    intro w
    have e : M.rigidField 0 w = fun _ => w := by
      funext n i
      simp [Body.rigidField]
    have h1 := C121_reactions M hM hu on val _ _ faces u S h 0 w (fun i j => by simp)
    rw [e] at h1
    rw [h1]
    have h2 := bodyPower_const M hu ![0, 10, 10] w
    have h3 := facePower_const M hfu faces ![10, 0, 0] w
    rw [h2, h3]
    simp only [Fin.sum_univ_three, Matrix.cons_val_zero, Matrix.cons_val_one, Matrix.cons_val]
    ring
  refine ⟨?_, ?_, ?_⟩
  all_goals
    rw [key]
    simp

section box

variable (Nx Ny Nz : Nat) (Ly Lz : ℝ) (p : Fin nq → Fin 3 → ℝ) (w : Fin nq → ℝ) (fc : RefFaces ℝ nfq 8 3)

/-- The generated mesh of the layer `0 ≤ x ≤ 1`. -/
noncomputable def boxBody : Body nq nfq 8 where
  numNodes := (Nx + 1) * (Ny + 1) * (Nz + 1)
  points := (boxMesh Nx Ny Nz 1 Ly Lz).1
  cells := (boxMesh Nx Ny Nz 1 Ly Lz).2
  el := tabulate hex8N hex8G p w
  fc := fc

variable {Nx Ny Nz Ly Lz p w fc}

theorem onBox (hx : 0 < Nx) (hy : 0 < Ny) (hz : 0 < Nz) (hLy : 0 < Ly) (hLz : 0 < Lz) :
    OnBox (problem cube ((Nx + 1) * (Ny + 1) * (Nz + 1)) (boxMesh Nx Ny Nz 1 Ly Lz).1 (boxMesh Nx Ny Nz 1 Ly Lz).2
      (tabulate hex8N hex8G p w) fc []) Nx Ny Nz 1 Ly Lz p w := by
  refine ⟨rfl, rfl, ?_, rfl, hx, hy, hz, one_pos, hLy, hLz, fun s hs f hf => ?_⟩
  · simp [problem, Problem1.conn, Function.comp_def]
  · obtain rfl : s = _ := by simpa [problem] using hs
    simp at hf

theorem boxBody_sound (hx : 0 < Nx) (hy : 0 < Ny) (hz : 0 < Nz) (hLy : 0 < Ly) (hLz : 0 < Lz) (hw : ∀ q, 0 < w q)
    (t : Fin 2 → Fin 2 → Fin 2 → Fin nq) (x y z : Fin 2 → ℝ) (hxx : x 0 ≠ x 1) (hyy : y 0 ≠ y 1) (hzz : z 0 ≠ z 1)
    (ht : ∀ i j k, p (t i j k) = ![x i, y j, z k]) : (boxBody Nx Ny Nz Ly Lz p w fc).Sound := by
  have h := onBox (nfq := nfq) (p := p) (w := w) (fc := fc) hx hy hz hLy hLz
  have hJ : (!![1 / Nx, 0, 0; 0, Ly / Ny, 0; 0, 0, Lz / Nz] : Matrix (Fin 3) (Fin 3) ℝ).det
      = 1 / Nx * (Ly / Ny) * (Lz / Nz) := by
    rw [Matrix.det_fin_three]; simp
  have hJpos := mul_pos (mul_pos h.hpos.1 h.hpos.2.1) h.hpos.2.2
  have hmem : ∀ c ∈ (boxMesh Nx Ny Nz (1 : ℝ) Ly Lz).2, (⟨c, fun _ => ()⟩ : CellSpec Unit nq) ∈ (problem cube
      ((Nx + 1) * (Ny + 1) * (Nz + 1)) (boxMesh Nx Ny Nz 1 Ly Lz).1 (boxMesh Nx Ny Nz 1 Ly Lz).2 (tabulate hex8N hex8G p w) fc
      []).cells := fun c hc => List.mem_map.2 ⟨c, hc, rfl⟩
  refine ⟨?_, h.wf.points, fun c hc => h.wf.cell_length _ (hmem c hc), fun c hc => h.wf.cell_lt _ (hmem c hc), fun c hc q => ?_,
    fun c hc => ?_⟩
  · have := h.wf.nonempty
    intro h0
    apply this
    simp only [boxBody] at h0
    simp [problem, h0]
  · have e := h.jac c (by rw [h.conn]; exact hc) q
    change 0 < (mapJacobian (coords 8 (boxMesh Nx Ny Nz 1 Ly Lz).1 c) (Matrix.of ((tabulate hex8N hex8G p w).shapeGradsRef q))).det
      * w q
    erw [e]
    rw [hJ]
    exact mul_pos hJpos (hw q)
  · obtain ⟨i, j, k, hi, hj, hk, e⟩ := box_cell_mem Nx Ny Nz 1 Ly Lz c hc
    have := (C82_rigid w (fun _ _ => 0) p).2.2.2 t x y z hxx hyy hzz ht
      !![1 / Nx, 0, 0; 0, Ly / Ny, 0; 0, 0, Lz / Nz]
      ![(i : ℝ) * (1 / Nx), (j : ℝ) * (Ly / Ny), (k : ℝ) * (Lz / Nz)] (by rw [hJ]; exact hJpos.ne')
    have ee : coords 8 (boxMesh Nx Ny Nz (1 : ℝ) Ly Lz).1 (boxCorners Ny Nz i j k)
        = fun a c => ∑ l, !![(1 : ℝ) / Nx, 0, 0; 0, Ly / Ny, 0; 0, 0, Lz / Nz] c l * hex8V a l
          + ![(i : ℝ) * (1 / Nx), (j : ℝ) * (Ly / Ny), (k : ℝ) * (Lz / Nz)] c := by
      funext a c
      exact h.coords i j k hi hj hk a c
    show (tabulate hex8N hex8G p w).StrainDetermines (coords 8 (boxMesh Nx Ny Nz 1 Ly Lz).1 c)
    rw [e, ee]
    exact this

theorem boxBody_pos (i j k : Nat) (hi : i ≤ Nx) (hj : j ≤ Ny) (hk : k ≤ Nz) :
    (boxBody Nx Ny Nz Ly Lz p w fc).pos (boxNode Ny Nz i j k) = ![(i : ℝ) * (1 / Nx), (j : ℝ) * (Ly / Ny), (k : ℝ) * (Lz / Nz)] :=
  Patch.box_pos Nx Ny Nz 1 Ly Lz i j k hi hj hk

theorem held_of {M : Body nq nfq nn} {on : (Fin 3 → ℝ) → Prop} {n : Nat}
    (h : (problem cube M.numNodes M.points M.cells M.el M.fc []).Held (fun n _ => ¬(n < M.numNodes ∧ on (M.pos n))) n) :
    Held M on n := by
  induction h with
  | fixed n h =>
    have := not_not.1 (h 0)
    exact .support n this.1 this.2
  | cell c hc l hl hh hf m hm ih => exact .cell c (by rwa [conn_eq] at hc) l hl ih hf m hm

theorem boxBody_held (hx : 0 < Nx) (hy : 0 < Ny) (hz : 0 < Nz) (hLy : 0 < Ly) (hLz : 0 < Lz) :
    ∀ n < (boxBody Nx Ny Nz Ly Lz p w fc).numNodes, Held (boxBody Nx Ny Nz Ly Lz p w fc) (fun p => |p 0| ≤ 1 / 100000) n := by
  intro n hn
  have h := onBox (nfq := nfq) (p := p) (w := w) (fc := fc) hx hy hz hLy hLz
  refine held_of (h.held _ (fun j hj k hk c => ?_) n hn)
  refine not_not.2 ⟨boxNode_lt (Nat.zero_le _) hj hk, ?_⟩
  rw [boxBody_pos 0 j k (Nat.zero_le _) hj hk]
  simp

theorem boxBody_volume (hx : 0 < Nx) (hy : 0 < Ny) (hz : 0 < Nz) (hLy : 0 < Ly) (hLz : 0 < Lz) (hw : ∑ q, w q = 1) :
    (boxBody Nx Ny Nz Ly Lz p w fc).volume = Ly * Lz := by
  have h := onBox (nfq := nfq) (p := p) (w := w) (fc := fc) hx hy hz hLy hLz
  have hJ : (!![1 / Nx, 0, 0; 0, Ly / Ny, 0; 0, 0, Lz / Nz] : Matrix (Fin 3) (Fin 3) ℝ).det
      = 1 / Nx * (Ly / Ny) * (Lz / Nz) := by
    rw [Matrix.det_fin_three]; simp
  rw [Body.volume]
  have e : ∀ c ∈ (boxBody Nx Ny Nz Ly Lz p w fc).cells, cellIntegral (boxBody Nx Ny Nz Ly Lz p w fc).el
      (boxBody Nx Ny Nz Ly Lz p w fc).points c (fun _ => 1) = 1 / Nx * (Ly / Ny) * (Lz / Nz) := by
    intro c hc
    rw [cellIntegral]
    have : ∀ q, (1 : ℝ) * ((mapJacobian (coords 8 (boxBody Nx Ny Nz Ly Lz p w fc).points c)
        (Matrix.of ((boxBody Nx Ny Nz Ly Lz p w fc).el.shapeGradsRef q))).det * (boxBody Nx Ny Nz Ly Lz p w fc).el.quadWeights q)
        = 1 / Nx * (Ly / Ny) * (Lz / Nz) * w q := by
      intro q
      have e := h.jac c (by rw [h.conn]; exact hc) q
      have e' := congrArg Matrix.det e
      rw [hJ] at e'
      rw [one_mul]
      exact congrArg (· * w q) e'
    rw [Finset.sum_congr rfl fun q _ => this q, ← Finset.mul_sum, hw, mul_one]
  rw [List.map_congr_left e, List.map_const', List.sum_replicate]
  have hl : (boxBody Nx Ny Nz Ly Lz p w fc).cells.length = Nx * Ny * Nz := (C42_cells Nx Ny Nz 1 Ly Lz).1
  rw [hl, nsmul_eq_mul]
  push_cast
  have h1 : (Nx : ℝ) ≠ 0 := Nat.cast_ne_zero.2 hx.ne'
  have h2 : (Ny : ℝ) ≠ 0 := Nat.cast_ne_zero.2 hy.ne'
  have h3 : (Nz : ℝ) ≠ 0 := Nat.cast_ne_zero.2 hz.ne'
  field_simp

/-- `face_inds` of HEX8 (C40). -/
def hexInds : List (List Nat) := [[0, 1, 3, 2], [0, 1, 4, 5], [0, 3, 4, 7], [1, 2, 5, 6], [3, 2, 7, 6], [4, 5, 7, 6]]

theorem boxBody_valid (hx : 0 < Nx) (hy : 0 < Ny) (hz : 0 < Nz) :
    ValidFaces (boxBody Nx Ny Nz Ly Lz p w fc).points (boxBody Nx Ny Nz Ly Lz p w fc).cells hexInds := by
  intro cell hc face hf a ha
  have ha8 : a < 8 := by
    simp only [hexInds, List.mem_cons, List.not_mem_nil, or_false] at hf
    rcases hf with rfl | rfl | rfl | rfl | rfl | rfl <;>
      (simp only [List.mem_cons, List.not_mem_nil, or_false] at ha; omega)
  obtain ⟨hl, hlt⟩ := (C42_indices Nx Ny Nz 1 Ly Lz).1 cell hc
  have h1 : a < cell.length := by rw [hl]; exact ha8
  have h2 : cell[a] < (boxMesh Nx Ny Nz 1 Ly Lz).1.length := hlt.2 _ (List.getElem_mem h1)
  exact ⟨cell[a], _, List.getElem?_eq_getElem h1, List.getElem?_eq_getElem h2⟩

/-- A vertex of a cell of the mesh lies within the tolerance of the plane `x = 1` if it lies in it. -/
theorem near_iff (hx : 0 < Nx) (hN : Nx < 50000) (i j k : Nat) (hi : i ≤ Nx) (hj : j ≤ Ny) (hk : k ≤ Nz) :
    |(boxBody Nx Ny Nz Ly Lz p w fc).pos (boxNode Ny Nz i j k) 0 - 1| ≤ 2 / 100000 ↔ i = Nx := by
  rw [boxBody_pos i j k hi hj hk]
  show |(i : ℝ) * (1 / Nx) - 1| ≤ _ ↔ _
  have hx0 : (0 : ℝ) < Nx := Nat.cast_pos.2 hx
  have hNr : (Nx : ℝ) < 50000 := by exact_mod_cast hN
  constructor
  · intro h
    by_contra hne
    have h0' : (i : ℝ) + 1 ≤ Nx := by exact_mod_cast (lt_of_le_of_ne hi hne)
    have e : (i : ℝ) * (1 / Nx) - 1 = -((Nx - i) / Nx) := by field_simp; ring
    rw [e, abs_neg, abs_of_nonneg (div_nonneg (by linarith) hx0.le), div_le_iff₀ hx0] at h
    linarith
  · rintro rfl
    rw [mul_one_div_cancel hx0.ne', sub_self, abs_zero]
    norm_num

/-- The loaded faces of the generated mesh. -/
theorem loaded_iff (hx : 0 < Nx) (hN : Nx < 50000) {faces : List (Nat × Nat)}
    (hf : (boxBody Nx Ny Nz Ly Lz p w fc).FacesOn hexInds (fun p => |p 0 - 1| ≤ 2 / 100000) faces) (c f : Nat) :
    (c, f) ∈ faces ↔ f = 3 ∧ ∃ j < Ny, ∃ k < Nz, c = ((Nx - 1) * Ny + j) * Nz + k := by
  set M := boxBody Nx Ny Nz Ly Lz p w fc with hM
  have hpt : ∀ i j k, i ≤ Nx → j ≤ Ny → k ≤ Nz → M.points[boxNode Ny Nz i j k]? = some (M.pos (boxNode Ny Nz i j k)) := by
    intro i j k hi hj hk
    have hlt : boxNode Ny Nz i j k < M.points.length := by
      show _ < (boxMesh Nx Ny Nz 1 Ly Lz).1.length
      rw [(C42_points Nx Ny Nz 1 Ly Lz).1]
      exact boxNode_lt hi hj hk
    rw [List.getElem?_eq_getElem hlt, Body.pos, List.getD_eq_getElem _ _ hlt]
  have hcell : ∀ i j k, i < Nx → j < Ny → k < Nz → M.cells[(i * Ny + j) * Nz + k]? = some (boxCorners Ny Nz i j k) :=
    fun i j k hi hj hk => box_cell Nx Ny Nz 1 Ly Lz i j k hi hj hk
  rw [hf.2 c f]
  constructor
  · rintro ⟨cell, face, hc, hfa, hall⟩
    have hclt : c < Nx * Ny * Nz := by
      have := (List.getElem?_eq_some_iff.1 hc).1
      rwa [show M.cells.length = Nx * Ny * Nz from (C42_cells Nx Ny Nz 1 Ly Lz).1] at this
    have hNz : 0 < Nz := by
      rcases Nat.eq_zero_or_pos Nz with rfl | h
      · simp at hclt
      · exact h
    have hNy : 0 < Ny := by
      rcases Nat.eq_zero_or_pos Ny with rfl | h
      · simp at hclt
      · exact h
    obtain ⟨i, j, k, hi, hj, hk, rfl⟩ : ∃ i j k, i < Nx ∧ j < Ny ∧ k < Nz ∧ c = (i * Ny + j) * Nz + k := by
      refine ⟨c / Nz / Ny, c / Nz % Ny, c % Nz, ?_, Nat.mod_lt _ hNy, Nat.mod_lt _ hNz, ?_⟩
      · exact Nat.div_lt_of_lt_mul (Nat.div_lt_of_lt_mul (by rw [mul_comm, mul_comm Ny]; exact hclt))
      · rw [mul_comm (c / Nz / Ny), Nat.div_add_mod, mul_comm, Nat.div_add_mod]
    rw [hcell i j k hi hj hk] at hc
    obtain rfl := Option.some.inj hc
    have bad : ∀ a j' k', j' ≤ Ny → k' ≤ Nz → (boxCorners Ny Nz i j k)[a]? = some (boxNode Ny Nz i j' k') → a ∉ face := by
      intro a j' k' hj' hk' ha hmem
      obtain ⟨n, q, h1, h2, h3⟩ := hall a hmem
      rw [ha] at h1
      obtain rfl := Option.some.inj h1
      rw [hpt i j' k' hi.le hj' hk'] at h2
      obtain rfl := Option.some.inj h2
      exact absurd ((near_iff hx hN i j' k' hi.le hj' hk').1 h3) hi.ne
    have b0 := bad 0 j k (by omega) (by omega) rfl
    have b3 := bad 3 (j + 1) k (by omega) (by omega) rfl
    have b4 := bad 4 j (k + 1) (by omega) (by omega) rfl
    have hf3 : f = 3 := by
      have hlt : f < 6 := (List.getElem?_eq_some_iff.1 hfa).1
      interval_cases f <;> simp only [hexInds, List.getElem?_cons_zero, List.getElem?_cons_succ, Option.some.injEq] at hfa <;>
        subst hfa <;> simp at b0 b3 b4 ⊢
    subst hf3
    obtain rfl : face = [1, 2, 5, 6] := by
      simpa [hexInds] using hfa.symm
    obtain ⟨n, q, h1, h2, h3⟩ := hall 1 (by simp)
    obtain rfl : boxNode Ny Nz (i + 1) j k = n := by simpa [boxCorners] using h1
    rw [hpt (i + 1) j k hi hj.le hk.le] at h2
    obtain rfl := Option.some.inj h2
    have := (near_iff hx hN (i + 1) j k hi hj.le hk.le).1 h3
    exact ⟨rfl, j, hj, k, hk, by rw [← this]; rfl⟩
  · rintro ⟨rfl, j, hj, k, hk, rfl⟩
    refine ⟨_, [1, 2, 5, 6], hcell (Nx - 1) j k (by omega) hj hk, rfl, fun a ha => ?_⟩
    have good : ∀ a j' k' : Nat, j' ≤ Ny → k' ≤ Nz → (boxCorners Ny Nz (Nx - 1) j k)[a]? = some (boxNode Ny Nz (Nx - 1 + 1) j' k') →
        ∃ (n : Nat) (q : Fin 3 → ℝ), (boxCorners Ny Nz (Nx - 1) j k)[a]? = some n ∧ M.points[n]? = some q ∧ |q 0 - 1| ≤ 2 / 100000 :=
      fun a j' k' hj' hk' ha => ⟨_, _, ha, hpt (Nx - 1 + 1) j' k' (by omega) hj' hk',
        (near_iff hx hN (Nx - 1 + 1) j' k' (by omega) hj' hk').2 (by omega)⟩
    simp only [List.mem_cons, List.not_mem_nil, or_false] at ha
    rcases ha with rfl | rfl | rfl | rfl
    · exact good 1 j k hj.le hk.le rfl
    · exact good 2 (j + 1) k hj hk.le rfl
    · exact good 5 j (k + 1) hj.le hk rfl
    · exact good 6 (j + 1) (k + 1) hj hk rfl

/-- `nanson_scale` at the face `x = 1` of a brick. -/
theorem nanson_box (hx : 0 < Nx) (hy : 0 < Ny) (hz : 0 < Nz) (hLy : 0 < Ly) (hLz : 0 < Lz) (x0 : Fin 3 → ℝ) (X : Fin 8 → Fin 3 → ℝ)
    (hX : ∀ a i, X a i = ∑ j, (!![(1 : ℝ) / Nx, 0, 0; 0, Ly / Ny, 0; 0, 0, Lz / Nz]) i j * hex8V a j + x0 i) (q : Fin 3 → ℝ) (w : ℝ) :
    nansonScale X (hex8G q) ![1, 0, 0] w = Ly / Ny * (Lz / Nz) * w := by
  have h1 : (Nx : ℝ) ≠ 0 := Nat.cast_ne_zero.2 hx.ne'
  have h2 : (Ny : ℝ) ≠ 0 := Nat.cast_ne_zero.2 hy.ne'
  have h3 : (Nz : ℝ) ≠ 0 := Nat.cast_ne_zero.2 hz.ne'
  have hLy' := hLy.ne'
  have hLz' := hLz.ne'
  have hJ : jacobianDxDeta X (hex8G q) = !![(1 : ℝ) / Nx, 0, 0; 0, Ly / Ny, 0; 0, 0, Lz / Nz] := by
    rw [jacobian_eq]
    exact hex8_affine_jacobian _ x0 (Matrix.of X) hX q
  have hinv : (!![(1 : ℝ) / Nx, 0, 0; 0, Ly / Ny, 0; 0, 0, Lz / Nz])⁻¹ = !![(Nx : ℝ), 0, 0; 0, Ny / Ly, 0; 0, 0, Nz / Lz] := by
    refine Matrix.inv_eq_right_inv ?_
    ext a b
    fin_cases a <;> fin_cases b <;> simp [Matrix.mul_apply, Fin.sum_univ_three, h1, h2, h3, hLy', hLz'] <;> field_simp
  have hs : √((Nx : ℝ) ^ 2) = Nx := Real.sqrt_sq (Nat.cast_nonneg _)
  rw [nansonScale, hJ, hinv, Matrix.det_fin_three]
  simp [Fin.sum_univ_three, hs]
  field_simp
  exact Or.inl trivial

theorem boxBody_area (hx : 0 < Nx) (hN : Nx < 50000) (hy : 0 < Ny) (hz : 0 < Nz) (hLy : 0 < Ly) (hLz : 0 < Lz)
    (pf : Fin nfq → Fin 3 → ℝ) (hg : ∀ q, fc.shapeGradsRef 3 q = hex8G (pf q)) (hn : fc.normals 3 = ![1, 0, 0])
    (hwf : ∑ q, fc.quadWeights 3 q = 1) {faces : List (Nat × Nat)}
    (hf : (boxBody Nx Ny Nz Ly Lz p w fc).FacesOn hexInds (fun p => |p 0 - 1| ≤ 2 / 100000) faces) :
    (boxBody Nx Ny Nz Ly Lz p w fc).area faces = Ly * Lz := by
  have h := onBox (nfq := nfq) (p := p) (w := w) (fc := fc) hx hy hz hLy hLz
  have h1 : (Nx : ℝ) ≠ 0 := Nat.cast_ne_zero.2 hx.ne'
  have h2 : (Ny : ℝ) ≠ 0 := Nat.cast_ne_zero.2 hy.ne'
  have h3 : (Nz : ℝ) ≠ 0 := Nat.cast_ne_zero.2 hz.ne'
  have hlist : faces.Perm ((List.range (Ny * Nz)).map fun m => ((Nx - 1) * Ny * Nz + m, 3)) := by
    refine (List.perm_ext_iff_of_nodup hf.1 (List.nodup_range.map fun a b hab => ?_)).2 fun ⟨c, f⟩ => ?_
    · have := (Prod.mk.inj hab).1
      omega
    · rw [loaded_iff hx hN hf, List.mem_map]
      constructor
      · rintro ⟨rfl, j, hj, k, hk, rfl⟩
        exact ⟨j * Nz + k, List.mem_range.2 (gridNode_lt hj hk), by rw [Prod.mk.injEq]; exact ⟨by ring, rfl⟩⟩
      · rintro ⟨m, hm, e⟩
        rw [List.mem_range] at hm
        obtain ⟨rfl, rfl⟩ := Prod.mk.inj e
        refine ⟨rfl, m / Nz, Nat.div_lt_of_lt_mul (by rwa [mul_comm] at hm), m % Nz, Nat.mod_lt _ hz, ?_⟩
        have := Nat.div_add_mod m Nz
        rw [add_mul, add_assoc, mul_comm (m / Nz), this]
  have hval : ∀ a ∈ faces, ∑ q, nansonScale (coords 8 (boxBody Nx Ny Nz Ly Lz p w fc).points
      ((boxBody Nx Ny Nz Ly Lz p w fc).cells.getD a.1 [])) ((boxBody Nx Ny Nz Ly Lz p w fc).fc.shapeGradsRef a.2 q)
      ((boxBody Nx Ny Nz Ly Lz p w fc).fc.normals a.2) ((boxBody Nx Ny Nz Ly Lz p w fc).fc.quadWeights a.2 q)
      = Ly / Ny * (Lz / Nz) := by
    rintro ⟨c, f⟩ ha
    obtain ⟨rfl, j, hj, k, hk, rfl⟩ := (loaded_iff hx hN hf c f).1 ha
    have hc : (boxBody Nx Ny Nz Ly Lz p w fc).cells.getD (((Nx - 1) * Ny + j) * Nz + k) [] = boxCorners Ny Nz (Nx - 1) j k := by
      rw [List.getD_eq_getElem?_getD]
      show ((boxMesh Nx Ny Nz 1 Ly Lz).2[((Nx - 1) * Ny + j) * Nz + k]?).getD [] = _
      rw [box_cell Nx Ny Nz 1 Ly Lz (Nx - 1) j k (by omega) hj hk]
      rfl
    have hq : ∀ q, nansonScale (coords 8 (boxMesh Nx Ny Nz (1 : ℝ) Ly Lz).1 (boxCorners Ny Nz (Nx - 1) j k)) (fc.shapeGradsRef 3 q)
        (fc.normals 3) (fc.quadWeights 3 q) = Ly / Ny * (Lz / Nz) * fc.quadWeights 3 q := by
      intro q
      rw [hg, hn]
      exact nanson_box hx hy hz hLy hLz _ _ (fun a i => h.coords (Nx - 1) j k (by omega) hj hk a i) (pf q) _
    show ∑ q, nansonScale (coords 8 (boxMesh Nx Ny Nz (1 : ℝ) Ly Lz).1 ((boxBody Nx Ny Nz Ly Lz p w fc).cells.getD _ []))
      (fc.shapeGradsRef 3 q) (fc.normals 3) (fc.quadWeights 3 q) = _
    rw [hc, Finset.sum_congr rfl fun q _ => hq q, ← Finset.mul_sum, hwf, mul_one]
  rw [Body.area, List.map_congr_left hval, List.map_const', List.sum_replicate, hlist.length_eq, List.length_map, List.length_range,
    nsmul_eq_mul]
  push_cast
  field_simp

/-- **C121 (cube on a generated mesh).** On `box_mesh(Nx, Ny, Nz, 1, Ly, Lz)` with fewer than 50000 cells along `x`, a positive product
rule in the cells and any rule on the faces, the test runs: `solver` returns the only equilibrium after one Newton step, and the
reactions at `x = 0` sum up to `-10 Ly Lz` in every direction. -/
theorem C121_box (hx : 0 < Nx) (hN : Nx < 50000) (hy : 0 < Ny) (hz : 0 < Nz) (hLy : 0 < Ly) (hLz : 0 < Lz) (hw : ∀ q, 0 < w q)
    (hw1 : ∑ q, w q = 1) (t : Fin 2 → Fin 2 → Fin 2 → Fin nq) (x y z : Fin 2 → ℝ) (hxx : x 0 ≠ x 1) (hyy : y 0 ≠ y 1)
    (hzz : z 0 ≠ z 1) (ht : ∀ i j k, p (t i j k) = ![x i, y j, z k])
    (hfu : fc.Unity) (pf : Fin nfq → Fin 3 → ℝ) (hg : ∀ q, fc.shapeGradsRef 3 q = hex8G (pf q)) (hn : fc.normals 3 = ![1, 0, 0])
    (hwf : ∑ q, fc.quadWeights 3 q = 1) :
    let M := boxBody Nx Ny Nz Ly Lz p w fc
    (∀ faces, M.FacesOn hexInds (fun p => |p 0 - 1| ≤ 2 / 100000) faces →
      ∃ T, ∀ x, HasJacobianAt (residualVec (problem cube M.numNodes M.points M.cells M.el M.fc faces)) T x) ∧
    ∀ num : (P : Problem1 Unit nq nfq 8 3 3) → Numerics (totalDofs P.fes),
      (∀ faces, M.FacesOn hexInds (fun p => |p 0 - 1| ≤ 2 / 100000) faces → ∀ x,
        HasJacobianAt (residualVec (problem cube M.numNodes M.points M.cells M.el M.fc faces))
          ((num (problem cube M.numNodes M.points M.cells M.el M.fc faces)).tan x) x) →
      (∀ P, ExactSolver (num P).solve) → (∀ P A b x0, A.det ≠ 0 → ∃ x, (num P).solve A b x0 = .ok x) → ∀ fuel,
      ∃ sol faces S, run cube M.numNodes M.points M.cells hexInds M.el M.fc num (fuel + 2) = some (.ok (sol, 1, faces)) ∧
        HasShapes [((Nx + 1) * (Ny + 1) * (Nz + 1), 3)] [sol] ∧
        (∀ c f, (c, f) ∈ faces ↔ f = 3 ∧ ∃ j < Ny, ∃ k < Nz, c = ((Nx - 1) * Ny + j) * Nz + k) ∧
        M.Equilibrium (fun p => |p 0| ≤ 1 / 100000) 1 (fun _ => ![0, 10, 10]) (fun _ => ![10, 0, 0]) faces (fieldOf 3 sol) S ∧
        (∀ u S', M.Equilibrium (fun p => |p 0| ≤ 1 / 100000) 1 (fun _ => ![0, 10, 10]) (fun _ => ![10, 0, 0]) faces u S' →
          ∀ n < M.numNodes, ∀ i, u n i = fieldOf 3 sol n i) ∧
        ∀ e : Fin 3, M.reaction (fun p => |p 0| ≤ 1 / 100000) (fun _ => ![0, 10, 10]) (fun _ => ![10, 0, 0]) faces S
          (fun _ i => if i = e then 1 else 0) = -(10 * (Ly * Lz)) := by
  intro M
  have hM : M.Sound := boxBody_sound hx hy hz hLy hLz hw t x y z hxx hyy hzz ht
  have hv : ValidFaces M.points M.cells hexInds := boxBody_valid hx hy hz
  constructor
  · intro faces hf
    refine tangent_exists cube M hM faces fun a ha => ?_
    obtain ⟨cell, face, hc, -⟩ := (hf.2 a.1 a.2).1 ha
    exact (List.getElem?_eq_some_iff.1 hc).1
  · intro num htan hs hs' fuel
    obtain ⟨sol, faces, S, h1, h2, h3, h4, h5⟩ := C121_cube M hM (boxBody_held hx hy hz hLy hLz)
      ⟨boxNode Ny Nz 0 0 0, boxNode_lt (Nat.zero_le _) (Nat.zero_le _) (Nat.zero_le _), by
        rw [boxBody_pos 0 0 0 (Nat.zero_le _) (Nat.zero_le _) (Nat.zero_le _)]; simp⟩ hexInds hv num htan hs hs' fuel
    refine ⟨sol, faces, S, h1, h3, loaded_iff hx hN h2, h4, h5, fun e => ?_⟩
    obtain ⟨r1, r2, r3⟩ := C121_resultant M hM (C10_first_order_unity w (fun _ _ => 0) p).2.2.2 hfu _ _ faces _ S h4
    rw [boxBody_area hx hN hy hz hLy hLz pf hg hn hwf h2] at r1
    rw [boxBody_volume hx hy hz hLy hLz hw1] at r2 r3
    fin_cases e
    · rw [← r1]; congr 1; funext _ i; fin_cases i <;> rfl
    · rw [← r2]; congr 1; funext _ i; fin_cases i <;> rfl
    · rw [← r3]; congr 1; funext _ i; fin_cases i <;> rfl

end box

/-- The rule of four points on the face `x = 1` of HEX8 (the other faces are not loaded; they get the same tables). -/
noncomputable def exFaces : RefFaces ℝ 4 8 3 :=
  ⟨fun _ q => hex8N ![1, PoissonBench.gauss2 (q / 2), PoissonBench.gauss2 (q % 2)],
    fun _ q => hex8G ![1, PoissonBench.gauss2 (q / 2), PoissonBench.gauss2 (q % 2)], fun _ _ => 1 / 4, fun _ => ![1, 0, 0]⟩

open Classical in
/-- Exact numerics. -/
noncomputable def exNum (P : Problem1 Unit nq nfq nn 3 3) : Numerics (totalDofs P.fes) :=
  ⟨fun x => if h : ∃ T, HasJacobianAt (residualVec P) T x then h.choose else 0, (exists_exact_solver (totalDofs P.fes)).choose⟩

theorem exNum_tan (P : Problem1 Unit nq nfq nn 3 3) (h : ∃ T, ∀ x, HasJacobianAt (residualVec P) T x) (x : Fin (totalDofs P.fes) → ℝ) :
    HasJacobianAt (residualVec P) ((exNum P).tan x) x := by
  have hex : ∃ T, HasJacobianAt (residualVec P) T x := h.imp fun T hT => hT x
  simp only [exNum]
  rw [dif_pos hex]
  exact hex.choose_spec

/-- The hypotheses are met: on a 10 × 10 × 10 mesh of the unit cube with the Gauss rule of eight points there are exact numerics, and
the reactions are `-10` in every direction. -/
example : let M := boxBody 10 10 10 1 1 PoissonBench.gauss8 (fun _ => 1 / 8) exFaces
    ∃ num : (P : Problem1 Unit 8 4 8 3 3) → Numerics (totalDofs P.fes), ∃ sol faces S,
      run cube M.numNodes M.points M.cells hexInds M.el M.fc num 2 = some (.ok (sol, 1, faces)) ∧ (900, 3) ∈ faces ∧ (0, 3) ∉ faces ∧
      ∀ e : Fin 3, M.reaction (fun p => |p 0| ≤ 1 / 100000) (fun _ => ![0, 10, 10]) (fun _ => ![10, 0, 0]) faces S
        (fun _ i => if i = e then 1 else 0) = -10 := by
  intro M
  have hne : PoissonBench.gauss2 0 ≠ PoissonBench.gauss2 1 := by
    have h3 : (0 : ℝ) < √3 := Real.sqrt_pos.2 (by norm_num)
    intro h
    simp only [PoissonBench.gauss2, if_true, one_ne_zero, if_false] at h
    have : (0 : ℝ) < 1 / √3 := one_div_pos.2 h3
    linarith
  obtain ⟨hT, hrun⟩ := C121_box (Nx := 10) (Ny := 10) (Nz := 10) (Ly := 1) (Lz := 1) (p := PoissonBench.gauss8) (w := fun _ => 1 / 8)
    (fc := exFaces) (by norm_num) (by norm_num) (by norm_num) (by norm_num) one_pos one_pos (fun _ => by norm_num)
    (by simp) (fun a b c => ⟨4 * a + 2 * b + c, by omega⟩) ![PoissonBench.gauss2 0, PoissonBench.gauss2 1]
    ![PoissonBench.gauss2 0, PoissonBench.gauss2 1] ![PoissonBench.gauss2 0, PoissonBench.gauss2 1] hne hne hne
    (fun a b c => by fin_cases a <;> fin_cases b <;> fin_cases c <;> rfl)
    (fun f q => (C10_first_order_unity (nq := 4) (fun _ => (0 : ℝ)) (fun _ _ => 0)
      fun q => ![1, PoissonBench.gauss2 (q / 2), PoissonBench.gauss2 (q % 2)]).2.2.2 q)
    _ (fun q => rfl) rfl (by simp [exFaces])
  obtain ⟨sol, faces, S, h1, -, h3, -, -, h6⟩ := hrun exNum (fun faces hf => exNum_tan _ (hT faces hf))
    (fun P => (exists_exact_solver (totalDofs P.fes)).choose_spec.1)
    (fun P => (exists_exact_solver (totalDofs P.fes)).choose_spec.2) 0
  refine ⟨exNum, sol, faces, S, h1, (h3 _ _).2 ⟨rfl, 0, by norm_num, 0, by norm_num, rfl⟩, fun h => ?_, fun e => (h6 e).trans (by norm_num)⟩
  obtain ⟨-, j, -, k, -, h⟩ := (h3 _ _).1 h
  omega

end JaxFem.ElasticBench
