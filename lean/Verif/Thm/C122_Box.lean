import Verif.Thm.C122_Scalability

/-!
# C122: the cube of the scalability example
-/

namespace JaxFem.Scalability

open ElasticBench (Body boxBody hexInds boxBody_pos boxBody_valid boxBody_sound)

variable {nq nfq nn Nx Ny Nz : Nat} {p : Fin nq → Fin 3 → ℝ} {w : Fin nq → ℝ} {fc : RefFaces ℝ nfq 8 3}

theorem left_holds (p : Fin 3 → ℝ) (n : Nat) : left.holds p n ↔ |p 0| ≤ 1 / 100000 := by
  simp only [left, LocFn.holds, FinitePlasticity.isclose]
  norm_num

theorem right_holds (p : Fin 3 → ℝ) (n : Nat) : right.holds p n ↔ |p 0 - 1| ≤ 2 / 100000 := by
  simp only [right, LocFn.holds, FinitePlasticity.isclose]
  norm_num

theorem yMax_holds (p : Fin 3 → ℝ) (n : Nat) : yMax.holds p n ↔ |p 1 - 1| ≤ 2 / 100000 := by
  simp only [yMax, LocFn.holds, FinitePlasticity.isclose]
  norm_num

/-- A grid coordinate is within the tolerance of the end of the interval only at the end. -/
theorem near_end (N i : Nat) (hN0 : 0 < N) (hN : N < 50000) (hi : i ≤ N) : |(i : ℝ) * (1 / N) - 1| ≤ 2 / 100000 ↔ i = N := by
  have hx0 : (0 : ℝ) < N := Nat.cast_pos.2 hN0
  have hNr : (N : ℝ) < 50000 := by exact_mod_cast hN
  constructor
  · intro h
    by_contra hne
    have h0' : (i : ℝ) + 1 ≤ N := by exact_mod_cast (lt_of_le_of_ne hi hne)
    have e : (i : ℝ) * (1 / N) - 1 = -((N - i) / N) := by field_simp; ring
    rw [e, abs_neg, abs_of_nonneg (div_nonneg (by linarith) hx0.le), div_le_iff₀ hx0] at h
    linarith
  · rintro rfl
    rw [mul_one_div_cancel hx0.ne', sub_self, abs_zero]
    norm_num

theorem near_start (N i : Nat) (hN0 : 0 < N) (hN : N < 50000) : |(i : ℝ) * (1 / N)| ≤ 1 / 100000 ↔ i = 0 := by
  have hx0 : (0 : ℝ) < N := Nat.cast_pos.2 hN0
  have hNr : (N : ℝ) < 50000 := by exact_mod_cast hN
  constructor
  · intro h
    by_contra hne
    have h1 : (1 : ℝ) ≤ i := by exact_mod_cast Nat.one_le_iff_ne_zero.2 hne
    rw [mul_one_div, abs_of_nonneg (by positivity), div_le_iff₀ hx0] at h
    linarith
  · rintro rfl
    simp

local notation "𝓜" => boxBody Nx Ny Nz 1 1 p w fc

/-- The loaded faces of the generated mesh. -/
theorem loaded_iff (hy : 0 < Ny) (hN : Ny < 50000) {faces : List (Nat × Nat)}
    (hf : (𝓜).FacesOn hexInds (fun p => |p 1 - 1| ≤ 2 / 100000) faces) (c f : Nat) :
    (c, f) ∈ faces ↔ f = 4 ∧ ∃ i < Nx, ∃ k < Nz, c = (i * Ny + (Ny - 1)) * Nz + k := by
  set M := boxBody Nx Ny Nz 1 1 p w fc with hM
  have hpt : ∀ i j k, i ≤ Nx → j ≤ Ny → k ≤ Nz → M.points[boxNode Ny Nz i j k]? = some (M.pos (boxNode Ny Nz i j k)) := by
    intro i j k hi hj hk
    have hlt : boxNode Ny Nz i j k < M.points.length := by
      show _ < (boxMesh Nx Ny Nz 1 1 1).1.length
      rw [(C42_points Nx Ny Nz 1 1 1).1]
      exact boxNode_lt hi hj hk
    rw [List.getElem?_eq_getElem hlt, Body.pos, List.getD_eq_getElem _ _ hlt]
  have hnear : ∀ i j k, i ≤ Nx → j ≤ Ny → k ≤ Nz → (|M.pos (boxNode Ny Nz i j k) 1 - 1| ≤ 2 / 100000 ↔ j = Ny) := by
    intro i j k hi hj hk
    rw [hM, boxBody_pos i j k hi hj hk]
    exact near_end Ny j hy hN hj
  have hcell : ∀ i j k, i < Nx → j < Ny → k < Nz → M.cells[(i * Ny + j) * Nz + k]? = some (boxCorners Ny Nz i j k) :=
    fun i j k hi hj hk => box_cell Nx Ny Nz 1 1 1 i j k hi hj hk
  rw [hf.2 c f]
  constructor
  · rintro ⟨cell, face, hc, hfa, hall⟩
    have hclt : c < Nx * Ny * Nz := by
      have := (List.getElem?_eq_some_iff.1 hc).1
      rwa [show M.cells.length = Nx * Ny * Nz from (C42_cells Nx Ny Nz 1 1 1).1] at this
    have hNz : 0 < Nz := by
      rcases Nat.eq_zero_or_pos Nz with rfl | h
      · simp at hclt
      · exact h
    obtain ⟨i, j, k, hi, hj, hk, rfl⟩ : ∃ i j k, i < Nx ∧ j < Ny ∧ k < Nz ∧ c = (i * Ny + j) * Nz + k := by
      refine ⟨c / Nz / Ny, c / Nz % Ny, c % Nz, ?_, Nat.mod_lt _ hy, Nat.mod_lt _ hNz, ?_⟩
      · exact Nat.div_lt_of_lt_mul (Nat.div_lt_of_lt_mul (by rw [mul_comm, mul_comm Ny]; exact hclt))
      · rw [mul_comm (c / Nz / Ny), Nat.div_add_mod, mul_comm, Nat.div_add_mod]
    rw [hcell i j k hi hj hk] at hc
    obtain rfl := Option.some.inj hc
    have bad : ∀ a i' k', i' ≤ Nx → k' ≤ Nz → (boxCorners Ny Nz i j k)[a]? = some (boxNode Ny Nz i' j k') → a ∉ face := by
      intro a i' k' hi' hk' ha hmem
      obtain ⟨n, q, h1, h2, h3⟩ := hall a hmem
      rw [ha] at h1
      obtain rfl := Option.some.inj h1
      rw [hpt i' j k' hi' hj.le hk'] at h2
      obtain rfl := Option.some.inj h2
      exact absurd ((hnear i' j k' hi' hj.le hk').1 h3) hj.ne
    have b0 := bad 0 i k (by omega) (by omega) rfl
    have b1 := bad 1 (i + 1) k (by omega) (by omega) rfl
    have b4 := bad 4 i (k + 1) (by omega) (by omega) rfl
    have hf4 : f = 4 := by
      have hlt : f < 6 := (List.getElem?_eq_some_iff.1 hfa).1
      interval_cases f <;> simp only [hexInds, List.getElem?_cons_zero, List.getElem?_cons_succ, Option.some.injEq] at hfa <;>
        subst hfa <;> simp at b0 b1 b4 ⊢
    subst hf4
    obtain rfl : face = [3, 2, 7, 6] := by
      simpa [hexInds] using hfa.symm
    obtain ⟨n, q, h1, h2, h3⟩ := hall 3 (by simp)
    obtain rfl : boxNode Ny Nz i (j + 1) k = n := by simpa [boxCorners] using h1
    rw [hpt i (j + 1) k hi.le hj hk.le] at h2
    obtain rfl := Option.some.inj h2
    have := (hnear i (j + 1) k hi.le hj hk.le).1 h3
    exact ⟨rfl, i, hi, k, hk, by rw [← this]; rfl⟩
  · rintro ⟨rfl, i, hi, k, hk, rfl⟩
    refine ⟨_, [3, 2, 7, 6], hcell i (Ny - 1) k hi (by omega) hk, rfl, fun a ha => ?_⟩
    have good : ∀ a i' k' : Nat, i' ≤ Nx → k' ≤ Nz → (boxCorners Ny Nz i (Ny - 1) k)[a]? = some (boxNode Ny Nz i' (Ny - 1 + 1) k') →
        ∃ (n : Nat) (q : Fin 3 → ℝ), (boxCorners Ny Nz i (Ny - 1) k)[a]? = some n ∧ M.points[n]? = some q ∧ |q 1 - 1| ≤ 2 / 100000 :=
      fun a i' k' hi' hk' ha => ⟨_, _, ha, hpt i' (Ny - 1 + 1) k' hi' (by omega) hk',
        (hnear i' (Ny - 1 + 1) k' hi' (by omega) hk').2 (by omega)⟩
    simp only [List.mem_cons, List.not_mem_nil, or_false] at ha
    rcases ha with rfl | rfl | rfl | rfl
    · exact good 3 i k hi.le hk.le rfl
    · exact good 2 (i + 1) k hi hk.le rfl
    · exact good 7 i (k + 1) hi.le hk rfl
    · exact good 6 (i + 1) (k + 1) hi hk rfl

/-- `nanson_scale` at the face `y = 1` of a brick. -/
theorem nanson_y (hx : 0 < Nx) (hy : 0 < Ny) (hz : 0 < Nz) (x0 : Fin 3 → ℝ) (X : Fin 8 → Fin 3 → ℝ)
    (hX : ∀ a i, X a i = ∑ j, (!![(1 : ℝ) / Nx, 0, 0; 0, 1 / Ny, 0; 0, 0, 1 / Nz]) i j * hex8V a j + x0 i) (q : Fin 3 → ℝ) (w : ℝ) :
    nansonScale X (hex8G q) ![0, 1, 0] w = 1 / Nx * (1 / Nz) * w := by
  have h1 : (Nx : ℝ) ≠ 0 := Nat.cast_ne_zero.2 hx.ne'
  have h2 : (Ny : ℝ) ≠ 0 := Nat.cast_ne_zero.2 hy.ne'
  have h3 : (Nz : ℝ) ≠ 0 := Nat.cast_ne_zero.2 hz.ne'
  have hJ : jacobianDxDeta X (hex8G q) = !![(1 : ℝ) / Nx, 0, 0; 0, 1 / Ny, 0; 0, 0, 1 / Nz] := by
    rw [jacobian_eq]
    exact hex8_affine_jacobian _ x0 (Matrix.of X) hX q
  have hinv : (!![(1 : ℝ) / Nx, 0, 0; 0, 1 / Ny, 0; 0, 0, 1 / Nz])⁻¹ = !![(Nx : ℝ), 0, 0; 0, Ny, 0; 0, 0, Nz] := by
    refine Matrix.inv_eq_right_inv ?_
    ext a b
    fin_cases a <;> fin_cases b <;> simp [Matrix.mul_apply, Fin.sum_univ_three, h1, h2, h3]
  have hs : √((Ny : ℝ) ^ 2) = Ny := Real.sqrt_sq (Nat.cast_nonneg _)
  rw [nansonScale, hJ, hinv, Matrix.det_fin_three]
  simp [Fin.sum_univ_three, hs]
  field_simp
  exact Or.inl trivial

theorem area_y (hx : 0 < Nx) (hy : 0 < Ny) (hN : Ny < 50000) (hz : 0 < Nz)
    (pf : Fin nfq → Fin 3 → ℝ) (hg : ∀ q, fc.shapeGradsRef 4 q = hex8G (pf q)) (hn : fc.normals 4 = ![0, 1, 0])
    (hwf : ∑ q, fc.quadWeights 4 q = 1) {faces : List (Nat × Nat)}
    (hf : (𝓜).FacesOn hexInds (fun p => |p 1 - 1| ≤ 2 / 100000) faces) : (𝓜).area faces = 1 := by
  have h := ElasticBench.onBox (nfq := nfq) (p := p) (w := w) (fc := fc) hx hy hz one_pos one_pos
  have h1 : (Nx : ℝ) ≠ 0 := Nat.cast_ne_zero.2 hx.ne'
  have h3 : (Nz : ℝ) ≠ 0 := Nat.cast_ne_zero.2 hz.ne'
  have hlist : faces.Perm ((List.range (Nx * Nz)).map fun m => ((m / Nz * Ny + (Ny - 1)) * Nz + m % Nz, 4)) := by
    refine (List.perm_ext_iff_of_nodup hf.1 (List.Nodup.map ?_ List.nodup_range)).2 fun ⟨c, f⟩ => ?_
    · intro a b hab
      have e := (Prod.mk.inj hab).1
      have ha := Nat.mod_lt a hz
      have hb := Nat.mod_lt b hz
      have e1 := congrArg (· / Nz) e
      have e2 := congrArg (· % Nz) e
      simp only [Nat.add_div_of_dvd_right (Dvd.intro_left _ rfl), Nat.mul_div_cancel _ hz, Nat.div_eq_of_lt ha, Nat.div_eq_of_lt hb,
        Nat.mul_add_mod', Nat.mod_mod, add_zero] at e1 e2
      have e3 : a / Nz = b / Nz := Nat.eq_of_mul_eq_mul_right hy (by omega)
      rw [← Nat.div_add_mod a Nz, ← Nat.div_add_mod b Nz, e3, e2]
    · rw [loaded_iff hy hN hf, List.mem_map]
      constructor
      · rintro ⟨rfl, i, hi, k, hk, rfl⟩
        refine ⟨i * Nz + k, List.mem_range.2 (gridNode_lt hi hk), ?_⟩
        rw [Nat.add_div_of_dvd_right (Dvd.intro_left _ rfl), Nat.mul_div_cancel _ hz, Nat.div_eq_of_lt hk, Nat.mul_add_mod',
          Nat.mod_eq_of_lt hk, add_zero]
      · rintro ⟨m, hm, e⟩
        rw [List.mem_range] at hm
        obtain ⟨rfl, rfl⟩ := Prod.mk.inj e
        exact ⟨rfl, m / Nz, Nat.div_lt_of_lt_mul (by rwa [mul_comm] at hm), m % Nz, Nat.mod_lt _ hz, rfl⟩
  have hval : ∀ a ∈ faces, ∑ q, nansonScale (coords 8 (𝓜).points ((𝓜).cells.getD a.1 [])) ((𝓜).fc.shapeGradsRef a.2 q)
      ((𝓜).fc.normals a.2) ((𝓜).fc.quadWeights a.2 q) = 1 / Nx * (1 / Nz) := by
    rintro ⟨c, f⟩ ha
    obtain ⟨rfl, i, hi, k, hk, rfl⟩ := (loaded_iff hy hN hf c f).1 ha
    have hc : (𝓜).cells.getD ((i * Ny + (Ny - 1)) * Nz + k) [] = boxCorners Ny Nz i (Ny - 1) k := by
      rw [List.getD_eq_getElem?_getD]
      show ((boxMesh Nx Ny Nz 1 1 1).2[(i * Ny + (Ny - 1)) * Nz + k]?).getD [] = _
      rw [box_cell Nx Ny Nz 1 1 1 i (Ny - 1) k hi (by omega) hk]
      rfl
    have hq : ∀ q, nansonScale (coords 8 (boxMesh Nx Ny Nz (1 : ℝ) 1 1).1 (boxCorners Ny Nz i (Ny - 1) k)) (fc.shapeGradsRef 4 q)
        (fc.normals 4) (fc.quadWeights 4 q) = 1 / Nx * (1 / Nz) * fc.quadWeights 4 q := by
      intro q
      rw [hg, hn]
      exact nanson_y hx hy hz _ _ (fun a l => h.coords i (Ny - 1) k hi (by omega) hk a l) (pf q) _
    show ∑ q, nansonScale (coords 8 (boxMesh Nx Ny Nz (1 : ℝ) 1 1).1 ((𝓜).cells.getD _ []))
      (fc.shapeGradsRef 4 q) (fc.normals 4) (fc.quadWeights 4 q) = _
    rw [hc, Finset.sum_congr rfl fun q _ => hq q, ← Finset.mul_sum, hwf, mul_one]
  rw [Body.area, List.map_congr_left hval, List.map_const', List.sum_replicate, hlist.length_eq, List.length_map, List.length_range,
    nsmul_eq_mul]
  push_cast
  field_simp

/-- What the conditions demand at a node. -/
theorem demands (points : List (Fin 3 → ℝ)) (n : Nat) (x : Fin 3 → ℝ) (hp : points[n]? = some x) (c : Fin 3) :
    (|x 0| ≤ 1 / 100000 → ¬ |x 0 - 1| ≤ 2 / 100000 → UserBC.Demands points (UserBC.conds info) n c (some 0)) ∧
    (|x 0 - 1| ≤ 2 / 100000 → UserBC.Demands points (UserBC.conds info) n c (some (if c = 0 then 2 / 100 else 0))) ∧
    (¬ |x 0| ≤ 1 / 100000 → ¬ |x 0 - 1| ≤ 2 / 100000 → UserBC.Demands points (UserBC.conds info) n c none) := by
  have hr : ∀ p, points[n]? = some p → right.holds p n → |x 0 - 1| ≤ 2 / 100000 := by
    intro p hp' h
    rw [hp] at hp'
    rw [Option.some.inj hp']
    exact (right_holds _ _).1 h
  have hl : ∀ p, points[n]? = some p → left.holds p n → |x 0| ≤ 1 / 100000 := by
    intro p hp' h
    rw [hp] at hp'
    rw [Option.some.inj hp']
    exact (left_holds _ _).1 h
  refine ⟨fun h1 h2 => ?_, fun h1 => ?_, fun h1 h2 => ?_⟩
  · have hh : left.holds x n := (left_holds _ _).2 h1
    fin_cases c
    · refine .value [] (left, 0, fun _ => 0) [(left, 1, fun _ => 0), (left, 2, fun _ => 0), (right, 0, fun _ => 2 / 100),
        (right, 1, fun _ => 0), (right, 2, fun _ => 0)] x rfl rfl hp hh ?_
      rintro it hit ⟨hc, p, hp', hh'⟩
      simp only [List.mem_cons, List.not_mem_nil, or_false] at hit
      rcases hit with rfl | rfl | rfl | rfl | rfl
      · exact absurd hc (by norm_num)
      · exact absurd hc (by norm_num)
      · exact h2 (hr p hp' hh')
      · exact absurd hc (by norm_num)
      · exact absurd hc (by norm_num)
    · refine .value [(left, 0, fun _ => 0)] (left, 1, fun _ => 0) [(left, 2, fun _ => 0), (right, 0, fun _ => 2 / 100),
        (right, 1, fun _ => 0), (right, 2, fun _ => 0)] x rfl rfl hp hh ?_
      rintro it hit ⟨hc, p, hp', hh'⟩
      simp only [List.mem_cons, List.not_mem_nil, or_false] at hit
      rcases hit with rfl | rfl | rfl | rfl
      · exact absurd hc (by norm_num)
      · exact absurd hc (by norm_num)
      · exact h2 (hr p hp' hh')
      · exact absurd hc (by norm_num)
    · refine .value [(left, 0, fun _ => 0), (left, 1, fun _ => 0)] (left, 2, fun _ => 0) [(right, 0, fun _ => 2 / 100),
        (right, 1, fun _ => 0), (right, 2, fun _ => 0)] x rfl rfl hp hh ?_
      rintro it hit ⟨hc, p, hp', hh'⟩
      simp only [List.mem_cons, List.not_mem_nil, or_false] at hit
      rcases hit with rfl | rfl | rfl
      · exact absurd hc (by norm_num)
      · exact absurd hc (by norm_num)
      · exact h2 (hr p hp' hh')
  · have hh : right.holds x n := (right_holds _ _).2 h1
    fin_cases c
    · refine .value [(left, 0, fun _ => 0), (left, 1, fun _ => 0), (left, 2, fun _ => 0)] (right, 0, fun _ => 2 / 100)
        [(right, 1, fun _ => 0), (right, 2, fun _ => 0)] x rfl rfl hp hh ?_
      rintro it hit ⟨hc, -⟩
      simp only [List.mem_cons, List.not_mem_nil, or_false] at hit
      rcases hit with rfl | rfl <;> exact absurd hc (by norm_num)
    · refine .value [(left, 0, fun _ => 0), (left, 1, fun _ => 0), (left, 2, fun _ => 0), (right, 0, fun _ => 2 / 100)]
        (right, 1, fun _ => 0) [(right, 2, fun _ => 0)] x rfl rfl hp hh ?_
      rintro it hit ⟨hc, -⟩
      simp only [List.mem_cons, List.not_mem_nil, or_false] at hit
      rcases hit with rfl
      exact absurd hc (by norm_num)
    · exact .value [(left, 0, fun _ => 0), (left, 1, fun _ => 0), (left, 2, fun _ => 0), (right, 0, fun _ => 2 / 100),
        (right, 1, fun _ => 0)] (right, 2, fun _ => 0) [] x rfl rfl hp hh (by simp)
  · refine .free ?_
    rintro it hit ⟨-, p, hp', hh'⟩
    simp only [UserBC.conds, info, List.zip_cons_cons, List.zip_nil_right, List.mem_cons, List.not_mem_nil, or_false] at hit
    rcases hit with rfl | rfl | rfl | rfl | rfl | rfl
    · exact h1 (hl p hp' hh')
    · exact h1 (hl p hp' hh')
    · exact h1 (hl p hp' hh')
    · exact h2 (hr p hp' hh')
    · exact h2 (hr p hp' hh')
    · exact h2 (hr p hp' hh')

theorem info_readable : UserBC.Readable info ∧ ∀ it ∈ UserBC.conds info, it.2.1 < 3 := by
  constructor
  · refine ⟨rfl, rfl, ?_⟩
    intro loc hl
    simp only [List.mem_cons, List.not_mem_nil, or_false] at hl
    rcases hl with rfl | rfl | rfl | rfl | rfl | rfl <;> trivial
  · intro it hit
    simp only [UserBC.conds, info, List.zip_cons_cons, List.zip_nil_right, List.mem_cons, List.not_mem_nil, or_false] at hit
    rcases hit with rfl | rfl | rfl | rfl | rfl | rfl <;> norm_num

theorem bc_builds (M : Body nq nfq nn) (faces : List (Nat × Nat)) : ∃ b, dirichletBC M.points info = .ok b ∧
      UserBC.problemBCs (.single M.points info) = .ok [UserBC.entries b] ∧
      UserBC.Suits (classic M.points M.cells M.el M.fc faces).fes (.single M.points info) := by
  obtain ⟨bcs, hb⟩ := (UserBC.C107_builds (.single M.points info)).2 (by
    intro i hi'
    have : i = 0 := by simpa [UserBC.Args.meshes] using hi'
    subst this
    exact ⟨info, rfl, info_readable.1⟩)
  cases hd : dirichletBC M.points info with
  | error e =>
    have : UserBC.problemBCs (.single M.points info) = .error e := by
      show (dirichletBC M.points info >>= fun b => Except.ok [UserBC.entries b]) = _
      rw [hd]
      rfl
    rw [this] at hb
    cases hb
  | ok b =>
    refine ⟨b, rfl, ?_, ?_, ?_, ?_⟩
    · show (dirichletBC M.points info >>= fun b => Except.ok [UserBC.entries b]) = _
      rw [hd]
      rfl
    · rfl
    · intro i fe pts h1 h2
      have h0 : i = 0 := by
        have := (List.getElem?_eq_some_iff.1 h1).1
        simpa [Problem1.fes] using this
      subst h0
      have e1 : fe = ⟨(classic M.points M.cells M.el M.fc faces).numTotalNodes, 3, nn, (classic M.points M.cells M.el M.fc faces).conn⟩ := by
        simpa [Problem1.fes] using h1.symm
      have e2 : pts = M.points := by simpa [UserBC.Args.meshes] using h2.symm
      rw [e1, e2]
      rfl
    · intro i fe info' h1 h2 it hit
      have h0 : i = 0 := by
        have := (List.getElem?_eq_some_iff.1 h1).1
        simpa [Problem1.fes] using this
      subst h0
      have e1 : fe = ⟨(classic M.points M.cells M.el M.fc faces).numTotalNodes, 3, nn, (classic M.points M.cells M.el M.fc faces).conn⟩ := by
        simpa [Problem1.fes] using h1.symm
      have e2 : info' = info := by simpa [UserBC.Args.given] using h2.symm
      rw [e2] at hit
      rw [e1]
      exact info_readable.2 it hit

/-- **C122 (cube).** The problems can be built for every number of cells below 50000. The loaded faces are those of the cells of the
last layer in the direction `y`; the nodes of the first layer are fixed, those of the last layer in the direction `x` are moved by
0.02 in this direction and fixed in the others, all other nodes are free. For every density and every solution without inverted cells
the two ends together exert the force `+1e-3` in the direction `y` and none in the others. -/
theorem C122_cube (hx : 0 < Nx) (hNx : Nx < 50000) (hy : 0 < Ny) (hNy : Ny < 50000) (hz : 0 < Nz) (hw : ∀ q, 0 < w q)
    (t : Fin 2 → Fin 2 → Fin 2 → Fin nq) (x y z : Fin 2 → ℝ) (hxx : x 0 ≠ x 1) (hyy : y 0 ≠ y 1)
    (hzz : z 0 ≠ z 1) (ht : ∀ i j k, p (t i j k) = ![x i, y j, z k])
    (hfu : fc.Unity) (pf : Fin nfq → Fin 3 → ℝ) (hg : ∀ q, fc.shapeGradsRef 4 q = hex8G (pf q)) (hn : fc.normals 4 = ![0, 1, 0])
    (hwf : ∑ q, fc.quadWeights 4 q = 1) :
    let M := boxBody Nx Ny Nz 1 1 p w fc
    ∃ entries faces, build Nx Ny Nz hexInds = .ok ((M.points, M.cells), entries, faces) ∧
      faces.Nodup ∧ (∀ c f, (c, f) ∈ faces ↔ f = 4 ∧ ∃ i < Nx, ∃ k < Nz, c = (i * Ny + (Ny - 1)) * Nz + k) ∧
      (∀ i ≤ Nx, ∀ j ≤ Ny, ∀ k ≤ Nz, ∀ (c : Fin 3) o,
        Prescribed (classic M.points M.cells M.el M.fc faces).fes [entries]
          (dofNum (classic M.points M.cells M.el M.fc faces).fes 0 (boxNode Ny Nz i j k) c) o ↔
        o = if i = 0 then some 0 else if i = Nx then some (if c = 0 then 2 / 100 else 0) else none) ∧
      ∀ (rho : List (Fin nq → ℝ)), rho.length = M.cells.length → ∀ sol, HasShapes [(M.numNodes, 3)] [sol] →
        (∀ c ∈ M.cells, ∀ q, 1 / 10 ^ 14 < (deformation M (fieldOf 3 sol) c q).det) →
        IsSolution (inverse M.points M.cells M.el M.fc faces rho) (fun n _ => ¬ OnEnds M n) sol →
        ∀ e : Fin 3, endForce M rho faces ![0, -(1 / 1000), 0] (fieldOf 3 sol) (fun i => if i = e then 1 else 0)
          = if e = 1 then 1 / 1000 else 0 := by
  intro M
  have hM : M.Sound := boxBody_sound hx hy hz one_pos one_pos hw t x y z hxx hyy hzz ht
  have hv : ValidFaces M.points M.cells hexInds := boxBody_valid hx hy hz
  obtain ⟨bs, hbs, hlen, hk⟩ := C15_faces M.points M.cells hexInds [yMax] hv (by simp [yMax, LocFn.supported])
  obtain ⟨faces, rfl⟩ : ∃ faces, bs = [faces] := by
    match bs, hlen with
    | [f], _ => exact ⟨f, rfl⟩
  obtain ⟨hsort, hmem⟩ := hk 0 yMax faces rfl rfl
  have hfaces : M.FacesOn hexInds (fun p => |p 1 - 1| ≤ 2 / 100000) faces := by
    refine ⟨hsort.imp fun {x y} h => ?_, fun c f => ?_⟩
    · rintro rfl
      omega
    · rw [hmem, FaceOn]
      simp only [yMax_holds]
  have hinds : ∀ a ∈ faces, a.1 < M.cells.length := by
    rintro ⟨c, f⟩ ha
    obtain ⟨cell, face, hc, -, -⟩ := (hmem c f).1 ha
    exact (List.getElem?_eq_some_iff.1 hc).1
  obtain ⟨b, hb, hbcs, hsuits⟩ := bc_builds M faces
  obtain ⟨hwfbc, hiff⟩ := UserBC.C107_conditions _ _ hsuits _ hbcs
  refine ⟨UserBC.entries b, faces, ?_, hfaces.1, loaded_iff hy hNy hfaces, ?_, ?_⟩
  · have e1 : dirichletBC (boxMesh Nx Ny Nz (1 : ℝ) 1 1).1 info = .ok b := hb
    have e2 : boundaryInds (boxMesh Nx Ny Nz (1 : ℝ) 1 1).1 (boxMesh Nx Ny Nz (1 : ℝ) 1 1).2 hexInds (some [yMax]) = .ok [faces] := hbs
    simp only [build, e1, e2]
    rfl
  · intro i hi j hj k hk' c o
    set n := boxNode Ny Nz i j k with hn'
    have hlt : n < M.points.length := by
      rw [hM.points]
      exact boxNode_lt hi hj hk'
    have hpx : M.points[n]? = some (M.pos n) := by
      rw [List.getElem?_eq_getElem hlt, Body.pos, List.getD_eq_getElem _ _ hlt]
    have hp0 : M.pos n 0 = (i : ℝ) * (1 / Nx) := by
      rw [hn']
      show (boxBody Nx Ny Nz 1 1 p w fc).pos _ 0 = _
      rw [boxBody_pos i j k hi hj hk']
      rfl
    have hs := near_start Nx i hx hNx
    have he := near_end Nx i hx hNx hi
    rw [← hp0] at hs he
    obtain ⟨d1, d2, d3⟩ := demands M.points n (M.pos n) hpx c
    have hpre := hiff 0 n c ⟨(classic M.points M.cells M.el M.fc faces).numTotalNodes, 3, 8,
      (classic M.points M.cells M.el M.fc faces).conn⟩ M.points info rfl rfl rfl hlt c.2
    have hd : UserBC.Demands M.points (UserBC.conds info) n c
        (if i = 0 then some 0 else if i = Nx then some (if c = 0 then 2 / 100 else 0) else none) := by
      by_cases h0 : i = 0
      · rw [if_pos h0]
        exact d1 (hs.2 h0) fun h => by have := he.1 h; omega
      · rw [if_neg h0]
        by_cases h1 : i = Nx
        · rw [if_pos h1]
          exact d2 (he.2 h1)
        · rw [if_neg h1]
          exact d3 (fun h => h0 (hs.1 h)) fun h => h1 (he.1 h)
    have hp' := (hpre _).2 hd
    constructor
    · intro hp''
      exact prescribed_unique _ [UserBC.entries b] hwfbc _ _ _ hp'' hp'
    · rintro rfl
      exact hp'
  · intro rho hr sol hs hu hsol e
    have hbal := ((C122_inverse M hM faces hinds rho hr sol hs hu).1).1 hsol
    rw [C122_forces M (C10_first_order_unity w (fun _ _ => 0) p).2.2.2 hfu rho faces _ _ hbal,
      area_y hx hy hNy hz pf hg hn hwf hfaces]
    fin_cases e <;> simp [Fin.sum_univ_three]

/-- The stretch of 2 percent in the direction `x`. -/
noncomputable def exSol (points : List (Fin 3 → ℝ)) : List (List ℝ) := points.map fun x => [2 / 100 * x 0, 0, 0]

theorem exSol_field (points : List (Fin 3 → ℝ)) (n : Nat) (i : Fin 3) :
    fieldOf 3 (exSol points) n i = ∑ j, (!![2 / 100, 0, 0; 0, 0, 0; 0, 0, 0] : Matrix (Fin 3) (Fin 3) ℝ) i j * points.getD n 0 j
      + (0 : Fin 3 → ℝ) i := by
  show ((exSol points).getD n []).getD i 0 = _
  rw [exSol]
  by_cases hn : n < points.length
  · rw [List.getD_eq_getElem (l := points.map _) _ (by rwa [List.length_map]), List.getElem_map, List.getD_eq_getElem _ _ hn]
    fin_cases i <;> simp [Fin.sum_univ_three]
  · rw [List.getD_eq_default (points.map _) _ (by rw [List.length_map]; omega), List.getD_eq_default points _ (by omega)]
    simp

theorem exDet : (1 + Matrix.of (!![2 / 100, 0, 0; 0, 0, 0; 0, 0, 0] : Matrix (Fin 3) (Fin 3) ℝ)).det = 102 / 100 := by
  have e : (1 + Matrix.of (!![2 / 100, 0, 0; 0, 0, 0; 0, 0, 0] : Matrix (Fin 3) (Fin 3) ℝ)) = !![102 / 100, 0, 0; 0, 1, 0; 0, 0, 1] := by
    ext i j
    rw [Matrix.add_apply]
    show _ + (!![2 / 100, 0, 0; 0, 0, 0; 0, 0, 0] : Matrix (Fin 3) (Fin 3) ℝ) i j = _
    fin_cases i <;> fin_cases j <;> norm_num
  rw [e, Matrix.det_fin_three]
  simp

/-- The rule of four points on the face `y = 1` of HEX8 (the other faces are not loaded; they get the same tables). -/
noncomputable def exFaces : RefFaces ℝ 4 8 3 :=
  ⟨fun _ q => hex8N ![PoissonBench.gauss2 (q / 2), 1, PoissonBench.gauss2 (q % 2)],
    fun _ q => hex8G ![PoissonBench.gauss2 (q / 2), 1, PoissonBench.gauss2 (q % 2)], fun _ _ => 1 / 4, fun _ => ![0, 1, 0]⟩

/-- The hypotheses are met: with one cell in the direction `x` (all nodes are held) and two in the others, the stretched cube with the
density of the script is a solution; the ends hold it against the traction. -/
example : let M := boxBody 1 2 2 1 1 PoissonBench.gauss8 (fun _ => 1 / 8) exFaces
    ∃ entries faces, build 1 2 2 hexInds = .ok ((M.points, M.cells), entries, faces) ∧ (2, 4) ∈ faces ∧ (0, 4) ∉ faces ∧
      IsSolution (inverse M.points M.cells M.el M.fc faces (rhoHalf M.cells)) (fun n _ => ¬ OnEnds M n) (exSol M.points) ∧
      endForce M (rhoHalf M.cells) faces ![0, -(1 / 1000), 0] (fieldOf 3 (exSol M.points)) (fun i => if i = 1 then 1 else 0)
        = 1 / 1000 ∧
      endMoment M (rhoHalf M.cells) faces ![0, -(1 / 1000), 0] (fieldOf 3 (exSol M.points)) !![0, -1, 0; 1, 0, 0; 0, 0, 0]
        = -M.facePower faces (fun _ => ![0, -(1 / 1000), 0]) (spin M (fieldOf 3 (exSol M.points)) !![0, -1, 0; 1, 0, 0; 0, 0, 0]) := by
  intro M
  have hne : PoissonBench.gauss2 0 ≠ PoissonBench.gauss2 1 := by
    have h3 : (0 : ℝ) < √3 := Real.sqrt_pos.2 (by norm_num)
    intro h
    simp only [PoissonBench.gauss2, if_true, one_ne_zero, if_false] at h
    have : (0 : ℝ) < 1 / √3 := one_div_pos.2 h3
    linarith
  have ht : ∀ a b c : Fin 2, PoissonBench.gauss8 ⟨4 * a + 2 * b + c, by omega⟩
      = ![![PoissonBench.gauss2 0, PoissonBench.gauss2 1] a, ![PoissonBench.gauss2 0, PoissonBench.gauss2 1] b,
        ![PoissonBench.gauss2 0, PoissonBench.gauss2 1] c] := fun a b c => by
    fin_cases a <;> fin_cases b <;> fin_cases c <;> rfl
  have hM : M.Sound := boxBody_sound (by norm_num) (by norm_num) (by norm_num) one_pos one_pos (fun _ => by norm_num)
    (fun a b c => ⟨4 * a + 2 * b + c, by omega⟩) ![PoissonBench.gauss2 0, PoissonBench.gauss2 1]
    ![PoissonBench.gauss2 0, PoissonBench.gauss2 1] ![PoissonBench.gauss2 0, PoissonBench.gauss2 1] hne hne hne ht
  obtain ⟨entries, faces, h1, -, h2, -, h4⟩ := C122_cube (Nx := 1) (Ny := 2) (Nz := 2) (p := PoissonBench.gauss8) (w := fun _ => 1 / 8)
    (fc := exFaces) (by norm_num) (by norm_num) (by norm_num) (by norm_num) (by norm_num) (fun _ => by norm_num)
    (fun a b c => ⟨4 * a + 2 * b + c, by omega⟩) ![PoissonBench.gauss2 0, PoissonBench.gauss2 1]
    ![PoissonBench.gauss2 0, PoissonBench.gauss2 1] ![PoissonBench.gauss2 0, PoissonBench.gauss2 1] hne hne hne ht
    (fun f q => (C10_first_order_unity (nq := 4) (fun _ => (0 : ℝ)) (fun _ _ => 0)
      fun q => ![PoissonBench.gauss2 (q / 2), 1, PoissonBench.gauss2 (q % 2)]).2.2.2 q)
    _ (fun q => rfl) rfl (by simp [exFaces])
  have hs : HasShapes [(M.numNodes, 3)] [exSol M.points] := by
    refine ⟨exSol M.points, [], rfl, ?_, ?_, rfl⟩
    · rw [exSol, List.length_map]
      exact hM.points
    · intro r hr
      obtain ⟨x, -, rfl⟩ := List.mem_map.1 hr
      rfl
  have hdet : ∀ c ∈ M.cells, ∀ q, (1 / 10 ^ 14 : ℝ) < (deformation M (fieldOf 3 (exSol M.points)) c q).det := by
    intro c hc q
    have hg : M.grad (fieldOf 3 (exSol M.points)) c q = !![2 / 100, 0, 0; 0, 0, 0; 0, 0, 0] :=
      affine_gradient (classic M.points M.cells M.el M.fc []) (C10_first_order_unity _ (fun _ _ => 0) _).2.2.2 c (hM.length c hc) _
        !![2 / 100, 0, 0; 0, 0, 0; 0, 0, 0] 0 (fun n _ i => exSol_field M.points n i) q (left_ne_zero_of_mul (hM.positive c hc q).ne')
    rw [deformation, hg, exDet]
    norm_num
  have hinds : ∀ a ∈ faces, a.1 < M.cells.length := by
    rintro ⟨c, f⟩ ha
    obtain ⟨-, i, hi, k, hk, e⟩ := (h2 c f).1 ha
    show c < (boxMesh 1 2 2 1 1 1).2.length
    rw [(C42_cells 1 2 2 1 1 1).1, e]
    omega
  have hend : ∀ n < M.numNodes, OnEnds M n := by
    intro n hn
    refine ⟨hn, ?_⟩
    obtain ⟨i, j, k, hi, hj, hk, rfl⟩ := exists_boxNode hn
    have e : M.pos (boxNode 2 2 i j k) = ![(i : ℝ) * (1 / (1 : Nat)), (j : ℝ) * (1 / (2 : Nat)), (k : ℝ) * (1 / (2 : Nat))] :=
      boxBody_pos i j k hi hj hk
    rw [e]
    interval_cases i
    · exact ⟨_, .left _ (by simp)⟩
    · exact ⟨_, .right _ (by simp; norm_num)⟩
  have hsol : IsSolution (inverse M.points M.cells M.el M.fc faces (rhoHalf M.cells)) (fun n _ => ¬ OnEnds M n) (exSol M.points) := by
    have hl : (rhoHalf M.cells : List (Fin 8 → ℝ)).length = M.cells.length := by simp [rhoHalf]
    have hn : (inverse M.points M.cells M.el M.fc faces (rhoHalf M.cells)).numTotalNodes = M.numNodes := hM.points
    suffices h : IsSolution (inverse M.points M.cells M.el M.fc faces (rhoHalf M.cells)) (fun _ _ => False) (exSol M.points) by
      obtain ⟨R, e, -⟩ := h
      exact ⟨R, e, fun n h _ hf => absurd (hend n (hn ▸ h)) hf⟩
    rw [C72_galerkin _ (wf_inverse M faces _ hM hl hinds) _ (by rw [hn]; exact hs)]
    intro v hv
    rw [work_inverse M faces _ hl _ _ hdet]
    have e : v = fun n i => v n i - v n i := by
      funext n i
      rw [hv n i not_false, sub_zero]
    rw [e, internalPower_sub, ElasticBench.facePower_sub, sub_self, sub_self, sub_self]
  refine ⟨entries, faces, h1, (h2 _ _).2 ⟨rfl, 0, by norm_num, 0, by norm_num, rfl⟩, fun h => ?_, hsol, ?_, ?_⟩
  · obtain ⟨-, i, -, k, -, h⟩ := (h2 _ _).1 h
    omega
  · exact (h4 (rhoHalf M.cells) (List.length_map _) _ hs hdet hsol 1).trans (if_pos rfl)
  · refine C122_moments M hM (C10_first_order_unity _ (fun _ _ => 0) _).2.2.2 _ faces _ _ (fun c hc q => lt_trans (by norm_num) (hdet c hc q))
      ((C122_inverse M hM faces hinds _ (List.length_map _) _ hs hdet).1.1 hsol) _ ?_
    ext i j
    fin_cases i <;> fin_cases j <;> simp

end JaxFem.Scalability
