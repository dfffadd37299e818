import Verif.Thm.C119_Natural
import Verif.Thm.C116_Grid

/-!
C119: the sides of generated meshes.
-/

namespace JaxFem.Patch

theorem matched_iff_signed (faces : List Nat → List (List Nat)) (conn : List (List Nat)) (f : List Nat) :
    FaceMatched faces conn f ↔ (conn.map fun cell => ((faces cell).map (signed f)).sum).sum = 0 := by
  rw [FaceMatched, ← sum_flatMap_int, ← Int.natCast_inj, count_int, count_int, ← sub_eq_zero, sum_sub_int]
  rfl

/-- Only faces on the boundary of a grid are unmatched. -/
theorem grid_matched (N : Nat → Nat → Nat → Nat) (Nx Ny Nz : Nat) (f : List Nat)
    (hx : ∀ i j k, i = 0 ∨ i = Nx → j < Ny → k < Nz → signed f [N i (j + 1) k, N i j k, N i j (k + 1), N i (j + 1) (k + 1)] = 0)
    (hy : ∀ i j k, i < Nx → j = 0 ∨ j = Ny → k < Nz → signed f [N i j k, N (i + 1) j k, N (i + 1) j (k + 1), N i j (k + 1)] = 0)
    (hz : ∀ i j k, i < Nx → j < Ny → k = 0 ∨ k = Nz → signed f [N i j k, N i (j + 1) k, N (i + 1) (j + 1) k, N (i + 1) j k] = 0) :
    FaceMatched hexFaces ((List.range Nx).flatMap fun i => (List.range Ny).flatMap fun j => (List.range Nz).map fun k =>
      [N i j k, N (i + 1) j k, N (i + 1) (j + 1) k, N i (j + 1) k, N i j (k + 1), N (i + 1) j (k + 1),
        N (i + 1) (j + 1) (k + 1), N i (j + 1) (k + 1)]) f := by
  rw [matched_iff_signed]
  simp only [sum_flatMap_int, List.map_map, sum_range_int, Function.comp_def]
  let X : Nat → Nat → Nat → ℤ := fun i j k => signed f [N i (j + 1) k, N i j k, N i j (k + 1), N i (j + 1) (k + 1)]
  let Y : Nat → Nat → Nat → ℤ := fun i j k => signed f [N i j k, N (i + 1) j k, N (i + 1) j (k + 1), N i j (k + 1)]
  let Z : Nat → Nat → Nat → ℤ := fun i j k => signed f [N i j k, N i (j + 1) k, N (i + 1) (j + 1) k, N (i + 1) j k]
  have hc : ∀ i j k, ((hexFaces [N i j k, N (i + 1) j k, N (i + 1) (j + 1) k, N i (j + 1) k, N i j (k + 1), N (i + 1) j (k + 1),
        N (i + 1) (j + 1) (k + 1), N i (j + 1) (k + 1)]).map (signed f)).sum
      = (X i j k - X (i + 1) j k) + (Y i j k - Y i (j + 1) k) + (Z i j k - Z i j (k + 1)) := by
    intro i j k
    have hx : signed f [N (i + 1) j k, N (i + 1) (j + 1) k, N (i + 1) (j + 1) (k + 1), N (i + 1) j (k + 1)] = -X (i + 1) j k := by
      rw [← signed_rev]
      exact signed_rot f ⟨2, rfl⟩
    have hy : signed f [N (i + 1) (j + 1) k, N i (j + 1) k, N i (j + 1) (k + 1), N (i + 1) (j + 1) (k + 1)] = -Y i (j + 1) k := by
      rw [← signed_rev]
      exact signed_rot f ⟨2, rfl⟩
    have hz : signed f [N i j (k + 1), N (i + 1) j (k + 1), N (i + 1) (j + 1) (k + 1), N i (j + 1) (k + 1)] = -Z i j (k + 1) := by
      rw [← signed_rev]
      exact signed_rot f ⟨1, rfl⟩
    simp only [hexFaces, List.map_cons, List.map_nil, List.sum_cons, List.sum_nil, List.getD_cons_zero, List.getD_cons_succ]
    rw [hx, hy, hz]
    ring
  simp only [hc, Finset.sum_add_distrib]
  have hX : ∑ i ∈ Finset.range Nx, ∑ j ∈ Finset.range Ny, ∑ k ∈ Finset.range Nz, (X i j k - X (i + 1) j k) = 0 := by
    rw [Finset.sum_comm]
    refine Finset.sum_eq_zero fun j hj => ?_
    rw [Finset.sum_comm]
    refine Finset.sum_eq_zero fun k hk => ?_
    rw [Finset.mem_range] at hj hk
    rw [Finset.sum_range_sub' (fun i => X i j k)]
    exact sub_eq_zero.2 ((hx 0 j k (.inl rfl) hj hk).trans (hx Nx j k (.inr rfl) hj hk).symm)
  have hY : ∑ i ∈ Finset.range Nx, ∑ j ∈ Finset.range Ny, ∑ k ∈ Finset.range Nz, (Y i j k - Y i (j + 1) k) = 0 := by
    refine Finset.sum_eq_zero fun i hi => ?_
    rw [Finset.sum_comm]
    refine Finset.sum_eq_zero fun k hk => ?_
    rw [Finset.mem_range] at hi hk
    rw [Finset.sum_range_sub' (fun j => Y i j k)]
    exact sub_eq_zero.2 ((hy i 0 k hi (.inl rfl) hk).trans (hy i Ny k hi (.inr rfl) hk).symm)
  have hZ : ∑ i ∈ Finset.range Nx, ∑ j ∈ Finset.range Ny, ∑ k ∈ Finset.range Nz, (Z i j k - Z i j (k + 1)) = 0 := by
    refine Finset.sum_eq_zero fun i hi => Finset.sum_eq_zero fun j hj => ?_
    rw [Finset.mem_range] at hi hj
    rw [Finset.sum_range_sub' (fun k => Z i j k)]
    exact sub_eq_zero.2 ((hz i j 0 hi hj (.inl rfl)).trans (hz i j Nz hi hj (.inr rfl)).symm)
  rw [hX, hY, hZ]
  rfl

/-- Only edges on the boundary of a grid are unmatched. -/
theorem grid_matched2 (N : Nat → Nat → Nat) (Nx Ny n m : Nat)
    (hx : ∀ i j, i = 0 ∨ i = Nx → j < Ny → signed2 n m (N i (j + 1), N i j) = 0)
    (hy : ∀ i j, i < Nx → j = 0 ∨ j = Ny → signed2 n m (N i j, N (i + 1) j) = 0) :
    (((List.range Nx).flatMap fun i => (List.range Ny).map fun j => [N i j, N (i + 1) j, N (i + 1) (j + 1), N i (j + 1)]).flatMap
        polyEdges).countP (fun e => decide (e = (n, m)))
      = (((List.range Nx).flatMap fun i => (List.range Ny).map fun j => [N i j, N (i + 1) j, N (i + 1) (j + 1), N i (j + 1)]).flatMap
        polyEdges).countP fun e => decide (e = (m, n)) := by
  rw [← Int.natCast_inj, count_int, count_int, ← sub_eq_zero, sum_sub_int]
  change (List.map (signed2 n m) _).sum = 0
  simp only [sum_flatMap_int, List.map_map, sum_range_int, Function.comp_def]
  let X : Nat → Nat → ℤ := fun i j => signed2 n m (N i (j + 1), N i j)
  let Y : Nat → Nat → ℤ := fun i j => signed2 n m (N i j, N (i + 1) j)
  have hc : ∀ i j, ((polyEdges [N i j, N (i + 1) j, N (i + 1) (j + 1), N i (j + 1)]).map (signed2 n m)).sum
      = (X i j - X (i + 1) j) + (Y i j - Y i (j + 1)) := by
    intro i j
    have hx : signed2 n m (N (i + 1) j, N (i + 1) (j + 1)) = -X (i + 1) j := signed2_swap _ _ _ _
    have hy : signed2 n m (N (i + 1) (j + 1), N i (j + 1)) = -Y i (j + 1) := signed2_swap _ _ _ _
    have hl : polyEdges [N i j, N (i + 1) j, N (i + 1) (j + 1), N i (j + 1)] = [(N i j, N (i + 1) j), (N (i + 1) j, N (i + 1) (j + 1)),
        (N (i + 1) (j + 1), N i (j + 1)), (N i (j + 1), N i j)] := by
      simp [polyEdges, List.range_succ]
    rw [hl]
    simp only [List.map_cons, List.map_nil, List.sum_cons, List.sum_nil]
    rw [hx, hy]
    ring
  simp only [hc, Finset.sum_add_distrib]
  have hX : ∑ i ∈ Finset.range Nx, ∑ j ∈ Finset.range Ny, (X i j - X (i + 1) j) = 0 := by
    rw [Finset.sum_comm]
    refine Finset.sum_eq_zero fun j hj => ?_
    rw [Finset.mem_range] at hj
    rw [Finset.sum_range_sub' (fun i => X i j)]
    exact sub_eq_zero.2 ((hx 0 j (.inl rfl) hj).trans (hx Nx j (.inr rfl) hj).symm)
  have hY : ∑ i ∈ Finset.range Nx, ∑ j ∈ Finset.range Ny, (Y i j - Y i (j + 1)) = 0 := by
    refine Finset.sum_eq_zero fun i hi => ?_
    rw [Finset.mem_range] at hi
    rw [Finset.sum_range_sub' (fun j => Y i j)]
    exact sub_eq_zero.2 ((hy i 0 hi (.inl rfl)).trans (hy i Ny hi (.inr rfl)).symm)
  rw [hX, hY]
  rfl

theorem signed_mem {f g : List Nat} (h : signed f g ≠ 0) (n : Nat) : n ∈ f ↔ n ∈ g := by
  by_cases h1 : g ~r f
  · exact h1.mem_iff.symm
  by_cases h2 : g ~r f.reverse
  · rw [h2.mem_iff, List.mem_reverse]
  · exact absurd (by simp [signed, h1, h2]) h

theorem signed2_mem {n m a b : Nat} (h : signed2 n m (a, b) ≠ 0) (k : Nat) : k ∈ [n, m] ↔ k ∈ [a, b] := by
  by_cases h1 : (a, b) = (n, m)
  · cases h1; rfl
  by_cases h2 : (a, b) = (m, n)
  · cases h2; simp [or_comm]
  · exact absurd (by rw [signed2, decide_eq_false h1, decide_eq_false h2]; rfl) h

/-- A side in a coordinate plane. -/
theorem tangent_axis {dim : Nat} (points : List (Fin dim → ℝ)) (s : Fin dim → ℝ) (f : List Nat) (a : Fin dim) (d : ℝ) (hs : s a = 0)
    (h : ∀ n ∈ f, (points.getD n 0) a = d) : Tangent points s f := by
  refine ⟨Pi.single a 1, fun h0 => ?_, ?_, d, fun n hn => ?_⟩
  · have := congrFun h0 a
    simp at this
  · simp [Pi.single_apply, hs]
  · simp only [Pi.single_apply, ite_mul, one_mul, zero_mul, Finset.sum_ite_eq', Finset.mem_univ, if_true]
    exact h n hn

theorem box_pos (Nx Ny Nz : Nat) (Lx Ly Lz : ℝ) (i j k : Nat) (hi : i ≤ Nx) (hj : j ≤ Ny) (hk : k ≤ Nz) :
    (boxMesh Nx Ny Nz Lx Ly Lz).1.getD (boxNode Ny Nz i j k) 0
      = ![(i : ℝ) * (Lx / Nx), (j : ℝ) * (Ly / Ny), (k : ℝ) * (Lz / Nz)] := by
  rw [List.getD_eq_getElem?_getD, box_point Nx Ny Nz Lx Ly Lz i j k hi hj hk]
  rfl

theorem rect_pos (Nx Ny : Nat) (Lx Ly : ℝ) (i j : Nat) (hi : i ≤ Nx) (hj : j ≤ Ny) :
    (rectangleMesh Nx Ny Lx Ly).1.getD (i * (Ny + 1) + j) 0 = ![(i : ℝ) * (Lx / Nx), (j : ℝ) * (Ly / Ny)] := by
  rw [List.getD_eq_getElem?_getD, rect_point Nx Ny Lx Ly i j hi hj]
  rfl

/-- **C119 (generated meshes).** On the meshes of `rectangle_mesh` and `box_mesh`, whatever their size, no side at a grid node lets
the flux `s` through as soon as, for each axis, `s` has no component along it or the node is on neither of the two boundary
sides across it. -/
theorem C119_generated :
    (∀ (Nx Ny : Nat) (Lx Ly : ℝ) (s : Fin 2 → ℝ) (i j : Nat), i ≤ Nx → j ≤ Ny → (s 0 = 0 ∨ 0 < i ∧ i < Nx) →
      (s 1 = 0 ∨ 0 < j ∧ j < Ny) →
      NoFlux 2 EdgeMatched (rectangleMesh Nx Ny Lx Ly).2 (rectangleMesh Nx Ny Lx Ly).1 s (i * (Ny + 1) + j)) ∧
    ∀ (Nx Ny Nz : Nat) (Lx Ly Lz : ℝ) (s : Fin 3 → ℝ) (i j k : Nat), i ≤ Nx → j ≤ Ny → k ≤ Nz → (s 0 = 0 ∨ 0 < i ∧ i < Nx) →
      (s 1 = 0 ∨ 0 < j ∧ j < Ny) → (s 2 = 0 ∨ 0 < k ∧ k < Nz) →
      NoFlux 4 (FaceMatched hexFaces) (boxMesh Nx Ny Nz Lx Ly Lz).2 (boxMesh Nx Ny Nz Lx Ly Lz).1 s
        ((i * (Ny + 1) + j) * (Nz + 1) + k) := by
  refine ⟨fun Nx Ny Lx Ly s i j hi hj h0 h1 => .inr fun f hl hn => ?_,
    fun Nx Ny Nz Lx Ly Lz s i j k hi hj hk h0 h1 h2 => .inr fun f _ hn => ?_⟩
  · by_cases ht : Tangent (rectangleMesh Nx Ny Lx Ly).1 s f
    · exact .inr ht
    refine .inl ?_
    rintro n m rfl
    have hc : (rectangleMesh Nx Ny Lx Ly).2 = (List.range Nx).flatMap fun i => (List.range Ny).map fun j =>
        [i * (Ny + 1) + j, (i + 1) * (Ny + 1) + j, (i + 1) * (Ny + 1) + (j + 1), i * (Ny + 1) + (j + 1)] := by
      rw [rectangleMesh_eq]
    rw [hc]
    refine grid_matched2 (fun i j => i * (Ny + 1) + j) Nx Ny n m (fun a b ha hb => ?_) fun a b ha hb => ?_
    · by_contra hne
      have hin : ∃ b' ≤ Ny, i * (Ny + 1) + j = a * (Ny + 1) + b' := by
        have := (signed2_mem hne _).1 hn
        simp only [List.mem_cons, List.not_mem_nil, or_false] at this
        rcases this with e | e
        · exact ⟨b + 1, hb, e⟩
        · exact ⟨b, hb.le, e⟩
      obtain ⟨b', hb', e⟩ := hin
      obtain ⟨rfl, -⟩ := gridNode_inj (W := Ny + 1) (by omega) (by omega) e
      refine ht (tangent_axis _ s _ 0 ((i : ℝ) * (Lx / Nx)) (h0.resolve_right (by omega)) fun p hp => ?_)
      have := (signed2_mem hne p).1 hp
      simp only [List.mem_cons, List.not_mem_nil, or_false] at this
      rcases this with rfl | rfl
      · rw [rect_pos Nx Ny Lx Ly i (b + 1) hi hb]; rfl
      · rw [rect_pos Nx Ny Lx Ly i b hi hb.le]; rfl
    · by_contra hne
      have hin : ∃ a', i * (Ny + 1) + j = a' * (Ny + 1) + b := by
        have := (signed2_mem hne _).1 hn
        simp only [List.mem_cons, List.not_mem_nil, or_false] at this
        rcases this with e | e
        · exact ⟨a, e⟩
        · exact ⟨a + 1, e⟩
      obtain ⟨a', e⟩ := hin
      obtain ⟨-, rfl⟩ := gridNode_inj (W := Ny + 1) (by omega) (by omega) e
      refine ht (tangent_axis _ s _ 1 ((j : ℝ) * (Ly / Ny)) (h1.resolve_right (by omega)) fun p hp => ?_)
      have := (signed2_mem hne p).1 hp
      simp only [List.mem_cons, List.not_mem_nil, or_false] at this
      rcases this with rfl | rfl
      · rw [rect_pos Nx Ny Lx Ly a j ha.le hj]; rfl
      · rw [rect_pos Nx Ny Lx Ly (a + 1) j ha hj]; rfl
  · by_cases ht : Tangent (boxMesh Nx Ny Nz Lx Ly Lz).1 s f
    · exact .inr ht
    refine .inl ?_
    have hc : (boxMesh Nx Ny Nz Lx Ly Lz).2 = (List.range Nx).flatMap fun i => (List.range Ny).flatMap fun j =>
        (List.range Nz).map fun k => [boxNode Ny Nz i j k, boxNode Ny Nz (i + 1) j k, boxNode Ny Nz (i + 1) (j + 1) k,
          boxNode Ny Nz i (j + 1) k, boxNode Ny Nz i j (k + 1), boxNode Ny Nz (i + 1) j (k + 1),
          boxNode Ny Nz (i + 1) (j + 1) (k + 1), boxNode Ny Nz i (j + 1) (k + 1)] := by
      rw [boxMesh_eq]
    rw [hc]
    have hn : boxNode Ny Nz i j k ∈ f := hn
    refine grid_matched (boxNode Ny Nz) Nx Ny Nz f (fun a b c ha hb hc => ?_) (fun a b c ha hb hc => ?_) fun a b c ha hb hc => ?_
    · by_contra hne
      have hin : ∃ b' ≤ Ny, ∃ c' ≤ Nz, boxNode Ny Nz i j k = boxNode Ny Nz a b' c' := by
        have := (signed_mem hne _).1 hn
        simp only [List.mem_cons, List.not_mem_nil, or_false] at this
        rcases this with e | e | e | e
        exacts [⟨_, hb, _, hc.le, e⟩, ⟨_, hb.le, _, hc.le, e⟩, ⟨_, hb.le, _, hc, e⟩, ⟨_, hb, _, hc, e⟩]
      obtain ⟨b', hb', c', hc', e⟩ := hin
      obtain ⟨rfl, -, -⟩ := boxNode_inj hj hb' hk hc' e
      refine ht (tangent_axis _ s _ 0 ((i : ℝ) * (Lx / Nx)) (h0.resolve_right (by omega)) fun p hp => ?_)
      have := (signed_mem hne p).1 hp
      simp only [List.mem_cons, List.not_mem_nil, or_false] at this
      rcases this with rfl | rfl | rfl | rfl <;> rw [box_pos] <;> first | rfl | omega
    · by_contra hne
      have hin : ∃ a', ∃ c' ≤ Nz, boxNode Ny Nz i j k = boxNode Ny Nz a' b c' := by
        have := (signed_mem hne _).1 hn
        simp only [List.mem_cons, List.not_mem_nil, or_false] at this
        rcases this with e | e | e | e
        exacts [⟨_, _, hc.le, e⟩, ⟨_, _, hc.le, e⟩, ⟨_, _, hc, e⟩, ⟨_, _, hc, e⟩]
      obtain ⟨a', c', hc', e⟩ := hin
      obtain ⟨-, rfl, -⟩ := boxNode_inj hj (by omega) hk hc' e
      refine ht (tangent_axis _ s _ 1 ((j : ℝ) * (Ly / Ny)) (h1.resolve_right (by omega)) fun p hp => ?_)
      have := (signed_mem hne p).1 hp
      simp only [List.mem_cons, List.not_mem_nil, or_false] at this
      rcases this with rfl | rfl | rfl | rfl <;> rw [box_pos] <;> first | rfl | omega
    · by_contra hne
      have hin : ∃ a', ∃ b' ≤ Ny, boxNode Ny Nz i j k = boxNode Ny Nz a' b' c := by
        have := (signed_mem hne _).1 hn
        simp only [List.mem_cons, List.not_mem_nil, or_false] at this
        rcases this with e | e | e | e
        exacts [⟨_, _, hb.le, e⟩, ⟨_, _, hb, e⟩, ⟨_, _, hb, e⟩, ⟨_, _, hb.le, e⟩]
      obtain ⟨a', b', hb', e⟩ := hin
      obtain ⟨-, -, rfl⟩ := boxNode_inj hj hb' hk (by omega) e
      refine ht (tangent_axis _ s _ 2 ((k : ℝ) * (Lz / Nz)) (h2.resolve_right (by omega)) fun p hp => ?_)
      have := (signed_mem hne p).1 hp
      simp only [List.mem_cons, List.not_mem_nil, or_false] at this
      rcases this with rfl | rfl | rfl | rfl <;> rw [box_pos] <;> first | rfl | omega

end JaxFem.Patch
