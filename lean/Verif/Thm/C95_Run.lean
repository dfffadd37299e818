import Verif.Thm.C95_Unique
import Verif.Thm.C71_Square
import Mathlib.Analysis.SpecialFunctions.Trigonometric.Deriv
import Mathlib.Analysis.Calculus.Deriv.Mul

/-!
# C95: the run, the manufactured solution, the mesh and the error
-/

namespace JaxFem
namespace Mpi

open Parallel (IsShapeGrads signedArea2 triArea globalDof NearSide squareCoords squareCells)

variable {coords : Nat → Fin 2 → ℝ} {N : Nat} {cells : List (Fin 3 → Nat)} {num : Nat → Nat} {glob : Part → Nat → Nat}
  {parts : List Part}

/-! ### The run -/

theorem loop_ok {n : Nat} (system : Nat → (Fin n → ℝ) → Except Err (Parallel.Sys ℝ))
    (solve : Matrix (Fin n) (Fin n) ℝ → (Fin n → ℝ) → Except Err (Fin n → ℝ)) (tol relTol : ℝ)
    (h : ∀ it x, ∃ s, system it x = .ok s ∧ ∀ b, ∃ y, solve (Matrix.of fun i j => s.mat i j) b = .ok y)
    (fuel it : Nat) (r0 : Option ℝ) (x : Fin n → ℝ) : ∃ y, newtonLoop system solve tol relTol fuel it r0 x = .ok y := by
  induction fuel generalizing it r0 x with
  | zero => exact ⟨x, rfl⟩
  | succ fuel ih =>
    obtain ⟨s, hs, hsol⟩ := h it x
    obtain ⟨y, hy⟩ := hsol fun i => -1 * s.rhs i
    rw [newtonLoop]
    simp only [hs, bind, Except.bind, hy]
    split_ifs
    all_goals first | exact ⟨x, rfl⟩ | exact ih _ _ _

/-- **C95 (run).** If every rank has cells, owns rows and owns a vertex at a side, and the linear solver succeeds on nonsingular matrices,
the iteration ends without error. -/
theorem C95_run {info : ElementInfo} (h : getElements "TRI3" = .ok info) (hD : IsPartition coords N cells num glob parts)
    (htol : TolerancesAgree coords N) (hreach : ReachesSide coords N cells) (hne : ∀ p ∈ parts, p.cells ≠ [] ∧ p.rstart < p.rend)
    (hown : ∀ p ∈ parts, ∃ v < N, AtSide coords v ∧ p.rstart ≤ num v ∧ num v < p.rend) (f : ℝ → ℝ → ℝ)
    (o : Nat → Orders) (hov : ∀ k l, ((o k).vec l).Perm l) (hom : ∀ k l, ((o k).mat l).Perm l)
    (solve : Matrix (Fin N) (Fin N) ℝ → (Fin N → ℝ) → Except Err (Fin N → ℝ))
    (hsolve : ∀ A b, (∀ y, A.mulVec y = 0 → y = 0) → ∃ y, solve A b = .ok y) (tol relTol : ℝ) (maxIt : Nat) :
    ∃ x, solution f (tri3 info) parts o solve tol relTol maxIt = .ok x := by
  classical
  have hg : ∀ c ∈ cells, IsShapeGrads (fun a => coords (c a)) (someGrads coords c) := by
    intro c hc
    obtain ⟨g, hg⟩ := Parallel.C57_shape_exists (fun a => coords (c a)) (by
      rw [area_pos _ (hD.positive c hc)]
      exact (half_pos (hD.positive c hc)).ne')
    rw [someGrads_eq c g hg]
    exact hg
  refine loop_ok _ solve tol relTol (fun it x => ?_) maxIt 0 none _
  obtain ⟨s, hs⟩ := (C95_collective h hD htol hne f (o it) x).2 (.inl hown)
  refine ⟨s, hs, fun b => hsolve _ _ fun y hy => ?_⟩
  have hsys := C95_system h hD htol hne _ hg f (o it) (hov it) (hom it) x (nodal num x)
    (fun v hv => by rw [nodal, dif_pos (hD.num_lt v hv)]) s hs
  have hrow : ∀ v < N, ∑ w ∈ Finset.range N, s.mat (num v) (num w) * nodal num y w = 0 := by
    intro v hv
    have e := congrFun hy ⟨num v, hD.num_lt v hv⟩
    rw [Matrix.mulVec, dotProduct] at e
    simp only [Matrix.of_apply, Pi.zero_apply] at e
    rw [← e]
    have := sum_num hD fun i => s.mat (num v) i * (if hi : i.toNat < N then y ⟨i.toNat, hi⟩ else 0)
    refine Eq.trans ?_ (this.symm.trans ?_)
    · refine Finset.sum_congr rfl fun w _ => ?_
      rfl
    · refine Finset.sum_congr rfl fun j _ => ?_
      congr 1
      rw [dif_pos (by simp)]
      rfl
  have hside : ∀ v < N, AtSide coords v → nodal num y v = 0 := by
    intro v hv hb
    have e := hrow v hv
    rw [Finset.sum_eq_single v] at e
    · rw [(hsys v hv).1 v hv, if_pos hb, if_pos rfl, one_mul] at e
      exact e
    · intro w hw hwv
      rw [(hsys v hv).1 w (Finset.mem_range.1 hw), if_pos hb, if_neg (Ne.symm hwv), zero_mul]
    · intro hn
      exact absurd (Finset.mem_range.2 hv) hn
  have hz := ((C95_definite hD.cells_lt hD.positive _ hg (nodal num x)).2 (nodal num y)).2 hreach hside (le_of_eq (by
    refine Finset.sum_eq_zero fun v hv => ?_
    rw [Finset.mem_range] at hv
    by_cases hb : AtSide coords v
    · rw [hside v hv hb, zero_mul]
    · have e := hrow v hv
      rw [Finset.sum_congr rfl fun w hw => by rw [(hsys v hv).1 w (Finset.mem_range.1 hw), if_neg hb]] at e
      rw [e, mul_zero]))
  funext i
  obtain ⟨v, hv, hvi⟩ := num_surj hD i i.2
  have := hz v hv
  rw [nodal, dif_pos (hD.num_lt v hv)] at this
  rw [Pi.zero_apply, ← this]
  congr 1
  exact Fin.ext hvi.symm

/-! ### The manufactured solution -/

/-- **C95 (source).** The source is `-Δu + u³` of the exact solution, which vanishes on the boundary of the square. -/
theorem C95_source (x y : ℝ) :
    sourceF x y = -(deriv (fun s => deriv (fun t => uExact t y) s) x + deriv (fun s => deriv (fun t => uExact x t) s) y)
      + uExact x y ^ 3 ∧
    uExact 0 y = 0 ∧ uExact 1 y = 0 ∧ uExact x 0 = 0 ∧ uExact x 1 = 0 := by
  have d1 : ∀ c s : ℝ, HasDerivAt (fun t => Real.sin (Real.pi * t) * c) (Real.cos (Real.pi * s) * Real.pi * c) s := by
    intro c s
    have h := ((Real.hasDerivAt_sin (Real.pi * s)).comp s ((hasDerivAt_id s).const_mul Real.pi)).mul_const c
    simpa [Function.comp_def] using h
  have d2 : ∀ c s : ℝ, HasDerivAt (fun t => Real.cos (Real.pi * t) * Real.pi * c) (-Real.sin (Real.pi * s) * Real.pi * Real.pi * c) s := by
    intro c s
    have h := (((Real.hasDerivAt_cos (Real.pi * s)).comp s ((hasDerivAt_id s).const_mul Real.pi)).mul_const Real.pi).mul_const c
    simpa [Function.comp_def] using h
  have e1 : deriv (fun s => deriv (fun t => uExact t y) s) x = -Real.sin (Real.pi * x) * Real.pi * Real.pi * Real.sin (Real.pi * y) := by
    have : (fun s => deriv (fun t => uExact t y) s) = fun s => Real.cos (Real.pi * s) * Real.pi * Real.sin (Real.pi * y) :=
      funext fun s => (d1 (Real.sin (Real.pi * y)) s).deriv
    rw [this]
    exact (d2 _ x).deriv
  have e2 : deriv (fun s => deriv (fun t => uExact x t) s) y = -Real.sin (Real.pi * y) * Real.pi * Real.pi * Real.sin (Real.pi * x) := by
    have hx : (fun t => uExact x t) = fun t => Real.sin (Real.pi * t) * Real.sin (Real.pi * x) := funext fun t => mul_comm _ _
    have : (fun s => deriv (fun t => uExact x t) s) = fun s => Real.cos (Real.pi * s) * Real.pi * Real.sin (Real.pi * x) := by
      rw [hx]
      exact funext fun s => (d1 (Real.sin (Real.pi * x)) s).deriv
    rw [this]
    exact (d2 _ y).deriv
  refine ⟨?_, ?_, ?_, ?_, ?_⟩
  · rw [e1, e2]
    simp only [sourceF, uExact]
    ring
  all_goals simp [uExact]

/-! ### The mesh -/

theorem squarePoints_eq (nx ny : Nat) : squarePoints nx ny = squareCoords nx ny (fun _ => 0) (fun _ => 1) := by
  unfold squarePoints squareCoords
  simp

/-- Vertex coordinates and triangles of the unit square. -/
noncomputable def sqCoords (nx ny : Nat) : Nat → Fin 2 → ℝ := fun v => (squarePoints nx ny).getD v 0

/-- Triangles as functions. -/
def sqCells (nx ny : Nat) : List (Fin 3 → Nat) := (squareTriangles nx ny).map fun c a => c.getD a 0

theorem sqCoords_get (nx ny i j : Nat) (hi : i ≤ nx) (hj : j ≤ ny) :
    sqCoords nx ny (i * (ny + 1) + j) = ![(i : ℝ) / nx, (j : ℝ) / ny] := by
  have := Parallel.squareCoords_get nx ny (fun _ => (0 : ℝ)) (fun _ => 1) i j hi hj
  unfold Parallel.gnode at this
  rw [sqCoords, squarePoints_eq, this]
  simp [Parallel.gpoint]

theorem split_vertex (nx ny v : Nat) (h : v < (nx + 1) * (ny + 1)) : ∃ i j, i ≤ nx ∧ j ≤ ny ∧ v = i * (ny + 1) + j := by
  refine ⟨v / (ny + 1), v % (ny + 1), ?_, ?_, ?_⟩
  · exact Nat.lt_succ_iff.1 ((Nat.div_lt_iff_lt_mul (Nat.succ_pos ny)).2 h)
  · exact Nat.lt_succ_iff.1 (Nat.mod_lt v (Nat.succ_pos ny))
  · rw [mul_comm]; exact (Nat.div_add_mod v (ny + 1)).symm

theorem near_zero (n i : Nat) (hn : 0 < n) (t : ℝ) (ht : t * n < 1) (h : |(i : ℝ) / n| ≤ t) : i = 0 := by
  have hn' : (0 : ℝ) < n := Nat.cast_pos.2 hn
  rw [abs_of_nonneg (by positivity), div_le_iff₀ hn'] at h
  have : (i : ℝ) < 1 := lt_of_le_of_lt h ht
  have : i < 1 := by exact_mod_cast this
  omega

theorem near_one (n i : Nat) (hn : 0 < n) (hi : i ≤ n) (t : ℝ) (ht : t * n < 1) (h : |(i : ℝ) / n - 1| ≤ t) : i = n := by
  have hn' : (0 : ℝ) < n := Nat.cast_pos.2 hn
  refine (by omega : ∀ k : Nat, n - i = 0 → i = n) 0 (near_zero n (n - i) hn t ht ?_)
  rw [Nat.cast_sub hi, sub_div, div_self hn'.ne', abs_sub_comm]
  exact h

theorem sq_atSide (nx ny i j : Nat) (hnx : 0 < nx) (hny : 0 < ny) (hX : nx < 10 ^ 9) (hY : ny < 10 ^ 9) (hi : i ≤ nx) (hj : j ≤ ny) :
    AtSide (sqCoords nx ny) (i * (ny + 1) + j) ↔ i = 0 ∨ i = nx ∨ j = 0 ∨ j = ny := by
  have hx' : (nx : ℝ) ≠ 0 := Nat.cast_ne_zero.2 hnx.ne'
  have hy' : (ny : ℝ) ≠ 0 := Nat.cast_ne_zero.2 hny.ne'
  have tX : (1 / 10 ^ 9 : ℝ) * nx < 1 := by
    have : (nx : ℝ) < 10 ^ 9 := by exact_mod_cast hX
    rw [one_div, inv_mul_lt_iff₀ (by positivity)]; simpa using this
  have tY : (1 / 10 ^ 9 : ℝ) * ny < 1 := by
    have : (ny : ℝ) < 10 ^ 9 := by exact_mod_cast hY
    rw [one_div, inv_mul_lt_iff₀ (by positivity)]; simpa using this
  rw [AtSide, NearSide, sqCoords_get nx ny i j hi hj, Fin.exists_fin_two]
  simp only [Matrix.cons_val_zero, Matrix.cons_val_one]
  constructor
  · rintro ((h | h) | (h | h))
    · exact .inl (near_zero nx i hnx _ tX h.le)
    · exact .inr (.inl (near_one nx i hnx hi _ tX h.le))
    · exact .inr (.inr (.inl (near_zero ny j hny _ tY h.le)))
    · exact .inr (.inr (.inr (near_one ny j hny hj _ tY h.le)))
  · rintro (rfl | rfl | rfl | rfl)
    · left; left; norm_num
    · left; right; rw [div_self hx']; norm_num
    · right; left; norm_num
    · right; right; rw [div_self hy']; norm_num

/-- **C95 (mesh).** The mesh of the unit square meets the requirements of the other theorems for all numbers of cells up to 99990: triangles
are counterclockwise, the sides are the grid lines at the ends, the tolerances agree, and every vertex is connected with a side. -/
theorem C95_square (nx ny : Nat) (hnx : 0 < nx) (hny : 0 < ny) (hX : nx ≤ 99990) (hY : ny ≤ 99990) :
    (∀ c ∈ sqCells nx ny, ∀ a, c a < (nx + 1) * (ny + 1)) ∧
    (∀ c ∈ sqCells nx ny, 0 < signedArea2 fun a => sqCoords nx ny (c a)) ∧
    (∀ i j, i ≤ nx → j ≤ ny → (AtSide (sqCoords nx ny) (i * (ny + 1) + j) ↔ i = 0 ∨ i = nx ∨ j = 0 ∨ j = ny)) ∧
    TolerancesAgree (sqCoords nx ny) ((nx + 1) * (ny + 1)) ∧ ReachesSide (sqCoords nx ny) ((nx + 1) * (ny + 1)) (sqCells nx ny) := by
  have hcells : squareTriangles nx ny = squareCells nx ny := rfl
  have hside := fun i j => sq_atSide nx ny i j hnx hny (by omega) (by omega)
  have hget : ∀ c : List Nat, c ∈ squareCells nx ny → ∀ a : Fin 3, c.getD a 0 < (nx + 1) * (ny + 1) := by
    intro c hc a
    obtain ⟨h3, -, hlt⟩ := (Parallel.C71_cells nx ny).2.2 c hc
    rw [List.getD_eq_getElem _ _ (by rw [h3]; exact a.2)]
    exact hlt _ (List.getElem_mem _)
  refine ⟨?_, ?_, hside, ?_, ?_⟩
  · intro c hc a
    obtain ⟨cl, hcl, rfl⟩ := List.mem_map.1 hc
    exact hget cl hcl a
  · intro c hc
    obtain ⟨cl, hcl, rfl⟩ := List.mem_map.1 hc
    have := (Parallel.C71_orientation nx ny (fun _ => (0 : ℝ)) (fun _ => 1) (fun _ => one_pos) cl hcl).2
    rw [← squarePoints_eq] at this
    exact this
  · intro v hv d hcl
    obtain ⟨i, j, hi, hj, rfl⟩ := split_vertex nx ny v hv
    rw [hside i j hi hj]
    rw [sqCoords_get nx ny i j hi hj] at hcl
    have tol : ∀ n : Nat, n ≤ 99990 → (1 / 10 ^ 9 + 1 / 10 ^ 5 : ℝ) * n < 1 := by
      intro n hn
      have : (n : ℝ) ≤ 99990 := by exact_mod_cast hn
      norm_num
      linarith
    have tol0 : (1 / 10 ^ 9 + 1 / 10 ^ 5 * |(0 : ℝ)| : ℝ) ≤ 1 / 10 ^ 9 + 1 / 10 ^ 5 := by norm_num
    have tol1 : (1 / 10 ^ 9 + 1 / 10 ^ 5 * |(1 : ℝ)| : ℝ) ≤ 1 / 10 ^ 9 + 1 / 10 ^ 5 := by norm_num
    unfold isclose at hcl
    rw [sub_zero] at hcl
    fin_cases d
    · rcases hcl with h | h
      · exact .inl (near_zero nx i hnx _ (tol nx hX) (h.trans tol0))
      · exact .inr (.inl (near_one nx i hnx hi _ (tol nx hX) (h.trans tol1)))
    · rcases hcl with h | h
      · exact .inr (.inr (.inl (near_zero ny j hny _ (tol ny hY) (h.trans tol0))))
      · exact .inr (.inr (.inr (near_one ny j hny hj _ (tol ny hY) (h.trans tol1))))
  · intro v hv
    obtain ⟨i, j, hi, hj, rfl⟩ := split_vertex nx ny v hv
    by_cases hix : i = nx
    · exact ⟨_, hv, (hside i j hi hj).2 (.inr (.inl hix)), .refl⟩
    · refine ⟨i * (ny + 1) + 0, ?_, (hside i 0 hi (Nat.zero_le _)).2 (.inr (.inr (.inl rfl))), ?_⟩
      · have : i * (ny + 1) + 0 ≤ i * (ny + 1) + j := by omega
        omega
      · clear hv
        induction j with
        | zero => exact .refl
        | succ j ih =>
          refine Relation.ReflTransGen.head ?_ (ih (by omega))
          refine ⟨fun a => [i * (ny + 1) + j, (i + 1) * (ny + 1) + (j + 1), i * (ny + 1) + (j + 1)].getD a 0, ?_, ⟨2, rfl⟩, 0, rfl⟩
          refine List.mem_map.2 ⟨[i * (ny + 1) + j, (i + 1) * (ny + 1) + (j + 1), i * (ny + 1) + (j + 1)], ?_, rfl⟩
          unfold squareTriangles
          refine List.mem_flatMap.2 ⟨i, List.mem_range.2 (by omega), List.mem_flatMap.2 ⟨j, List.mem_range.2 (by omega), ?_⟩⟩
          simp

/-- **C95 (finding).** `isclose` with the default relative tolerance: from `10^5` cells on, the last grid line before the right side carries
Dirichlet nodes of the local problems although it is not at a side for the main program. -/
theorem C95_tolerance (nx ny : Nat) (hX : 10 ^ 5 ≤ nx) (hX' : nx < 10 ^ 9) (hY : 2 ≤ ny) (hY' : ny < 10 ^ 9) :
    ¬TolerancesAgree (sqCoords nx ny) ((nx + 1) * (ny + 1)) := by
  intro h
  have hx0 : (0 : ℝ) < nx := Nat.cast_pos.2 (by omega)
  have hlt : (nx - 1) * (ny + 1) + 1 < (nx + 1) * (ny + 1) := by
    have : (nx + 1) * (ny + 1) = (nx - 1) * (ny + 1) + 2 * (ny + 1) := by
      rw [← Nat.add_mul]
      congr 1
      omega
    omega
  have hs := h _ hlt 0 (.inr ?_)
  · rw [sq_atSide nx ny (nx - 1) 1 (by omega) (by omega) hX' hY' (by omega) (by omega)] at hs
    omega
  · rw [sqCoords_get nx ny (nx - 1) 1 (by omega) (by omega)]
    unfold isclose
    simp only [Matrix.cons_val_zero]
    rw [Nat.cast_sub (by omega), Nat.cast_one, sub_div, div_self hx0.ne', sub_sub_cancel_left, abs_neg, abs_of_pos (by positivity), abs_one]
    have h5 : (10 ^ 5 : ℝ) ≤ nx := by exact_mod_cast hX
    have : (1 : ℝ) / nx ≤ 1 / 10 ^ 5 := one_div_le_one_div_of_le (by positivity) h5
    norm_num at this ⊢
    linarith

/-! ### The error -/

theorem owned_perm (hD : IsPartition coords N cells num glob parts) :
    (parts.flatMap fun p => ((List.range' p.vStart (p.vEnd - p.vStart)).filter fun v =>
      decide ((p.rstart : Int) ≤ globalDof (p.off v)) && decide (globalDof (p.off v) < p.rend)).map (glob p)).Perm (List.range N) := by
  have hmem : ∀ p ∈ parts, ∀ v, v ∈ ((List.range' p.vStart (p.vEnd - p.vStart)).filter fun v =>
      decide ((p.rstart : Int) ≤ globalDof (p.off v)) && decide (globalDof (p.off v) < p.rend)) ↔
      (p.vStart ≤ v ∧ v < p.vEnd) ∧ p.rstart ≤ num (glob p v) ∧ num (glob p v) < p.rend := by
    intro p hp v
    rw [List.mem_filter, List.mem_range'_1]
    constructor
    · rintro ⟨h1, h2⟩
      have h1' : p.vStart ≤ v ∧ v < p.vEnd := by omega
      rw [point_dof hD hp h1'.1 h1'.2] at h2
      simp only [Bool.and_eq_true, decide_eq_true_eq] at h2
      exact ⟨h1', by exact_mod_cast h2.1, by exact_mod_cast h2.2⟩
    · rintro ⟨h1, h2, h3⟩
      refine ⟨by omega, ?_⟩
      rw [point_dof hD hp h1.1 h1.2]
      simp only [Bool.and_eq_true, decide_eq_true_eq]
      exact ⟨by exact_mod_cast h2, by exact_mod_cast h3⟩
  rw [List.perm_ext_iff_of_nodup _ List.nodup_range]
  · intro w
    rw [List.mem_flatMap, List.mem_range]
    constructor
    · rintro ⟨p, hp, hw⟩
      obtain ⟨v, hv, rfl⟩ := List.mem_map.1 hw
      obtain ⟨h1, -⟩ := (hmem p hp v).1 hv
      exact (hD.verts p hp v h1.1 h1.2).1
    · intro hw
      obtain ⟨p, hp, h1, h2, l, hl1, hl2, rfl⟩ := hD.owner w hw
      exact ⟨p, hp, List.mem_map.2 ⟨l, (hmem p hp l).2 ⟨⟨hl1, hl2⟩, h1, h2⟩, rfl⟩⟩
  · rw [List.nodup_flatMap]
    constructor
    · intro p hp
      refine List.Nodup.map_on ?_ ((List.nodup_range' ..).filter _)
      intro v hv w hw he
      obtain ⟨h1, -⟩ := (hmem p hp v).1 hv
      obtain ⟨h2, -⟩ := (hmem p hp w).1 hw
      exact hD.inj p hp v h1.1 h1.2 w h2.1 h2.2 he
    · refine hD.disjoint.imp_of_mem fun {p q} hp hq hpq => ?_
      intro w hw hw'
      obtain ⟨v, hv, rfl⟩ := List.mem_map.1 hw
      obtain ⟨v', hv', he⟩ := List.mem_map.1 hw'
      obtain ⟨-, h1, h2⟩ := (hmem p hp v).1 hv
      obtain ⟨-, h3, h4⟩ := (hmem q hq v').1 hv'
      rw [he] at h3 h4
      omega

/-- **C95 (error).** The reported error is the root mean square of the nodal errors, every vertex counted once. -/
theorem C95_rms (hD : IsPartition coords N cells num glob parts) (hN : 0 < N) (x : Fin N → ℝ) (u : Nat → ℝ)
    (hu : ∀ v (hv : v < N), u v = x ⟨num v, hD.num_lt v hv⟩) :
    rms parts x = Real.sqrt ((∑ v ∈ Finset.range N, (u v - uExact (coords v 0) (coords v 1)) ^ 2) / N) := by
  have hpairs : ∀ p ∈ parts, ownedPairs p x = (((List.range' p.vStart (p.vEnd - p.vStart)).filter fun v =>
      decide ((p.rstart : Int) ≤ globalDof (p.off v)) && decide (globalDof (p.off v) < p.rend)).map (glob p)).map
        fun w => (coords w, u w) := by
    intro p hp
    unfold ownedPairs
    rw [List.map_map]
    refine List.map_congr_left fun v hv => ?_
    rw [List.mem_filter, List.mem_range'_1] at hv
    obtain ⟨h1, h2⟩ := hv
    have h1' : p.vStart ≤ v ∧ v < p.vEnd := by omega
    obtain ⟨b1, b2, -⟩ := hD.verts p hp v h1'.1 h1'.2
    rw [point_dof hD hp h1'.1 h1'.2] at h2 ⊢
    simp only [Bool.and_eq_true, decide_eq_true_eq] at h2
    simp only [Function.comp_apply, Int.toNat_natCast]
    rw [b2, hu _ b1, localArray_getD p x (num (glob p v)) (by exact_mod_cast h2.1) (by exact_mod_cast h2.2) (hD.num_lt _ b1)]
  have hP := owned_perm hD
  have hsq : (parts.map fun p => ((ownedPairs p x).map fun e => (e.2 - uExact (e.1 0) (e.1 1)) ^ 2).sum).sum
      = ∑ v ∈ Finset.range N, (u v - uExact (coords v 0) (coords v 1)) ^ 2 := by
    rw [Finset.sum_range, ← List.sum_ofFn, List.ofFn_eq_map]
    have e : List.map (fun i : Fin N => (u i - uExact (coords i 0) (coords i 1)) ^ 2) (List.finRange N)
        = (List.range N).map fun v => (u v - uExact (coords v 0) (coords v 1)) ^ 2 := by
      rw [← List.map_coe_finRange_eq_range, List.map_map]
      rfl
    rw [e, ← (hP.map _).sum_eq, sum_flatMap]
    refine congrArg List.sum (List.map_congr_left fun p hp => ?_)
    rw [hpairs p hp, List.map_map]
    rfl
  have hcnt : (parts.map fun p => (ownedPairs p x).length).sum = N := by
    have := hP.length_eq
    rw [List.length_range, List.length_flatMap] at this
    refine Eq.trans (congrArg List.sum (List.map_congr_left fun p hp => ?_)) this
    rw [hpairs p hp, List.length_map]
  unfold rms
  rw [hsq, hcnt]
  rw [if_pos hN.ne']

end Mpi
end JaxFem
