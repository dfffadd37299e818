import Verif.Thm.C10_Patch
import Verif.Thm.C42_Box

/-!
# C13: quadrature weights on structured meshes
-/

namespace JaxFem

variable {K : Type} [Field K]

/-! ### Helper lemmas -/

theorem physicalCoos_of_getElem? {nn dim : Nat} (points : List (Fin dim → K)) (cell : List Nat)
    (a : Fin nn) (p : Fin dim → K) (h : points[cell.getD a 0]? = some p) :
    physicalCoos nn points cell a = p := by
  rw [physicalCoos, List.getD_eq_getElem?_getD, h]
  rfl

theorem rect_det (Nx Ny : Nat) (Lx Ly : K) (cell : List Nat)
    (h : cell ∈ (rectangleMesh Nx Ny Lx Ly).2) (p : Fin 2 → K) :
    (jacobianDxDeta (physicalCoos 4 (rectangleMesh Nx Ny Lx Ly).1 cell) (quad4G p)).det
      = Lx / Nx * (Ly / Ny) := by
  obtain ⟨i, j, hi, hj, rfl⟩ := rect_cell_mem Nx Ny Lx Ly cell h
  have pt := fun (a : Fin 4) (u v : Nat) (hu : u ≤ Nx) (hv : v ≤ Ny)
      (e : [i * (Ny + 1) + j, (i + 1) * (Ny + 1) + j, (i + 1) * (Ny + 1) + (j + 1),
        i * (Ny + 1) + (j + 1)].getD a 0 = u * (Ny + 1) + v) =>
    physicalCoos_of_getElem? (nn := 4) (rectangleMesh Nx Ny Lx Ly).1
      [i * (Ny + 1) + j, (i + 1) * (Ny + 1) + j, (i + 1) * (Ny + 1) + (j + 1),
        i * (Ny + 1) + (j + 1)] a _ (by rw [e]; exact rect_point Nx Ny Lx Ly u v hu hv)
  have p0 := pt 0 i j (by omega) (by omega) rfl
  have p1 := pt 1 (i + 1) j (by omega) (by omega) rfl
  have p2 := pt 2 (i + 1) (j + 1) (by omega) (by omega) rfl
  have p3 := pt 3 i (j + 1) (by omega) (by omega) rfl
  rw [Matrix.det_fin_two]
  simp only [jacobianDxDeta, Matrix.of_apply, Fin.sum_univ_four, p0, p1, p2, p3, quad4G,
    Matrix.cons_val_zero, Matrix.cons_val_one, Matrix.cons_val]
  push_cast
  ring

theorem box_det (Nx Ny Nz : Nat) (Lx Ly Lz : K) (cell : List Nat)
    (h : cell ∈ (boxMesh Nx Ny Nz Lx Ly Lz).2) (p : Fin 3 → K) :
    (jacobianDxDeta (physicalCoos 8 (boxMesh Nx Ny Nz Lx Ly Lz).1 cell) (hex8G p)).det
      = Lx / Nx * (Ly / Ny) * (Lz / Nz) := by
  obtain ⟨i, j, k, hi, hj, hk, rfl⟩ := box_cell_mem Nx Ny Nz Lx Ly Lz cell h
  have pt := fun (a : Fin 8) (u v w : Nat) (hu : u ≤ Nx) (hv : v ≤ Ny) (hw : w ≤ Nz)
      (e : (boxCorners Ny Nz i j k).getD a 0 = boxNode Ny Nz u v w) =>
    physicalCoos_of_getElem? (nn := 8) (boxMesh Nx Ny Nz Lx Ly Lz).1 (boxCorners Ny Nz i j k) a _
      (by rw [e]; exact box_point Nx Ny Nz Lx Ly Lz u v w hu hv hw)
  have p0 := pt 0 i j k (by omega) (by omega) (by omega) rfl
  have p1 := pt 1 (i + 1) j k (by omega) (by omega) (by omega) rfl
  have p2 := pt 2 (i + 1) (j + 1) k (by omega) (by omega) (by omega) rfl
  have p3 := pt 3 i (j + 1) k (by omega) (by omega) (by omega) rfl
  have p4 := pt 4 i j (k + 1) (by omega) (by omega) (by omega) rfl
  have p5 := pt 5 (i + 1) j (k + 1) (by omega) (by omega) (by omega) rfl
  have p6 := pt 6 (i + 1) (j + 1) (k + 1) (by omega) (by omega) (by omega) rfl
  have p7 := pt 7 i (j + 1) (k + 1) (by omega) (by omega) (by omega) rfl
  have hJ : jacobianDxDeta (physicalCoos 8 (boxMesh Nx Ny Nz Lx Ly Lz).1 (boxCorners Ny Nz i j k))
      (hex8G p) = !![Lx / Nx, 0, 0; 0, Ly / Ny, 0; 0, 0, Lz / Nz] := by
    ext u v
    fin_cases u <;> fin_cases v <;>
    · simp only [jacobianDxDeta, Matrix.of_apply, Fin.sum_univ_eight, p0, p1, p2, p3, p4, p5, p6, p7,
        hex8G, Matrix.cons_val_zero, Matrix.cons_val_one, Matrix.cons_val, Fin.zero_eta,
        Fin.mk_one, Fin.reduceFinMk]
      push_cast
      ring
  rw [hJ, Matrix.det_fin_three]
  simp

/-! ### Property theorems -/

/-- **C13 (rectangle).** On `rectangle_mesh` with positive side lengths every `JxW` is positive (for
positive reference weights), at any quadrature points, and they sum up to the area of the domain
when the reference weights sum to one. -/
theorem C13_rectangle [LinearOrder K] [IsStrictOrderedRing K] {nq : Nat} (Nx Ny : Nat) (Lx Ly : K)
    (hx : 0 < Lx) (hy : 0 < Ly) (hNx : 0 < Nx) (hNy : 0 < Ny) (p : Fin nq → Fin 2 → K)
    (w : Fin nq → K) (hw : ∀ q, 0 < w q) (hsum : ∑ q, w q = 1) :
    let m := rectangleMesh Nx Ny Lx Ly
    let el := tabulate quad4N quad4G p w
    let JxW := fun cell q =>
      cellJxW (physicalCoos 4 m.1 cell) (el.shapeGradsRef q) (el.quadWeights q)
    (∀ cell ∈ m.2, ∀ q, 0 < JxW cell q) ∧
      (m.2.map fun cell => ∑ q, JxW cell q).sum = Lx * Ly := by
  intro m el JxW
  have hX : (0 : K) < Nx := Nat.cast_pos.2 hNx
  have hY : (0 : K) < Ny := Nat.cast_pos.2 hNy
  have key : ∀ cell ∈ m.2, ∀ q, JxW cell q = Lx / Nx * (Ly / Ny) * w q := by
    intro cell h q
    simp only [JxW, cellJxW, el, tabulate]
    rw [rect_det Nx Ny Lx Ly cell h]
  constructor
  · intro cell h q
    rw [key cell h q]
    have := hw q
    positivity
  · have : (m.2.map fun cell => ∑ q, JxW cell q) = m.2.map fun _ => Lx / Nx * (Ly / Ny) := by
      refine List.map_congr_left fun cell h => ?_
      simp only [key cell h]
      rw [← Finset.mul_sum, hsum, mul_one]
    rw [this, List.map_const', List.sum_replicate, (C41_cells Nx Ny Lx Ly).1]
    rw [nsmul_eq_mul]
    push_cast
    field_simp

/-- **C13 (box).** Same for `box_mesh` and the volume. -/
theorem C13_box [LinearOrder K] [IsStrictOrderedRing K] {nq : Nat} (Nx Ny Nz : Nat) (Lx Ly Lz : K)
    (hx : 0 < Lx) (hy : 0 < Ly) (hz : 0 < Lz) (hNx : 0 < Nx) (hNy : 0 < Ny) (hNz : 0 < Nz)
    (p : Fin nq → Fin 3 → K) (w : Fin nq → K) (hw : ∀ q, 0 < w q) (hsum : ∑ q, w q = 1) :
    let m := boxMesh Nx Ny Nz Lx Ly Lz
    let el := tabulate hex8N hex8G p w
    let JxW := fun cell q =>
      cellJxW (physicalCoos 8 m.1 cell) (el.shapeGradsRef q) (el.quadWeights q)
    (∀ cell ∈ m.2, ∀ q, 0 < JxW cell q) ∧
      (m.2.map fun cell => ∑ q, JxW cell q).sum = Lx * Ly * Lz := by
  intro m el JxW
  have hX : (0 : K) < Nx := Nat.cast_pos.2 hNx
  have hY : (0 : K) < Ny := Nat.cast_pos.2 hNy
  have hZ : (0 : K) < Nz := Nat.cast_pos.2 hNz
  have key : ∀ cell ∈ m.2, ∀ q, JxW cell q = Lx / Nx * (Ly / Ny) * (Lz / Nz) * w q := by
    intro cell h q
    simp only [JxW, cellJxW, el, tabulate]
    rw [box_det Nx Ny Nz Lx Ly Lz cell h]
  constructor
  · intro cell h q
    rw [key cell h q]
    have := hw q
    positivity
  · have : (m.2.map fun cell => ∑ q, JxW cell q)
        = m.2.map fun _ => Lx / Nx * (Ly / Ny) * (Lz / Nz) := by
      refine List.map_congr_left fun cell h => ?_
      simp only [key cell h]
      rw [← Finset.mul_sum, hsum, mul_one]
    rw [this, List.map_const', List.sum_replicate, (C42_cells Nx Ny Nz Lx Ly Lz).1]
    rw [nsmul_eq_mul]
    push_cast
    field_simp

/-- **C42 (Jacobian).** Every cell of `box_mesh` has Jacobian determinant
`(Lx/Nx)(Ly/Ny)(Lz/Nz)` at every point of the reference cube; it is positive for positive sides. -/
theorem C42_jacobian [LinearOrder K] [IsStrictOrderedRing K] (Nx Ny Nz : Nat) (Lx Ly Lz : K)
    (hx : 0 < Lx) (hy : 0 < Ly) (hz : 0 < Lz) (cell : List Nat)
    (h : cell ∈ (boxMesh Nx Ny Nz Lx Ly Lz).2) (p : Fin 3 → K) :
    (mapJacobian (coords 8 (boxMesh Nx Ny Nz Lx Ly Lz).1 cell) (Matrix.of (hex8G p))).det
        = Lx / Nx * (Ly / Ny) * (Lz / Nz) ∧
      0 < (mapJacobian (coords 8 (boxMesh Nx Ny Nz Lx Ly Lz).1 cell) (Matrix.of (hex8G p))).det := by
  have e := box_det Nx Ny Nz Lx Ly Lz cell h p
  rw [jacobian_eq, physicalCoos_eq] at e
  refine ⟨e, ?_⟩
  rw [e]
  obtain ⟨i, j, k, hi, hj, hk, -⟩ := box_cell_mem Nx Ny Nz Lx Ly Lz cell h
  have hX : (0 : K) < Nx := Nat.cast_pos.2 (by omega)
  have hY : (0 : K) < Ny := Nat.cast_pos.2 (by omega)
  have hZ : (0 : K) < Nz := Nat.cast_pos.2 (by omega)
  positivity

/-! Non-vacuity: 2 × 3 cells, four points with weights 1/4. -/

example : (∀ q : Fin 4, (0 : Rat) < (fun _ => 1/4 : Fin 4 → Rat) q) ∧
    ∑ q : Fin 4, (fun _ => 1/4 : Fin 4 → Rat) q = 1 := by
  refine ⟨fun q => by norm_num, by norm_num⟩

end JaxFem
