import Verif.Thm.C119_Poisson
import Verif.Thm.C82_Elasticity
import Verif.Thm.C92_Simp

/-!
C119: the linear Poisson benchmark on a generated mesh.
-/

namespace JaxFem.PoissonBench

open Patch

variable {nq nfq : Nat}

theorem node_split (Nx Ny Nz n : Nat) (hn : n < (Nx + 1) * (Ny + 1) * (Nz + 1)) :
    ∃ i ≤ Nx, ∃ j ≤ Ny, ∃ k ≤ Nz, n = boxNode Ny Nz i j k := by
  have e1 : n = n / (Nz + 1) * (Nz + 1) + n % (Nz + 1) := by rw [Nat.mul_comm]; exact (Nat.div_add_mod n (Nz + 1)).symm
  have h1 : n / (Nz + 1) < (Nx + 1) * (Ny + 1) := Nat.div_lt_of_lt_mul (by rwa [Nat.mul_comm] at hn)
  have h2 : n % (Nz + 1) < Nz + 1 := Nat.mod_lt _ (by omega)
  generalize n / (Nz + 1) = m at e1 h1
  have e2 : m = m / (Ny + 1) * (Ny + 1) + m % (Ny + 1) := by rw [Nat.mul_comm]; exact (Nat.div_add_mod m (Ny + 1)).symm
  have h3 : m / (Ny + 1) < Nx + 1 := Nat.div_lt_of_lt_mul (by rwa [Nat.mul_comm] at h1)
  have h4 : m % (Ny + 1) < Ny + 1 := Nat.mod_lt _ (by omega)
  refine ⟨m / (Ny + 1), by omega, m % (Ny + 1), by omega, n % (Nz + 1), by omega, ?_⟩
  rw [boxNode, ← e2]
  exact e1

/-- Coarse enough grids on the unit layer fit the benchmark. -/
theorem box_layer (Nx Ny Nz : Nat) (Ly Lz : ℝ) (hx : 0 < Nx) (hy : 0 < Ny) (hz : 0 < Nz) (hN : Nx < 50000) :
    Layer ((Nx + 1) * (Ny + 1) * (Nz + 1)) 4 (FaceMatched hexFaces) (boxMesh Nx Ny Nz 1 Ly Lz).1 (boxMesh Nx Ny Nz 1 Ly Lz).2 := by
  have hx0 : (0 : ℝ) < Nx := Nat.cast_pos.2 hx
  have hNr : (Nx : ℝ) < 50000 := by exact_mod_cast hN
  have pos : ∀ i j k, i ≤ Nx → j ≤ Ny → k ≤ Nz → xOf (boxMesh Nx Ny Nz 1 Ly Lz).1 (boxNode Ny Nz i j k) = i / Nx := by
    intro i j k hi hj hk
    rw [xOf, box_pos Nx Ny Nz 1 Ly Lz i j k hi hj hk]
    show (i : ℝ) * (1 / Nx) = _
    ring
  refine ⟨fun n hn h => ?_, fun n hn h => ?_, ⟨boxNode Ny Nz Nx 0 0, ?_, ?_⟩, fun n hn => ?_, fun n hn h0 h1 => ?_⟩
  · obtain ⟨i, hi, j, hj, k, hk, rfl⟩ := node_split Nx Ny Nz n hn
    rw [pos i j k hi hj hk] at h ⊢
    rcases Nat.eq_zero_or_pos i with rfl | h0
    · simp
    · exfalso
      have h0' : (1 : ℝ) ≤ i := by exact_mod_cast h0
      rw [abs_of_nonneg (by positivity), div_le_iff₀ hx0] at h
      linarith
  · obtain ⟨i, hi, j, hj, k, hk, rfl⟩ := node_split Nx Ny Nz n hn
    rw [pos i j k hi hj hk] at h ⊢
    rcases hi.lt_or_eq with h0 | rfl
    · exfalso
      have h0' : (i : ℝ) + 1 ≤ Nx := by exact_mod_cast h0
      have e : (i : ℝ) / Nx - 1 = -((Nx - i) / Nx) := by field_simp; ring
      rw [e, abs_neg, abs_of_nonneg (div_nonneg (by linarith) hx0.le), div_le_iff₀ hx0] at h
      linarith
    · exact div_self hx0.ne'
  · exact boxNode_lt le_rfl (Nat.zero_le _) (Nat.zero_le _)
  · rw [pos Nx 0 0 le_rfl (Nat.zero_le _) (Nat.zero_le _)]
    exact div_self hx0.ne'
  · obtain ⟨i, hi, j, hj, k, hk, rfl⟩ := node_split Nx Ny Nz n hn
    refine ⟨boxNode Ny Nz 0 j k, boxNode_lt (Nat.zero_le _) hj hk, .inl ?_, ?_⟩
    · rw [pos 0 j k (Nat.zero_le _) hj hk]; simp
    clear hn
    induction i with
    | zero => exact .refl
    | succ i ih =>
      refine (ih (by omega)).tail ?_
      obtain ⟨j0, hj0, hjj⟩ : ∃ j0 < Ny, j = j0 ∨ j = j0 + 1 := by
        rcases Nat.eq_zero_or_pos j with h0 | h0
        · exact ⟨0, hy, .inl h0⟩
        · exact ⟨j - 1, by omega, .inr (by omega)⟩
      obtain ⟨k0, hk0, hkk⟩ : ∃ k0 < Nz, k = k0 ∨ k = k0 + 1 := by
        rcases Nat.eq_zero_or_pos k with h0 | h0
        · exact ⟨0, hz, .inl h0⟩
        · exact ⟨k - 1, by omega, .inr (by omega)⟩
      refine ⟨boxCorners Ny Nz i j0 k0, List.mem_of_getElem? (box_cell Nx Ny Nz 1 Ly Lz i j0 k0 (by omega) hj0 hk0), ?_, ?_⟩
      · rw [mem_boxCorners]
        exact ⟨i, j, k, .inl rfl, hjj, hkk, rfl⟩
      · rw [mem_boxCorners]
        exact ⟨i + 1, j, k, .inr rfl, hjj, hkk, rfl⟩
  · obtain ⟨i, hi, j, hj, k, hk, rfl⟩ := node_split Nx Ny Nz n hn
    rw [pos i j k hi hj hk] at h0 h1
    refine C119_generated.2 Nx Ny Nz 1 Ly Lz _ i j k hi hj hk (.inr ⟨?_, ?_⟩) (.inl rfl) (.inl rfl)
    · rcases Nat.eq_zero_or_pos i with rfl | h
      · exact absurd (by simp) h0
      · exact h
    · rcases hi.lt_or_eq with h | rfl
      · exact h
      · exact absurd (div_self hx0.ne') h1

/-- **C119 (linear Poisson benchmark on a generated mesh).** On `box_mesh(Nx, Ny, Nz, 1, Ly, Lz)` with fewer than 50000 cells along
`x` (more, and the tolerance of the test catches a second layer of nodes) and any positive quadrature rule exact to degree two per
axis, `solver` returns `i / Nx` at grid node `(i, j, k)` after one Newton step. -/
theorem C119_box (Nx Ny Nz : Nat) (Ly Lz : ℝ) (hx : 0 < Nx) (hy : 0 < Ny) (hz : 0 < Nz) (hN : Nx < 50000) (hLy : 0 < Ly)
    (hLz : 0 < Lz) (p : Fin nq → Fin 3 → ℝ) (w : Fin nq → ℝ) (hw : ∀ q, 0 < w q)
    (hrule : ∀ i j k : Fin 3, ∑ q, w q * (p q 0 ^ (i : Nat) * p q 1 ^ (j : Nat) * p q 2 ^ (k : Nat))
      = 1 / (((i : Nat) + 1) * ((j : Nat) + 1) * ((k : Nat) + 1)))
    (hgrid : ∃ q : Fin 2 → Fin 2 → Fin nq, ∃ y z : Fin 2 → ℝ, y 0 ≠ y 1 ∧ z 0 ≠ z 1 ∧
      ∀ a b, p (q a b) 1 = y a ∧ p (q a b) 2 = z b) (fc : RefFaces ℝ nfq 8 3) :
    let P := linearPoisson ((Nx + 1) * (Ny + 1) * (Nz + 1)) (boxMesh Nx Ny Nz 1 Ly Lz).1 (boxMesh Nx Ny Nz 1 Ly Lz).2
      (tabulate hex8N hex8G p w) fc
    (∃ T : Matrix (Fin (totalDofs P.fes)) (Fin (totalDofs P.fes)) ℝ, ∀ x, HasJacobianAt (residualVec P) T x) ∧
    ∀ num : Numerics (totalDofs P.fes), (∀ x, HasJacobianAt (residualVec P) (num.tan x) x) → ExactSolver num.solve →
      (∀ A b x0, A.det ≠ 0 → ∃ x, num.solve A b x0 = .ok x) → ∀ fuel,
      ∃ sol, solver P num (fuel + 2) = some (.ok (sol, 1)) ∧ HasShapes [((Nx + 1) * (Ny + 1) * (Nz + 1), 1)] [sol] ∧
        ∀ i ≤ Nx, ∀ j ≤ Ny, ∀ k ≤ Nz, fieldOf 1 sol ((i * (Ny + 1) + j) * (Nz + 1) + k) 0 = i / Nx := by
  intro P
  let P3 : Problem1 Unit nq nfq 8 3 3 := {
    numTotalNodes := (Nx + 1) * (Ny + 1) * (Nz + 1)
    points := (boxMesh Nx Ny Nz 1 Ly Lz).1
    cells := (boxMesh Nx Ny Nz 1 Ly Lz).2.map fun c => ⟨c, fun _ => ()⟩
    el := tabulate hex8N hex8G p w
    fc := fc
    tensorMap := fun _ x => x
    massMap := none
    surfaces := [] }
  have h3 : OnBox P3 Nx Ny Nz 1 Ly Lz p w := by
    refine ⟨rfl, rfl, ?_, rfl, hx, hy, hz, one_pos, hLy, hLz, fun s hs => absurd hs (by simp [P3])⟩
    simp [P3, Problem1.conn, Function.comp_def]
  have hwf : P.WF := ⟨h3.wf.nonempty, h3.wf.points, h3.wf.cell_length, h3.wf.cell_lt, fun s hs => absurd hs (by simp [P, linearPoisson])⟩
  have hpos : P.PositiveMeasure := by
    intro cell hc q
    have e := h3.jac cell.nodes (List.mem_map_of_mem hc) q
    change 0 < (mapJacobian (coords 8 P3.points cell.nodes) (Matrix.of (P3.el.shapeGradsRef q))).det * w q
    rw [e, Matrix.det_fin_three]
    have h := h3.hpos
    have h' := mul_pos (mul_pos (mul_pos h.1 h.2.1) h.2.2) (hw q)
    simpa using h'
  constructor
  · obtain ⟨T, f, hT⟩ := C74_affine P hwf (affine _ _ _ _ _)
    refine ⟨T, fun x => ?_⟩
    have hflat : residualVec P = fun u => matCLM T u - f := funext hT
    change HasFDerivAt (residualVec P) (matCLM T) x
    rw [hflat]
    exact (matCLM T).hasFDerivAt.sub_const f
  · intro num htan hs hs' fuel
    obtain ⟨sol, h1, h2, h4⟩ := C119_benchmark _ _ _ _ fc hwf (.hex8 p w hrule) hpos
      ((C73_determines w (fun _ _ => 0) p).2.2.2 hgrid) (box_layer Nx Ny Nz Ly Lz hx hy hz hN) num htan hs hs' fuel
    refine ⟨sol, h1, h2, fun i hi j hj k hk => ?_⟩
    refine (h4 _ (boxNode_lt hi hj hk)).trans ?_
    rw [xOf]
    rw [box_pos Nx Ny Nz 1 Ly Lz i j k hi hj hk]
    show (i : ℝ) * (1 / Nx) = _
    ring

/-! ### A concrete case -/

/-- The two Gauss points of the unit interval. -/
noncomputable def gauss2 (a : Nat) : ℝ := if a = 0 then (1 - 1 / √3) / 2 else (1 + 1 / √3) / 2

/-- The rule of the package for a hexahedron: eight points. -/
noncomputable def gauss8 (q : Fin 8) : Fin 3 → ℝ := ![gauss2 (q / 4), gauss2 (q / 2 % 2), gauss2 (q % 2)]

theorem gauss2_moment (i : Fin 3) : (gauss2 0 ^ (i : Nat) + gauss2 1 ^ (i : Nat)) / 2 = 1 / ((i : Nat) + 1) := by
  have hs : (1 / √3 : ℝ) ^ 2 = 1 / 3 := by
    rw [div_pow, Real.sq_sqrt (by norm_num)]; norm_num
  simp only [gauss2, if_true, one_ne_zero, if_false]
  generalize (1 / √3 : ℝ) = s at hs
  fin_cases i
  · norm_num
  · norm_num; ring
  · norm_num
    linear_combination hs / 4

theorem gauss8_rule (i j k : Fin 3) : ∑ q, (1 / 8 : ℝ) * (gauss8 q 0 ^ (i : Nat) * gauss8 q 1 ^ (j : Nat) * gauss8 q 2 ^ (k : Nat))
    = 1 / (((i : Nat) + 1) * ((j : Nat) + 1) * ((k : Nat) + 1)) := by
  have e : (1 : ℝ) / (((i : Nat) + 1) * ((j : Nat) + 1) * ((k : Nat) + 1))
      = 1 / ((i : Nat) + 1) * (1 / ((j : Nat) + 1)) * (1 / ((k : Nat) + 1)) := by
    field_simp
  rw [e, ← gauss2_moment i, ← gauss2_moment j, ← gauss2_moment k, Fin.sum_univ_eight]
  change (1 / 8 : ℝ) * (gauss2 0 ^ (i : Nat) * gauss2 0 ^ (j : Nat) * gauss2 0 ^ (k : Nat))
    + 1 / 8 * (gauss2 0 ^ (i : Nat) * gauss2 0 ^ (j : Nat) * gauss2 1 ^ (k : Nat))
    + 1 / 8 * (gauss2 0 ^ (i : Nat) * gauss2 1 ^ (j : Nat) * gauss2 0 ^ (k : Nat))
    + 1 / 8 * (gauss2 0 ^ (i : Nat) * gauss2 1 ^ (j : Nat) * gauss2 1 ^ (k : Nat))
    + 1 / 8 * (gauss2 1 ^ (i : Nat) * gauss2 0 ^ (j : Nat) * gauss2 0 ^ (k : Nat))
    + 1 / 8 * (gauss2 1 ^ (i : Nat) * gauss2 0 ^ (j : Nat) * gauss2 1 ^ (k : Nat))
    + 1 / 8 * (gauss2 1 ^ (i : Nat) * gauss2 1 ^ (j : Nat) * gauss2 0 ^ (k : Nat))
    + 1 / 8 * (gauss2 1 ^ (i : Nat) * gauss2 1 ^ (j : Nat) * gauss2 1 ^ (k : Nat)) = _
  ring

/-- A mesh of `10 × 10 × 10` cells of the unit cube, with eight Gauss points. -/
noncomputable def exPoisson : Problem1 Unit 8 0 8 1 3 :=
  linearPoisson ((10 + 1) * (10 + 1) * (10 + 1)) (boxMesh 10 10 10 (1 : ℝ) 1 1).1 (boxMesh 10 10 10 (1 : ℝ) 1 1).2
    (tabulate hex8N hex8G gauss8 fun _ => 1 / 8) ⟨fun _ i => i.elim0, fun _ i => i.elim0, fun _ i => i.elim0, fun _ _ => 0⟩

/-- There is a tangent and a linear solver, and the value in the middle of the cube is one half. -/
example : ∃ num sol, solver exPoisson num (0 + 2) = some (.ok (sol, 1)) ∧
    fieldOf 1 sol ((5 * (10 + 1) + 5) * (10 + 1) + 5) 0 = 1 / 2 := by
  have hne : gauss2 0 ≠ gauss2 1 := by
    have : (0 : ℝ) < 1 / √3 := by positivity
    intro h
    simp only [gauss2, if_true, one_ne_zero, if_false] at h
    linarith
  have key := C119_box (nfq := 0) 10 10 10 1 1 (by norm_num) (by norm_num) (by norm_num) (by norm_num) one_pos one_pos
    gauss8 (fun _ => 1 / 8) (fun _ => by norm_num) gauss8_rule
    ⟨fun a b => ⟨2 * a + b, by omega⟩, ![gauss2 0, gauss2 1], ![gauss2 0, gauss2 1], hne, hne, fun a b => by
      fin_cases a <;> fin_cases b <;> exact ⟨rfl, rfl⟩⟩
    ⟨fun _ i => i.elim0, fun _ i => i.elim0, fun _ i => i.elim0, fun _ _ => 0⟩
  dsimp only at key
  rw [← exPoisson] at key
  obtain ⟨⟨T, hT⟩, h2⟩ := key
  obtain ⟨solve, hs, hs'⟩ := exists_exact_solver (totalDofs exPoisson.fes)
  obtain ⟨sol, h3, -, h4⟩ := h2 ⟨fun _ => T, solve⟩ hT hs hs' 0
  refine ⟨⟨fun _ => T, solve⟩, sol, h3, ?_⟩
  rw [h4 5 (by norm_num) 5 (by norm_num) 5 (by norm_num)]
  norm_num

end JaxFem.PoissonBench
