import Verif.Model.Elastic
import Verif.Spec.Elastic
import Verif.Thm.C74_LinearSolve
import Verif.Thm.C42_Box
import Mathlib.Algebra.BigOperators.Field
import Mathlib.Algebra.Order.Chebyshev

/-!
# C82: well-posedness of linear elasticity
-/

namespace JaxFem

variable {IV : Type} {nq nfq nn dim : Nat}

/-! ### Helper lemmas -/

theorem symPart_sub (G H : Fin dim → Fin dim → ℝ) :
    symPart (fun i j => G i j - H i j) = fun i j => symPart G i j - symPart H i j := by
  funext i j
  simp only [symPart]
  ring

theorem matrix_symPart_zero {A : Matrix (Fin dim) (Fin dim) ℝ} : symPart A = 0 ↔ A + A.transpose = 0 := by
  constructor
  · intro h
    ext i j
    have := congrFun (congrFun h i) j
    simp only [symPart, Pi.zero_apply] at this
    simp only [Matrix.add_apply, Matrix.transpose_apply, Matrix.zero_apply]
    linarith
  · intro h
    funext i j
    have := congrFun (congrFun h i) j
    simp only [Matrix.add_apply, Matrix.transpose_apply, Matrix.zero_apply] at this
    simp [symPart, this]

/-- Reference version: displacements with zero strain in reference coordinates are rigid motions of the reference
nodes `V`. -/
def RefRigid (el : RefElement ℝ nq nn dim) (V : Fin nn → Fin dim → ℝ) : Prop :=
  ∀ U : Matrix (Fin nn) (Fin dim) ℝ,
    (∀ q, symPart (U.transpose * Matrix.of (el.shapeGradsRef q)) = 0) → RigidMotion V U

/-- Zero strain is preserved by affine changes of coordinates, so that the reference property suffices for
affinely mapped cells. -/
theorem strainDetermines_of_affine (el : RefElement ℝ nq nn dim) (V X : Fin nn → Fin dim → ℝ)
    (href : RefRigid el V) (J : Matrix (Fin dim) (Fin dim) ℝ) (x0 : Fin dim → ℝ) (hJ : J.det ≠ 0)
    (hX : ∀ a i, X a i = ∑ j, J i j * V a j + x0 i)
    (hjac : ∀ q, mapJacobian (Matrix.of X) (Matrix.of (el.shapeGradsRef q)) = J) : el.StrainDetermines X := by
  intro U hU
  have hu : IsUnit J.det := Ne.isUnit hJ
  have hinv : J⁻¹ * J = 1 := Matrix.nonsing_inv_mul _ hu
  obtain ⟨W, b, hW, hb⟩ := href (Matrix.of U * J) (fun q => by
    have h := matrix_symPart_zero.1 (hU q)
    rw [physGrad, hjac] at h
    rw [matrix_symPart_zero]
    set A := (Matrix.of U).transpose * Matrix.of (el.shapeGradsRef q)
    have e : A = A * J⁻¹ * J := by rw [Matrix.mul_assoc, hinv, Matrix.mul_one]
    have e1 : (Matrix.of U * J).transpose * Matrix.of (el.shapeGradsRef q) = J.transpose * (A * J⁻¹) * J := by
      rw [Matrix.transpose_mul, Matrix.mul_assoc, Matrix.mul_assoc, ← e]
    rw [e1]
    generalize A * J⁻¹ = B at h
    rw [Matrix.transpose_mul, Matrix.transpose_mul, Matrix.transpose_transpose, Matrix.mul_assoc, ← Matrix.mul_add,
      ← Matrix.add_mul, h, Matrix.zero_mul, Matrix.mul_zero])
  have hWs : W.transpose = - W := by
    ext i j; rw [Matrix.transpose_apply, Matrix.neg_apply]; exact hW j i
  refine ⟨J⁻¹.transpose * W * J⁻¹, fun i => ∑ j, J⁻¹.transpose i j * b j
    - ∑ j, (J⁻¹.transpose * W * J⁻¹) i j * x0 j, fun i j => ?_, fun a i => ?_⟩
  · have : (J⁻¹.transpose * W * J⁻¹).transpose = - (J⁻¹.transpose * W * J⁻¹) := by
      rw [Matrix.transpose_mul, Matrix.transpose_mul, hWs, Matrix.transpose_transpose]
      simp [Matrix.mul_assoc]
    have := congrFun (congrFun this j) i
    rwa [Matrix.transpose_apply, Matrix.neg_apply] at this
  · -- nodal values
    have h1 : ∀ j, ∑ k, U a k * J k j = ∑ l, W j l * V a l + b j := by
      intro j
      have := hb a j
      rwa [Matrix.mul_apply] at this
    have h2 : U a i = ∑ j, (∑ k, U a k * J k j) * J⁻¹ j i := by
      have e : Matrix.of U = Matrix.of U * J * J⁻¹ := by
        rw [Matrix.mul_assoc, Matrix.mul_nonsing_inv _ hu, Matrix.mul_one]
      have := congrFun (congrFun e a) i
      rw [Matrix.mul_apply] at this
      simpa only [Matrix.mul_apply, Matrix.of_apply] using this
    have h3 : ∀ l, V a l = ∑ j, J⁻¹ l j * (X a j - x0 j) := by
      intro l
      have e : ∀ j, X a j - x0 j = ∑ k, J j k * V a k := fun j => by rw [hX]; ring
      simp only [e, Finset.mul_sum]
      rw [Finset.sum_comm]
      have : ∀ k, ∑ j, J⁻¹ l j * (J j k * V a k) = (if l = k then 1 else 0) * V a k := by
        intro k
        have := congrFun (congrFun hinv l) k
        rw [Matrix.mul_apply, Matrix.one_apply] at this
        rw [← this, Finset.sum_mul]
        exact Finset.sum_congr rfl fun j _ => by ring
      simp [this]
    have h4 : ∀ j, ∑ l, W j l * V a l = ∑ m, (W * J⁻¹) j m * (X a m - x0 m) := by
      intro j
      simp only [h3, Finset.mul_sum, Matrix.mul_apply, Finset.sum_mul]
      rw [Finset.sum_comm]
      exact Finset.sum_congr rfl fun m _ => Finset.sum_congr rfl fun l _ => by ring
    have h5 : ∑ j, (∑ l, W j l * V a l) * J⁻¹ j i = ∑ m, (J⁻¹.transpose * W * J⁻¹) i m * (X a m - x0 m) := by
      simp only [h4, Matrix.mul_assoc J⁻¹.transpose, Matrix.mul_apply (M := J⁻¹.transpose), Finset.sum_mul]
      rw [Finset.sum_comm]
      exact Finset.sum_congr rfl fun m _ => Finset.sum_congr rfl fun l _ => by
        rw [Matrix.transpose_apply]; ring
    rw [h2]
    simp only [h1, add_mul, Finset.sum_add_distrib]
    rw [h5]
    simp only [mul_sub, Finset.sum_sub_distrib, Matrix.transpose_apply]
    have : ∑ j, b j * J⁻¹ j i = ∑ j, J⁻¹ j i * b j := Finset.sum_congr rfl fun j _ => mul_comm _ _
    rw [this]
    ring

theorem lin2 {A B y y' : ℝ} (hy : y ≠ y') (h : (1 - y) * A + y * B = 0) (h' : (1 - y') * A + y' * B = 0) :
    A = 0 ∧ B = 0 := by
  have e : (y - y') * (B - A) = 0 := by linear_combination h - h'
  have e' : B - A = 0 := (mul_eq_zero.1 e).resolve_left (sub_ne_zero.2 hy)
  have hA : A = 0 := by linear_combination h - y * e'
  exact ⟨hA, by linear_combination e' + hA⟩

theorem bil4 {A B C D : ℝ} {y z : Fin 2 → ℝ} (hy : y 0 ≠ y 1) (hz : z 0 ≠ z 1)
    (h : ∀ i j, (1 - z j) * ((1 - y i) * A + y i * B) + z j * ((1 - y i) * D + y i * C) = 0) :
    A = 0 ∧ B = 0 ∧ C = 0 ∧ D = 0 := by
  have h0 := lin2 hz (h 0 0) (h 0 1)
  have h1 := lin2 hz (h 1 0) (h 1 1)
  have e1 := lin2 hy h0.1 h1.1
  have e2 := lin2 hy h0.2 h1.2
  exact ⟨e1.1, e1.2, e2.2, e2.1⟩

theorem symPart_entry {G : Fin dim → Fin dim → ℝ} (h : symPart G = 0) (i j : Fin dim) : G i j + G j i = 0 := by
  have := congrFun (congrFun h i) j
  simp only [symPart, Pi.zero_apply] at this
  linarith

theorem tri3_refRigid (hq : 0 < nq) (p : Fin nq → Fin 2 → ℝ) (w : Fin nq → ℝ) :
    RefRigid (tabulate tri3N tri3G p w) tri3V := by
  intro U hU
  have e := fun i j => symPart_entry (hU ⟨0, hq⟩) i j
  have e00 := e 0 0
  have e11 := e 1 1
  have e01 := e 0 1
  simp [Matrix.mul_apply, Fin.sum_univ_three, tabulate, tri3G] at e00 e11 e01
  refine ⟨!![0, U 2 0 - U 0 0; U 1 1 - U 0 1, 0], U 0, fun i j => ?_, fun a i => ?_⟩
  · fin_cases i <;> fin_cases j <;> simp <;> linarith
  · fin_cases a <;> fin_cases i <;> simp [Fin.sum_univ_two, tri3V] <;> linarith

theorem tet4_refRigid (hq : 0 < nq) (p : Fin nq → Fin 3 → ℝ) (w : Fin nq → ℝ) :
    RefRigid (tabulate tet4N tet4G p w) tet4V := by
  intro U hU
  have e := fun i j => symPart_entry (hU ⟨0, hq⟩) i j
  have e00 := e 0 0
  have e11 := e 1 1
  have e22 := e 2 2
  have e01 := e 0 1
  have e02 := e 0 2
  have e12 := e 1 2
  simp [Matrix.mul_apply, Fin.sum_univ_four, tabulate, tet4G] at e00 e11 e22 e01 e02 e12
  refine ⟨!![0, U 2 0 - U 0 0, U 3 0 - U 0 0; U 1 1 - U 0 1, 0, U 3 1 - U 0 1; U 1 2 - U 0 2, U 2 2 - U 0 2, 0], U 0,
    fun i j => ?_, fun a i => ?_⟩
  · fin_cases i <;> fin_cases j <;> simp <;> linarith
  · fin_cases a <;> fin_cases i <;> simp [Fin.sum_univ_three, tet4V] <;> linarith

theorem quad4_refRigid (p : Fin nq → Fin 2 → ℝ) (w : Fin nq → ℝ) (hx : ∃ q q', p q 0 ≠ p q' 0)
    (hy : ∃ q q', p q 1 ≠ p q' 1) : RefRigid (tabulate quad4N quad4G p w) quad4V := by
  intro U hU
  obtain ⟨q, q', hx⟩ := hx
  obtain ⟨r, r', hy⟩ := hy
  have e := fun q i j => symPart_entry (hU q) i j
  have e00 : ∀ q, (1 - p q 1) * (U 1 0 - U 0 0) + p q 1 * (U 2 0 - U 3 0) = 0 := by
    intro q
    have := e q 0 0
    simp [Matrix.mul_apply, Fin.sum_univ_four, tabulate, quad4G] at this
    linear_combination this
  have e11 : ∀ q, (1 - p q 0) * (U 3 1 - U 0 1) + p q 0 * (U 2 1 - U 1 1) = 0 := by
    intro q
    have := e q 1 1
    simp [Matrix.mul_apply, Fin.sum_univ_four, tabulate, quad4G] at this
    linear_combination this
  have e01 := e q 0 1
  simp [Matrix.mul_apply, Fin.sum_univ_four, tabulate, quad4G] at e01
  obtain ⟨a1, a2⟩ := lin2 hy (e00 r) (e00 r')
  obtain ⟨b1, b2⟩ := lin2 hx (e11 q) (e11 q')
  have s : (U 3 0 - U 0 0) + (U 1 1 - U 0 1) = 0 := by
    linear_combination e01 + p q 0 * a1 - p q 0 * a2 - p q 1 * b2 + p q 1 * b1
  refine ⟨!![0, U 3 0 - U 0 0; U 1 1 - U 0 1, 0], U 0, fun i j => ?_, fun a i => ?_⟩
  · fin_cases i <;> fin_cases j <;> simp <;> linarith
  · fin_cases a <;> fin_cases i <;> simp [Fin.sum_univ_two, quad4V] <;> linarith

theorem hex8_refRigid (p : Fin nq → Fin 3 → ℝ) (w : Fin nq → ℝ) (t : Fin 2 → Fin 2 → Fin 2 → Fin nq)
    (x y z : Fin 2 → ℝ) (hx : x 0 ≠ x 1) (hy : y 0 ≠ y 1) (hz : z 0 ≠ z 1)
    (ht : ∀ i j k, p (t i j k) = ![x i, y j, z k]) : RefRigid (tabulate hex8N hex8G p w) hex8V := by
  intro U hU
  have e := fun i j k a b => symPart_entry (hU (t i j k)) a b
  have e00 : ∀ j k, (1 - z k) * ((1 - y j) * (U 1 0 - U 0 0) + y j * (U 2 0 - U 3 0))
      + z k * ((1 - y j) * (U 5 0 - U 4 0) + y j * (U 6 0 - U 7 0)) = 0 := by
    intro j k
    have := e 0 j k 0 0
    simp [Matrix.mul_apply, Fin.sum_univ_eight, tabulate, hex8G, ht] at this
    linear_combination this
  have e11 : ∀ i k, (1 - z k) * ((1 - x i) * (U 3 1 - U 0 1) + x i * (U 2 1 - U 1 1))
      + z k * ((1 - x i) * (U 7 1 - U 4 1) + x i * (U 6 1 - U 5 1)) = 0 := by
    intro i k
    have := e i 0 k 1 1
    simp [Matrix.mul_apply, Fin.sum_univ_eight, tabulate, hex8G, ht] at this
    linear_combination this
  have e22 : ∀ i j, (1 - y j) * ((1 - x i) * (U 4 2 - U 0 2) + x i * (U 5 2 - U 1 2))
      + y j * ((1 - x i) * (U 7 2 - U 3 2) + x i * (U 6 2 - U 2 2)) = 0 := by
    intro i j
    have := e i j 0 2 2
    simp [Matrix.mul_apply, Fin.sum_univ_eight, tabulate, hex8G, ht] at this
    linear_combination this
  obtain ⟨a1, a2, a3, a4⟩ := bil4 hy hz e00
  obtain ⟨b1, b2, b3, b4⟩ := bil4 hx hz e11
  obtain ⟨c1, c2, c3, c4⟩ := bil4 hx hy e22
  have u1 : U 1 0 = U 0 0 := by linarith
  have u2 : U 2 0 = U 3 0 := by linarith
  have u3 : U 6 0 = U 7 0 := by linarith
  have u4 : U 5 0 = U 4 0 := by linarith
  have v1 : U 3 1 = U 0 1 := by linarith
  have v2 : U 2 1 = U 1 1 := by linarith
  have v3 : U 6 1 = U 5 1 := by linarith
  have v4 : U 7 1 = U 4 1 := by linarith
  have w1 : U 4 2 = U 0 2 := by linarith
  have w2 : U 5 2 = U 1 2 := by linarith
  have w3 : U 6 2 = U 2 2 := by linarith
  have w4 : U 7 2 = U 3 2 := by linarith
  have s01 : ∀ k, (1 - z k) * ((U 3 0 - U 0 0) + (U 1 1 - U 0 1)) + z k * ((U 7 0 - U 4 0) + (U 5 1 - U 4 1)) = 0 := by
    intro k
    have := e 0 0 k 0 1
    simp [Matrix.mul_apply, Fin.sum_univ_eight, tabulate, hex8G, ht] at this
    rw [u1, u2, u3, u4, v1, v2, v3, v4] at this
    linear_combination this
  have s02 : ∀ j, (1 - y j) * ((U 4 0 - U 0 0) + (U 1 2 - U 0 2)) + y j * ((U 7 0 - U 3 0) + (U 2 2 - U 3 2)) = 0 := by
    intro j
    have := e 0 j 0 0 2
    simp [Matrix.mul_apply, Fin.sum_univ_eight, tabulate, hex8G, ht] at this
    rw [u1, u2, u3, u4, w1, w2, w3, w4] at this
    linear_combination this
  have s12 : ∀ i, (1 - x i) * ((U 4 1 - U 0 1) + (U 3 2 - U 0 2)) + x i * ((U 5 1 - U 1 1) + (U 2 2 - U 1 2)) = 0 := by
    intro i
    have := e i 0 0 1 2
    simp [Matrix.mul_apply, Fin.sum_univ_eight, tabulate, hex8G, ht] at this
    rw [v1, v2, v3, v4, w1, w2, w3, w4] at this
    linear_combination this
  obtain ⟨d1, d2⟩ := lin2 hz (s01 0) (s01 1)
  obtain ⟨d3, d4⟩ := lin2 hy (s02 0) (s02 1)
  obtain ⟨d5, d6⟩ := lin2 hx (s12 0) (s12 1)
  refine ⟨!![0, U 3 0 - U 0 0, U 4 0 - U 0 0; U 1 1 - U 0 1, 0, U 4 1 - U 0 1; U 1 2 - U 0 2, U 3 2 - U 0 2, 0], U 0,
    fun i j => ?_, fun a i => ?_⟩
  · fin_cases i <;> fin_cases j <;> simp <;> linarith
  · fin_cases a <;> fin_cases i <;> simp [Fin.sum_univ_three, hex8V] <;> linarith

/-- Nodal fields with equal strains and equal values at constrained degrees of freedom agree at held nodes. -/
theorem held_unique (P : Problem1 IV nq nfq nn dim dim) (h : P.WF)
    (hdet : ∀ cell ∈ P.cells, P.el.StrainDetermines (coords nn P.points cell.nodes))
    (free : Nat → Fin dim → Prop) (u w : Nat → Fin dim → ℝ)
    (hstrain : ∀ cell ∈ P.cells, ∀ q,
      symPart (P.gradient u cell.nodes q) = symPart (P.gradient w cell.nodes q))
    (hbc : ∀ n c, ¬ free n c → u n c = w n c) : ∀ n, P.Held free n → ∀ c, u n c = w n c := by
  intro n hn
  induction hn with
  | fixed n hf => exact fun c => hbc n c (hf c)
  | cell cell hc S hS _ hf m hm ih =>
    obtain ⟨cs, hcs, rfl⟩ := List.mem_map.1 hc
    have hlen := h.cell_length cs hcs
    obtain ⟨W, b, hW, hb⟩ := hdet cs hcs (restrict nn (fun n c => u n c - w n c) cs.nodes) (fun q => by
      have e : physGrad (Matrix.of (coords nn P.points cs.nodes)) (Matrix.of (P.el.shapeGradsRef q))
          (Matrix.of (restrict nn (fun n c => u n c - w n c) cs.nodes))
          = fun i j => P.gradient u cs.nodes q i j - P.gradient w cs.nodes q i j := by
        funext i j
        exact gradient_sub P u w cs.nodes q i j
      rw [e]
      refine (symPart_sub (P.gradient u cs.nodes q) (P.gradient w cs.nodes q)).trans ?_
      rw [hstrain cs hcs q]
      funext i j
      exact sub_self _)
    have hall : ∀ n ∈ cs.nodes, ∀ i, u n i - w n i = ∑ j, W i j * (P.points.getD n 0) j + b i := by
      intro n hn i
      obtain ⟨a, ha, rfl⟩ := List.mem_iff_getElem.1 hn
      have := hb ⟨a, hlen ▸ ha⟩ i
      simpa only [restrict, coords, Matrix.of_apply, List.getD_eq_getElem _ _ ha] using this
    obtain ⟨hW0, hb0⟩ := hf W b hW (fun x hx i => by
      obtain ⟨n, hn, rfl⟩ := List.mem_map.1 hx
      rw [← hall n (hS n hn) i, ih n hn i, sub_self])
    intro c
    have := hall m hm c
    rw [hW0, hb0] at this
    simp only [Matrix.zero_apply, zero_mul, Finset.sum_const_zero, Pi.zero_apply, add_zero] at this
    exact sub_eq_zero.1 this

/-- A problem on the box mesh. -/
structure OnBox (P : Problem1 IV nq nfq 8 3 3) (Nx Ny Nz : Nat) (Lx Ly Lz : ℝ)
    (p : Fin nq → Fin 3 → ℝ) (w : Fin nq → ℝ) : Prop where
  el : P.el = tabulate hex8N hex8G p w
  points : P.points = (boxMesh Nx Ny Nz Lx Ly Lz).1
  conn : P.conn = (boxMesh Nx Ny Nz Lx Ly Lz).2
  nodes : P.numTotalNodes = (Nx + 1) * (Ny + 1) * (Nz + 1)
  Nx_pos : 0 < Nx
  Ny_pos : 0 < Ny
  Nz_pos : 0 < Nz
  Lx_pos : 0 < Lx
  Ly_pos : 0 < Ly
  Lz_pos : 0 < Lz
  faces : ∀ s ∈ P.surfaces, ∀ f ∈ s.faces, f.cell < Nx * Ny * Nz

section box

variable {P : Problem1 IV nq nfq 8 3 3} {Nx Ny Nz : Nat} {Lx Ly Lz : ℝ} {p : Fin nq → Fin 3 → ℝ} {w : Fin nq → ℝ}

theorem OnBox.wf (h : OnBox P Nx Ny Nz Lx Ly Lz p w) : P.WF where
  nonempty := by
    intro he
    have := congrArg List.length h.conn
    rw [Problem1.conn, he, (C42_cells Nx Ny Nz Lx Ly Lz).1] at this
    simp only [List.map_nil, List.length_nil] at this
    exact absurd this.symm (Nat.mul_pos (Nat.mul_pos h.Nx_pos h.Ny_pos) h.Nz_pos).ne'
  points := by rw [h.points, h.nodes, (C42_points Nx Ny Nz Lx Ly Lz).1]
  cell_length := fun c hc =>
    ((C42_indices Nx Ny Nz Lx Ly Lz).1 c.nodes (by rw [← h.conn]; exact List.mem_map_of_mem hc)).1
  cell_lt := fun c hc n hn => by
    have := ((C42_indices Nx Ny Nz Lx Ly Lz).1 c.nodes
      (by rw [← h.conn]; exact List.mem_map_of_mem hc)).2.2 n hn
    rwa [(C42_points Nx Ny Nz Lx Ly Lz).1, ← h.nodes] at this
  face_lt := fun s hs f hf => by
    have := congrArg List.length h.conn
    rw [Problem1.conn, List.length_map, (C42_cells Nx Ny Nz Lx Ly Lz).1] at this
    rw [this]
    exact h.faces s hs f hf

theorem OnBox.hpos (h : OnBox P Nx Ny Nz Lx Ly Lz p w) : 0 < Lx / Nx ∧ 0 < Ly / Ny ∧ 0 < Lz / Nz :=
  ⟨div_pos h.Lx_pos (Nat.cast_pos.2 h.Nx_pos), div_pos h.Ly_pos (Nat.cast_pos.2 h.Ny_pos),
    div_pos h.Lz_pos (Nat.cast_pos.2 h.Nz_pos)⟩

theorem OnBox.point (h : OnBox P Nx Ny Nz Lx Ly Lz p w) (i j k : Nat) (hi : i ≤ Nx) (hj : j ≤ Ny) (hk : k ≤ Nz) :
    P.points.getD (boxNode Ny Nz i j k) 0 = ![(i : ℝ) * (Lx / Nx), (j : ℝ) * (Ly / Ny), (k : ℝ) * (Lz / Nz)] := by
  rw [h.points, List.getD_eq_getElem?_getD, box_point Nx Ny Nz Lx Ly Lz i j k hi hj hk]
  rfl

theorem OnBox.coords (h : OnBox P Nx Ny Nz Lx Ly Lz p w) (i j k : Nat) (hi : i < Nx) (hj : j < Ny) (hk : k < Nz)
    (a : Fin 8) (c : Fin 3) : coords 8 P.points (boxCorners Ny Nz i j k) a c
      = ∑ l, !![Lx / Nx, 0, 0; 0, Ly / Ny, 0; 0, 0, Lz / Nz] c l * hex8V a l
        + ![(i : ℝ) * (Lx / Nx), (j : ℝ) * (Ly / Ny), (k : ℝ) * (Lz / Nz)] c := by
  have pt := fun (a : Fin 8) (u v w : Nat) (hu : u ≤ Nx) (hv : v ≤ Ny) (hw : w ≤ Nz)
      (e : (boxCorners Ny Nz i j k).getD a 0 = boxNode Ny Nz u v w) =>
    (congrArg (fun n => P.points.getD n 0) e).trans (h.point u v w hu hv hw)
  have p0 := pt 0 i j k (by omega) (by omega) (by omega) rfl
  have p1 := pt 1 (i + 1) j k (by omega) (by omega) (by omega) rfl
  have p2 := pt 2 (i + 1) (j + 1) k (by omega) (by omega) (by omega) rfl
  have p3 := pt 3 i (j + 1) k (by omega) (by omega) (by omega) rfl
  have p4 := pt 4 i j (k + 1) (by omega) (by omega) (by omega) rfl
  have p5 := pt 5 (i + 1) j (k + 1) (by omega) (by omega) (by omega) rfl
  have p6 := pt 6 (i + 1) (j + 1) (k + 1) (by omega) (by omega) (by omega) rfl
  have p7 := pt 7 i (j + 1) (k + 1) (by omega) (by omega) (by omega) rfl
  simp only [JaxFem.coords, Matrix.of_apply]
  fin_cases a <;>
    [refine (congrFun p0 c).trans ?_; refine (congrFun p1 c).trans ?_; refine (congrFun p2 c).trans ?_;
      refine (congrFun p3 c).trans ?_; refine (congrFun p4 c).trans ?_; refine (congrFun p5 c).trans ?_;
      refine (congrFun p6 c).trans ?_; refine (congrFun p7 c).trans ?_] <;>
    fin_cases c <;> simp [Fin.sum_univ_three, hex8V] <;> try ring

theorem hex8_affine_jacobian (J : Matrix (Fin 3) (Fin 3) ℝ) (x0 : Fin 3 → ℝ) (X : Matrix (Fin 8) (Fin 3) ℝ)
    (hX : ∀ a i, X a i = ∑ j, J i j * hex8V a j + x0 i) (q : Fin 3 → ℝ) :
    mapJacobian X (Matrix.of (hex8G q)) = J := by
  ext i j
  simp only [mapJacobian, Matrix.mul_apply, Matrix.transpose_apply, Matrix.of_apply, Fin.sum_univ_eight, hX]
  fin_cases j <;> simp [hex8G, hex8V, Fin.sum_univ_three] <;> ring

theorem OnBox.jac (h : OnBox P Nx Ny Nz Lx Ly Lz p w) (cell : List Nat) (hc : cell ∈ P.conn) (q : Fin nq) :
    mapJacobian (JaxFem.coords 8 P.points cell) (Matrix.of (P.el.shapeGradsRef q))
      = !![Lx / Nx, 0, 0; 0, Ly / Ny, 0; 0, 0, Lz / Nz] := by
  rw [h.conn] at hc
  obtain ⟨i, j, k, hi, hj, hk, rfl⟩ := box_cell_mem Nx Ny Nz Lx Ly Lz cell hc
  rw [h.el]
  exact hex8_affine_jacobian _ _ _ (h.coords i j k hi hj hk) (p q)

end box

theorem stress_sub (E nu : ℝ) (G H : Fin dim → Fin dim → ℝ) (i j : Fin dim) :
    Elastic.stress E nu G i j - Elastic.stress E nu H i j = Elastic.stress E nu (fun i j => G i j - H i j) i j := by
  have : ∀ k : Fin dim, (0.5 : ℝ) * ((G k k - H k k) + (G k k - H k k))
      = 0.5 * (G k k + G k k) - 0.5 * (H k k + H k k) := fun k => by ring
  simp only [Elastic.stress, this, Finset.sum_sub_distrib]
  ring

theorem stress_energy (E nu : ℝ) (D : Fin dim → Fin dim → ℝ) :
    contract (Elastic.stress E nu D) D = Elastic.lmbda E nu * (∑ k, symPart D k k) ^ 2
      + 2 * Elastic.mu E nu * ∑ i, ∑ j, symPart D i j ^ 2 := by
  have hs : ∀ i j, (0.5 : ℝ) * (D i j + D j i) = symPart D i j := fun i j => by simp only [symPart]; norm_num; ring
  have htr : ∑ k, symPart D k k = ∑ k, D k k := Finset.sum_congr rfl fun k _ => by simp only [symPart]; ring
  have h1 : ∑ i, ∑ j, symPart D i j * D i j = ∑ i, ∑ j, symPart D i j ^ 2 := by
    have e : ∑ i, ∑ j, symPart D i j * D i j = ∑ i, ∑ j, symPart D i j * D j i := by
      rw [Finset.sum_comm]
      refine Finset.sum_congr rfl fun i _ => Finset.sum_congr rfl fun j _ => ?_
      simp only [symPart]; ring
    have e2 : ∑ i, ∑ j, symPart D i j ^ 2
        = (∑ i, ∑ j, symPart D i j * D i j + ∑ i, ∑ j, symPart D i j * D j i) / 2 := by
      rw [← Finset.sum_add_distrib, Finset.sum_div]
      refine Finset.sum_congr rfl fun i _ => ?_
      rw [← Finset.sum_add_distrib, Finset.sum_div]
      refine Finset.sum_congr rfl fun j _ => ?_
      simp only [symPart]; ring
    rw [e2, ← e]; ring
  simp only [contract, Elastic.stress, hs]
  rw [← h1]
  have h2 : Elastic.lmbda E nu * (∑ k, symPart D k k) ^ 2
      = ∑ i, Elastic.lmbda E nu * (∑ k, symPart D k k) * D i i := by
    rw [← Finset.mul_sum, ← htr]; ring
  rw [h2]
  generalize Elastic.lmbda E nu * (∑ k, symPart D k k) = T
  rw [Finset.mul_sum, ← Finset.sum_add_distrib]
  refine Finset.sum_congr rfl fun i _ => ?_
  rw [Finset.mul_sum]
  simp only [add_mul, Finset.sum_add_distrib]
  congr 1
  · simp
  · exact Finset.sum_congr rfl fun j _ => by ring

/-! ### Property theorems -/

/-- **C82 (monotone stress).** For Young's modulus `E > 0` and Poisson's ratio `-1 < ν < 1/2`, in at most three
dimensions, the stress of linear elasticity is monotone in the displacement gradient, and strictly so unless the
strains are equal. -/
theorem C82_monotone (E nu : ℝ) (hE : 0 < E) (h1 : -1 < nu) (h2 : nu < 1 / 2) (hd : dim ≤ 3)
    (G H : Fin dim → Fin dim → ℝ) :
    0 ≤ contract (fun i j => Elastic.stress E nu G i j - Elastic.stress E nu H i j) (fun i j => G i j - H i j) ∧
    (symPart G ≠ symPart H →
      0 < contract (fun i j => Elastic.stress E nu G i j - Elastic.stress E nu H i j) fun i j => G i j - H i j) := by
  have e : (fun i j => Elastic.stress E nu G i j - Elastic.stress E nu H i j)
      = Elastic.stress E nu fun i j => G i j - H i j := by
    funext i j; exact stress_sub E nu G H i j
  have hsub := symPart_sub G H
  rw [e, stress_energy]
  set D : Fin dim → Fin dim → ℝ := fun i j => G i j - H i j
  have hmu : 0 < Elastic.mu E nu := div_pos hE (by linarith)
  have hbulk : 0 < 3 * Elastic.lmbda E nu + 2 * Elastic.mu E nu := by
    have : 3 * Elastic.lmbda E nu + 2 * Elastic.mu E nu = E / (1 - 2 * nu) := by
      have a : 1 + nu ≠ 0 := by linarith
      have b : 1 - 2 * nu ≠ 0 := by linarith
      have e1 : Elastic.lmbda E nu * ((1 + nu) * (1 - 2 * nu)) = E * nu := div_mul_cancel₀ _ (mul_ne_zero a b)
      have e2 : Elastic.mu E nu * (2 * (1 + nu)) = E := div_mul_cancel₀ _ (mul_ne_zero two_ne_zero a)
      rw [eq_div_iff b]
      refine mul_left_cancel₀ a ?_
      linear_combination 3 * e1 + (1 - 2 * nu) * e2
    rw [this]; exact div_pos hE (by linarith)
  set Q : ℝ := ∑ i, ∑ j, symPart D i j ^ 2 with hQ
  have hQ0 : 0 ≤ Q := Finset.sum_nonneg fun i _ => Finset.sum_nonneg fun j _ => sq_nonneg _
  have htr : (∑ k, symPart D k k) ^ 2 ≤ 3 * Q := by
    calc (∑ k, symPart D k k) ^ 2 ≤ (Finset.univ : Finset (Fin dim)).card * ∑ k, symPart D k k ^ 2 :=
          sq_sum_le_card_mul_sum_sq
      _ ≤ 3 * ∑ k, symPart D k k ^ 2 := by
          refine mul_le_mul_of_nonneg_right ?_ (Finset.sum_nonneg fun k _ => sq_nonneg _)
          rw [Finset.card_univ, Fintype.card_fin]
          exact_mod_cast hd
      _ ≤ 3 * Q := by
          refine mul_le_mul_of_nonneg_left (Finset.sum_le_sum fun i _ => ?_) (by norm_num)
          exact Finset.single_le_sum (f := fun j => symPart D i j ^ 2) (fun j _ => sq_nonneg _) (Finset.mem_univ i)
  have key : min (2 * Elastic.mu E nu) (3 * Elastic.lmbda E nu + 2 * Elastic.mu E nu) * Q
      ≤ Elastic.lmbda E nu * (∑ k, symPart D k k) ^ 2 + 2 * Elastic.mu E nu * Q := by
    rcases le_total 0 (Elastic.lmbda E nu) with hl | hl
    · have a := mul_le_mul_of_nonneg_right (min_le_left (2 * Elastic.mu E nu)
        (3 * Elastic.lmbda E nu + 2 * Elastic.mu E nu)) hQ0
      have b := mul_nonneg hl (sq_nonneg (∑ k, symPart D k k))
      linarith
    · have a := mul_le_mul_of_nonneg_right (min_le_right (2 * Elastic.mu E nu)
        (3 * Elastic.lmbda E nu + 2 * Elastic.mu E nu)) hQ0
      have b := mul_le_mul_of_nonpos_left htr hl
      linarith
  have hm : 0 < min (2 * Elastic.mu E nu) (3 * Elastic.lmbda E nu + 2 * Elastic.mu E nu) :=
    lt_min (by linarith) hbulk
  refine ⟨le_trans (mul_nonneg hm.le hQ0) key, fun hne => lt_of_lt_of_le (mul_pos hm ?_) key⟩
  refine lt_of_le_of_ne hQ0 fun h0 => hne ?_
  funext i j
  have a := (Finset.sum_eq_zero_iff_of_nonneg (fun i _ => Finset.sum_nonneg fun j _ =>
    sq_nonneg (symPart D i j))).1 h0.symm i (Finset.mem_univ i)
  have b := (Finset.sum_eq_zero_iff_of_nonneg (fun j _ => sq_nonneg (symPart D i j))).1 a j (Finset.mem_univ j)
  have c := congrFun (congrFun hsub i) j
  rw [pow_eq_zero_iff (by norm_num)] at b
  rw [b] at c
  linarith

/-- **C82 (no spurious modes).** Nodal displacements of a cell with zero strain at all quadrature points are those
of a rigid motion: for every nondegenerate triangle and tetrahedron of first order and any nonempty quadrature
rule, for parallelograms with quadrature points that differ in both coordinates, and for parallelepipeds with
eight product points. -/
theorem C82_rigid (w : Fin nq → ℝ) (p2 : Fin nq → Fin 2 → ℝ) (p3 : Fin nq → Fin 3 → ℝ) :
    (0 < nq → ∀ X : Fin 3 → Fin 2 → ℝ, (mapJacobian (Matrix.of X) (Matrix.of (tri3G (0 : Fin 2 → ℝ)))).det ≠ 0 →
      (tabulate tri3N tri3G p2 w).StrainDetermines X) ∧
    (0 < nq → ∀ X : Fin 4 → Fin 3 → ℝ, (mapJacobian (Matrix.of X) (Matrix.of (tet4G (0 : Fin 3 → ℝ)))).det ≠ 0 →
      (tabulate tet4N tet4G p3 w).StrainDetermines X) ∧
    ((∃ q q', p2 q 0 ≠ p2 q' 0) → (∃ q q', p2 q 1 ≠ p2 q' 1) →
      ∀ (J : Matrix (Fin 2) (Fin 2) ℝ) (x0 : Fin 2 → ℝ), J.det ≠ 0 →
      (tabulate quad4N quad4G p2 w).StrainDetermines fun a i => ∑ j, J i j * quad4V a j + x0 i) ∧
    (∀ (t : Fin 2 → Fin 2 → Fin 2 → Fin nq) (x y z : Fin 2 → ℝ), x 0 ≠ x 1 → y 0 ≠ y 1 → z 0 ≠ z 1 →
      (∀ i j k, p3 (t i j k) = ![x i, y j, z k]) →
      ∀ (J : Matrix (Fin 3) (Fin 3) ℝ) (x0 : Fin 3 → ℝ), J.det ≠ 0 →
      (tabulate hex8N hex8G p3 w).StrainDetermines fun a i => ∑ j, J i j * hex8V a j + x0 i) := by
  refine ⟨fun hq X hX => ?_, fun hq X hX => ?_, fun hx hy J x0 hJ => ?_, fun t x y z hx hy hz ht J x0 hJ => ?_⟩
  · refine strainDetermines_of_affine _ tri3V X (tri3_refRigid hq p2 w) _ (X 0) hX (fun a i => ?_) (fun q => rfl)
    fin_cases a <;> fin_cases i <;>
      simp [mapJacobian, Matrix.mul_apply, tri3G, tri3V, Fin.sum_univ_two, Fin.sum_univ_three]
  · refine strainDetermines_of_affine _ tet4V X (tet4_refRigid hq p3 w) _ (X 0) hX (fun a i => ?_) (fun q => rfl)
    fin_cases a <;> fin_cases i <;>
      simp [mapJacobian, Matrix.mul_apply, tet4G, tet4V, Fin.sum_univ_four, Fin.sum_univ_three]
  · refine strainDetermines_of_affine _ quad4V _ (quad4_refRigid p2 w hx hy) J x0 hJ (fun a i => rfl) (fun q => ?_)
    ext i j
    fin_cases j <;>
      simp [mapJacobian, Matrix.mul_apply, tabulate, quad4G, quad4V, Fin.sum_univ_two, Fin.sum_univ_four] <;> ring
  · exact strainDetermines_of_affine _ hex8V _ (hex8_refRigid p3 w t x y z hx hy hz ht) J x0 hJ (fun a i => rfl)
      (fun q => hex8_affine_jacobian J x0 _ (fun a i => rfl) (p3 q))

/-- **C82 (hourglass modes).** With one quadrature point in the middle the square has displacements with zero
strain that are no rigid motion. -/
theorem C82_hourglass (w : Fin 1 → ℝ) :
    ¬ (tabulate quad4N quad4G (fun _ : Fin 1 => ![(1 / 2 : ℝ), 1 / 2]) w).StrainDetermines quad4V := by
  intro h
  obtain ⟨W, b, hW, hb⟩ := h ![![1, 0], ![-1, 0], ![1, 0], ![-1, 0]] (fun q => by
    have e : (Matrix.of ![![(1 : ℝ), 0], ![-1, 0], ![1, 0], ![-1, 0]]).transpose * Matrix.of
        ((tabulate quad4N quad4G (fun _ : Fin 1 => ![(1 / 2 : ℝ), 1 / 2]) w).shapeGradsRef q) = 0 := by
      ext i j
      fin_cases i <;> fin_cases j <;> simp [Matrix.mul_apply, Fin.sum_univ_four, tabulate, quad4G] <;> norm_num
    rw [physGrad, e, Matrix.zero_mul]
    funext i j
    simp [symPart])
  have h00 := hW 0 0
  have e0 := hb 0 0
  have e1 := hb 1 0
  simp [quad4V, Fin.sum_univ_two] at e0 e1
  linarith

/-- **C82 (supports).** A rigid motion in the plane that vanishes at two distinct points is zero; in space one that
vanishes at three points that do not lie on a line. -/
theorem C82_supports :
    (∀ x y : Fin 2 → ℝ, x ≠ y → Holds [x, y]) ∧
    (∀ x y z : Fin 3 → ℝ, ¬ (∀ i j, (y i - x i) * (z j - x j) = (y j - x j) * (z i - x i)) → Holds [x, y, z]) := by
  constructor
  · intro x y hxy W b hW h
    have hx := h x (by simp)
    have hy := h y (by simp)
    have w00 := hW 0 0
    have w11 := hW 1 1
    have w01 := hW 0 1
    simp only [Fin.sum_univ_two] at hx hy
    have hx0 := hx 0
    have hx1 := hx 1
    have hy0 := hy 0
    have hy1 := hy 1
    have z00 : W 0 0 = 0 := by linarith
    have z11 : W 1 1 = 0 := by linarith
    rw [z00] at hx0 hy0
    rw [z11] at hx1 hy1
    have z01 : W 0 1 = 0 := by
      by_contra hne
      apply hxy
      have a : W 0 1 * (y 1 - x 1) = 0 := by linear_combination hy0 - hx0
      have b : W 0 1 * (y 0 - x 0) = 0 := by linear_combination hx1 - hy1 + (y 0 - x 0) * w01
      have a' := (mul_eq_zero.1 a).resolve_left hne
      have b' := (mul_eq_zero.1 b).resolve_left hne
      funext i
      fin_cases i
      · simp; linarith
      · simp; linarith
    have z10 : W 1 0 = 0 := by linarith
    constructor
    · ext i j; fin_cases i <;> fin_cases j <;> simp [z00, z01, z10, z11]
    · funext i
      rw [z01] at hx0
      rw [z10] at hx1
      fin_cases i
      · simp; linarith
      · simp; linarith
  · intro x y z hxyz W b hW h
    have hx := h x (by simp)
    have hy := h y (by simp)
    have hz := h z (by simp)
    simp only [Fin.sum_univ_three] at hx hy hz
    have d : ∀ i j, W i j + W j i = 0 := fun i j => by rw [hW i j]; ring
    -- the axial vector of `W`
    let om : Fin 3 → ℝ := ![W 2 1, W 0 2, W 1 0]
    have z00 : W 0 0 = 0 := by linarith [d 0 0]
    have z11 : W 1 1 = 0 := by linarith [d 1 1]
    have z22 : W 2 2 = 0 := by linarith [d 2 2]
    have par : ∀ u : Fin 3 → ℝ, (∀ i, W i 0 * u 0 + W i 1 * u 1 + W i 2 * u 2 = 0) →
        ∀ i j, om i * u j = om j * u i := by
      intro u hu i j
      have u0 := hu 0
      have u1 := hu 1
      have u2 := hu 2
      rw [z00] at u0
      rw [z11] at u1
      rw [z22] at u2
      have w01 : W 0 1 = - W 1 0 := hW 0 1
      have w12 : W 1 2 = - W 2 1 := hW 1 2
      have w20 : W 2 0 = - W 0 2 := hW 2 0
      rw [w01] at u0
      rw [w12] at u1
      rw [w20] at u2
      fin_cases i <;> fin_cases j <;> simp [om] <;> linarith
    have p1 := par (fun i => y i - x i) (fun i => by linear_combination hy i - hx i)
    have p2 := par (fun i => z i - x i) (fun i => by linear_combination hz i - hx i)
    have hom : ∀ k, om k = 0 := by
      by_contra hne
      obtain ⟨k, hk⟩ := not_forall.1 hne
      refine hxyz fun i j => ?_
      have q1i := p1 k i
      have q1j := p1 k j
      have q2i := p2 k i
      have q2j := p2 k j
      refine mul_left_cancel₀ (mul_ne_zero hk hk) ?_
      linear_combination om k * (z j - x j) * q1i + om i * (y k - x k) * q2j
        - om k * (z i - x i) * q1j - om j * (y k - x k) * q2i
    have o0 : W 2 1 = 0 := hom 0
    have o1 : W 0 2 = 0 := hom 1
    have o2 : W 1 0 = 0 := hom 2
    have hW0 : W = 0 := by
      ext i j
      have a1 := d 1 2
      have a2 := d 2 0
      have a3 := d 0 1
      fin_cases i <;> fin_cases j <;> simp <;> linarith
    refine ⟨hW0, ?_⟩
    funext i
    have := hx i
    rw [hW0] at this
    simpa using this

theorem uniqueField_of_strain (P : Problem1 IV nq nfq nn dim dim) (h : P.WF) (hpos : P.PositiveMeasure)
    (hmono : P.StrainMonotone) (hmass : P.MassMonotone) (hsm : P.SurfaceMonotone)
    (hdet : ∀ cell ∈ P.cells, P.el.StrainDetermines (coords nn P.points cell.nodes))
    (free : Nat → Fin dim → Prop) (hheld : ∀ n < P.numTotalNodes, P.Held free n) : P.UniqueField free := by
  intro u w hvw hbc n hn
  have := gradient_related P hpos (fun G H => symPart G = symPart H) (fun iv G H => (hmono iv G H).1)
    (fun iv G H => (hmono iv G H).2) hmass hsm u w hvw
  exact held_unique P h hdet free u w this hbc n (hheld n hn)

/-- **C82 (uniqueness).** A problem whose tensor map is strictly monotone in the strain, on a mesh without spurious
zero-strain modes whose nodes are all held, has at most one solution. -/
theorem C82_unique (P : Problem1 IV nq nfq nn dim dim) (h : P.WF) (hpos : P.PositiveMeasure)
    (hmono : P.StrainMonotone) (hmass : P.MassMonotone) (hsm : P.SurfaceMonotone)
    (hdet : ∀ cell ∈ P.cells, P.el.StrainDetermines (coords nn P.points cell.nodes))
    (free : Nat → Fin dim → Prop) (hheld : ∀ n < P.numTotalNodes, P.Held free n)
    (sol sol' : List (List ℝ)) (hs : HasShapes [(P.numTotalNodes, dim)] [sol])
    (hs' : HasShapes [(P.numTotalNodes, dim)] [sol']) (h1 : IsSolution P free sol)
    (h2 : IsSolution P free sol')
    (hbc : ∀ n c, ¬ free n c → fieldOf dim sol n c = fieldOf dim sol' n c) : sol = sol' := by
  have hv : ∀ n c, ¬ free n c → (fun n c => fieldOf dim sol n c - fieldOf dim sol' n c) n c = 0 :=
    fun n c hf => sub_eq_zero.2 (hbc n c hf)
  have w1 := (C72_galerkin P h sol hs free).1 h1 _ hv
  have w2 := (C72_galerkin P h sol' hs' free).1 h2 _ hv
  have hall := uniqueField_of_strain P h hpos hmono hmass hsm hdet free hheld (fieldOf dim sol) (fieldOf dim sol')
    (w1.trans w2.symm) hbc
  obtain ⟨_, _, e1, e2, e3, e4⟩ := hs
  obtain ⟨_, _, e1', e2', e3', e4'⟩ := hs'
  cases e1
  cases e1'
  refine List.ext_getElem (by rw [e2, e2']) fun n h1 h2 => ?_
  have hr := e3 _ (List.getElem_mem h1)
  have hr' := e3' _ (List.getElem_mem h2)
  refine List.ext_getElem (by rw [hr, hr']) fun c k1 k2 => ?_
  have := hall n (by rw [← e2]; exact h1) ⟨c, hr ▸ k1⟩
  simpa only [fieldOf, List.getD_eq_getElem _ _ h1, List.getD_eq_getElem _ _ h2,
    List.getD_eq_getElem _ _ k1, List.getD_eq_getElem _ _ k2] using this

/-- **C82 (rigid motions cost nothing).** If the tensor map depends on the strain only (as `Elastic.stress` does),
there is no mass map and the surface maps do not depend on the solution, adding a rigid motion does not change the
virtual work; so a problem with a nonzero rigid motion that vanishes at the constrained degrees of freedom does not
determine its solution. -/
theorem C82_unsupported (P : Problem1 IV nq nfq nn dim dim) (h : P.WF) (hpos : P.PositiveMeasure)
    (hel : P.el.Unity)
    (hstrain : ∀ iv G H, symPart G = symPart H → P.tensorMap iv G = P.tensorMap iv H) (hmass : P.massMap = none)
    (hsurf : ∀ s ∈ P.surfaces, ∀ iv u w x, s.map iv u x = s.map iv w x)
    (W : Matrix (Fin dim) (Fin dim) ℝ) (b : Fin dim → ℝ) (hW : Skew W) (u r : Nat → Fin dim → ℝ)
    (hr : ∀ n i, r n i = ∑ j, W i j * (P.points.getD n 0) j + b i) :
    (∀ v, P.virtualWork (fun n c => u n c + r n c) v = P.virtualWork u v) ∧
    ∀ free : Nat → Fin dim → Prop, (∀ n c, ¬ free n c → r n c = 0) →
      (∃ n < P.numTotalNodes, ∃ c, r n c ≠ 0) → ¬ P.UniqueField free := by
  have hwork : ∀ v, P.virtualWork (fun n c => u n c + r n c) v = P.virtualWork u v := by
    intro v
    rw [Problem1.virtualWork, Problem1.virtualWork, hmass]
    congr 1
    · congr 1
      rw [Problem1.tensorWork, Problem1.tensorWork]
      refine congrArg List.sum (List.map_congr_left fun cell hc => ?_)
      congr 1
      funext q
      congr 1
      refine hstrain _ _ _ ?_
      have hg := affine_gradient P hel cell.nodes (h.cell_length cell hc) r W b (fun n _ i => hr n i) q
        (left_ne_zero_of_mul (hpos cell hc q).ne')
      have e : ∀ i j, P.gradient (fun n c => u n c + r n c) cell.nodes q i j
          = P.gradient u cell.nodes q i j + W i j := by
        intro i j
        rw [← hg, gradient_eq, gradient_eq, gradient_eq, ← Finset.sum_add_distrib]
        exact Finset.sum_congr rfl fun a _ => by ring
      funext i j
      simp only [symPart]
      rw [e, e, hW j i]
      ring
    · rw [Problem1.surfaceWork, Problem1.surfaceWork]
      refine congrArg List.sum (List.map_congr_left fun s hs => ?_)
      refine congrArg List.sum (List.map_congr_left fun f hf => ?_)
      refine Finset.sum_congr rfl fun q _ => ?_
      congr 1
      refine Finset.sum_congr rfl fun c _ => ?_
      rw [hsurf s hs]
  refine ⟨hwork, fun free hz ⟨n, hn, c, hc⟩ hu => hc ?_⟩
  have := hu (fun n c => u n c + r n c) u (hwork _) (fun n c hf => by rw [hz n c hf, add_zero]) n hn c
  linarith

/-- **C82 (solver).** An affine problem that is strictly monotone in the strain, on a mesh without spurious modes
whose nodes are all held, has exactly one solution, and `solver` returns it (exact linear solver, assembled
derivative, zero tolerance) after at most one Newton step from every initial guess. -/
theorem C82_solver (P : Problem1 IV nq nfq nn dim dim) (h : P.WF) (hpos : P.PositiveMeasure)
    (hmono : P.StrainMonotone) (hmass : P.MassMonotone) (hsm : P.SurfaceMonotone)
    (hdet : ∀ cell ∈ P.cells, P.el.StrainDetermines (coords nn P.points cell.nodes))
    (haff : P.Affine) (bcs : List (List (BCEntry ℝ))) (hb : WFBC P.fes bcs)
    (hheld : ∀ n < P.numTotalNodes, P.Held (fun n c => FreeDof (bcs.getD 0 []) n c) n)
    (A : (Fin (totalDofs P.fes) → ℝ) → Matrix (Fin (totalDofs P.fes)) (Fin (totalDofs P.fes)) ℝ)
    (hA : ∀ x, HasJacobianAt P.flat (A x) x) (nu : (Fin (totalDofs P.fes) → ℝ) → ℝ)
    (hnu0 : ∀ r, 0 ≤ nu r) (hnu : ∀ r, nu r = 0 ↔ r = 0)
    (solve : Matrix (Fin (totalDofs P.fes)) (Fin (totalDofs P.fes)) ℝ → (Fin (totalDofs P.fes) → ℝ) →
      (Fin (totalDofs P.fes) → ℝ) → Except Err (Fin (totalDofs P.fes) → ℝ)) (hs : ExactSolver solve)
    (hs' : ∀ A b x0, A.det ≠ 0 → ∃ x, solve A b x0 = .ok x) (ls : Bool) (relTol : ℝ)
    (hrel : relTol < 1) :
    ∃ u, SolvesBVP P.fes bcs P.flat u ∧ (∀ w, SolvesBVP P.fes bcs P.flat w → w = u) ∧
      ∀ (u0 : Fin (totalDofs P.fes) → ℝ) (fuel : Nat), ∃ n ≤ 1,
        newtonSolve (newtonUpdate P.fes bcs P.flat A) (fun rA => .fin (nu rA.1))
          (newtonStep P.fes bcs (fun r => .fin (nu r)) P.flat solve ls) (fun _ => true) 0 relTol u0
          (fuel + 2) = some (.ok (u, n)) :=
  solver_of_unique P h haff bcs hb (uniqueField_of_strain P h hpos hmono hmass hsm hdet _ hheld) A hA nu hnu0 hnu
    solve hs hs' ls relTol hrel

section box

variable {P : Problem1 IV nq nfq 8 3 3} {Nx Ny Nz : Nat} {Lx Ly Lz : ℝ} {p : Fin nq → Fin 3 → ℝ} {w : Fin nq → ℝ}

theorem OnBox.cell_mem (h : OnBox P Nx Ny Nz Lx Ly Lz p w) (i j k : Nat) (hi : i < Nx) (hj : j < Ny) (hk : k < Nz) :
    boxCorners Ny Nz i j k ∈ P.conn := by
  rw [h.conn]
  exact List.mem_of_getElem? (box_cell Nx Ny Nz Lx Ly Lz i j k hi hj hk)

/-- Fixing one face of the box holds all nodes. -/
theorem OnBox.held (h : OnBox P Nx Ny Nz Lx Ly Lz p w) (free : Nat → Fin 3 → Prop)
    (hfix : ∀ j ≤ Ny, ∀ k ≤ Nz, ∀ c, ¬ free (boxNode Ny Nz 0 j k) c) :
    ∀ n < P.numTotalNodes, P.Held free n := by
  have key : ∀ i ≤ Nx, ∀ j ≤ Ny, ∀ k ≤ Nz, P.Held free (boxNode Ny Nz i j k) := by
    intro i
    induction i with
    | zero => exact fun _ j hj k hk => .fixed _ (hfix j hj k hk)
    | succ i ih =>
      intro hi j hj k hk
      have hNy := h.Ny_pos
      have hNz := h.Nz_pos
      obtain ⟨j0, hj0, hjj⟩ : ∃ j0 < Ny, j = j0 ∨ j = j0 + 1 := by
        rcases Nat.eq_zero_or_pos j with h0 | h0
        · exact ⟨0, hNy, .inl h0⟩
        · exact ⟨j - 1, by omega, .inr (by omega)⟩
      obtain ⟨k0, hk0, hkk⟩ : ∃ k0 < Nz, k = k0 ∨ k = k0 + 1 := by
        rcases Nat.eq_zero_or_pos k with h0 | h0
        · exact ⟨0, hNz, .inl h0⟩
        · exact ⟨k - 1, by omega, .inr (by omega)⟩
      refine .cell (boxCorners Ny Nz i j0 k0) (h.cell_mem i j0 k0 (by omega) hj0 hk0)
        [boxNode Ny Nz i j0 k0, boxNode Ny Nz i (j0 + 1) k0, boxNode Ny Nz i j0 (k0 + 1)] ?_ ?_ ?_ _ ?_
      · intro n hn
        simp only [List.mem_cons, List.not_mem_nil, or_false] at hn
        rw [mem_boxCorners]
        rcases hn with rfl | rfl | rfl
        · exact ⟨i, j0, k0, by simp, by simp, by simp, rfl⟩
        · exact ⟨i, j0 + 1, k0, by simp, by simp, by simp, rfl⟩
        · exact ⟨i, j0, k0 + 1, by simp, by simp, by simp, rfl⟩
      · intro n hn
        simp only [List.mem_cons, List.not_mem_nil, or_false] at hn
        rcases hn with rfl | rfl | rfl
        · exact ih (by omega) _ (by omega) _ (by omega)
        · exact ih (by omega) _ (by omega) _ (by omega)
        · exact ih (by omega) _ (by omega) _ (by omega)
      · simp only [List.map_cons, List.map_nil]
        rw [h.point i j0 k0 (by omega) (by omega) (by omega), h.point i (j0 + 1) k0 (by omega) (by omega) (by omega),
          h.point i j0 (k0 + 1) (by omega) (by omega) (by omega)]
        refine C82_supports.2 _ _ _ fun hall => ?_
        have := hall 1 2
        simp only [Matrix.cons_val_one, Matrix.cons_val] at this
        push_cast at this
        have e : Ly / Ny * (Lz / Nz) = 0 := by linear_combination this
        exact absurd e (mul_pos h.hpos.2.1 h.hpos.2.2).ne'
      · rw [mem_boxCorners]
        exact ⟨i + 1, j, k, by simp, hjj, hkk, rfl⟩
  intro n hn
  rw [h.nodes] at hn
  obtain ⟨i, j, k, hi, hj, hk, rfl⟩ := exists_boxNode hn
  exact key i hi j hj k hk

/-- **C82 (elastic box).** Linear elasticity on the box mesh with positive product quadrature, constant surface
tractions and the face `x = 0` fixed: there is exactly one solution and `solver` returns it. -/
theorem C82_box (h : OnBox P Nx Ny Nz Lx Ly Lz p w) (hw : ∀ q, 0 < w q)
    (t : Fin 2 → Fin 2 → Fin 2 → Fin nq) (x y z : Fin 2 → ℝ) (hx : x 0 ≠ x 1) (hy : y 0 ≠ y 1) (hz : z 0 ≠ z 1)
    (ht : ∀ i j k, p (t i j k) = ![x i, y j, z k]) (E nuP : ℝ) (hE : 0 < E) (h1 : -1 < nuP) (h2 : nuP < 1 / 2)
    (htensor : P.tensorMap = fun _ => Elastic.stress E nuP) (hmass : P.massMap = none)
    (hsurf : ∀ s ∈ P.surfaces, ∀ iv u v x, s.map iv u x = s.map iv v x)
    (bcs : List (List (BCEntry ℝ))) (hb : WFBC P.fes bcs)
    (hfix : ∀ j ≤ Ny, ∀ k ≤ Nz, ∀ c : Fin 3, ¬ FreeDof (bcs.getD 0 []) (boxNode Ny Nz 0 j k) c)
    (A : (Fin (totalDofs P.fes) → ℝ) → Matrix (Fin (totalDofs P.fes)) (Fin (totalDofs P.fes)) ℝ)
    (hA : ∀ x, HasJacobianAt P.flat (A x) x) (nu : (Fin (totalDofs P.fes) → ℝ) → ℝ)
    (hnu0 : ∀ r, 0 ≤ nu r) (hnu : ∀ r, nu r = 0 ↔ r = 0)
    (solve : Matrix (Fin (totalDofs P.fes)) (Fin (totalDofs P.fes)) ℝ → (Fin (totalDofs P.fes) → ℝ) →
      (Fin (totalDofs P.fes) → ℝ) → Except Err (Fin (totalDofs P.fes) → ℝ)) (hs : ExactSolver solve)
    (hs' : ∀ A b x0, A.det ≠ 0 → ∃ x, solve A b x0 = .ok x) (ls : Bool) (relTol : ℝ)
    (hrel : relTol < 1) :
    ∃ u, SolvesBVP P.fes bcs P.flat u ∧ (∀ w, SolvesBVP P.fes bcs P.flat w → w = u) ∧
      ∀ (u0 : Fin (totalDofs P.fes) → ℝ) (fuel : Nat), ∃ n ≤ 1,
        newtonSolve (newtonUpdate P.fes bcs P.flat A) (fun rA => .fin (nu rA.1))
          (newtonStep P.fes bcs (fun r => .fin (nu r)) P.flat solve ls) (fun _ => true) 0 relTol u0
          (fuel + 2) = some (.ok (u, n)) := by
  have hJ : (!![Lx / Nx, 0, 0; 0, Ly / Ny, 0; 0, 0, Lz / Nz] : Matrix (Fin 3) (Fin 3) ℝ).det
      = Lx / Nx * (Ly / Ny) * (Lz / Nz) := by
    rw [Matrix.det_fin_three]; simp
  have hJpos := mul_pos (mul_pos h.hpos.1 h.hpos.2.1) h.hpos.2.2
  have hmono : P.StrainMonotone := by
    intro iv G H
    rw [htensor]
    exact C82_monotone E nuP hE h1 h2 le_rfl G H
  refine C82_solver P h.wf ?_ hmono (fun m hm => absurd (hmass.symm.trans hm) (by simp))
    (fun s hs f _ q u v x => by simp [hsurf s hs _ u v x]) ?_ ?_ bcs hb (h.held _ hfix) A hA nu hnu0 hnu solve hs hs' ls
    relTol hrel
  · intro cell hc q
    rw [h.jac _ (List.mem_map_of_mem hc), hJ, h.el]
    exact mul_pos hJpos (hw q)
  · intro cell hc
    have hmem : cell.nodes ∈ (boxMesh Nx Ny Nz Lx Ly Lz).2 := by rw [← h.conn]; exact List.mem_map_of_mem hc
    obtain ⟨i, j, k, hi, hj, hk, e⟩ := box_cell_mem Nx Ny Nz Lx Ly Lz cell.nodes hmem
    have := (C82_rigid w (fun _ _ => 0) p).2.2.2 t x y z hx hy hz ht
      !![Lx / Nx, 0, 0; 0, Ly / Ny, 0; 0, 0, Lz / Nz]
      ![(i : ℝ) * (Lx / Nx), (j : ℝ) * (Ly / Ny), (k : ℝ) * (Lz / Nz)] (by rw [hJ]; exact hJpos.ne')
    rw [h.el, e]
    have ee : coords 8 P.points (boxCorners Ny Nz i j k)
        = fun a c => ∑ l, !![Lx / Nx, 0, 0; 0, Ly / Ny, 0; 0, 0, Lz / Nz] c l * hex8V a l
          + ![(i : ℝ) * (Lx / Nx), (j : ℝ) * (Ly / Ny), (k : ℝ) * (Lz / Nz)] c := by
      funext a c
      exact h.coords i j k hi hj hk a c
    rw [ee]
    exact this
  · refine ⟨fun iv => ?_, fun m hm => absurd (hmass.symm.trans hm) (by simp), fun s hs iv x => ⟨0, fun u => ?_⟩⟩
    · rw [htensor]
      refine ⟨⟨⟨Elastic.stress E nuP, fun G H => ?_⟩, fun a G => ?_⟩, fun G => ?_⟩
      · funext i j
        have := stress_sub E nuP (fun i j => G i j + H i j) H i j
        simp only [add_sub_cancel_right] at this
        have e : Elastic.stress E nuP (G + H) i j = Elastic.stress E nuP (fun i j => G i j + H i j) i j := rfl
        rw [e, Pi.add_apply, Pi.add_apply]
        linarith
      · funext i j
        simp only [Elastic.stress, Pi.smul_apply, smul_eq_mul, RingHom.id_apply, Fin.sum_univ_three]
        ring
      · funext i j
        simp [Elastic.stress]
    · rw [hsurf s hs iv u 0 x]; simp

end box

/-! ### A concrete case

A cube of one cell, eight quadrature points, a traction on the face `x = 1`. -/

/-- Quadrature points of the example. -/
noncomputable def exBoxPts : Fin 8 → Fin 3 → ℝ := ![![1/4, 1/4, 1/4], ![1/4, 1/4, 3/4], ![1/4, 3/4, 1/4],
  ![1/4, 3/4, 3/4], ![3/4, 1/4, 1/4], ![3/4, 1/4, 3/4], ![3/4, 3/4, 1/4], ![3/4, 3/4, 3/4]]

/-- Elastic problem of the example. -/
noncomputable def exElastic : Problem1 Unit 8 1 8 3 3 where
  numTotalNodes := 8
  points := (boxMesh 1 1 1 1 1 1).1
  cells := (boxMesh 1 1 1 (1 : ℝ) 1 1).2.map fun c => ⟨c, fun _ => ()⟩
  el := tabulate hex8N hex8G exBoxPts (fun _ => 1/8)
  fc := ⟨fun _ _ => hex8N ![1, 1/2, 1/2], fun _ _ => hex8G ![1, 1/2, 1/2], fun _ _ => 1, fun _ => ![1, 0, 0]⟩
  tensorMap := fun _ => Elastic.stress 70000 (3 / 10)
  massMap := none
  surfaces := [⟨fun _ _ _ => ![0, 0, -1], [⟨0, 1, fun _ => ()⟩]⟩]

/-- Boundary conditions of the example: the four nodes with `x = 0`. -/
noncomputable def exElasticBcs : List (List (BCEntry ℝ)) :=
  [[⟨[0, 1, 2, 3], [0, 0, 0, 0], [0, 0, 0, 0]⟩, ⟨[0, 1, 2, 3], [1, 1, 1, 1], [0, 0, 0, 0]⟩,
    ⟨[0, 1, 2, 3], [2, 2, 2, 2], [0, 0, 0, 0]⟩]]

theorem exElastic_box : OnBox exElastic 1 1 1 1 1 1 exBoxPts (fun _ => 1/8) where
  el := rfl
  points := rfl
  conn := by simp [exElastic, Problem1.conn, Function.comp_def]
  nodes := rfl
  Nx_pos := by decide
  Ny_pos := by decide
  Nz_pos := by decide
  Lx_pos := by norm_num
  Ly_pos := by norm_num
  Lz_pos := by norm_num
  faces := by
    intro s hs f hf
    simp only [exElastic, List.mem_singleton] at hs
    subst hs
    simp only [List.mem_singleton] at hf
    subst hf
    decide

example : ∃ (t : Fin 2 → Fin 2 → Fin 2 → Fin 8) (x y z : Fin 2 → ℝ), x 0 ≠ x 1 ∧ y 0 ≠ y 1 ∧ z 0 ≠ z 1 ∧
    ∀ i j k, exBoxPts (t i j k) = ![x i, y j, z k] := by
  refine ⟨![![![0, 1], ![2, 3]], ![![4, 5], ![6, 7]]], ![1/4, 3/4], ![1/4, 3/4], ![1/4, 3/4], by norm_num,
    by norm_num, by norm_num, fun i j k => ?_⟩
  fin_cases i <;> fin_cases j <;> fin_cases k <;> rfl

example : (∀ s ∈ exElastic.surfaces, ∀ iv u v x, s.map iv u x = s.map iv v x) ∧
    exElastic.tensorMap = (fun _ => Elastic.stress 70000 (3 / 10)) ∧ exElastic.massMap = none := by
  refine ⟨fun s hs iv u v x => ?_, rfl, rfl⟩
  simp only [exElastic, List.mem_singleton] at hs
  subst hs
  rfl

example : WFBC exElastic.fes exElasticBcs where
  len := rfl
  comps := by simp [exElasticBcs]
  vals := by simp [exElasticBcs]
  nodup := by simp [exElasticBcs]
  valid := by
    intro i fe es h1 h2 e he
    rcases i with _ | i
    · simp only [exElasticBcs, List.getElem?_cons_zero, Option.some.injEq] at h2
      simp only [Problem1.fes, List.getElem?_cons_zero, Option.some.injEq] at h1
      subst h2 h1
      simp only [List.mem_cons, List.not_mem_nil, or_false] at he
      rcases he with rfl | rfl | rfl <;> simp [exElastic]
    · simp [exElasticBcs] at h2

example : ∀ j ≤ 1, ∀ k ≤ 1, ∀ c : Fin 3, ¬ FreeDof (exElasticBcs.getD 0 []) (boxNode 1 1 0 j k) c := by
  intro j hj k hk c hfr
  have hn : boxNode 1 1 0 j k = j * 2 + k := by simp [boxNode]
  rw [hn] at hfr
  refine hfr ⟨[0, 1, 2, 3], [c, c, c, c], [0, 0, 0, 0]⟩ ?_ 0 ⟨j * 2 + k, ?_, ?_, ?_⟩
  · fin_cases c <;> simp [exElasticBcs]
  all_goals
    rcases (by omega : j = 0 ∨ j = 1) with rfl | rfl <;> rcases (by omega : k = 0 ∨ k = 1) with rfl | rfl <;> rfl

end JaxFem
