import Verif.Spec.NaturalSides
import Verif.Thm.C116_Patch

/-!
C119: affine fields on meshes with natural boundaries.
-/

namespace JaxFem.Patch

open Matrix Convergence

variable {IV : Type} {nq nfq nn vec dim : Nat}

/-- The element is one of those of the patch test. -/
theorem WithSides.firstOrder {el : RefElement ℝ nq nn dim} {k : Nat} {M : List (List Nat) → List Nat → Prop} (h : WithSides el k M) :
    ∃ C, FirstOrder el C := by
  cases h with
  | tri3 p w => exact ⟨_, .tri3 p w⟩
  | quad4 p w h h0 h1 => exact ⟨_, .quad4 p w h h0 h1⟩
  | tet4 p w => exact ⟨_, .tet4 p w⟩
  | hex8 p w h => exact ⟨_, .hex8 p w h⟩

/-- Sum over oriented faces, unmatched ones contributing nothing. -/
theorem faces_cancel' (faces : List Nat → List (List Nat)) (conn : List (List Nat)) (H : List Nat → ℝ)
    (hrot : ∀ f g : List Nat, f ~r g → H f = H g) (hrev : ∀ f, H f.reverse = -H f)
    (hzero : ∀ f, H f ≠ 0 → FaceMatched faces conn f) : ((conn.flatMap faces).map H).sum = 0 := by
  let HC : Cycle Nat → ℝ := Quotient.lift H fun f g h => hrot f g h
  have key : ∀ g : List Nat, ((conn.flatMap faces).map fun f => Cycle.ofList f).countP (fun y => decide (y = Cycle.ofList g))
      = (conn.flatMap faces).countP fun f => decide (f ~r g) := by
    intro g
    rw [List.countP_map]
    refine List.countP_congr fun f _ => ?_
    simp only [Function.comp_apply, decide_eq_true_eq]
    exact Cycle.coe_eq_coe
  have := sum_cancel (β := Cycle Nat) Cycle.reverse (fun x => Cycle.reverse_reverse x) HC
    (fun x => by induction x using Quotient.inductionOn with | _ f => exact hrev f)
    ((conn.flatMap faces).map fun f => Cycle.ofList f) (fun x hx => by
      induction x using Quotient.inductionOn with | _ f => ?_
      exact (key f).trans ((hzero f hx).trans (key f.reverse).symm))
  rw [List.map_map] at this
  exact this

/-- Contribution of a directed edge, by its normal. -/
def edgeNormal (v : Nat → ℝ) (x : Nat → Fin 2 → ℝ) (e : Nat × Nat) (j : Fin 2) : ℝ :=
  (v e.1 + v e.2) * if j = 0 then x e.2 1 - x e.1 1 else -(x e.2 0 - x e.1 0)

theorem edge_sum3 (v : Nat → ℝ) (x : Nat → Fin 2 → ℝ) (cell : List Nat) (h : cell.length = 3 ∨ cell.length = 4) (j : Fin 2) :
    ((polyEdges cell).map fun e => edgeTerm v x e j).sum = ((polyEdges cell).map fun e => edgeNormal v x e j).sum := by
  rcases h with h | h
  · obtain ⟨a, b, c, rfl⟩ := List.length_eq_three.1 h
    fin_cases j <;> simp [polyEdges, List.range_succ, edgeTerm, edgeNormal] <;> ring
  · obtain ⟨a, b, c, d, rfl⟩ := length_four h
    fin_cases j <;> simp [polyEdges, List.range_succ, edgeTerm, edgeNormal] <;> ring

/-- Vectors orthogonal to a common one are dependent. -/
theorem det_two {s a ν : Fin 2 → ℝ} (hν : ν ≠ 0) (hs : ∑ j, s j * ν j = 0) (ha : ∑ j, a j * ν j = 0) :
    s 0 * a 1 - s 1 * a 0 = 0 := by
  have : (Matrix.of ![s, a]).det = 0 := Matrix.exists_mulVec_eq_zero_iff.1 ⟨ν, hν, by
    funext i
    fin_cases i
    · exact hs
    · exact ha⟩
  rw [Matrix.det_fin_two] at this
  simpa using this

theorem det_three {s a b ν : Fin 3 → ℝ} (hν : ν ≠ 0) (hs : ∑ j, s j * ν j = 0) (ha : ∑ j, a j * ν j = 0)
    (hb : ∑ j, b j * ν j = 0) : ∑ j : Fin 3, s j * (a (j + 1) * b (j + 2) - a (j + 2) * b (j + 1)) = 0 := by
  have : (Matrix.of ![s, a, b]).det = 0 := Matrix.exists_mulVec_eq_zero_iff.1 ⟨ν, hν, by
    funext i
    fin_cases i
    · exact hs
    · exact ha
    · exact hb⟩
  rw [Matrix.det_fin_three] at this
  rw [Fin.sum_univ_three]
  simp at this ⊢
  linarith

theorem combo_orth {ν x y z w : Fin 3 → ℝ} {d : ℝ} (hx : ∑ j, ν j * x j = d) (hy : ∑ j, ν j * y j = d) (hz : ∑ j, ν j * z j = d)
    (hw : ∑ j, ν j * w j = d) (α β : ℝ) : ∑ j, (α * (y j - x j) + β * (z j - w j)) * ν j = 0 := by
  rw [Fin.sum_univ_three] at *
  linear_combination α * hy - α * hx + β * hz - β * hw

theorem pos_eq (points : List (Fin dim → ℝ)) (n : Nat) : pos points n = points.getD n 0 := rfl

theorem tangent_tri (v : Nat → ℝ) (points : List (Fin 3 → ℝ)) (s : Fin 3 → ℝ) (f : List Nat) (hl : f.length = 3)
    (ht : Tangent points s f) : ∑ j, s j * triTerm v (pos points) j f = 0 := by
  obtain ⟨p, q, r, rfl⟩ := List.length_eq_three.1 hl
  obtain ⟨ν, hν, hs, d, hd⟩ := ht
  have hp : ∑ j, ν j * pos points p j = d := hd p (by simp)
  have hq : ∑ j, ν j * pos points q j = d := hd q (by simp)
  have hr : ∑ j, ν j * pos points r j = d := hd r (by simp)
  have h := det_three (a := fun j => pos points q j - pos points p j) (b := fun j => pos points r j - pos points p j) hν hs
    (by simpa using combo_orth hp hq hp hp 1 0) (by simpa using combo_orth hp hr hp hp 1 0)
  have : ∑ j, s j * triTerm v (pos points) j [p, q, r] = (v p + v q + v r) *
      ∑ j : Fin 3, s j * ((pos points q (j + 1) - pos points p (j + 1)) * (pos points r (j + 2) - pos points p (j + 2))
        - (pos points q (j + 2) - pos points p (j + 2)) * (pos points r (j + 1) - pos points p (j + 1))) := by
    rw [Finset.mul_sum]
    refine Finset.sum_congr rfl fun j _ => ?_
    simp only [triTerm, areaVec]
    ring
  rw [this]
  exact mul_eq_zero_of_right _ h

theorem tangent_corner (v : Nat → ℝ) (points : List (Fin 3 → ℝ)) (s : Fin 3 → ℝ) (p q r t : Nat)
    (ht : Tangent points s [p, q, r, t]) : ∑ j, s j * patchCorner v (pos points) j p q r t = 0 := by
  obtain ⟨ν, hν, hs, d, hd⟩ := ht
  have hp : ∑ j, ν j * pos points p j = d := hd p (by simp)
  have hq : ∑ j, ν j * pos points q j = d := hd q (by simp)
  have hr : ∑ j, ν j * pos points r j = d := hd r (by simp)
  have ht : ∑ j, ν j * pos points t j = d := hd t (by simp)
  have h := det_three (a := fun j => 2 * (pos points q j - pos points p j) + (pos points r j - pos points t j))
    (b := fun j => 2 * (pos points t j - pos points p j) + (pos points r j - pos points q j)) hν hs
    (by simpa using combo_orth hp hq hr ht 2 1) (by simpa using combo_orth hp ht hr hq 2 1)
  have : ∑ j, s j * patchCorner v (pos points) j p q r t = v p *
      ∑ j : Fin 3, s j * ((2 * (pos points q (j + 1) - pos points p (j + 1)) + (pos points r (j + 1) - pos points t (j + 1)))
          * (2 * (pos points t (j + 2) - pos points p (j + 2)) + (pos points r (j + 2) - pos points q (j + 2)))
        - (2 * (pos points q (j + 2) - pos points p (j + 2)) + (pos points r (j + 2) - pos points t (j + 2)))
          * (2 * (pos points t (j + 1) - pos points p (j + 1)) + (pos points r (j + 1) - pos points q (j + 1)))) := by
    rw [Finset.mul_sum]
    refine Finset.sum_congr rfl fun j _ => ?_
    simp only [patchCorner]
    ring
  rw [this]
  exact mul_eq_zero_of_right _ h

theorem Tangent.of_mem {points : List (Fin dim → ℝ)} {s : Fin dim → ℝ} {f g : List Nat} (h : Tangent points s f)
    (hg : ∀ n ∈ g, n ∈ f) : Tangent points s g := by
  obtain ⟨ν, hν, hs, d, hd⟩ := h
  exact ⟨ν, hν, hs, d, fun n hn => hd n (hg n hn)⟩

theorem tangent_patch (v : Nat → ℝ) (points : List (Fin 3 → ℝ)) (s : Fin 3 → ℝ) (f : List Nat) (hl : f.length = 4)
    (ht : Tangent points s f) : ∑ j, s j * patchTerm v (pos points) j f = 0 := by
  obtain ⟨p, q, r, t, rfl⟩ := length_four hl
  simp only [patchTerm, mul_add, Finset.sum_add_distrib]
  rw [tangent_corner v points s p q r t ht, tangent_corner v points s q r t p (ht.of_mem (by simp)),
    tangent_corner v points s r t p q (ht.of_mem (by simp)), tangent_corner v points s t p q r (ht.of_mem (by simp))]
  simp

theorem tangent_edge (v : Nat → ℝ) (points : List (Fin 2 → ℝ)) (s : Fin 2 → ℝ) (a b : Nat) (ht : Tangent points s [a, b]) :
    ∑ j, s j * edgeNormal v (pos points) (a, b) j = 0 := by
  obtain ⟨ν, hν, hs, d, hd⟩ := ht
  have ha := hd a (by simp)
  have hb := hd b (by simp)
  have h := det_two (a := fun j => pos points b j - pos points a j) hν hs (by
    rw [Fin.sum_univ_two] at *
    simp only [pos_eq]
    linear_combination hb - ha)
  rw [Fin.sum_univ_two]
  simp only [edgeNormal, if_pos, Fin.isValue, one_ne_zero, if_false]
  linear_combination (v a + v b) * h

/-- A sum over cells whose terms are combinations of terms of their sides. -/
theorem sum_combo {α β : Type} (l : List α) (fs : α → List β) (g : Fin dim → α → ℝ) (H : Fin dim → β → ℝ) (c : ℝ) (s : Fin dim → ℝ)
    (hg : ∀ j, ∀ a ∈ l, g j a = c * ((fs a).map (H j)).sum)
    (hs : ((l.flatMap fs).map fun b => ∑ j, s j * H j b).sum = 0) : ∑ j, s j * (l.map (g j)).sum = 0 := by
  have e1 : ∀ j, (l.map (g j)).sum = c * ((l.flatMap fs).map (H j)).sum := by
    intro j
    rw [List.map_congr_left (hg j), List.sum_map_mul_left, sum_flatMap]
  have e2 : ∀ L : List β, (L.map fun b => ∑ j, s j * H j b).sum = ∑ j, s j * (L.map (H j)).sum := by
    intro L
    induction L with
    | nil => simp
    | cons b L ih =>
      rw [List.map_cons, List.sum_cons, ih, ← Finset.sum_add_distrib]
      exact Finset.sum_congr rfl fun j _ => by rw [List.map_cons, List.sum_cons, mul_add]
  rw [e2] at hs
  have : ∑ j, s j * (l.map (g j)).sum = c * ∑ j, s j * ((l.flatMap fs).map (H j)).sum := by
    rw [Finset.mul_sum]
    exact Finset.sum_congr rfl fun j _ => by rw [e1]; ring
  rw [this, hs, mul_zero]

theorem edges_zero (conn : List (List Nat)) (points : List (Fin 2 → ℝ)) (s : Fin 2 → ℝ) (v : Nat → ℝ)
    (hv : ∀ n, v n ≠ 0 → ∀ f : List Nat, f.length = 2 → n ∈ f → EdgeMatched conn f ∨ Tangent points s f) :
    ((conn.flatMap polyEdges).map fun e => ∑ j, s j * edgeNormal v (pos points) e j).sum = 0 := by
  refine sum_cancel (β := Nat × Nat) Prod.swap (fun x => Prod.swap_swap x) _ (fun e => ?_) _ fun e he => ?_
  · rw [← Finset.sum_neg_distrib]
    refine Finset.sum_congr rfl fun j _ => ?_
    simp only [edgeNormal, Prod.fst_swap, Prod.snd_swap]
    split <;> ring
  · obtain ⟨a, b⟩ := e
    have hex : ∃ n ∈ [a, b], v n ≠ 0 := by
      by_contra hcon
      push Not at hcon
      exact he (Finset.sum_eq_zero fun j _ => by simp [edgeNormal, hcon a (by simp), hcon b (by simp)])
    obtain ⟨n, hn, hvn⟩ := hex
    rcases hv n hvn [a, b] rfl hn with h | h
    · exact h a b rfl
    · exact absurd (tangent_edge v points s a b h) he

/-- **Key.** A constant flux `s` does no work on a nodal field that is nonzero only where no side lets the flux through. -/
theorem flux_zero {el : RefElement ℝ nq nn dim} {k : Nat} {M : List (List Nat) → List Nat → Prop} (h : WithSides el k M)
    (points : List (Fin dim → ℝ)) (conn : List (List Nat)) (hlen : ∀ cell ∈ conn, cell.length = nn) (v : Nat → ℝ)
    (s : Fin dim → ℝ) (hv : ∀ n, v n ≠ 0 → NoFlux k M conn points s n) :
    ∑ j, s j * (conn.map fun cell => cofSum el points cell v j).sum = 0 := by
  by_cases hs0 : s = 0
  · subst hs0; simp
  have hv' : ∀ n, v n ≠ 0 → ∀ f : List Nat, f.length = k → n ∈ f → M conn f ∨ Tangent points s f :=
    fun n hn => (hv n hn).resolve_left hs0
  clear hv
  cases h with
  | tri3 p w =>
    exact sum_combo conn polyEdges (fun j cell => cofSum _ points cell v j) (fun j e => edgeNormal v (pos points) e j) (∑ q, w q) s
      (fun j cell hc => by rw [tri3_cell p w points cell (hlen cell hc) v j, edge_sum3 _ _ _ (.inl (hlen cell hc))])
      (edges_zero conn points s v hv')
  | quad4 p w h h0 h1 =>
    exact sum_combo conn polyEdges (fun j cell => cofSum _ points cell v j) (fun j e => edgeNormal v (pos points) e j) (1 / 2) s
      (fun j cell hc => by rw [quad4_cell p w h h0 h1 points cell (hlen cell hc) v j, edge_sum3 _ _ _ (.inr (hlen cell hc))])
      (edges_zero conn points s v hv')
  | tet4 p w =>
    refine sum_combo conn tetFaces (fun j cell => cofSum _ points cell v j) (fun j f => triTerm v (pos points) j f) (∑ q, w q) s
      (fun j cell hc => tet4_cell p w points cell (hlen cell hc) v j) ?_
    refine faces_cancel' tetFaces conn _ (rot_of_one _ fun f => Finset.sum_congr rfl fun j _ => by rw [tri_rot])
      (fun f => by rw [← Finset.sum_neg_distrib]; exact Finset.sum_congr rfl fun j _ => by rw [tri_rev]; ring) fun f hf => ?_
    have hl : f.length = 3 := by
      by_contra hl
      exact hf (Finset.sum_eq_zero fun j _ => by rw [tri_len _ _ _ _ hl, mul_zero])
    have hex : ∃ n ∈ f, v n ≠ 0 := by
      by_contra hcon
      push Not at hcon
      obtain ⟨p, q, r, rfl⟩ := List.length_eq_three.1 hl
      exact hf (Finset.sum_eq_zero fun j _ => by
        simp [triTerm, hcon p (by simp), hcon q (by simp), hcon r (by simp)])
    obtain ⟨n, hn, hvn⟩ := hex
    exact (hv' n hvn f hl hn).resolve_right fun ht => hf (tangent_tri v points s f hl ht)
  | hex8 p w h =>
    refine sum_combo conn hexFaces (fun j cell => cofSum _ points cell v j) (fun j f => patchTerm v (pos points) j f) (1 / 36) s
      (fun j cell _ => hex8_cell p w h points cell v j) ?_
    refine faces_cancel' hexFaces conn _ (rot_of_one _ fun f => Finset.sum_congr rfl fun j _ => by rw [patch_rot])
      (fun f => by rw [← Finset.sum_neg_distrib]; exact Finset.sum_congr rfl fun j _ => by rw [patch_rev]; ring) fun f hf => ?_
    have hl : f.length = 4 := by
      by_contra hl
      exact hf (Finset.sum_eq_zero fun j _ => by rw [patch_len _ _ _ _ hl, mul_zero])
    have hex : ∃ n ∈ f, v n ≠ 0 := by
      by_contra hcon
      push Not at hcon
      obtain ⟨p, q, r, t, rfl⟩ := length_four hl
      exact hf (Finset.sum_eq_zero fun j _ => by
        simp [patchTerm, patchCorner, hcon p (by simp), hcon q (by simp), hcon r (by simp), hcon t (by simp)])
    obtain ⟨n, hn, hvn⟩ := hex
    exact (hv' n hvn f hl hn).resolve_right fun ht => hf (tangent_patch v points s f hl ht)

/-- A constant stress does no work on fields that vanish at the degrees of freedom where its rows act. -/
theorem natural_work (P : Problem1 IV nq nfq nn vec dim) (hwf : P.WF) {k : Nat} {M : List (List Nat) → List Nat → Prop}
    (hel : WithSides P.el k M) (hreg : P.el.Regular P.points P.conn) (free : Nat → Fin vec → Prop) (S : Fin vec → Fin dim → ℝ)
    (hfree : ∀ n c, free n c → NoFlux k M P.conn P.points (S c) n) (v : Nat → Fin vec → ℝ) (hv : Vanishing free v) :
    (P.cells.map fun cell => cellIntegral P.el P.points cell.nodes fun q => contract S (P.gradient v cell.nodes q)).sum = 0 := by
  have hsplit : ∀ l : List (CellSpec IV nq),
      (l.map fun cell => cellIntegral P.el P.points cell.nodes fun q => contract S (P.gradient v cell.nodes q)).sum
      = ∑ c, ∑ j, S c j * (l.map fun cell => cellIntegral P.el P.points cell.nodes fun q => P.gradient v cell.nodes q c j).sum := by
    intro l
    induction l with
    | nil => simp
    | cons cell l ih =>
      rw [List.map_cons, List.sum_cons, ih, cellIntegral]
      simp only [contract, Finset.sum_mul, List.map_cons, List.sum_cons, mul_add, Finset.sum_add_distrib]
      congr 1
      rw [Finset.sum_comm]
      refine Finset.sum_congr rfl fun c _ => ?_
      rw [Finset.sum_comm]
      refine Finset.sum_congr rfl fun j _ => ?_
      rw [cellIntegral, Finset.mul_sum]
      exact Finset.sum_congr rfl fun q _ => by ring
  rw [hsplit]
  refine Finset.sum_eq_zero fun c _ => ?_
  have h := flux_zero hel P.points P.conn (fun cell hc => by
    obtain ⟨cs, hcs, rfl⟩ := List.mem_map.1 hc
    exact hwf.cell_length cs hcs) (fun n => v n c) (S c) (fun n hn => hfree n c (by
      by_contra hcon
      exact hn (hv n c hcon)))
  rw [← h]
  refine Finset.sum_congr rfl fun j _ => ?_
  congr 1
  rw [Problem1.conn, List.map_map]
  congr 1
  refine List.map_congr_left fun cell hc => ?_
  rw [cellIntegral, Function.comp_apply, cofSum]
  refine Finset.sum_congr rfl fun q _ => ?_
  rw [← mul_assoc]
  congr 1
  exact grad_measure _ _ _ (hreg _ (List.mem_map_of_mem hc) q) c j

/-- **C119 (equilibrium with natural boundaries).** On every mesh of first-order elements with invertible Jacobians, for every
material law that is the same everywhere: the nodal values of an affine field have zero residual at each degree of freedom `(n, c)`
where no side at node `n` lets row `c` of the (constant) stress through — interior nodes, and boundary nodes all of whose outer
sides are flat and tangent to that row, with no boundary condition there. -/
theorem C119_equilibrium (P : Problem1 IV nq nfq nn vec dim) (hwf : P.WF) {k : Nat} {M : List (List Nat) → List Nat → Prop}
    (hel : WithSides P.el k M) (hreg : P.el.Regular P.points P.conn) (hmass : P.massMap = none) (hsurf : P.surfaces = [])
    (sol : List (List ℝ)) (hs : HasShapes [(P.numTotalNodes, vec)] [sol]) (G S : Fin vec → Fin dim → ℝ) (b : Fin vec → ℝ)
    (hsol : ∀ n < P.numTotalNodes, ∀ i, fieldOf vec sol n i = ∑ j, G i j * (P.points.getD n 0) j + b i)
    (hS : ∀ iv, P.tensorMap iv G = S) (free : Nat → Fin vec → Prop)
    (hfree : ∀ n < P.numTotalNodes, ∀ c, free n c → NoFlux k M P.conn P.points (S c) n) : IsSolution P free sol := by
  obtain ⟨C, hC⟩ := hel.firstOrder
  suffices h : IsSolution P (fun n c => n < P.numTotalNodes ∧ free n c) sol by
    obtain ⟨R, h1, h2⟩ := h
    exact ⟨R, h1, fun n hn c hc => h2 n hn c ⟨hn, hc⟩⟩
  rw [C72_galerkin P hwf sol hs]
  intro v hv
  have hsw : P.surfaceWork (fieldOf vec sol) v = 0 := by
    rw [Problem1.surfaceWork, hsurf]; rfl
  rw [Problem1.virtualWork, hmass, hsw, add_zero, add_zero, Problem1.tensorWork]
  rw [← natural_work P hwf hel hreg _ S (fun n c h => hfree n h.1 c h.2) v hv]
  congr 1
  refine List.map_congr_left fun cell hc => ?_
  rw [cellIntegral, cellIntegral]
  refine Finset.sum_congr rfl fun q _ => ?_
  rw [affine_gradient P (unity hC) cell.nodes (hwf.cell_length cell hc) _ G b
    (fun n hn i => hsol n (hwf.cell_lt cell hc n hn) i) q (hreg _ (List.mem_map_of_mem hc) q), hS]

/-- **C119 (solutions).** With a strictly monotone law, affine values at the degrees of freedom that are not free and every node
connected with them, an array has zero residual at the free degrees of freedom if and only if it holds the affine field. -/
theorem C119_solution (P : Problem1 IV nq nfq nn vec dim) (hwf : P.WF) {k : Nat} {M : List (List Nat) → List Nat → Prop}
    (hel : WithSides P.el k M) (hpos : P.PositiveMeasure) (hdet : P.el.Determines) (hmono : P.StrictlyMonotone)
    (hmass : P.massMap = none) (hsurf : P.surfaces = []) (G S : Fin vec → Fin dim → ℝ) (b : Fin vec → ℝ)
    (hS : ∀ iv, P.tensorMap iv G = S) (free : Nat → Fin vec → Prop) (hanch : P.Anchored free)
    (hfree : ∀ n < P.numTotalNodes, ∀ c, free n c → NoFlux k M P.conn P.points (S c) n)
    (sol : List (List ℝ)) (hs : HasShapes [(P.numTotalNodes, vec)] [sol])
    (hbc : ∀ n < P.numTotalNodes, ∀ i, ¬free n i → fieldOf vec sol n i = ∑ j, G i j * (P.points.getD n 0) j + b i) :
    IsSolution P free sol ↔
      ∀ n < P.numTotalNodes, ∀ i, fieldOf vec sol n i = ∑ j, G i j * (P.points.getD n 0) j + b i := by
  have hreg := regular_of_positive P hpos
  refine ⟨fun hsol => ?_, fun hsol => C119_equilibrium P hwf hel hreg hmass hsurf sol hs G S b hsol hS free hfree⟩
  have := C73_unique P hwf hpos hdet hmono (fun m hm => by rw [hmass] at hm; cases hm)
    (fun s hs => by rw [hsurf] at hs; cases hs) _ hanch sol (affineArray P G b) hs (affineArray_shape P G b) hsol
    (C119_equilibrium P hwf hel hreg hmass hsurf _ (affineArray_shape P G b) G S b (affineArray_val P G b) hS free hfree) (by
      intro n c hn
      by_cases hlt : n < P.numTotalNodes
      · rw [hbc n hlt c hn, affineArray_val P G b n hlt c]
      · rw [field_out sol hs n hlt, field_out _ (affineArray_shape P G b) n hlt])
  rw [this]
  exact affineArray_val P G b

end JaxFem.Patch
