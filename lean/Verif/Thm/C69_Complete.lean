import Verif.Thm.C68_Trace
import Verif.Spec.Poly
import Verif.Spec.WeakForm
import Mathlib.Tactic.FinCases
import Mathlib.Analysis.Calculus.Deriv.Mul
import Mathlib.Analysis.Calculus.Deriv.Add

/-!
# C69: completeness of the element functions
-/

namespace JaxFem

variable {K : Type} [Field K]

/-! ### Helper lemmas -/

/-- Function of the node at `pos`. -/
def nodeFn (info : ElementInfo) (pos : List Nat) (p : Nat → K) : K :=
  match info.family with
  | .P => lagrangeFn info.ele info.degree pos p
  | .serendipity => serendipityFn info.ele pos p

/-- Its derivative. -/
def nodeGrad (info : ElementInfo) (pos : List Nat) (p : Nat → K) (d : Nat) : K :=
  match info.family with
  | .P => lagrangeGrad info.ele info.degree pos p d
  | .serendipity => serendipityGrad info.ele pos p d

theorem reorder_pos {e : String × String × List (List Nat)} (he : e ∈ meshNodes) {info : ElementInfo}
    (hi : getElements e.1 = .ok info) {i : Nat} {pos : List Nat} (hp : e.2.2[i]? = some pos) :
    ∃ k, info.reOrder[i]? = some k ∧ (basixPoints info)[k]? = some pos := by
  obtain ⟨info', hi', -, h⟩ := C40_tables e he
  rw [hi] at hi'
  cases hi'
  have h2 := congrArg (·[i]?) h
  simp only [List.getElem?_map, hp, Option.map_some] at h2
  rcases h3 : info.reOrder[i]? with _ | k
  · rw [h3] at h2; cases h2
  rw [h3] at h2
  simp only [Option.map_some, Option.some.injEq] at h2
  exact ⟨k, rfl, h2⟩

theorem shapeValue_node {e : String × String × List (List Nat)} (he : e ∈ meshNodes) {info : ElementInfo}
    (hi : getElements e.1 = .ok info) {i : Nat} {pos : List Nat} (hp : e.2.2[i]? = some pos) (p : Nat → K) :
    shapeValue info i p = nodeFn info pos p := by
  obtain ⟨k, h1, h2⟩ := reorder_pos he hi hp
  unfold shapeValue reorderedShape basixShape nodeFn
  rw [List.getD_eq_getElem?_getD, h1]
  simp only [Option.getD_some]
  rw [List.getD_eq_getElem?_getD, h2]
  rfl

theorem shapeGrad_node {e : String × String × List (List Nat)} (he : e ∈ meshNodes) {info : ElementInfo}
    (hi : getElements e.1 = .ok info) {i : Nat} {pos : List Nat} (hp : e.2.2[i]? = some pos) (p : Nat → K) (d : Nat) :
    shapeGrad info i p d = nodeGrad info pos p d := by
  obtain ⟨k, h1, h2⟩ := reorder_pos he hi hp
  unfold shapeGrad reorderedShape basixGrad nodeGrad
  rw [List.getD_eq_getElem?_getD, h1]
  simp only [Option.getD_some]
  rw [List.getD_eq_getElem?_getD, h2]
  rfl

theorem sum_range_list {α : Type} (l : List α) (F : Nat → K) (G : α → K)
    (h : ∀ i a, l[i]? = some a → F i = G a) : ∑ i ∈ Finset.range l.length, F i = (l.map G).sum := by
  induction l generalizing F with
  | nil => rfl
  | cons a l ih =>
    rw [List.length_cons, Finset.sum_range_succ', List.map_cons, List.sum_cons, ih (fun i => F (i + 1)), h 0 a rfl,
      add_comm]
    intro i b hb
    exact h (i + 1) b (by simpa using hb)

variable [CharZero K]

set_option maxHeartbeats 4000000 in
theorem complete_value {e : String × String × List (List Nat)} (he : e ∈ meshNodes) {info : ElementInfo}
    (hi : getElements e.1 = .ok info) (c0 : K) (c1 : Nat → K) (c2 : Nat → Nat → K)
    (hc : info.degree = 1 ∨ info.family = .serendipity → ∀ i j, c2 i j = 0) (x : Nat → K) :
    (e.2.2.map fun pos => quadPoly (cellDim info.ele) c0 c1 c2 (halfPoint K pos) * nodeFn info pos x).sum =
      quadPoly (cellDim info.ele) c0 c1 c2 x := by
  simp only [meshNodes, List.mem_cons, List.not_mem_nil, or_false, List.cons_append, List.nil_append] at he
  rcases he with rfl | rfl | rfl | rfl | rfl | rfl | rfl | rfl | rfl <;>
  · have hi2 := Except.ok.inj hi
    subst hi2
    try (have hz := hc (by first | exact Or.inl rfl | exact Or.inr rfl); simp only [quadPoly, hz])
    simp only [cellDim, nodeFn, List.map_cons, List.map_nil, List.sum_cons, List.sum_nil, quadPoly, halfPoint,
      lagrangeFn, serendipityFn, ser1, away, lag1, bary, Finset.sum_range_succ, Finset.sum_range_zero,
      List.getD_cons_zero, List.getD_cons_succ, List.mem_cons, List.not_mem_nil,
      OfNat.ofNat_ne_one, OfNat.ofNat_ne_zero, OfNat.one_ne_ofNat, if_false, if_true, one_ne_zero,
      zero_ne_one, Nat.cast_zero, Nat.cast_one, Nat.cast_ofNat, Nat.sub_zero, Nat.sub_self, Nat.reduceSub,
      or_false, false_or, or_true, true_or, OfNat.one_ne_ofNat]
    ring

set_option maxHeartbeats 8000000 in
theorem complete_grad {e : String × String × List (List Nat)} (he : e ∈ meshNodes) {info : ElementInfo}
    (hi : getElements e.1 = .ok info) (c0 : K) (c1 : Nat → K) (c2 : Nat → Nat → K)
    (hc : info.degree = 1 ∨ info.family = .serendipity → ∀ i j, c2 i j = 0) (x : Nat → K) (d : Nat)
    (hd : d < cellDim info.ele) :
    (e.2.2.map fun pos => quadPoly (cellDim info.ele) c0 c1 c2 (halfPoint K pos) * nodeGrad info pos x d).sum =
      quadPolyGrad (cellDim info.ele) c1 c2 x d := by
  simp only [meshNodes, List.mem_cons, List.not_mem_nil, or_false, List.cons_append, List.nil_append] at he
  rcases he with rfl | rfl | rfl | rfl | rfl | rfl | rfl | rfl | rfl <;>
  · have hi2 := Except.ok.inj hi
    subst hi2
    try (have hz := hc (by first | exact Or.inl rfl | exact Or.inr rfl); simp only [quadPoly, quadPolyGrad, hz])
    simp only [cellDim] at hd
    interval_cases d <;>
    · simp only [cellDim, nodeGrad, List.map_cons, List.map_nil, List.sum_cons, List.sum_nil, quadPoly,
        quadPolyGrad, halfPoint, lagrangeGrad, serendipityGrad, ser1, away, dser1, daway, lag1, bary, dlag1, dbary,
        Finset.sum_range_succ,
        Finset.sum_range_zero, List.getD_cons_zero, List.getD_cons_succ, List.mem_cons, List.not_mem_nil,
        OfNat.ofNat_ne_one, OfNat.ofNat_ne_zero, OfNat.one_ne_ofNat, if_false, if_true, one_ne_zero,
        zero_ne_one, Nat.cast_zero, Nat.cast_one, Nat.cast_ofNat, Nat.sub_zero, Nat.sub_self, Nat.reduceSub,
        or_false, false_or, or_true, true_or, OfNat.one_ne_ofNat]
      ring

section
variable {u : ℝ → ℝ} {u' t : ℝ}

theorem lag1_deriv (deg pos : Nat) (h : HasDerivAt u u' t) :
    HasDerivAt (fun s => lag1 deg pos (u s)) (dlag1 deg pos (u t) * u') t := by
  unfold lag1 dlag1
  split_ifs
  · refine HasDerivAt.congr_deriv (h.const_sub 1) ?_; ring
  · refine HasDerivAt.congr_deriv (h) ?_; ring
  · refine HasDerivAt.congr_deriv (hasDerivAt_const t (0 : ℝ)) ?_; ring
  · refine HasDerivAt.congr_deriv ((h.const_sub 1).mul ((h.const_mul 2).const_sub 1)) ?_; ring
  · refine HasDerivAt.congr_deriv ((h.const_mul 4).mul (h.const_sub 1)) ?_; ring
  · refine HasDerivAt.congr_deriv (h.mul ((h.const_mul 2).sub_const 1)) ?_; ring
  · refine HasDerivAt.congr_deriv (hasDerivAt_const t (0 : ℝ)) ?_; ring

theorem bary_deriv (deg pos : Nat) (h : HasDerivAt u u' t) :
    HasDerivAt (fun s => bary deg pos (u s)) (dbary deg pos (u t) * u') t := by
  unfold bary dbary
  split_ifs
  · refine HasDerivAt.congr_deriv (hasDerivAt_const t (1 : ℝ)) ?_; ring
  · refine HasDerivAt.congr_deriv (h) ?_; ring
  · refine HasDerivAt.congr_deriv (hasDerivAt_const t (0 : ℝ)) ?_; ring
  · exact h.const_mul 2
  · refine HasDerivAt.congr_deriv (h.mul ((h.const_mul 2).sub_const 1)) ?_; ring
  · refine HasDerivAt.congr_deriv (hasDerivAt_const t (0 : ℝ)) ?_; ring

theorem ser1_deriv (pos : Nat) (h : HasDerivAt u u' t) :
    HasDerivAt (fun s => ser1 pos (u s)) (dser1 pos (u t) * u') t := by
  unfold ser1 dser1
  split_ifs
  · refine HasDerivAt.congr_deriv (h.const_sub 1) ?_; ring
  · refine HasDerivAt.congr_deriv ((h.const_mul 6).mul (h.const_sub 1)) ?_; ring
  · refine HasDerivAt.congr_deriv (h) ?_; ring
  · refine HasDerivAt.congr_deriv (hasDerivAt_const t (0 : ℝ)) ?_; ring

theorem away_deriv (pos : Nat) (h : HasDerivAt u u' t) :
    HasDerivAt (fun s => away pos (u s)) (daway pos * u') t := by
  unfold away daway
  split_ifs
  · refine HasDerivAt.congr_deriv (h) ?_; ring
  · refine HasDerivAt.congr_deriv (h.const_sub 1) ?_; ring

/-- Coordinate `k` of a point with coordinate `d` moving. -/
theorem update_deriv (x : Nat → ℝ) (d k : Nat) :
    HasDerivAt (fun s => Function.update x d s k) (if k = d then 1 else 0) (x d) := by
  by_cases h : k = d
  · subst h
    simp only [Function.update_self, if_true]
    exact hasDerivAt_id _
  · simp only [Function.update_of_ne h, if_neg h]
    exact hasDerivAt_const _ _

theorem lagrange_deriv (cell : CellType) (deg : Nat) (pos : List Nat) (x : Nat → ℝ) {d : Nat} (hd : d < cellDim cell) :
    HasDerivAt (fun s => lagrangeFn cell deg pos (Function.update x d s)) (lagrangeGrad cell deg pos x d) (x d) := by
  have h0 := update_deriv x d 0
  have h1 := update_deriv x d 1
  have h2 := update_deriv x d 2
  cases cell <;> simp only [lagrangeFn, lagrangeGrad]
  · refine HasDerivAt.congr_deriv (lag1_deriv deg (pos.getD 0 0) h0) ?_
    simp only [cellDim] at hd
    interval_cases d <;> simp
  · refine HasDerivAt.congr_deriv (((bary_deriv deg (2 - pos.getD 0 0 - pos.getD 1 0) ((h0.const_sub 1).sub h1)).mul
      (bary_deriv deg (pos.getD 0 0) h0)).mul (bary_deriv deg (pos.getD 1 0) h1)) ?_
    simp only [cellDim] at hd
    interval_cases d <;> simp <;> first | ring1 | exact Or.inl (by ring)
  · refine HasDerivAt.congr_deriv ((lag1_deriv deg (pos.getD 0 0) h0).mul (lag1_deriv deg (pos.getD 1 0) h1)) ?_
    simp only [cellDim] at hd
    interval_cases d <;> simp
  · refine HasDerivAt.congr_deriv (((((bary_deriv deg (2 - pos.getD 0 0 - pos.getD 1 0 - pos.getD 2 0) (((h0.const_sub 1).sub h1).sub h2)).mul
      (bary_deriv deg (pos.getD 0 0) h0)).mul (bary_deriv deg (pos.getD 1 0) h1))).mul
      (bary_deriv deg (pos.getD 2 0) h2)) ?_
    simp only [cellDim] at hd
    interval_cases d <;> simp <;> first | ring1 | exact Or.inl (by ring)
  · refine HasDerivAt.congr_deriv (((lag1_deriv deg (pos.getD 0 0) h0).mul (lag1_deriv deg (pos.getD 1 0) h1)).mul
      (lag1_deriv deg (pos.getD 2 0) h2)) ?_
    simp only [cellDim] at hd
    interval_cases d <;> simp

theorem serendipity_deriv (cell : CellType) (pos : List Nat) (x : Nat → ℝ) {d : Nat} (hd : d < cellDim cell) :
    HasDerivAt (fun s => serendipityFn cell pos (Function.update x d s)) (serendipityGrad cell pos x d) (x d) := by
  have h0 := update_deriv x d 0
  have h1 := update_deriv x d 1
  have h2 := update_deriv x d 2
  cases cell <;> simp only [serendipityFn, serendipityGrad]
  · exact hasDerivAt_const _ _
  · exact hasDerivAt_const _ _
  · by_cases hm : 1 ∈ pos
    · simp only [if_pos hm, mul_one]
      refine HasDerivAt.congr_deriv ((ser1_deriv (pos.getD 0 0) h0).mul (ser1_deriv (pos.getD 1 0) h1)) ?_
      simp only [cellDim] at hd
      interval_cases d <;> simp
    · simp only [if_neg hm]
      refine HasDerivAt.congr_deriv (((ser1_deriv (pos.getD 0 0) h0).mul (ser1_deriv (pos.getD 1 0) h1)).mul
        ((((away_deriv (pos.getD 0 0) h0).const_mul 3).const_sub 1).sub ((away_deriv (pos.getD 1 0) h1).const_mul 3))) ?_
      simp only [cellDim] at hd
      interval_cases d <;> simp
  · exact hasDerivAt_const _ _
  · by_cases hm : 1 ∈ pos
    · simp only [if_pos hm, mul_one]
      refine HasDerivAt.congr_deriv (((ser1_deriv (pos.getD 0 0) h0).mul (ser1_deriv (pos.getD 1 0) h1)).mul
        (ser1_deriv (pos.getD 2 0) h2)) ?_
      simp only [cellDim] at hd
      interval_cases d <;> simp
    · simp only [if_neg hm]
      refine HasDerivAt.congr_deriv ((((ser1_deriv (pos.getD 0 0) h0).mul (ser1_deriv (pos.getD 1 0) h1)).mul
        (ser1_deriv (pos.getD 2 0) h2)).mul
        (((((away_deriv (pos.getD 0 0) h0).const_mul 3).const_sub 1).sub
          ((away_deriv (pos.getD 1 0) h1).const_mul 3)).sub ((away_deriv (pos.getD 2 0) h2).const_mul 3))) ?_
      simp only [cellDim] at hd
      interval_cases d <;> simp

end

/-! ### Property theorems -/

/-- **C69 (values).** Interpolation is exact: for each of the nine element types, nodal values of a polynomial of the
degree of the element (of degree one for the serendipity elements) give back the polynomial at every point. -/
theorem C69_values {e : String × String × List (List Nat)} (he : e ∈ meshNodes) {info : ElementInfo}
    (hi : getElements e.1 = .ok info) (c0 : K) (c1 : Nat → K) (c2 : Nat → Nat → K)
    (hc : info.degree = 1 ∨ info.family = .serendipity → ∀ i j, c2 i j = 0) (x : Nat → K) :
    ∑ i ∈ Finset.range e.2.2.length,
      quadPoly (cellDim info.ele) c0 c1 c2 (halfPoint K (e.2.2.getD i [])) * shapeValue info i x =
      quadPoly (cellDim info.ele) c0 c1 c2 x := by
  rw [← complete_value he hi c0 c1 c2 hc x]
  refine sum_range_list _ _ _ fun i pos hp => ?_
  rw [shapeValue_node he hi hp, List.getD_eq_getElem?_getD, hp]
  rfl

/-- **C69 (gradients).** The tabulated gradients give back the gradient of the polynomial. -/
theorem C69_grads {e : String × String × List (List Nat)} (he : e ∈ meshNodes) {info : ElementInfo}
    (hi : getElements e.1 = .ok info) (c0 : K) (c1 : Nat → K) (c2 : Nat → Nat → K)
    (hc : info.degree = 1 ∨ info.family = .serendipity → ∀ i j, c2 i j = 0) (x : Nat → K) {d : Nat}
    (hd : d < cellDim info.ele) :
    ∑ i ∈ Finset.range e.2.2.length,
      quadPoly (cellDim info.ele) c0 c1 c2 (halfPoint K (e.2.2.getD i [])) * shapeGrad info i x d =
      quadPolyGrad (cellDim info.ele) c1 c2 x d := by
  rw [← complete_grad he hi c0 c1 c2 hc x d hd]
  refine sum_range_list _ _ _ fun i pos hp => ?_
  rw [shapeGrad_node he hi hp, List.getD_eq_getElem?_getD, hp]
  rfl

/-- **C69 (unity).** Every element type is a partition of unity, in cells and on faces, for every choice of
quadrature points: the assumption of C08, C10 and C11 about the tabulated element holds for the tables the code
computes. -/
theorem C69_unity {e : String × String × List (List Nat)} (he : e ∈ meshNodes) {info : ElementInfo}
    (hi : getElements e.1 = .ok info) {nq nfq fdim : Nat} (pts : Fin nq → Fin (cellDim info.ele) → K)
    (w : Fin nq → K) (fpts : Fin nfq → Fin fdim → K) (fw : Nat → Fin nfq → K)
    (normals : Nat → Fin (cellDim info.ele) → K) :
    (tabulateInfo info pts w : RefElement K nq e.2.2.length (cellDim info.ele)).Unity ∧
    (tabulateFaces info fpts fw normals : RefFaces K nfq e.2.2.length (cellDim info.ele)).Unity := by
  have hv : ∀ x : Nat → K, ∑ i : Fin e.2.2.length, shapeValue info i x = 1 := by
    intro x
    have h := C69_values he hi (1 : K) (fun _ => 0) (fun _ _ => 0) (fun _ _ _ => rfl) x
    simp only [quadPoly, zero_mul, Finset.sum_const_zero, add_zero, one_mul] at h
    rw [← h, Finset.sum_range]
  have hg : ∀ (x : Nat → K) (d : Fin (cellDim info.ele)), ∑ i : Fin e.2.2.length, shapeGrad info i x d = 0 := by
    intro x d
    have h := C69_grads he hi (1 : K) (fun _ => 0) (fun _ _ => 0) (fun _ _ _ => rfl) x d.2
    simp only [quadPoly, quadPolyGrad, zero_mul, Finset.sum_const_zero, add_zero, one_mul] at h
    rw [← h, Finset.sum_range]
  exact ⟨fun q => ⟨hv _, hg _⟩, fun f q => ⟨hv _, hg _⟩⟩

/-- **C69 (derivatives).** Over the reals the tabulated gradients are the partial derivatives of the tabulated
values. -/
theorem C69_derivative {e : String × String × List (List Nat)} (he : e ∈ meshNodes) {info : ElementInfo}
    (hi : getElements e.1 = .ok info) {i : Nat} (hlt : i < e.2.2.length) (x : Nat → ℝ) {d : Nat}
    (hd : d < cellDim info.ele) :
    HasDerivAt (fun t => shapeValue info i (Function.update x d t)) (shapeGrad info i x d) (x d) := by
  have hp : e.2.2[i]? = some e.2.2[i] := List.getElem?_eq_getElem hlt
  simp only [shapeValue_node he hi hp, shapeGrad_node he hi hp]
  unfold nodeFn nodeGrad
  cases info.family
  · exact lagrange_deriv _ _ _ _ hd
  · exact serendipity_deriv _ _ _ hd

theorem mappedQuad_eq (info : ElementInfo) (h1 : info.ele = .quadrilateral) (h3 : info.faceEle = .interval) {f : Nat}
    (hf : f < 4) (xi : Nat → K) : mappedPoint info f xi = facetPoint info.ele f xi := by
  have h2 : (2 : K) ≠ 0 := two_ne_zero
  funext d
  rcases d with _ | _ | d <;> interval_cases f <;>
    simp [mappedPoint, facetPoint, facetVertices, h1, h3, basixFacets, basixEdges, lag1, basixVertices, facetValue,
      lagrangeFn, List.mapIdx_cons]

theorem mappedTri_eq (info : ElementInfo) (h1 : info.ele = .triangle) (h3 : info.faceEle = .interval) {f : Nat}
    (hf : f < 3) (xi : Nat → K) : mappedPoint info f xi = facetPoint info.ele f xi := by
  have h2 : (2 : K) ≠ 0 := two_ne_zero
  funext d
  rcases d with _ | _ | d <;> interval_cases f <;>
    simp [mappedPoint, facetPoint, facetVertices, h1, h3, basixFacets, basixEdges, lag1, basixVertices, facetValue,
      lagrangeFn, List.mapIdx_cons] <;> ring

theorem mappedTet_eq (info : ElementInfo) (h1 : info.ele = .tetrahedron) (h3 : info.faceEle = .triangle) {f : Nat}
    (hf : f < 4) (xi : Nat → K) : mappedPoint info f xi = facetPoint info.ele f xi := by
  have h2 : (2 : K) ≠ 0 := two_ne_zero
  funext d
  rcases d with _ | _ | _ | d <;> interval_cases f <;>
    simp [mappedPoint, facetPoint, facetVertices, h1, h3, basixFacets, bary, basixVertices, facetValue,
      lagrangeFn, List.mapIdx_cons] <;> ring

set_option maxHeartbeats 800000 in
theorem mappedHex_eq (info : ElementInfo) (h1 : info.ele = .hexahedron) (h3 : info.faceEle = .quadrilateral) {f : Nat}
    (hf : f < 6) (xi : Nat → K) : mappedPoint info f xi = facetPoint info.ele f xi := by
  have h2 : (2 : K) ≠ 0 := two_ne_zero
  funext d
  rcases d with _ | _ | _ | d <;> interval_cases f <;>
    simp [mappedPoint, facetPoint, facetVertices, h1, h3, basixFacets, basixQuadFaces, lag1, basixVertices, facetValue,
      lagrangeFn, List.mapIdx_cons] <;> ring

/-- The mapped facet points are the points of the facet. -/
theorem mappedPoint_eq {e : String × String × List (List Nat)} (he : e ∈ meshNodes) {info : ElementInfo}
    (hi : getElements e.1 = .ok info) {f : Nat} (hf : f < (basixFacets info.ele).length) (xi : Nat → K) :
    mappedPoint info f xi = facetPoint info.ele f xi := by
  have key : (info.ele = .quadrilateral ∧ info.faceEle = .interval) ∨ (info.ele = .triangle ∧ info.faceEle = .interval) ∨
      (info.ele = .tetrahedron ∧ info.faceEle = .triangle) ∨
      (info.ele = .hexahedron ∧ info.faceEle = .quadrilateral) := by
    simp only [meshNodes, List.mem_cons, List.not_mem_nil, or_false, List.cons_append, List.nil_append] at he
    rcases he with rfl | rfl | rfl | rfl | rfl | rfl | rfl | rfl | rfl <;>
    · have hi2 := Except.ok.inj hi
      subst hi2
      decide
  rcases key with ⟨h1, h3⟩ | ⟨h1, h3⟩ | ⟨h1, h3⟩ | ⟨h1, h3⟩
  · exact mappedQuad_eq info h1 h3 (by rw [h1] at hf; exact hf) xi
  · exact mappedTri_eq info h1 h3 (by rw [h1] at hf; exact hf) xi
  · exact mappedTet_eq info h1 h3 (by rw [h1] at hf; exact hf) xi
  · exact mappedHex_eq info h1 h3 (by rw [h1] at hf; exact hf) xi

/-- **C69 (faces).** The face tables hold the values and the partial derivatives of the shape functions of the cell at
the points of the face. -/
theorem C69_face {e : String × String × List (List Nat)} (he : e ∈ meshNodes) {info : ElementInfo}
    (hi : getElements e.1 = .ok info) {i : Nat} (hlt : i < e.2.2.length) {f : Nat}
    (hf : f < (basixFacets info.ele).length) (xi : Nat → ℝ) :
    faceShapeValue info f i xi = shapeValue info i (facetPoint info.ele f xi) ∧
    ∀ d < cellDim info.ele, HasDerivAt (fun t => shapeValue info i (Function.update (facetPoint info.ele f xi) d t))
      (faceShapeGrad info f i xi d) (facetPoint info.ele f xi d) := by
  rw [faceShapeValue, ← mappedPoint_eq he hi hf]
  exact ⟨rfl, fun d hd => C69_derivative he hi hlt _ hd⟩

/-- **C69 (tables).** The arrays handed to the kernels: entry `(f, q, a)` of the face values and `(f, q, a, d)` of the face gradients are the
value and the partial derivative of function `a` of the cell at point `q` of face `f`, and likewise in the cell. -/
theorem C69_tables {e : String × String × List (List Nat)} (he : e ∈ meshNodes) {info : ElementInfo}
    (hi : getElements e.1 = .ok info) {nq nfq fdim : Nat} (pts : Fin nq → Fin (cellDim info.ele) → ℝ) (w : Fin nq → ℝ)
    (fpts : Fin nfq → Fin fdim → ℝ) (fw : Nat → Fin nfq → ℝ) (normals : Nat → Fin (cellDim info.ele) → ℝ) :
    (∀ q (a : Fin e.2.2.length), (tabulateInfo info pts w : RefElement ℝ nq e.2.2.length (cellDim info.ele)).shapeVals q a
        = shapeValue info a (extend (pts q)) ∧
      ∀ d : Fin (cellDim info.ele), HasDerivAt (fun t => shapeValue info a (Function.update (extend (pts q)) d t))
        ((tabulateInfo info pts w : RefElement ℝ nq e.2.2.length (cellDim info.ele)).shapeGradsRef q a d) (pts q d)) ∧
    ∀ f < (basixFacets info.ele).length, ∀ q (a : Fin e.2.2.length),
      (tabulateFaces info fpts fw normals : RefFaces ℝ nfq e.2.2.length (cellDim info.ele)).shapeVals f q a
        = shapeValue info a (facetPoint info.ele f (extend (fpts q))) ∧
      ∀ d : Fin (cellDim info.ele), HasDerivAt
        (fun t => shapeValue info a (Function.update (facetPoint info.ele f (extend (fpts q))) d t))
        ((tabulateFaces info fpts fw normals : RefFaces ℝ nfq e.2.2.length (cellDim info.ele)).shapeGradsRef f q a d)
        (facetPoint info.ele f (extend (fpts q)) d) := by
  refine ⟨fun q a => ⟨rfl, fun d => ?_⟩, fun f hf q a => ⟨(C69_face he hi a.2 hf _).1, fun d => (C69_face he hi a.2 hf _).2 d d.2⟩⟩
  have h := C69_derivative he hi a.2 (extend (pts q)) d.2
  have e1 : extend (pts q) d = pts q d := by simp [extend]
  rwa [e1] at h

/-- **C69 (limits of the serendipity elements).** QUAD8 and HEX20 do not reproduce quadratic polynomials from values at
the nodes, and their edge functions are not nodal: at its own node the function of a mid-edge node is `3 / 2`. The
entries of a solution that belong to edge nodes are mean values on the edges, not values at the nodes. -/
theorem C69_serendipity_counterexample {e : String × String × List (List Nat)} (he : e ∈ meshNodes)
    {info : ElementInfo} (hi : getElements e.1 = .ok info) (hs : info.family = .serendipity) :
    (∃ x : Nat → K, ∑ i ∈ Finset.range e.2.2.length,
      (halfPoint K (e.2.2.getD i []) 0) ^ 2 * shapeValue info i x ≠ (x 0) ^ 2) ∧
    ∀ i pos, e.2.2[i]? = some pos → 1 ∈ pos → shapeValue info i (halfPoint K pos) = 3 / 2 := by
  constructor
  · refine ⟨fun d => if d = 0 then 1 / 2 else 0, ?_⟩
    rw [sum_range_list (K := K) e.2.2 _ (fun pos => (halfPoint K pos 0) ^ 2 *
      nodeFn info pos (fun d => if d = 0 then (1 / 2 : K) else 0))
      (fun i pos hp => by rw [shapeValue_node he hi hp, List.getD_eq_getElem?_getD, hp]; rfl)]
    simp only [meshNodes, List.mem_cons, List.not_mem_nil, or_false, List.cons_append, List.nil_append] at he
    rcases he with rfl | rfl | rfl | rfl | rfl | rfl | rfl | rfl | rfl <;>
    · have hi2 := Except.ok.inj hi
      subst hi2
      first
      | exact absurd hs (by decide)
      | norm_num [nodeFn, halfPoint, serendipityFn, ser1, away]
  · intro i pos hp hm
    rw [shapeValue_node he hi hp]
    have hmem := List.mem_of_getElem? hp
    simp only [meshNodes, List.mem_cons, List.not_mem_nil, or_false, List.cons_append, List.nil_append] at he
    rcases he with rfl | rfl | rfl | rfl | rfl | rfl | rfl | rfl | rfl <;>
    · have hi2 := Except.ok.inj hi
      subst hi2
      first
      | exact absurd hs (by decide)
      | simp only [List.mem_cons, List.not_mem_nil, or_false] at hmem
        rcases hmem with h | h | h | h | h | h | h | h | h | h | h | h | h | h | h | h | h | h | h | h <;> subst h <;>
          first
          | exact absurd hm (by decide)
          | norm_num [nodeFn, halfPoint, serendipityFn, ser1, away]
      | simp only [List.mem_cons, List.not_mem_nil, or_false] at hmem
        rcases hmem with h | h | h | h | h | h | h | h <;> subst h <;>
          first
          | exact absurd hm (by decide)
          | norm_num [nodeFn, halfPoint, serendipityFn, ser1, away]

/-! Non-vacuity: the ten-node tetrahedron and a quadratic with all terms; a serendipity element. -/

example : ∃ e ∈ meshNodes, ∃ info, getElements e.1 = .ok info ∧ info.degree = 2 ∧ info.family = .P ∧
    e.2.2.length = 10 ∧ quadPoly (cellDim info.ele) (1 : ℚ) (fun i => i) (fun i j => i + j) (fun _ => 1) = 22 :=
  ⟨meshNodes.getD 5 ("", "", []), by decide, ⟨.P, .tetrahedron, .triangle, 2, 2, [0, 1, 2, 3, 9, 6, 8, 7, 5, 4]⟩, rfl,
    rfl, rfl, rfl, by norm_num [quadPoly, cellDim, Finset.sum_range_succ]⟩

example : ∃ e ∈ meshNodes, ∃ info, getElements e.1 = .ok info ∧ info.family = .serendipity ∧ e.2.2.length = 20 :=
  ⟨meshNodes.getD 7 ("", "", []), by decide, _, rfl, rfl, rfl⟩

end JaxFem
