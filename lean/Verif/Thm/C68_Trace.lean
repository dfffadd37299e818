import Verif.Spec.Trace
import Verif.Thm.C40_Elements
import Mathlib.Tactic.FieldSimp
import Mathlib.Tactic.Ring
import Mathlib.Tactic.IntervalCases
import Mathlib.Tactic.LinearCombination
import Mathlib.Algebra.CharZero.Defs

/-!
# C68: element functions on facets
-/

namespace JaxFem

variable {K : Type} [Field K] [CharZero K]

/-! ### Restriction to one facet -/

/-- Coordinate fixed on facet `f`: its number and value (half units); `none` for the facet on which the
coordinates sum to one. -/
def facetEq : CellType → Nat → Option (Nat × Nat)
  | .quadrilateral, 0 => some (1, 0)
  | .quadrilateral, 1 => some (0, 0)
  | .quadrilateral, 2 => some (0, 2)
  | .quadrilateral, 3 => some (1, 2)
  | .hexahedron, 0 => some (2, 0)
  | .hexahedron, 1 => some (1, 0)
  | .hexahedron, 2 => some (0, 0)
  | .hexahedron, 3 => some (0, 2)
  | .hexahedron, 4 => some (1, 2)
  | .hexahedron, 5 => some (2, 2)
  | .triangle, 1 => some (0, 0)
  | .triangle, 2 => some (1, 0)
  | .tetrahedron, 1 => some (0, 0)
  | .tetrahedron, 2 => some (1, 0)
  | .tetrahedron, 3 => some (2, 0)
  | _, _ => none

/-- Whether a position is on facet `f`. -/
def onFacet (cell : CellType) (f : Nat) (pos : List Nat) : Bool :=
  match facetEq cell f with
  | some (d, v) => pos.getD d 0 == v
  | none => pos.sum == 2

/-- Facet position of a position on the facet: the remaining coordinates. -/
def facetProj (cell : CellType) (f : Nat) (pos : List Nat) : List Nat :=
  match facetEq cell f with
  | some (d, _) => pos.eraseIdx d
  | none => pos.eraseIdx 0

theorem lag1_zero (deg pos : Nat) (hd : deg = 1 ∨ deg = 2) : lag1 deg pos (0 : K) = if pos = 0 then 1 else 0 := by
  rcases hd with rfl | rfl <;> unfold lag1 <;> split_ifs <;> simp_all

theorem lag1_one (deg pos : Nat) (hd : deg = 1 ∨ deg = 2) : lag1 deg pos (1 : K) = if pos = 2 then 1 else 0 := by
  rcases hd with rfl | rfl <;> unfold lag1 <;> split_ifs <;> simp_all <;> norm_num

theorem bary_zero (deg pos : Nat) (hd : deg = 1 ∨ deg = 2) : bary deg pos (0 : K) = if pos = 0 then 1 else 0 := by
  rcases hd with rfl | rfl <;> unfold bary <;> split_ifs <;> simp_all

/-- Interval functions in barycentric form. -/
theorem lag1_bary (deg pos : Nat) (hd : deg = 1 ∨ deg = 2) (hp : pos ≤ 2) (h1 : deg = 1 → pos ≠ 1) (x : K) :
    lag1 deg pos x = bary deg (2 - pos) (1 - x) * bary deg pos x := by
  have : pos = 0 ∨ pos = 1 ∨ pos = 2 := by omega
  rcases hd with rfl | rfl <;> rcases this with rfl | rfl | rfl <;> simp [lag1, bary] at h1 ⊢ <;> first | ring1 | tauto | exact Or.inl (by ring)

theorem mapped_quad (info : ElementInfo) (he : info.ele = .quadrilateral) (hf : info.faceEle = .interval)
    (f : Nat) (h : f < 4) (xi : Nat → K) :
    (mappedPoint info f xi 0, mappedPoint info f xi 1) =
      (![(xi 0, 0), (0, xi 0), (1, xi 0), (xi 0, 1)] : Fin 4 → K × K) ⟨f, h⟩ := by
  have h2 : (2 : K) ≠ 0 := two_ne_zero
  interval_cases f <;>
    simp [mappedPoint, he, hf, basixFacets, basixEdges, basixVertices, facetValue, lagrangeFn, lag1, List.mapIdx_cons]

theorem mapped_tri (info : ElementInfo) (he : info.ele = .triangle) (hf : info.faceEle = .interval)
    (f : Nat) (h : f < 3) (xi : Nat → K) :
    (mappedPoint info f xi 0, mappedPoint info f xi 1) =
      (![(1 - xi 0, xi 0), (0, xi 0), (xi 0, 0)] : Fin 3 → K × K) ⟨f, h⟩ := by
  have h2 : (2 : K) ≠ 0 := two_ne_zero
  interval_cases f <;>
    simp [mappedPoint, he, hf, basixFacets, basixEdges, basixVertices, facetValue, lagrangeFn, lag1, List.mapIdx_cons]

theorem mapped_tet (info : ElementInfo) (he : info.ele = .tetrahedron) (hf : info.faceEle = .triangle)
    (f : Nat) (h : f < 4) (xi : Nat → K) :
    (mappedPoint info f xi 0, mappedPoint info f xi 1, mappedPoint info f xi 2) =
      (![(1 - xi 0 - xi 1, xi 0, xi 1), (0, xi 0, xi 1), (xi 0, 0, xi 1), (xi 0, xi 1, 0)] : Fin 4 → K × K × K)
        ⟨f, h⟩ := by
  have h2 : (2 : K) ≠ 0 := two_ne_zero
  interval_cases f <;>
    simp [mappedPoint, he, hf, basixFacets, basixVertices, facetValue, lagrangeFn, bary, List.mapIdx_cons]

theorem mapped_hex (info : ElementInfo) (he : info.ele = .hexahedron) (hf : info.faceEle = .quadrilateral)
    (f : Nat) (h : f < 6) (xi : Nat → K) :
    (mappedPoint info f xi 0, mappedPoint info f xi 1, mappedPoint info f xi 2) =
      (![(xi 0, xi 1, 0), (xi 0, 0, xi 1), (0, xi 0, xi 1), (1, xi 0, xi 1), (xi 0, 1, xi 1), (xi 0, xi 1, 1)] :
        Fin 6 → K × K × K) ⟨f, h⟩ := by
  have h2 : (2 : K) ≠ 0 := two_ne_zero
  interval_cases f <;>
    simp [mappedPoint, he, hf, basixFacets, basixQuadFaces, basixVertices, facetValue, lagrangeFn, lag1,
      List.mapIdx_cons] <;>
    (try constructor) <;> (try constructor) <;> ring

/-- Lagrange function on a facet of a quadrilateral. -/
theorem restrict_quad (info : ElementInfo) (he : info.ele = .quadrilateral) (hf : info.faceEle = .interval)
    (hd : info.degree = 1 ∨ info.degree = 2) (f : Nat) (h : f < 4) (a b : Nat) (xi : Nat → K) :
    lagrangeFn info.ele info.degree [a, b] (mappedPoint info f xi) =
      if onFacet info.ele f [a, b] then lagrangeFn info.faceEle info.degree (facetProj info.ele f [a, b]) xi else 0 := by
  have e := mapped_quad info he hf f h xi
  rw [he, hf]
  interval_cases f <;> simp at e <;>
    simp [lagrangeFn, e, onFacet, facetProj, facetEq, lag1_zero _ _ hd, lag1_one _ _ hd]

theorem restrict_hex (info : ElementInfo) (he : info.ele = .hexahedron) (hf : info.faceEle = .quadrilateral)
    (hd : info.degree = 1 ∨ info.degree = 2) (f : Nat) (h : f < 6) (a b c : Nat) (xi : Nat → K) :
    lagrangeFn info.ele info.degree [a, b, c] (mappedPoint info f xi) =
      if onFacet info.ele f [a, b, c] then lagrangeFn info.faceEle info.degree (facetProj info.ele f [a, b, c]) xi
      else 0 := by
  have e := mapped_hex info he hf f h xi
  rw [he, hf]
  interval_cases f <;> simp at e <;>
    simp [lagrangeFn, e, onFacet, facetProj, facetEq, lag1_zero _ _ hd, lag1_one _ _ hd]

theorem restrict_tri (info : ElementInfo) (he : info.ele = .triangle) (hf : info.faceEle = .interval)
    (hd : info.degree = 1 ∨ info.degree = 2) (f : Nat) (h : f < 3) (a b : Nat) (hab : a + b ≤ 2)
    (h1 : info.degree = 1 → a ≠ 1 ∧ b ≠ 1) (xi : Nat → K) :
    lagrangeFn info.ele info.degree [a, b] (mappedPoint info f xi) =
      if onFacet info.ele f [a, b] then lagrangeFn info.faceEle info.degree (facetProj info.ele f [a, b]) xi else 0 := by
  have e := mapped_tri info he hf f h xi
  rw [he, hf]
  interval_cases f <;> simp at e
  · have hs : 1 - mappedPoint info 0 xi 0 - mappedPoint info 0 xi 1 = 0 := by
      rw [e.1, e.2]; simp
    by_cases hh : a + b = 2
    · have ha : a = 2 - b := by omega
      have h0 : 2 - (2 - b) - b = 0 := by omega
      subst ha
      have hb : b ≤ 2 := by omega
      simp [lagrangeFn, e, onFacet, facetProj, facetEq, bary_zero _ _ hd,
        lag1_bary _ _ hd hb (fun h => (h1 h).2), h0, hb]
    · have h0 : 2 - a - b ≠ 0 := by omega
      simp [lagrangeFn, hs, onFacet, facetProj, facetEq, bary_zero _ _ hd, h0, hh]
  · by_cases hh : a = 0
    · subst hh
      have hb : b ≤ 2 := by omega
      simp [lagrangeFn, e, onFacet, facetProj, facetEq, bary_zero _ _ hd,
        lag1_bary _ _ hd hb (fun h => (h1 h).2)]
    · simp [lagrangeFn, e, onFacet, facetEq, bary_zero _ _ hd, hh]
  · by_cases hh : b = 0
    · subst hh
      have ha : a ≤ 2 := by omega
      simp [lagrangeFn, e, onFacet, facetProj, facetEq, bary_zero _ _ hd,
        lag1_bary _ _ hd ha (fun h => (h1 h).1)]
    · simp [lagrangeFn, e, onFacet, facetEq, bary_zero _ _ hd, hh]

theorem restrict_tet (info : ElementInfo) (he : info.ele = .tetrahedron) (hf : info.faceEle = .triangle)
    (hd : info.degree = 1 ∨ info.degree = 2) (f : Nat) (h : f < 4) (a b c : Nat) (habc : a + b + c ≤ 2)
    (xi : Nat → K) :
    lagrangeFn info.ele info.degree [a, b, c] (mappedPoint info f xi) =
      if onFacet info.ele f [a, b, c] then lagrangeFn info.faceEle info.degree (facetProj info.ele f [a, b, c]) xi
      else 0 := by
  have e := mapped_tet info he hf f h xi
  rw [he, hf]
  interval_cases f <;> simp at e
  · have hs : 1 - mappedPoint info 0 xi 0 - mappedPoint info 0 xi 1 - mappedPoint info 0 xi 2 = 0 := by
      rw [e.1, e.2.1, e.2.2]; ring
    by_cases hh : a + b + c = 2
    · have ha : a = 2 - b - c := by omega
      have h0 : 2 - (2 - b - c) - b - c = 0 := by omega
      have h3 : 2 - b - c + (b + c) = 2 := by omega
      subst ha
      simp [lagrangeFn, hs, onFacet, facetProj, facetEq, bary_zero _ _ hd, h0, h3]
      rw [e.1, e.2.1, e.2.2]
    · have h0 : 2 - a - b - c ≠ 0 := by omega
      have h3 : ¬ (a + (b + c) = 2) := by omega
      simp [lagrangeFn, hs, onFacet, facetEq, bary_zero _ _ hd, h0, h3]
  · by_cases hh : a = 0
    · subst hh
      simp [lagrangeFn, e, onFacet, facetProj, facetEq, bary_zero _ _ hd]
    · simp [lagrangeFn, e, onFacet, facetEq, bary_zero _ _ hd, hh]
  · by_cases hh : b = 0
    · subst hh
      simp [lagrangeFn, e, onFacet, facetProj, facetEq, bary_zero _ _ hd]
    · simp [lagrangeFn, e, onFacet, facetEq, bary_zero _ _ hd, hh]
  · by_cases hh : c = 0
    · subst hh
      simp [lagrangeFn, e, onFacet, facetProj, facetEq, bary_zero _ _ hd]
    · simp [lagrangeFn, e, onFacet, facetEq, bary_zero _ _ hd, hh]

/-! ### Tables -/

/-- Finite facts about a supported type: shape of the reference cell and its facets, positions of the
nodes. -/
def TraceOK (e : String × String × List (List Nat)) (info : ElementInfo) : Bool :=
  (info.family == .serendipity) ||
  ((info.degree == 1 || info.degree == 2) &&
    ((info.ele == .quadrilateral && info.faceEle == .interval) || (info.ele == .hexahedron && info.faceEle == .quadrilateral) ||
      (info.ele == .triangle && info.faceEle == .interval) || (info.ele == .tetrahedron && info.faceEle == .triangle)) &&
    e.2.2.all fun pos =>
      (pos.length == (if info.ele == .quadrilateral || info.ele == .triangle then 2 else 3)) &&
      (info.degree == 2 || pos.all fun x => x != 1) &&
      ((info.ele == .quadrilateral || info.ele == .hexahedron) || pos.sum ≤ 2) &&
      (List.range (basixFacets info.ele).length).all fun f =>
        let etas := (facetPositions info.faceEle info.degree).filter fun eta =>
          IsFacetNode info.faceEle (facetVertices info.ele f) eta pos
        if onFacet info.ele f pos then etas == [facetProj info.ele f pos] else etas == [])

theorem trace_tables : ∀ e ∈ meshNodes, (match getElements e.1 with
    | .ok info => TraceOK e info
    | .error _ => false) = true := by
  decide +kernel

theorem trace_info {e : String × String × List (List Nat)} (he : e ∈ meshNodes) {info : ElementInfo}
    (hi : getElements e.1 = .ok info) : TraceOK e info = true := by
  have := trace_tables e he
  rw [hi] at this
  exact this

/-- Node `i` gets the Lagrange function of its own position. -/
theorem shapeValue_eq {e : String × String × List (List Nat)} (he : e ∈ meshNodes) {info : ElementInfo}
    (hi : getElements e.1 = .ok info) (hP : info.family = .P) {i : Nat} {pos : List Nat}
    (hp : e.2.2[i]? = some pos) (p : Nat → K) : shapeValue info i p = lagrangeFn info.ele info.degree pos p := by
  obtain ⟨info', hi', -, h⟩ := C40_tables e he
  rw [hi] at hi'
  cases hi'
  have h2 := congrArg (·[i]?) h
  simp only [List.getElem?_map, hp, Option.map_some] at h2
  rcases h3 : info.reOrder[i]? with _ | k
  · rw [h3] at h2; cases h2
  rw [h3] at h2
  simp only [Option.map_some, Option.some.injEq] at h2
  unfold shapeValue reorderedShape basixShape
  rw [List.getD_eq_getElem?_getD, h3]
  simp only [Option.getD_some, hP]
  rw [List.getD_eq_getElem?_getD, h2]
  rfl

/-- Value on a facet, in terms of the equation of the facet. -/
theorem faceShapeValue_eq {e : String × String × List (List Nat)} (he : e ∈ meshNodes) {info : ElementInfo}
    (hi : getElements e.1 = .ok info) (hP : info.family = .P) {f : Nat} (hf : f < (basixFacets info.ele).length)
    {i : Nat} {pos : List Nat} (hp : e.2.2[i]? = some pos) (xi : Nat → K) :
    faceShapeValue info f i xi = (if onFacet info.ele f pos then
        lagrangeFn info.faceEle info.degree (facetProj info.ele f pos) xi else 0) ∧
      (facetPositions info.faceEle info.degree).filter (fun eta =>
          IsFacetNode info.faceEle (facetVertices info.ele f) eta pos) =
        if onFacet info.ele f pos then [facetProj info.ele f pos] else [] := by
  have ht := trace_info he hi
  unfold TraceOK at ht
  rw [hP] at ht
  simp only [Bool.or_eq_true, Bool.and_eq_true, List.all_eq_true, beq_iff_eq, bne_iff_ne, decide_eq_true_eq,
    reduceCtorEq, false_or, List.mem_range] at ht
  obtain ⟨⟨hd, hc⟩, hall⟩ := ht
  obtain ⟨⟨⟨hlen, h1⟩, hsum⟩, hfs⟩ := hall pos (List.mem_of_getElem? hp)
  have hfl := hfs f hf
  constructor
  · unfold faceShapeValue
    rw [shapeValue_eq he hi hP hp]
    rcases hc with ((⟨h, h'⟩ | ⟨h, h'⟩) | ⟨h, h'⟩) | ⟨h, h'⟩
    · rw [if_pos (by rw [h]; exact Or.inl rfl)] at hlen
      match pos, hlen with
      | [a, b], _ => exact restrict_quad info h h' hd f (by rw [h] at hf; exact hf) a b xi
    · rw [if_neg (by rw [h]; decide)] at hlen
      match pos, hlen with
      | [a, b, c], _ => exact restrict_hex info h h' hd f (by rw [h] at hf; exact hf) a b c xi
    · rw [if_pos (by rw [h]; exact Or.inr rfl)] at hlen
      have hs := hsum.resolve_left (by rw [h]; decide)
      match pos, hlen with
      | [a, b], _ =>
        refine restrict_tri info h h' hd f (by rw [h] at hf; exact hf) a b (by simpa using hs) ?_ xi
        intro hdeg
        have h2 := h1.resolve_left (by rw [hdeg]; decide)
        exact ⟨h2 a (by simp), h2 b (by simp)⟩
    · rw [if_neg (by rw [h]; decide)] at hlen
      have hs := hsum.resolve_left (by rw [h]; decide)
      match pos, hlen with
      | [a, b, c], _ =>
        exact restrict_tet info h h' hd f (by rw [h] at hf; exact hf) a b c
          (by simp only [List.sum_cons, List.sum_nil] at hs; omega) xi
  · split_ifs at hfl ⊢ with ho
    · simpa using hfl
    · simpa using hfl

/-! ### Property theorems -/

/-- **C68 (facet values).** Every Lagrange element type, every facet and every point of the facet: the function
of a node at facet position `eta` is the facet's own Lagrange function for `eta`, and the function of a node that
is not on the facet vanishes. -/
theorem C68_facet {e : String × String × List (List Nat)} (he : e ∈ meshNodes) {info : ElementInfo}
    (hi : getElements e.1 = .ok info) (hP : info.family = .P) {f : Nat} (hf : f < (basixFacets info.ele).length)
    {i : Nat} {pos : List Nat} (hp : e.2.2[i]? = some pos) (xi : Nat → K) :
    (∀ eta ∈ facetPositions info.faceEle info.degree, IsFacetNode info.faceEle (facetVertices info.ele f) eta pos →
      faceShapeValue info f i xi = lagrangeFn info.faceEle info.degree eta xi) ∧
    ((∀ eta ∈ facetPositions info.faceEle info.degree, ¬ IsFacetNode info.faceEle (facetVertices info.ele f) eta pos) →
      faceShapeValue info f i xi = 0) := by
  obtain ⟨h1, h2⟩ := faceShapeValue_eq (K := K) he hi hP hf hp xi
  constructor
  · intro eta hm hn
    have : eta ∈ (facetPositions info.faceEle info.degree).filter (fun eta =>
          IsFacetNode info.faceEle (facetVertices info.ele f) eta pos) :=
      List.mem_filter.2 ⟨hm, by simpa using hn⟩
    rw [h2] at this
    split_ifs at this with ho
    · rw [h1, if_pos ho, List.mem_singleton.1 this]
    · cases this
  · intro hn
    have : (facetPositions info.faceEle info.degree).filter (fun eta =>
          IsFacetNode info.faceEle (facetVertices info.ele f) eta pos) = [] := by
      rw [List.filter_eq_nil_iff]
      intro eta hm
      simpa using hn eta hm
    rw [h2] at this
    split_ifs at this with ho
    rw [h1, if_neg ho]

/-- Number of the node of the mesh at position `eta` of facet `f`. -/
def facetNode (e : String × String × List (List Nat)) (info : ElementInfo) (f : Nat) (eta : List Nat) : Nat :=
  e.2.2.findIdx fun pos => IsFacetNode info.faceEle (facetVertices info.ele f) eta pos

theorem facetNode_tables : ∀ e ∈ meshNodes, (match getElements e.1 with
    | .ok info => info.family == .serendipity || (List.range (basixFacets info.ele).length).all fun f =>
        (facetPositions info.faceEle info.degree).all fun eta =>
          ((List.range e.2.2.length).filter fun i =>
            IsFacetNode info.faceEle (facetVertices info.ele f) eta (e.2.2.getD i [])) == [facetNode e info f eta]
    | .error _ => false) = true := by
  decide +kernel

theorem facetNode_spec {e : String × String × List (List Nat)} (he : e ∈ meshNodes) {info : ElementInfo}
    (hi : getElements e.1 = .ok info) (hP : info.family = .P) {f : Nat} (hf : f < (basixFacets info.ele).length)
    {eta : List Nat} (hm : eta ∈ facetPositions info.faceEle info.degree) :
    facetNode e info f eta < e.2.2.length ∧ ∀ i, i < e.2.2.length →
      (IsFacetNode info.faceEle (facetVertices info.ele f) eta (e.2.2.getD i []) ↔ i = facetNode e info f eta) := by
  have ht := facetNode_tables e he
  rw [hi] at ht
  simp only [hP, Bool.or_eq_true, List.all_eq_true, beq_iff_eq, reduceCtorEq, false_or, List.mem_range] at ht
  have h := ht f hf eta hm
  constructor
  · have : facetNode e info f eta ∈ (List.range e.2.2.length).filter fun i =>
        IsFacetNode info.faceEle (facetVertices info.ele f) eta (e.2.2.getD i []) := by rw [h]; simp
    exact List.mem_range.1 (List.mem_filter.1 this).1
  · intro i hlt
    have h2 : i ∈ ((List.range e.2.2.length).filter fun i =>
        IsFacetNode info.faceEle (facetVertices info.ele f) eta (e.2.2.getD i [])) ↔ i = facetNode e info f eta := by
      rw [h, List.mem_singleton]
    rw [← h2, List.mem_filter, List.mem_range]
    simp [hlt]

theorem sum_map_ite_filter {α : Type} (l : List α) (P : α → Prop) [DecidablePred P] (g : α → K) :
    (l.map fun x => if P x then g x else 0).sum = ((l.filter fun x => P x).map g).sum := by
  induction l with
  | nil => rfl
  | cons a l ih =>
    by_cases h : P a
    · simp [h, ih]
    · simp [h, ih]

theorem faceShapeValue_sum {e : String × String × List (List Nat)} (he : e ∈ meshNodes) {info : ElementInfo}
    (hi : getElements e.1 = .ok info) (hP : info.family = .P) {f : Nat} (hf : f < (basixFacets info.ele).length)
    {i : Nat} (hlt : i < e.2.2.length) (xi : Nat → K) :
    faceShapeValue info f i xi = ((facetPositions info.faceEle info.degree).map fun eta =>
      if i = facetNode e info f eta then lagrangeFn info.faceEle info.degree eta xi else 0).sum := by
  have hp : e.2.2[i]? = some (e.2.2.getD i []) := by
    rw [List.getD_eq_getElem _ _ hlt, List.getElem?_eq_getElem hlt]
  obtain ⟨h1, h2⟩ := faceShapeValue_eq (K := K) he hi hP hf hp xi
  have h3 : ((facetPositions info.faceEle info.degree).map fun eta =>
      if i = facetNode e info f eta then lagrangeFn info.faceEle info.degree eta xi else 0) =
      (facetPositions info.faceEle info.degree).map fun eta =>
        if IsFacetNode info.faceEle (facetVertices info.ele f) eta (e.2.2.getD i []) then
          lagrangeFn info.faceEle info.degree eta xi else 0 := by
    refine List.map_congr_left fun eta hm => ?_
    exact if_congr ((facetNode_spec he hi hP hf hm).2 i hlt).symm rfl rfl
  rw [h3, sum_map_ite_filter, h2, h1]
  split_ifs <;> simp

/-- **C68 (interpolation).** On a facet, interpolation of nodal values with the functions of the element is
interpolation of the values at the facet's own nodes with the facet's own functions. -/
theorem C68_interpolation {e : String × String × List (List Nat)} (he : e ∈ meshNodes) {info : ElementInfo}
    (hi : getElements e.1 = .ok info) (hP : info.family = .P) {f : Nat} (hf : f < (basixFacets info.ele).length) :
    ∃ node : List Nat → Nat,
      (∀ eta ∈ facetPositions info.faceEle info.degree, ∃ pos, e.2.2[node eta]? = some pos ∧
        IsFacetNode info.faceEle (facetVertices info.ele f) eta pos) ∧
      ∀ (u : Nat → K) (xi : Nat → K), ∑ i ∈ Finset.range e.2.2.length, u i * faceShapeValue info f i xi =
        ((facetPositions info.faceEle info.degree).map fun eta =>
          u (node eta) * lagrangeFn info.faceEle info.degree eta xi).sum := by
  refine ⟨facetNode e info f, ?_, ?_⟩
  · intro eta hm
    obtain ⟨hlt, hsp⟩ := facetNode_spec he hi hP hf hm
    refine ⟨e.2.2.getD (facetNode e info f eta) [], ?_, (hsp _ hlt).2 rfl⟩
    rw [List.getD_eq_getElem _ _ hlt, List.getElem?_eq_getElem hlt]
  · intro u xi
    rw [Finset.sum_congr rfl fun i hi' => by
      rw [faceShapeValue_sum he hi hP hf (Finset.mem_range.1 hi') xi]]
    have : ∀ l : List (List Nat), (∀ eta ∈ l, facetNode e info f eta < e.2.2.length) →
        ∑ i ∈ Finset.range e.2.2.length, u i * (l.map fun eta =>
          if i = facetNode e info f eta then lagrangeFn info.faceEle info.degree eta xi else 0).sum =
        (l.map fun eta => u (facetNode e info f eta) * lagrangeFn info.faceEle info.degree eta xi).sum := by
      intro l hl
      induction l with
      | nil => simp
      | cons a l ih =>
        simp only [List.map_cons, List.sum_cons, mul_add, Finset.sum_add_distrib]
        rw [ih fun eta h => hl eta (List.mem_cons_of_mem _ h)]
        congr 1
        simp only [mul_ite, mul_zero]
        rw [Finset.sum_ite_eq', if_pos (Finset.mem_range.2 (hl a List.mem_cons_self))]
    exact this _ fun eta hm => (facetNode_spec he hi hP hf hm).1

/-! ### Facets seen from two cells -/

theorem lag1_flip (deg pos : Nat) (hd : deg = 1 ∨ deg = 2) (hp : pos ≤ 2) (h1 : deg = 1 → pos ≠ 1) (x : K) :
    lag1 deg (2 - pos) (1 - x) = lag1 deg pos x := by
  have : pos = 0 ∨ pos = 1 ∨ pos = 2 := by omega
  rcases hd with rfl | rfl <;> rcases this with rfl | rfl | rfl <;> simp [lag1] at h1 ⊢ <;>
    first | ring1 | tauto | exact Or.inl (by ring)

/-- **C68 (symmetry).** The functions of a facet do not depend on how the facet is seen: for matched points and
matched positions they agree. -/
theorem C68_symmetric (cell : CellType) (deg : Nat) (hd : deg = 1 ∨ deg = 2) (σ : List Nat) (hσ : σ ∈ facetMatchings cell)
    (xi xi' : Nat → K) (hxi : SamePoint cell σ xi xi') (eta eta' : List Nat) (he : eta ∈ facetPositions cell deg)
    (he' : eta' ∈ facetPositions cell deg) (h : SamePosition cell σ eta eta') :
    lagrangeFn cell deg eta xi = lagrangeFn cell deg eta' xi' := by
  cases cell with
  | interval =>
    have hx : (σ = [0, 1] ∧ xi' 0 = xi 0) ∨ (σ = [1, 0] ∧ xi' 0 = 1 - xi 0) := by
      simp only [facetMatchings, List.mem_cons, List.not_mem_nil, or_false] at hσ
      rcases hσ with rfl | rfl
      · left
        refine ⟨rfl, ?_⟩
        have := hxi 1 (by decide)
        simpa [basixVertices, lagrangeFn, lag1] using this.symm
      · right
        refine ⟨rfl, ?_⟩
        have := hxi 0 (by decide)
        simpa [basixVertices, lagrangeFn, lag1] using this.symm
    have key : ∀ deg ∈ [1, 2], ∀ σ ∈ facetMatchings .interval, ∀ eta ∈ facetPositions .interval deg,
        ∀ eta' ∈ facetPositions .interval deg, SamePosition .interval σ eta eta' →
        (eta.getD 0 0 ≤ 2 ∧ (deg = 1 → eta.getD 0 0 ≠ 1)) ∧
        (σ = [0, 1] → eta' = eta) ∧ (σ = [1, 0] → eta' = [2 - eta.getD 0 0]) := by decide +kernel
    obtain ⟨⟨k1, k2⟩, k3, k4⟩ := key deg (by rcases hd with rfl | rfl <;> simp) σ hσ eta he eta' he' h
    rcases hx with ⟨rfl, hx⟩ | ⟨rfl, hx⟩
    · rw [k3 rfl]; simp only [lagrangeFn, hx]
    · rw [k4 rfl]
      simp only [lagrangeFn, hx, List.getD_cons_zero]
      exact (lag1_flip _ _ hd k1 k2 _).symm
  | triangle =>
    have key : ∀ deg ∈ [1, 2], ∀ σ ∈ facetMatchings .triangle, ∀ eta ∈ facetPositions .triangle deg,
        ∀ eta' ∈ facetPositions .triangle deg, SamePosition .triangle σ eta eta' →
        (σ = [0, 1, 2] → 2 - eta'.getD 0 0 - eta'.getD 1 0 = 2 - eta.getD 0 0 - eta.getD 1 0 ∧ eta'.getD 0 0 = eta.getD 0 0 ∧
          eta'.getD 1 0 = eta.getD 1 0) ∧
        (σ = [0, 2, 1] → 2 - eta'.getD 0 0 - eta'.getD 1 0 = 2 - eta.getD 0 0 - eta.getD 1 0 ∧ eta'.getD 0 0 = eta.getD 1 0 ∧
          eta'.getD 1 0 = eta.getD 0 0) ∧
        (σ = [1, 0, 2] → 2 - eta'.getD 0 0 - eta'.getD 1 0 = eta.getD 0 0 ∧ eta'.getD 0 0 = 2 - eta.getD 0 0 - eta.getD 1 0 ∧
          eta'.getD 1 0 = eta.getD 1 0) ∧
        (σ = [1, 2, 0] → 2 - eta'.getD 0 0 - eta'.getD 1 0 = eta.getD 1 0 ∧ eta'.getD 0 0 = 2 - eta.getD 0 0 - eta.getD 1 0 ∧
          eta'.getD 1 0 = eta.getD 0 0) ∧
        (σ = [2, 0, 1] → 2 - eta'.getD 0 0 - eta'.getD 1 0 = eta.getD 0 0 ∧ eta'.getD 0 0 = eta.getD 1 0 ∧
          eta'.getD 1 0 = 2 - eta.getD 0 0 - eta.getD 1 0) ∧
        (σ = [2, 1, 0] → 2 - eta'.getD 0 0 - eta'.getD 1 0 = eta.getD 1 0 ∧ eta'.getD 0 0 = eta.getD 0 0 ∧
          eta'.getD 1 0 = 2 - eta.getD 0 0 - eta.getD 1 0) := by decide +kernel
    have K' := key deg (by rcases hd with rfl | rfl <;> simp) σ hσ eta he eta' he' h
    have h0 := hxi 0
    have h1 := hxi 1
    have h2 := hxi 2
    simp only [facetMatchings, List.mem_cons, List.not_mem_nil, or_false] at hσ
    rcases hσ with rfl | rfl | rfl | rfl | rfl | rfl <;>
      simp [basixVertices, lagrangeFn, bary] at h0 h1 h2
    · obtain ⟨m0, m1, m2⟩ := K'.1 rfl
      have e0 : 1 - xi' 0 - xi' 1 = (1 - xi 0 - xi 1) := h0.symm
      have e1 : xi' 0 = (xi 0) := h1.symm
      have e2 : xi' 1 = (xi 1) := h2.symm
      simp only [lagrangeFn]
      rw [m0, m1, m2, e0, e1, e2]
      try ring
    · obtain ⟨m0, m1, m2⟩ := K'.2.1 rfl
      have e0 : 1 - xi' 0 - xi' 1 = (1 - xi 0 - xi 1) := h0.symm
      have e1 : xi' 0 = (xi 1) := h2.symm
      have e2 : xi' 1 = (xi 0) := h1.symm
      simp only [lagrangeFn]
      rw [m0, m1, m2, e0, e1, e2]
      ring
    · obtain ⟨m0, m1, m2⟩ := K'.2.2.1 rfl
      have e0 : 1 - xi' 0 - xi' 1 = (xi 0) := h1.symm
      have e1 : xi' 0 = (1 - xi 0 - xi 1) := h0.symm
      have e2 : xi' 1 = (xi 1) := h2.symm
      simp only [lagrangeFn]
      rw [m0, m1, m2, e0, e1, e2]
      ring
    · obtain ⟨m0, m1, m2⟩ := K'.2.2.2.1 rfl
      have e0 : 1 - xi' 0 - xi' 1 = (xi 1) := h2.symm
      have e1 : xi' 0 = (1 - xi 0 - xi 1) := h0.symm
      have e2 : xi' 1 = (xi 0) := h1.symm
      simp only [lagrangeFn]
      rw [m0, m1, m2, e0, e1, e2]
      ring
    · obtain ⟨m0, m1, m2⟩ := K'.2.2.2.2.1 rfl
      have e0 : 1 - xi' 0 - xi' 1 = (xi 0) := h1.symm
      have e1 : xi' 0 = (xi 1) := h2.symm
      have e2 : xi' 1 = (1 - xi 0 - xi 1) := h0.symm
      simp only [lagrangeFn]
      rw [m0, m1, m2, e0, e1, e2]
      ring
    · obtain ⟨m0, m1, m2⟩ := K'.2.2.2.2.2 rfl
      have e0 : 1 - xi' 0 - xi' 1 = (xi 1) := h2.symm
      have e1 : xi' 0 = (xi 0) := h1.symm
      have e2 : xi' 1 = (1 - xi 0 - xi 1) := h0.symm
      simp only [lagrangeFn]
      rw [m0, m1, m2, e0, e1, e2]
      ring
  | quadrilateral =>
    have key0 : ∀ deg ∈ [1, 2], ∀ eta ∈ facetPositions .quadrilateral deg,
        (eta.getD 0 0 ≤ 2 ∧ (deg = 1 → eta.getD 0 0 ≠ 1)) ∧ (eta.getD 1 0 ≤ 2 ∧ (deg = 1 → eta.getD 1 0 ≠ 1)) := by
      decide +kernel
    have hdm : deg ∈ [1, 2] := by rcases hd with rfl | rfl <;> simp
    obtain ⟨⟨ka, ka'⟩, kb, kb'⟩ := key0 deg hdm eta he
    have k0 : ∀ deg ∈ [1, 2], ∀ eta ∈ facetPositions .quadrilateral deg, ∀ eta' ∈ facetPositions .quadrilateral deg,
        SamePosition .quadrilateral [0, 1, 2, 3] eta eta' → eta'.getD 0 0 = eta.getD 0 0 ∧ eta'.getD 1 0 = eta.getD 1 0 := by
      decide +kernel
    have k1 : ∀ deg ∈ [1, 2], ∀ eta ∈ facetPositions .quadrilateral deg, ∀ eta' ∈ facetPositions .quadrilateral deg,
        SamePosition .quadrilateral [1, 0, 3, 2] eta eta' → eta'.getD 0 0 = 2 - eta.getD 0 0 ∧ eta'.getD 1 0 = eta.getD 1 0 := by
      decide +kernel
    have k2 : ∀ deg ∈ [1, 2], ∀ eta ∈ facetPositions .quadrilateral deg, ∀ eta' ∈ facetPositions .quadrilateral deg,
        SamePosition .quadrilateral [2, 3, 0, 1] eta eta' → eta'.getD 0 0 = eta.getD 0 0 ∧ eta'.getD 1 0 = 2 - eta.getD 1 0 := by
      decide +kernel
    have k3 : ∀ deg ∈ [1, 2], ∀ eta ∈ facetPositions .quadrilateral deg, ∀ eta' ∈ facetPositions .quadrilateral deg,
        SamePosition .quadrilateral [3, 2, 1, 0] eta eta' → eta'.getD 0 0 = 2 - eta.getD 0 0 ∧ eta'.getD 1 0 = 2 - eta.getD 1 0 := by
      decide +kernel
    have k4 : ∀ deg ∈ [1, 2], ∀ eta ∈ facetPositions .quadrilateral deg, ∀ eta' ∈ facetPositions .quadrilateral deg,
        SamePosition .quadrilateral [0, 2, 1, 3] eta eta' → eta'.getD 0 0 = eta.getD 1 0 ∧ eta'.getD 1 0 = eta.getD 0 0 := by
      decide +kernel
    have k5 : ∀ deg ∈ [1, 2], ∀ eta ∈ facetPositions .quadrilateral deg, ∀ eta' ∈ facetPositions .quadrilateral deg,
        SamePosition .quadrilateral [2, 0, 3, 1] eta eta' → eta'.getD 0 0 = eta.getD 1 0 ∧ eta'.getD 1 0 = 2 - eta.getD 0 0 := by
      decide +kernel
    have k6 : ∀ deg ∈ [1, 2], ∀ eta ∈ facetPositions .quadrilateral deg, ∀ eta' ∈ facetPositions .quadrilateral deg,
        SamePosition .quadrilateral [1, 3, 0, 2] eta eta' → eta'.getD 0 0 = 2 - eta.getD 1 0 ∧ eta'.getD 1 0 = eta.getD 0 0 := by
      decide +kernel
    have k7 : ∀ deg ∈ [1, 2], ∀ eta ∈ facetPositions .quadrilateral deg, ∀ eta' ∈ facetPositions .quadrilateral deg,
        SamePosition .quadrilateral [3, 1, 2, 0] eta eta' → eta'.getD 0 0 = 2 - eta.getD 1 0 ∧ eta'.getD 1 0 = 2 - eta.getD 0 0 := by
      decide +kernel
    have h0 := hxi 0
    have h1 := hxi 1
    have h2 := hxi 2
    have h3 := hxi 3
    have fa := lag1_flip (K := K) _ _ hd ka ka'
    have fb := lag1_flip (K := K) _ _ hd kb kb'
    simp only [facetMatchings, List.mem_cons, List.not_mem_nil, or_false] at hσ
    rcases hσ with rfl | rfl | rfl | rfl | rfl | rfl | rfl | rfl <;>
      simp [basixVertices, lagrangeFn, lag1] at h0 h1 h2 h3
    · obtain ⟨m0, m1⟩ := k0 deg hdm eta he eta' he' h
      have e0 : xi' 0 = xi 0 := by linear_combination -h1 - h3
      have e1 : xi' 1 = xi 1 := by linear_combination -h2 - h3
      simp only [lagrangeFn]
      rw [m0, m1, e0, e1]
      try simp only [fa, fb]
      try ring
    · obtain ⟨m0, m1⟩ := k1 deg hdm eta he eta' he' h
      have e0 : xi' 0 = 1 - xi 0 := by linear_combination -h0 - h2
      have e1 : xi' 1 = xi 1 := by linear_combination -h2 - h3
      simp only [lagrangeFn]
      rw [m0, m1, e0, e1]
      try simp only [fa, fb]
      try ring
    · obtain ⟨m0, m1⟩ := k2 deg hdm eta he eta' he' h
      have e0 : xi' 0 = xi 0 := by linear_combination -h1 - h3
      have e1 : xi' 1 = 1 - xi 1 := by linear_combination -h0 - h1
      simp only [lagrangeFn]
      rw [m0, m1, e0, e1]
      try simp only [fa, fb]
      try ring
    · obtain ⟨m0, m1⟩ := k3 deg hdm eta he eta' he' h
      have e0 : xi' 0 = 1 - xi 0 := by linear_combination -h0 - h2
      have e1 : xi' 1 = 1 - xi 1 := by linear_combination -h0 - h1
      simp only [lagrangeFn]
      rw [m0, m1, e0, e1]
      try simp only [fa, fb]
      try ring
    · obtain ⟨m0, m1⟩ := k4 deg hdm eta he eta' he' h
      have e0 : xi' 0 = xi 1 := by linear_combination -h2 - h3
      have e1 : xi' 1 = xi 0 := by linear_combination -h1 - h3
      simp only [lagrangeFn]
      rw [m0, m1, e0, e1]
      try simp only [fa, fb]
      try ring
    · obtain ⟨m0, m1⟩ := k5 deg hdm eta he eta' he' h
      have e0 : xi' 0 = xi 1 := by linear_combination -h2 - h3
      have e1 : xi' 1 = 1 - xi 0 := by linear_combination -h0 - h2
      simp only [lagrangeFn]
      rw [m0, m1, e0, e1]
      try simp only [fa, fb]
      try ring
    · obtain ⟨m0, m1⟩ := k6 deg hdm eta he eta' he' h
      have e0 : xi' 0 = 1 - xi 1 := by linear_combination -h0 - h1
      have e1 : xi' 1 = xi 0 := by linear_combination -h1 - h3
      simp only [lagrangeFn]
      rw [m0, m1, e0, e1]
      try simp only [fa, fb]
      try ring
    · obtain ⟨m0, m1⟩ := k7 deg hdm eta he eta' he' h
      have e0 : xi' 0 = 1 - xi 1 := by linear_combination -h0 - h1
      have e1 : xi' 1 = 1 - xi 0 := by linear_combination -h0 - h2
      simp only [lagrangeFn]
      rw [m0, m1, e0, e1]
      try simp only [fa, fb]
      try ring
  | tetrahedron => simp [facetMatchings] at hσ
  | hexahedron => simp [facetMatchings] at hσ

/-- The position on the neighbour's facet. -/
def partner (cell : CellType) (deg : Nat) (σ eta : List Nat) : List Nat :=
  ((facetPositions cell deg).find? fun eta' => SamePosition cell σ eta eta').getD []

theorem partner_tables : ∀ cell ∈ [CellType.interval, .triangle, .quadrilateral], ∀ deg ∈ [1, 2],
    ∀ σ ∈ facetMatchings cell, ((facetPositions cell deg).map (partner cell deg σ)).isPerm (facetPositions cell deg) = true ∧
      ∀ eta ∈ facetPositions cell deg, SamePosition cell σ eta (partner cell deg σ eta) := by
  decide +kernel

/-- **C68 (conformity).** Two cells share a facet: facet `f` of the first is facet `f'` of the second, the vertices
matched by `σ`, and nodes at the same point of the facet are the same node of the mesh. Then at the same point
of the facet both cells compute the same value of every nodal field (the solution, but also the coordinates:
the facet is the same surface). -/
theorem C68_conforming {e e' : String × String × List (List Nat)} (he : e ∈ meshNodes) (he' : e' ∈ meshNodes)
    {info info' : ElementInfo} (hi : getElements e.1 = .ok info) (hi' : getElements e'.1 = .ok info')
    (hP : info.family = .P) (hP' : info'.family = .P) (hcell : info'.faceEle = info.faceEle)
    (hdeg : info'.degree = info.degree) {f f' : Nat} (hf : f < (basixFacets info.ele).length)
    (hf' : f' < (basixFacets info'.ele).length) (σ : List Nat) (hσ : σ ∈ facetMatchings info.faceEle)
    (c c' : Nat → Nat)
    (hshare : ∀ i i' pos pos' eta eta', e.2.2[i]? = some pos → e'.2.2[i']? = some pos' →
      IsFacetNode info.faceEle (facetVertices info.ele f) eta pos →
      IsFacetNode info.faceEle (facetVertices info'.ele f') eta' pos' →
      SamePosition info.faceEle σ eta eta' → c i = c' i')
    (xi xi' : Nat → K) (hxi : SamePoint info.faceEle σ xi xi') (u : Nat → K) :
    ∑ i ∈ Finset.range e.2.2.length, u (c i) * faceShapeValue info f i xi =
      ∑ i ∈ Finset.range e'.2.2.length, u (c' i) * faceShapeValue info' f' i xi' := by
  have ht := trace_info he hi
  unfold TraceOK at ht
  rw [hP] at ht
  simp only [Bool.or_eq_true, Bool.and_eq_true, beq_iff_eq, reduceCtorEq, false_or] at ht
  obtain ⟨⟨hd, hc⟩, -⟩ := ht
  have hdm : info.degree ∈ [1, 2] := by rcases hd with h | h <;> simp [h]
  have hcm : info.faceEle ∈ [CellType.interval, .triangle, .quadrilateral] := by
    rcases hc with ((⟨-, h⟩ | ⟨-, h⟩) | ⟨-, h⟩) | ⟨-, h⟩ <;> simp [h]
  obtain ⟨hperm, hsame⟩ := partner_tables _ hcm _ hdm σ hσ
  obtain ⟨node, hn, hsum⟩ := C68_interpolation (K := K) he hi hP hf
  obtain ⟨node', hn', hsum'⟩ := C68_interpolation (K := K) he' hi' hP' hf'
  rw [hcell, hdeg] at hn' hsum'
  rw [hsum, hsum']
  have hp := (List.isPerm_iff.1 hperm).map fun eta => u (c' (node' eta)) * lagrangeFn info.faceEle info.degree eta xi'
  rw [← hp.sum_eq, List.map_map]
  congr 1
  refine List.map_congr_left fun eta hm => ?_
  have hm' : partner info.faceEle info.degree σ eta ∈ facetPositions info.faceEle info.degree :=
    (List.isPerm_iff.1 hperm).subset (List.mem_map_of_mem hm)
  obtain ⟨pos, hp1, hp2⟩ := hn eta hm
  obtain ⟨pos', hp1', hp2'⟩ := hn' _ hm'
  have hs := hsame eta hm
  simp only [Function.comp]
  rw [hshare _ _ _ _ _ _ hp1 hp1' hp2 hp2' hs,
    C68_symmetric info.faceEle info.degree hd σ hσ xi xi' hxi eta _ hm hm' hs]

/-! ### Nodal basis -/

theorem lag1_half (deg a b : Nat) (hd : deg = 1 ∨ deg = 2) (ha : a ≤ 2) (hb : b ≤ 2)
    (h1 : deg = 1 → a ≠ 1 ∧ b ≠ 1) : lag1 deg a ((b : K) / 2) = if a = b then 1 else 0 := by
  have h2 : (2 : K) ≠ 0 := two_ne_zero
  have ha' : a = 0 ∨ a = 1 ∨ a = 2 := by omega
  have hb' : b = 0 ∨ b = 1 ∨ b = 2 := by omega
  rcases hd with rfl | rfl <;> rcases ha' with rfl | rfl | rfl <;> rcases hb' with rfl | rfl | rfl <;>
    simp [lag1] at h1 ⊢ <;> norm_num

theorem bary_half_lt (deg a b : Nat) (hd : deg = 1 ∨ deg = 2) (ha : a ≤ 2) (h : b < a)
    (h1 : deg = 1 → b ≠ 1) : bary deg a ((b : K) / 2) = 0 := by
  have h2 : (2 : K) ≠ 0 := two_ne_zero
  have hab : (a = 1 ∧ b = 0) ∨ (a = 2 ∧ b = 0) ∨ (a = 2 ∧ b = 1) := by omega
  rcases hd with rfl | rfl <;> rcases hab with ⟨rfl, rfl⟩ | ⟨rfl, rfl⟩ | ⟨rfl, rfl⟩ <;> simp [bary] at h1 ⊢

theorem bary_half_eq (deg a : Nat) (hd : deg = 1 ∨ deg = 2) (ha : a ≤ 2) (h1 : deg = 1 → a ≠ 1) :
    bary deg a ((a : K) / 2) = 1 := by
  have h2 : (2 : K) ≠ 0 := two_ne_zero
  have ha' : a = 0 ∨ a = 1 ∨ a = 2 := by omega
  rcases hd with rfl | rfl <;> rcases ha' with rfl | rfl | rfl <;> simp [bary] at h1 ⊢ <;> norm_num

/-- The point at a position given in half units. -/
def halfPoint (K : Type) [Field K] (pos : List Nat) : Nat → K := fun d => (pos.getD d 0 : K) / 2

theorem lagrange_tri (deg : Nat) (hd : deg = 1 ∨ deg = 2) (a b a' b' : Nat) (h : a + b ≤ 2) (h' : a' + b' ≤ 2)
    (h1 : deg = 1 → a ≠ 1 ∧ b ≠ 1) (h1' : deg = 1 → a' ≠ 1 ∧ b' ≠ 1) :
    lagrangeFn .triangle deg [a, b] (halfPoint K [a', b']) = if [a, b] = [a', b'] then 1 else 0 := by
  have h2 : (2 : K) ≠ 0 := two_ne_zero
  have e : 1 - (a' : K) / 2 - (b' : K) / 2 = ((2 - a' - b' : Nat) : K) / 2 := by
    rw [show 2 - a' - b' = 2 - (a' + b') by omega, Nat.cast_sub h']
    push_cast
    field_simp
    ring
  simp only [lagrangeFn, halfPoint, List.getD_cons_zero, List.getD_cons_succ, e]
  have h0 : deg = 1 → 2 - a - b ≠ 1 := fun hh => by have := h1 hh; omega
  have h0' : deg = 1 → 2 - a' - b' ≠ 1 := fun hh => by have := h1' hh; omega
  by_cases hab : [a, b] = [a', b']
  · rw [if_pos hab]
    simp only [List.cons.injEq, and_true] at hab
    obtain ⟨rfl, rfl⟩ := hab
    rw [bary_half_eq _ _ hd (by omega) h0, bary_half_eq _ _ hd (by omega) fun hh => (h1 hh).1,
      bary_half_eq _ _ hd (by omega) fun hh => (h1 hh).2]
    ring
  · rw [if_neg hab]
    simp only [List.cons.injEq, and_true] at hab
    have : 2 - a' - b' < 2 - a - b ∨ a' < a ∨ b' < b := by omega
    rcases this with hl | hl | hl
    · rw [bary_half_lt _ _ _ hd (by omega) hl h0']; ring
    · rw [bary_half_lt _ _ _ hd (by omega) hl fun hh => (h1' hh).1]; ring
    · rw [bary_half_lt _ _ _ hd (by omega) hl fun hh => (h1' hh).2]; ring

theorem lagrange_tet (deg : Nat) (hd : deg = 1 ∨ deg = 2) (a b c a' b' c' : Nat) (h : a + b + c ≤ 2)
    (h' : a' + b' + c' ≤ 2) (h1 : deg = 1 → a ≠ 1 ∧ b ≠ 1 ∧ c ≠ 1) (h1' : deg = 1 → a' ≠ 1 ∧ b' ≠ 1 ∧ c' ≠ 1) :
    lagrangeFn .tetrahedron deg [a, b, c] (halfPoint K [a', b', c']) =
      if [a, b, c] = [a', b', c'] then 1 else 0 := by
  have h2 : (2 : K) ≠ 0 := two_ne_zero
  have e : 1 - (a' : K) / 2 - (b' : K) / 2 - (c' : K) / 2 = ((2 - a' - b' - c' : Nat) : K) / 2 := by
    rw [show 2 - a' - b' - c' = 2 - (a' + b' + c') by omega, Nat.cast_sub h']
    push_cast
    field_simp
    ring
  simp only [lagrangeFn, halfPoint, List.getD_cons_zero, List.getD_cons_succ, e]
  have h0 : deg = 1 → 2 - a - b - c ≠ 1 := fun hh => by have := h1 hh; omega
  have h0' : deg = 1 → 2 - a' - b' - c' ≠ 1 := fun hh => by have := h1' hh; omega
  by_cases hab : [a, b, c] = [a', b', c']
  · rw [if_pos hab]
    simp only [List.cons.injEq, and_true] at hab
    obtain ⟨rfl, rfl, rfl⟩ := hab
    rw [bary_half_eq _ _ hd (by omega) h0, bary_half_eq _ _ hd (by omega) fun hh => (h1 hh).1,
      bary_half_eq _ _ hd (by omega) fun hh => (h1 hh).2.1, bary_half_eq _ _ hd (by omega) fun hh => (h1 hh).2.2]
    ring
  · rw [if_neg hab]
    simp only [List.cons.injEq, and_true] at hab
    have : 2 - a' - b' - c' < 2 - a - b - c ∨ a' < a ∨ b' < b ∨ c' < c := by omega
    rcases this with hl | hl | hl | hl
    · rw [bary_half_lt _ _ _ hd (by omega) hl h0']; ring
    · rw [bary_half_lt _ _ _ hd (by omega) hl fun hh => (h1' hh).1]; ring
    · rw [bary_half_lt _ _ _ hd (by omega) hl fun hh => (h1' hh).2.1]; ring
    · rw [bary_half_lt _ _ _ hd (by omega) hl fun hh => (h1' hh).2.2]; ring

theorem pos_tables : ∀ e ∈ meshNodes, e.2.2.Nodup ∧ ∀ pos ∈ e.2.2, ∀ x ∈ pos, x ≤ 2 := by
  decide +kernel

/-- **C68 (nodal).** The tabulated functions are the nodal basis of the mesh numbering: function `i` is 1 at node
`i` and 0 at the other nodes. -/
theorem C68_nodal {e : String × String × List (List Nat)} (he : e ∈ meshNodes) {info : ElementInfo}
    (hi : getElements e.1 = .ok info) (hP : info.family = .P) {i j : Nat} {pos pos' : List Nat}
    (hp : e.2.2[i]? = some pos) (hp' : e.2.2[j]? = some pos') :
    shapeValue info i (halfPoint K pos') = if i = j then 1 else 0 := by
  obtain ⟨hnd, hle⟩ := pos_tables e he
  have hij : (i = j) ↔ pos = pos' := by
    constructor
    · rintro rfl; rw [hp] at hp'; exact Option.some.inj hp'
    · intro h
      obtain ⟨hl, h1⟩ := List.getElem?_eq_some_iff.1 hp
      obtain ⟨hl', h2⟩ := List.getElem?_eq_some_iff.1 hp'
      exact (hnd.getElem_inj_iff).1 (h1.trans (h.trans h2.symm))
  have ht := trace_info he hi
  unfold TraceOK at ht
  rw [hP] at ht
  simp only [Bool.or_eq_true, Bool.and_eq_true, List.all_eq_true, beq_iff_eq, bne_iff_ne, decide_eq_true_eq,
    reduceCtorEq, false_or, List.mem_range] at ht
  obtain ⟨⟨hd, hc⟩, hall⟩ := ht
  obtain ⟨⟨⟨hlen, h1⟩, hsum⟩, -⟩ := hall pos (List.mem_of_getElem? hp)
  obtain ⟨⟨⟨hlen', h1'⟩, hsum'⟩, -⟩ := hall pos' (List.mem_of_getElem? hp')
  have hb := hle pos (List.mem_of_getElem? hp)
  have hb' := hle pos' (List.mem_of_getElem? hp')
  have g1 : info.degree = 1 → ∀ x ∈ pos, x ≠ 1 := fun h => h1.resolve_left (by rw [h]; decide)
  have g1' : info.degree = 1 → ∀ x ∈ pos', x ≠ 1 := fun h => h1'.resolve_left (by rw [h]; decide)
  rw [shapeValue_eq he hi hP hp, if_congr hij rfl rfl]
  rcases hc with ((⟨h, -⟩ | ⟨h, -⟩) | ⟨h, -⟩) | ⟨h, -⟩ <;> rw [h] at hlen hlen' hsum hsum' ⊢
  · replace hlen : pos.length = 2 := hlen
    replace hlen' : pos'.length = 2 := hlen'
    match pos, hlen, pos', hlen' with
    | [a, b], _, [a', b'], _ =>
      simp only [lagrangeFn, halfPoint, List.getD_cons_zero, List.getD_cons_succ]
      rw [lag1_half _ _ _ hd (hb a (by simp)) (hb' a' (by simp)) fun hh => ⟨g1 hh a (by simp), g1' hh a' (by simp)⟩,
        lag1_half _ _ _ hd (hb b (by simp)) (hb' b' (by simp)) fun hh => ⟨g1 hh b (by simp), g1' hh b' (by simp)⟩]
      by_cases ha : a = a' <;> by_cases hb : b = b' <;> simp [ha, hb]
  · replace hlen : pos.length = 3 := hlen
    replace hlen' : pos'.length = 3 := hlen'
    match pos, hlen, pos', hlen' with
    | [a, b, c], _, [a', b', c'], _ =>
      simp only [lagrangeFn, halfPoint, List.getD_cons_zero, List.getD_cons_succ]
      rw [lag1_half _ _ _ hd (hb a (by simp)) (hb' a' (by simp)) fun hh => ⟨g1 hh a (by simp), g1' hh a' (by simp)⟩,
        lag1_half _ _ _ hd (hb b (by simp)) (hb' b' (by simp)) fun hh => ⟨g1 hh b (by simp), g1' hh b' (by simp)⟩,
        lag1_half _ _ _ hd (hb c (by simp)) (hb' c' (by simp)) fun hh => ⟨g1 hh c (by simp), g1' hh c' (by simp)⟩]
      by_cases ha : a = a' <;> by_cases hb : b = b' <;> by_cases hc : c = c' <;> simp [ha, hb, hc]
  · replace hlen : pos.length = 2 := hlen
    replace hlen' : pos'.length = 2 := hlen'
    have hs := hsum.resolve_left (by decide)
    have hs' := hsum'.resolve_left (by decide)
    match pos, hlen, pos', hlen' with
    | [a, b], _, [a', b'], _ =>
      simp only [List.sum_cons, List.sum_nil] at hs hs'
      exact lagrange_tri _ hd a b a' b' (by omega) (by omega)
        (fun hh => ⟨g1 hh a (by simp), g1 hh b (by simp)⟩) (fun hh => ⟨g1' hh a' (by simp), g1' hh b' (by simp)⟩)
  · replace hlen : pos.length = 3 := hlen
    replace hlen' : pos'.length = 3 := hlen'
    have hs := hsum.resolve_left (by decide)
    have hs' := hsum'.resolve_left (by decide)
    match pos, hlen, pos', hlen' with
    | [a, b, c], _, [a', b', c'], _ =>
      simp only [List.sum_cons, List.sum_nil] at hs hs'
      exact lagrange_tet _ hd a b c a' b' c' (by omega) (by omega)
        (fun hh => ⟨g1 hh a (by simp), g1 hh b (by simp), g1 hh c (by simp)⟩)
        (fun hh => ⟨g1' hh a' (by simp), g1' hh b' (by simp), g1' hh c' (by simp)⟩)

/-! Non-vacuity: the edge [0, 1] - [2, 1] of a HEX27 facet, and two ten-node tetrahedra sharing a facet with its
vertices in a different order. -/

example : ∃ e ∈ meshNodes, ∃ info, getElements e.1 = .ok info ∧ info.family = .P ∧ e.2.2.length = 27 ∧
    e.2.2[24]? = some [1, 1, 0] ∧ IsFacetNode info.faceEle (facetVertices info.ele 0) [1, 1] [1, 1, 0] :=
  ⟨meshNodes.getD 8 ("", "", []), by decide, ⟨.P, .hexahedron, .quadrilateral, 10, 2, [0, 1, 3, 2, 4, 5, 7, 6, 8, 11,
    13, 9, 16, 18, 19, 17, 10, 12, 15, 14, 22, 23, 21, 24, 20, 25, 26]⟩, rfl, rfl, rfl, rfl, by decide⟩

example : [2, 0, 1] ∈ facetMatchings .triangle ∧ SamePosition .triangle [2, 0, 1] [1, 0] [0, 1] ∧
    SamePoint .triangle [2, 0, 1] (fun d => if d = 0 then (1 / 2 : ℚ) else 1 / 3)
      (fun d => if d = 0 then (1 / 3 : ℚ) else 1 / 6) := by
  refine ⟨by decide, by decide, ?_⟩
  intro k hk
  simp only [List.length_cons, List.length_nil] at hk
  interval_cases k <;> norm_num [lagrangeFn, bary, basixVertices]

end JaxFem
