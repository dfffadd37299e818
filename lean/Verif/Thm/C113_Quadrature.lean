import Verif.Thm.C113_Shapes
import Verif.Thm.C82_Elasticity
import Mathlib.LinearAlgebra.FiniteDimensional.Lemmas

/-!
# C113: what the quadrature rules of the elements integrate exactly
-/

namespace JaxFem.Quadrature

open scoped BigOperators

/-! ### Helper lemmas -/

theorem cellRule_default {b : Basix} {s : String} {order : Option Nat} {info : ElementInfo} {R : Rule}
    (h : cellRule b s .none order = .ok (info, R)) :
    getElements s = .ok info ∧ R = defaultRule b info.ele (order.getD info.quadratureOrder) := by
  unfold cellRule normalizeRule makeQuadrature at h
  cases hg : getElements s with
  | error e => rw [hg] at h; cases h
  | ok i =>
    rw [hg] at h
    simp only [bind, Except.bind, pure, Except.pure, if_true] at h
    cases h
    exact ⟨rfl, rfl⟩

theorem cellRule_ok (b : Basix) {s : String} (order : Option Nat) {info : ElementInfo} (h : getElements s = .ok info) :
    cellRule b s .none order = .ok (info, defaultRule b info.ele (order.getD info.quadratureOrder)) := by
  simp [cellRule, normalizeRule, makeQuadrature, h, bind, Except.bind, pure, Except.pure]

theorem facetRule_ok (b : Basix) {s : String} (order : Option Nat) {info : ElementInfo} (h : getElements s = .ok info) :
    facetRule b s .none order = .ok (info, defaultRule b info.faceEle (order.getD info.quadratureOrder)) := by
  simp [facetRule, normalizeRule, makeQuadrature, h, bind, Except.bind, pure, Except.pure]

theorem gauss2 {g : List (ℝ × ℝ)} (hg : IsGauss 2 g) :
    ∃ a c : ℝ × ℝ, g = [a, c] ∧ a.2 = 1 / 2 ∧ c.2 = 1 / 2 ∧ a.1 + c.1 = 1 ∧ a.1 * c.1 = 1 / 6 := by
  obtain ⟨hl, hm⟩ := hg
  match g, hl with
  | [a, c], _ =>
    have m0 := hm 0 (by norm_num)
    have m1 := hm 1 (by norm_num)
    have m2 := hm 2 (by norm_num)
    have m3 := hm 3 (by norm_num)
    simp only [List.map_cons, List.map_nil, List.sum_cons, List.sum_nil, pow_zero, pow_one, mul_one, add_zero] at m0 m1 m2 m3
    norm_num at m0 m1 m2 m3
    have e2 : 1 / 3 = (a.1 + c.1) * (1 / 2) - a.1 * c.1 := by
      linear_combination -m2 + (a.1 + c.1) * m1 - a.1 * c.1 * m0
    have e3 : 1 / 4 = (a.1 + c.1) * (1 / 3) - a.1 * c.1 * (1 / 2) := by
      linear_combination -m3 + (a.1 + c.1) * m2 - a.1 * c.1 * m1
    have hp : a.1 + c.1 = 1 := by linarith
    have hq : a.1 * c.1 = 1 / 6 := by rw [hp] at e2; linarith
    have hw : a.2 = 1 / 2 := by
      have hc : c.1 = 1 - a.1 := by linarith
      have hv : c.2 = 1 - a.2 := by linarith
      have h : (2 * a.1 - 1) * (a.2 - 1 / 2) = 0 := by
        rw [hc, hv] at m1; linear_combination m1
      rcases mul_eq_zero.1 h with h | h
      · rw [hc, show a.1 = 1 / 2 by linarith] at hq; norm_num at hq
      · linarith
    exact ⟨a, c, rfl, hw, by linarith, hp, hq⟩

theorem stiff_exact {e : String × String × List (List Nat)} (he : e ∈ meshNodes) {b : Basix} {order : Nat} {info : ElementInfo}
    (hi : getElements e.1 = .ok info) (hb : Documented b info.ele order) (hg : 2 * gradDegree info ≤ precision info.ele order)
    {a c : Nat} (ha : a < e.2.2.length) (hc : c < e.2.2.length) (D : Nat → Nat → ℝ) (n : Nat) :
    Exact info.ele (defaultRule b info.ele order)
      fun x => ∑ i ∈ Finset.range n, ∑ j ∈ Finset.range n, D i j * (shapeGrad info a x i * shapeGrad info c x j) := by
  refine default_exact b hb ((le_of_eq (two_mul _).symm).trans hg) ?_
  have hm := fun i j => flat_mul info.ele ((shape_mem he hi ha).2 i) ((shape_mem he hi hc).2 j)
  refine mem_of_eq (Submodule.sum_mem _ (t := Finset.range n) fun i _ => Submodule.sum_mem _ (t := Finset.range n)
    fun j _ => Submodule.smul_mem _ (D i j) (hm i j)) fun x => ?_
  simp [Finset.sum_apply]

/-- Element functions depend on the coordinates of their cell only. -/
theorem node_congr {e : String × String × List (List Nat)} (he : e ∈ meshNodes) {info : ElementInfo} (hi : getElements e.1 = .ok info)
    {a : Nat} (ha : a < e.2.2.length) {x y : Nat → ℝ} (h : ∀ d < cellDim info.ele, x d = y d) :
    shapeValue info a x = shapeValue info a y ∧ ∀ d, shapeGrad info a x d = shapeGrad info a y d := by
  have hp : e.2.2[a]? = some e.2.2[a] := List.getElem?_eq_getElem ha
  simp only [shapeValue_node he hi hp, shapeGrad_node he hi hp]
  generalize e.2.2[a] = pos
  obtain ⟨fam, ele, faceEle, qo, deg, ro⟩ := info
  cases fam <;> cases ele <;> simp only [cellDim] at h <;> constructor <;> intros <;>
    simp [nodeFn, nodeGrad, lagrangeFn, serendipityFn, lagrangeGrad, serendipityGrad, h]

/-! ### Property theorems -/

/-- C113 (the argument `quadrature_rule`). `None` is the default rule; a name stands for the type that the library gives it; a name unknown
to the library and a value of another kind are errors; and the same holds on facets. -/
theorem C113_rule (b : Basix) (s : String) (order : Option Nat) :
    cellRule b s .none order = cellRule b s (.type defaultType) order ∧
    facetRule b s .none order = facetRule b s (.type defaultType) order ∧
    (∀ name t, b.stringToType name = .ok t →
      cellRule b s (.str name) order = cellRule b s (.type t) order ∧ facetRule b s (.str name) order = facetRule b s (.type t) order) ∧
    (∀ info, getElements s = .ok info →
      (∀ t, t ≠ defaultType → cellRule b s (.type t) order = (b.other t info.ele (order.getD info.quadratureOrder)).map (info, ·) ∧
        facetRule b s (.type t) order = (b.other t info.faceEle (order.getD info.quadratureOrder)).map (info, ·)) ∧
      cellRule b s .other order = .error .type ∧ facetRule b s .other order = .error .type ∧
      ∀ name err, b.stringToType name = .error err →
        cellRule b s (.str name) order = .error err ∧ facetRule b s (.str name) order = .error err) := by
  refine ⟨rfl, rfl, fun name t h => ?_, fun info hi => ⟨fun t ht => ?_, ?_, ?_, fun name err h => ?_⟩⟩
  · simp [cellRule, facetRule, normalizeRule, h]
  · have hm : ∀ x : Except Err Rule, (do let R ← x; pure (info, R)) = x.map (info, ·) := fun x => by cases x <;> rfl
    simp only [cellRule, facetRule, normalizeRule, makeQuadrature, ht, hi, if_false, bind, Except.bind]
    exact ⟨hm _, hm _⟩
  · simp [cellRule, normalizeRule, hi, bind, Except.bind]
  · simp [facetRule, normalizeRule, hi, bind, Except.bind]
  · simp [cellRule, facetRule, normalizeRule, hi, h, bind, Except.bind]

/-- C113 (numbers of points). The numbers of points of the rules used by default in cells and on facets, element by element. -/
theorem C113_points (b : Basix) (hb : ∀ m, (b.gauss m).length = m) :
    ∀ e ∈ [("TRI3", 1, 1), ("TRI6", 3, 2), ("QUAD4", 4, 2), ("QUAD8", 4, 2), ("TET4", 1, 1), ("TET10", 4, 3), ("HEX8", 8, 4),
        ("HEX20", 8, 4), ("HEX27", 216, 36)],
      ∃ info R S, cellRule b e.1 .none none = .ok (info, R) ∧ facetRule b e.1 .none none = .ok (info, S) ∧
        R.length = e.2.1 ∧ S.length = e.2.2 := by
  have hq : ∀ g : List (ℝ × ℝ), (productRule g .quadrilateral).length = g.length * g.length := by
    intro g; simp [productRule, List.length_flatMap]
  have hh : ∀ g : List (ℝ × ℝ), (productRule g .hexahedron).length = g.length * (g.length * g.length) := by
    intro g; simp [productRule, List.length_flatMap]
  have hi : ∀ g : List (ℝ × ℝ), (productRule g .interval).length = g.length := by intro g; simp [productRule]
  intro e he
  simp only [List.mem_cons, List.not_mem_nil, or_false] at he
  rcases he with rfl | rfl | rfl | rfl | rfl | rfl | rfl | rfl | rfl <;>
    exact ⟨_, _, _, cellRule_ok b none rfl, facetRule_ok b none rfl, by simp [defaultRule, hq, hh, hi, hb],
      by simp [defaultRule, hq, hh, hi, hb]⟩

/-- C113 (sufficient order). With an order of at least twice the degree — or, on triangles and tetrahedra, twice the degree minus one —
the rule integrates every bilinear form in the gradients of the element functions with constant coefficients exactly: the stiffness
matrices of affinely mapped cells are exact. -/
theorem C113_stiffness {e : String × String × List (List Nat)} (he : e ∈ meshNodes) {b : Basix} {order : Nat} {info : ElementInfo}
    {R : Rule} (hR : cellRule b e.1 .none (some order) = .ok (info, R)) (hb : Documented b info.ele order)
    (ho : 2 * info.degree ≤ order ∨ Simplex info.ele ∧ 2 * (info.degree - 1) ≤ order) {a c : Nat} (ha : a < e.2.2.length)
    (hc : c < e.2.2.length) (D : Nat → Nat → ℝ) (n : Nat) :
    Exact info.ele R fun x => ∑ i ∈ Finset.range n, ∑ j ∈ Finset.range n, D i j * (shapeGrad info a x i * shapeGrad info c x j) := by
  obtain ⟨hi, rfl⟩ := cellRule_default hR
  have hg : 2 * gradDegree info ≤ order := by
    have h1 : gradDegree info ≤ info.degree := by unfold gradDegree; split <;> omega
    rcases ho with h | ⟨h, h2⟩
    · omega
    · have : gradDegree info = info.degree - 1 := by
        rcases h with h | h <;> simp [gradDegree, h]
      omega
  exact stiff_exact he hi hb (hg.trans (le_precision _ _)) ha hc D n

/-- C113 (full integration by default). For all elements of the Lagrange family the rule used by default is exact for the stiffness
matrices of affinely mapped cells, HEX8 included. -/
theorem C113_default {e : String × String × List (List Nat)} (he : e ∈ meshNodes) {b : Basix} {info : ElementInfo}
    {R : Rule} (hR : cellRule b e.1 .none none = .ok (info, R)) (hb : Documented b info.ele info.quadratureOrder)
    (hf : info.family = .P) {a c : Nat} (ha : a < e.2.2.length) (hc : c < e.2.2.length) (D : Nat → Nat → ℝ) (n : Nat) :
    Exact info.ele R fun x => ∑ i ∈ Finset.range n, ∑ j ∈ Finset.range n, D i j * (shapeGrad info a x i * shapeGrad info c x j) := by
  obtain ⟨hi, rfl⟩ := cellRule_default hR
  refine stiff_exact he hi hb ?_ ha hc D n
  have key : ∀ e ∈ meshNodes, (match getElements e.1 with
      | .ok info => info.family != .P || decide (2 * gradDegree info ≤ precision info.ele info.quadratureOrder)
      | .error _ => false) = true := by decide +kernel
  have h := key e he
  rw [hi] at h
  simpa [hf] using h

/-- C113 (loads). The rule used by default is exact for the work of constant loads, for all elements, and so is every rule whose
order is at least the degree. -/
theorem C113_load {e : String × String × List (List Nat)} (he : e ∈ meshNodes) {b : Basix} {order : Option Nat} {info : ElementInfo}
    {R : Rule} (hR : cellRule b e.1 .none order = .ok (info, R)) (hb : Documented b info.ele (order.getD info.quadratureOrder))
    (ho : ∀ k, order = some k → info.degree ≤ k) {a : Nat} (ha : a < e.2.2.length) :
    Exact info.ele R fun x => shapeValue info a x := by
  obtain ⟨hi, rfl⟩ := cellRule_default hR
  refine default_exact b hb ?_ (shape_mem he hi ha).1
  cases order with
  | some k => exact (ho k rfl).trans (le_precision _ _)
  | none =>
    have key : ∀ e ∈ meshNodes, (match getElements e.1 with
        | .ok info => decide (info.degree ≤ precision info.ele info.quadratureOrder)
        | .error _ => false) = true := by decide +kernel
    have h := key e he
    rw [hi] at h
    simpa using h

/-- C113 (mass). With an order of at least twice the degree the rule is exact for the products of element functions, hence for the mass
matrices of affinely mapped cells; this covers the rules used by default for HEX8, HEX27 and QUAD4. -/
theorem C113_mass {e : String × String × List (List Nat)} (he : e ∈ meshNodes) {b : Basix} {order : Option Nat} {info : ElementInfo}
    {R : Rule} (hR : cellRule b e.1 .none order = .ok (info, R)) (hb : Documented b info.ele (order.getD info.quadratureOrder))
    (ho : (∃ k, order = some k ∧ 2 * info.degree ≤ k) ∨ order = none ∧ (e.1 = "HEX8" ∨ e.1 = "HEX27" ∨ e.1 = "QUAD4"))
    {a c : Nat} (ha : a < e.2.2.length) (hc : c < e.2.2.length) :
    Exact info.ele R fun x => shapeValue info a x * shapeValue info c x := by
  obtain ⟨hi, rfl⟩ := cellRule_default hR
  refine default_exact b hb ?_ (flat_mul info.ele (shape_mem he hi ha).1 (shape_mem he hi hc).1)
  rw [← two_mul]
  rcases ho with ⟨k, rfl, hk⟩ | ⟨rfl, h⟩
  · exact hk.trans (le_precision _ _)
  · rcases h with h | h | h <;> rw [h] at hi <;> cases hi <;> decide

/-- C113 (arrays). Sums of products of the arrays `shape_vals`, `shape_grads_ref` and `quad_weights` that the kernels form are the weighted
sums of the element functions and their derivatives over the rule. -/
theorem C113_arrays {e : String × String × List (List Nat)} (he : e ∈ meshNodes) {b : Basix} {rule : RuleArg} {order : Option Nat}
    {info : ElementInfo} {R : Rule} (hR : cellRule b e.1 rule order = .ok (info, R)) (a c : Fin e.2.2.length)
    (i j : Fin (cellDim info.ele)) :
    let el := tabulated info R e.2.2.length (cellDim info.ele)
    ∑ q, el.shapeVals q a * el.quadWeights q = quadSum R (fun x => shapeValue info a x) ∧
    ∑ q, el.shapeVals q a * el.shapeVals q c * el.quadWeights q = quadSum R (fun x => shapeValue info a x * shapeValue info c x) ∧
    ∑ q, el.shapeGradsRef q a i * el.shapeGradsRef q c j * el.quadWeights q =
      quadSum R fun x => shapeGrad info a x i * shapeGrad info c x j := by
  have hi : getElements e.1 = .ok info := by
    unfold cellRule at hR
    cases hg : getElements e.1 with
    | error err => rw [hg] at hR; cases hR
    | ok info' =>
      rw [hg] at hR
      simp only [bind, Except.bind] at hR
      split at hR
      · cases hR
      split at hR
      · cases hR
      · cases hR; rfl
  have key : ∀ F : (Nat → ℝ) → ℝ, (∀ x y : Nat → ℝ, (∀ d < cellDim info.ele, x d = y d) → F x = F y) →
      ∑ q : Fin R.length, F (extend fun d : Fin (cellDim info.ele) => (R.get q).1 d) * (R.get q).2 = quadSum R F := by
    intro F hF
    have : quadSum R F = ∑ q : Fin R.length, (R.get q).2 * F (R.get q).1 := by
      unfold quadSum
      rw [← List.sum_ofFn]
      exact congrArg List.sum (by
        refine List.ext_getElem (by simp) fun n h1 h2 => by simp)
    rw [this]
    refine Finset.sum_congr rfl fun q _ => ?_
    rw [mul_comm, hF _ (R.get q).1 fun d hd => by simp [extend, hd]]
  have hv := fun a : Fin e.2.2.length => fun x y : Nat → ℝ => fun h => (node_congr he hi a.2 (x := x) (y := y) h).1
  have hg := fun a : Fin e.2.2.length => fun x y : Nat → ℝ => fun h => (node_congr he hi a.2 (x := x) (y := y) h).2
  refine ⟨key _ (hv a), key (fun x => shapeValue info a x * shapeValue info c x) fun x y h => ?_,
    key (fun x => shapeGrad info a x i * shapeGrad info c x j) fun x y h => ?_⟩
  · beta_reduce; rw [hv a x y h, hv c x y h]
  · beta_reduce; rw [hg a x y h, hg c x y h]

end JaxFem.Quadrature
