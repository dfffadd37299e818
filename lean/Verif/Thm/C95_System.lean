import Verif.Thm.C95_Assembly

/-!
# C95: the distributed system is the serial one
-/

namespace JaxFem
namespace Mpi

open Parallel (IsShapeGrads signedArea2 triArea globalDof NearSide)

variable {coords : Nat → Fin 2 → ℝ} {N : Nat} {cells : List (Fin 3 → Nat)} {num : Nat → Nat} {glob : Part → Nat → Nat}
  {parts : List Part}

theorem area_pos (X : Fin 3 → Fin 2 → ℝ) (h : 0 < signedArea2 X) : triArea X = signedArea2 X / 2 := by
  rw [triArea, ← signedArea2, abs_of_pos h]

theorem shape_unique (X g g' : Fin 3 → Fin 2 → ℝ) (h : IsShapeGrads X g) (h' : IsShapeGrads X g') : g = g' := by
  funext a d
  rw [← Parallel.grads_eq X g h a d, Parallel.grads_eq X g' h' a d]

theorem signedArea2_cyclic (X : Fin 3 → Fin 2 → ℝ) (k : Fin 3) : signedArea2 (fun a => X (a + k)) = signedArea2 X := by
  fin_cases k <;> simp [signedArea2] <;> ring

theorem residual_cyclic (f : ℝ → ℝ → ℝ) (X g : Fin 3 → Fin 2 → ℝ) (s : Fin 3 → ℝ) (k a : Fin 3) :
    elementResidual f (fun a => X (a + k)) (fun a => g (a + k)) (fun a => s (a + k)) a = elementResidual f X g s (a + k) := by
  have hs : ∀ F : Fin 3 → ℝ, ∑ b, F (b + k) = ∑ b, F b := fun F => Equiv.sum_comp (Equiv.addRight k) F
  unfold elementResidual
  rw [signedArea2_cyclic, hs s, hs fun b => X b 0, hs fun b => X b 1]
  congr 2
  refine Finset.sum_congr rfl fun d _ => ?_
  rw [hs fun b => s b * g b d]

theorem tangent_cyclic (X g : Fin 3 → Fin 2 → ℝ) (s : Fin 3 → ℝ) (k a b : Fin 3) :
    elementTangent (fun a => X (a + k)) (fun a => g (a + k)) (fun a => s (a + k)) a b = elementTangent X g s (a + k) (b + k) := by
  have hs : ∀ F : Fin 3 → ℝ, ∑ b, F (b + k) = ∑ b, F b := fun F => Equiv.sum_comp (Equiv.addRight k) F
  unfold elementTangent
  rw [signedArea2_cyclic, hs s]

theorem residual_serial (f : ℝ → ℝ → ℝ) (u : Nat → ℝ) (g : Fin 3 → Fin 2 → ℝ) (c : Fin 3 → Nat)
    (hpos : 0 < signedArea2 fun a => coords (c a)) (a : Fin 3) :
    elementResidual f (fun a => coords (c a)) g (fun a => u (c a)) a = triArea (fun a => coords (c a)) *
      (∑ d, gradIn g u c d * g a d +
        (atCentroid u c ^ 3 - f (atCentroid (fun w => coords w 0) c) (atCentroid (fun w => coords w 1) c)) * (1 / 3)) := by
  rw [area_pos _ hpos]
  rfl

theorem tangent_serial (u : Nat → ℝ) (g : Fin 3 → Fin 2 → ℝ) (c : Fin 3 → Nat)
    (hpos : 0 < signedArea2 fun a => coords (c a)) (a b : Fin 3) :
    elementTangent (fun a => coords (c a)) g (fun a => u (c a)) a b = triArea (fun a => coords (c a)) *
      (∑ d, g b d * g a d + 3 * atCentroid u c ^ 2 * (1 / 3) * (1 / 3)) := by
  rw [area_pos _ hpos]
  rfl

open Classical in
/-- Shape function gradients of a triangle in serial vertices. -/
noncomputable def someGrads (coords : Nat → Fin 2 → ℝ) (t : Fin 3 → Nat) : Fin 3 → Fin 2 → ℝ :=
  if h : ∃ g, IsShapeGrads (fun a => coords (t a)) g then h.choose else 0

theorem someGrads_eq (t : Fin 3 → Nat) (g : Fin 3 → Fin 2 → ℝ) (hg : IsShapeGrads (fun a => coords (t a)) g) : someGrads coords t = g := by
  have h : ∃ g, IsShapeGrads (fun a => coords (t a)) g := ⟨g, hg⟩
  rw [someGrads, dif_pos h]
  exact shape_unique _ _ _ h.choose_spec hg

theorem oriented_shape {t c : Fin 3 → Nat} {k : Fin 3} (hk : ∀ a, t a = c (a + k)) (g : Fin 3 → Fin 2 → ℝ)
    (hg : IsShapeGrads (fun a => coords (c a)) g) : IsShapeGrads (fun a => coords (t a)) fun a => g (a + k) := by
  have := Parallel.shape_perm _ _ hg (Equiv.addRight k)
  simpa [hk] using this

/-- The triangles of all ranks. -/
def allTris (glob : Part → Nat → Nat) (parts : List Part) : List (Fin 3 → Nat) := parts.flatMap fun p => p.cells.map (triOf glob p)

theorem tri_match (hD : IsPartition coords N cells num glob parts) : ∀ t ∈ allTris glob parts, ∃ c ∈ cells, SameOriented t c := by
  obtain ⟨M, hM, hF⟩ := hD.cover
  intro t ht
  obtain ⟨c, hc, h⟩ := Parallel.forall2_mem_left _ hF t ht
  exact ⟨c, hM.mem_iff.1 hc, h⟩

theorem sum_residual (hD : IsPartition coords N cells num glob parts) (g : (Fin 3 → Nat) → Fin 3 → Fin 2 → ℝ)
    (hg : ∀ c ∈ cells, IsShapeGrads (fun a => coords (c a)) (g c)) (f : ℝ → ℝ → ℝ) (u : Nat → ℝ) (v : Nat) :
    ((allTris glob parts).map fun t => ∑ a, if t a = v then
      elementResidual f (fun a => coords (t a)) (someGrads coords t) (fun a => u (t a)) a else 0).sum
    = serialResidual coords cells g f u v := by
  obtain ⟨M, hM, hF⟩ := hD.cover
  unfold serialResidual
  rw [← (hM.map _).sum_eq]
  refine Parallel.forall2_sum SameOriented _ _ hF ?_
  rintro t - c hc ⟨k, hk⟩
  have hcc := hM.mem_iff.1 hc
  rw [someGrads_eq t _ (oriented_shape hk _ (hg c hcc))]
  obtain rfl : t = fun a => c (a + k) := funext hk
  refine Eq.trans ?_ (Equiv.sum_comp (Equiv.addRight k) _)
  refine Finset.sum_congr rfl fun a _ => ?_
  refine if_congr Iff.rfl ?_ rfl
  rw [Equiv.coe_addRight, ← residual_serial f u (g c) c (hD.positive c hcc)]
  exact residual_cyclic f (fun a => coords (c a)) (g c) (fun a => u (c a)) k a

theorem sum_tangent (hD : IsPartition coords N cells num glob parts) (g : (Fin 3 → Nat) → Fin 3 → Fin 2 → ℝ)
    (hg : ∀ c ∈ cells, IsShapeGrads (fun a => coords (c a)) (g c)) (u : Nat → ℝ) (v w : Nat) :
    ((allTris glob parts).map fun t => ∑ a, ∑ b, if t a = v ∧ t b = w then
      elementTangent (fun a => coords (t a)) (someGrads coords t) (fun a => u (t a)) a b else 0).sum
    = serialTangent coords cells g u v w := by
  obtain ⟨M, hM, hF⟩ := hD.cover
  unfold serialTangent
  rw [← (hM.map _).sum_eq]
  refine Parallel.forall2_sum SameOriented _ _ hF ?_
  rintro t - c hc ⟨k, hk⟩
  have hcc := hM.mem_iff.1 hc
  rw [someGrads_eq t _ (oriented_shape hk _ (hg c hcc))]
  obtain rfl : t = fun a => c (a + k) := funext hk
  refine Eq.trans ?_ (Equiv.sum_comp (Equiv.addRight k) _)
  refine Finset.sum_congr rfl fun a _ => ?_
  refine Eq.trans ?_ (Equiv.sum_comp (Equiv.addRight k) _)
  refine Finset.sum_congr rfl fun b _ => ?_
  refine if_congr Iff.rfl ?_ rfl
  rw [Equiv.coe_addRight, ← tangent_serial u (g c) c (hD.positive c hcc)]
  exact tangent_cyclic (fun a => coords (c a)) (g c) (fun a => u (c a)) k a b

theorem onBoundary_eq (xy : Fin 2 → ℝ) : Parallel.onBoundary (1 / 10 ^ 9 : ℝ) xy = true ↔ NearSide (1 / 10 ^ 9 : ℝ) xy := by
  unfold Parallel.onBoundary NearSide
  simp only [Fin.exists_fin_two, Bool.or_eq_true, decide_eq_true_eq]
  tauto

theorem mem_boundaryOwned (hD : IsPartition coords N cells num glob parts) {p : Part} (hp : p ∈ parts) (d : Int) :
    d ∈ boundaryOwned p ↔ ∃ l, p.vStart ≤ l ∧ l < p.vEnd ∧ AtSide coords (glob p l) ∧ p.rstart ≤ num (glob p l) ∧
      num (glob p l) < p.rend ∧ d = num (glob p l) := by
  unfold boundaryOwned
  rw [List.mem_mergeSort, List.mem_dedup, List.mem_map]
  constructor
  · rintro ⟨l, hl, rfl⟩
    obtain ⟨hm, hb⟩ := List.mem_filter.1 hl
    rw [List.mem_range'_1] at hm
    have h1 : p.vStart ≤ l := hm.1
    have h2 : l < p.vEnd := by omega
    obtain ⟨-, hc, -⟩ := hD.verts p hp l h1 h2
    rw [point_dof hD hp h1 h2, Bool.and_eq_true, Bool.and_eq_true, onBoundary_eq, hc] at hb
    simp only [decide_eq_true_eq] at hb
    exact ⟨l, h1, h2, hb.1, by exact_mod_cast hb.2.1, by exact_mod_cast hb.2.2, point_dof hD hp h1 h2⟩
  · rintro ⟨l, h1, h2, hb, hr1, hr2, rfl⟩
    obtain ⟨-, hc, -⟩ := hD.verts p hp l h1 h2
    refine ⟨l, List.mem_filter.2 ⟨List.mem_range'_1.2 ⟨h1, by omega⟩, ?_⟩, point_dof hD hp h1 h2⟩
    rw [point_dof hD hp h1 h2, Bool.and_eq_true, Bool.and_eq_true, onBoundary_eq, hc]
    simp only [decide_eq_true_eq]
    exact ⟨hb, by exact_mod_cast hr1, by exact_mod_cast hr2⟩

theorem mem_boundary (hD : IsPartition coords N cells num glob parts) (v : Nat) (hv : v < N) :
    (num v : Int) ∈ (parts.map boundaryOwned).flatten ↔ AtSide coords v := by
  rw [List.mem_flatten]
  constructor
  · rintro ⟨l, hl, hm⟩
    obtain ⟨p, hp, rfl⟩ := List.mem_map.1 hl
    obtain ⟨k, h1, h2, hb, -, -, he⟩ := (mem_boundaryOwned hD hp _).1 hm
    rw [hD.num_inj v hv _ (hD.verts p hp k h1 h2).1 (by exact_mod_cast he)]
    exact hb
  · intro hb
    obtain ⟨p, hp, h1, h2, l, hl1, hl2, rfl⟩ := hD.owner v hv
    exact ⟨_, List.mem_map_of_mem hp, (mem_boundaryOwned hD hp _).2 ⟨l, hl1, hl2, hb, h1, h2, rfl⟩⟩

theorem sum_flatMap {α β : Type} (l : List α) (F : α → List β) (w : β → ℝ) :
    ((l.flatMap F).map w).sum = (l.map fun a => ((F a).map w).sum).sum := by
  induction l with
  | nil => rfl
  | cons a l ih => rw [List.flatMap_cons, List.map_append, List.sum_append, ih, List.map_cons, List.sum_cons]

/-- Before boundary conditions are applied the system is the serial one. -/
theorem ranks_system {info : ElementInfo} (h : getElements "TRI3" = .ok info) (hD : IsPartition coords N cells num glob parts)
    (htol : TolerancesAgree coords N) (hne : ∀ p ∈ parts, p.cells ≠ [] ∧ p.rstart < p.rend)
    (g : (Fin 3 → Nat) → Fin 3 → Fin 2 → ℝ) (hg : ∀ c ∈ cells, IsShapeGrads (fun a => coords (c a)) (g c)) (f : ℝ → ℝ → ℝ)
    (x : Fin N → ℝ) (u : Nat → ℝ) (hu : ∀ v (hv : v < N), u v = x ⟨num v, hD.num_lt v hv⟩) :
    ∃ cs, (parts.mapM fun p => rankSystem f (tri3 info) p (gather parts x)) = .ok cs ∧
      (∀ v < N, ¬AtSide coords v → ((cs.flatMap Prod.fst).map fun e => if e.1 = (num v : Int) then e.2 else 0).sum
        = serialResidual coords cells g f u v) ∧
      ∀ v < N, ∀ w < N, ((cs.flatMap Prod.snd).map fun e => if e.1 = ((num v : Int), (num w : Int)) then e.2 else 0).sum
        = serialTangent coords cells g u v w := by
  have huF : ∀ v < N, (gather parts x).getD (num v) 0 = u v := by
    intro v hv
    rw [C95_gather hD, hu v hv]
    exact ofFn_getD x ⟨num v, hD.num_lt v hv⟩
  have hG : ∀ p ∈ parts, ∀ t ∈ p.cells.map (triOf glob p), IsShapeGrads (fun a => coords (t a)) (someGrads coords t) := by
    intro p hp t ht
    obtain ⟨c, hc, k, hk⟩ := tri_match hD t (List.mem_flatMap.2 ⟨p, hp, ht⟩)
    have := oriented_shape hk _ (hg c hc)
    rw [someGrads_eq t _ this]
    exact this
  have hr : ∀ p ∈ parts, _ := fun p hp => rank_system h hD htol f hp (hne p hp).1 (hne p hp).2 u _ huF (someGrads coords) (hG p hp)
  choose! vec mat r1 r2 r3 using hr
  refine ⟨parts.map fun p => (vec p, mat p), mapM_ok_of_forall _ _ _ fun p hp => r1 p hp, ?_, ?_⟩
  · intro v hv hside
    rw [sum_flatMap, List.map_map, ← sum_residual hD g hg f u v, allTris, sum_flatMap]
    exact congrArg List.sum (List.map_congr_left fun p hp => r2 p hp v hv hside)
  · intro v hv w hw
    rw [sum_flatMap, List.map_map, ← sum_tangent hD g hg u v w, allTris, sum_flatMap]
    exact congrArg List.sum (List.map_congr_left fun p hp => r3 p hp v hv w hw)

open Classical in
/-- **C95 (system).** For every distribution of the mesh, every numbering and every order of arrival, the rows of the system are: at
sides an identity row with right-hand side zero, elsewhere tangent and residual of the serial discrete problem. -/
theorem C95_system {info : ElementInfo} (h : getElements "TRI3" = .ok info) (hD : IsPartition coords N cells num glob parts)
    (htol : TolerancesAgree coords N) (hne : ∀ p ∈ parts, p.cells ≠ [] ∧ p.rstart < p.rend)
    (g : (Fin 3 → Nat) → Fin 3 → Fin 2 → ℝ) (hg : ∀ c ∈ cells, IsShapeGrads (fun a => coords (c a)) (g c)) (f : ℝ → ℝ → ℝ)
    (o : Orders) (hov : ∀ l, (o.vec l).Perm l) (hom : ∀ l, (o.mat l).Perm l)
    (x : Fin N → ℝ) (u : Nat → ℝ) (hu : ∀ v (hv : v < N), u v = x ⟨num v, hD.num_lt v hv⟩)
    (s : Parallel.Sys ℝ) (hs : buildSystem f (tri3 info) parts o x = .ok s) :
    ∀ v < N, (∀ w < N, s.mat (num v) (num w)
        = if AtSide coords v then (if v = w then 1 else 0) else serialTangent coords cells g u v w) ∧
      s.rhs (num v) = if AtSide coords v then 0 else serialResidual coords cells g f u v := by
  obtain ⟨cs, c1, c2, c3⟩ := ranks_system h hD htol hne g hg f x u hu
  unfold buildSystem at hs
  simp only [c1, bind, Except.bind] at hs
  split at hs
  · cases hs
  · cases hs
    intro v hv
    unfold Parallel.applyBC
    simp only [mem_boundary hD v hv]
    constructor
    · intro w hw
      by_cases hb : AtSide coords v
      · rw [if_pos hb, if_pos hb]
        by_cases hvw : v = w
        · subst hvw; simp
        · rw [if_neg fun e => hvw (hD.num_inj v hv w hw (by exact_mod_cast e)), if_neg hvw]
      · rw [if_neg hb, if_neg hb, ((hom _).map _).sum_eq]
        exact c3 v hv w hw
    · by_cases hb : AtSide coords v
      · rw [if_pos hb, if_pos hb]
      · rw [if_neg hb, if_neg hb, ((hov _).map _).sum_eq]
        exact c2 v hv hb

/-- **C95 (finding).** `zeroRows` is collective but called only by ranks owning a vertex at a side: the system is built exactly if every
rank owns one or there is none. -/
theorem C95_collective {info : ElementInfo} (h : getElements "TRI3" = .ok info) (hD : IsPartition coords N cells num glob parts)
    (htol : TolerancesAgree coords N) (hne : ∀ p ∈ parts, p.cells ≠ [] ∧ p.rstart < p.rend) (f : ℝ → ℝ → ℝ) (o : Orders)
    (x : Fin N → ℝ) :
    (∃ s, buildSystem f (tri3 info) parts o x = .ok s) ↔
      ((∀ p ∈ parts, ∃ v < N, AtSide coords v ∧ p.rstart ≤ num v ∧ num v < p.rend) ∨ ∀ v < N, ¬AtSide coords v) := by
  have hg : ∀ c ∈ cells, IsShapeGrads (fun a => coords (c a)) (someGrads coords c) := by
    intro c hc
    obtain ⟨g, hg⟩ := Parallel.C57_shape_exists (fun a => coords (c a)) (by
      rw [area_pos _ (hD.positive c hc)]
      exact (half_pos (hD.positive c hc)).ne')
    rw [someGrads_eq c g hg]
    exact hg
  obtain ⟨cs, c1, -, -⟩ := ranks_system h hD htol hne _ hg f x (fun v => if hv : v < N then x ⟨num v, hD.num_lt v hv⟩ else 0)
    fun v hv => by rw [dif_pos hv]
  have hown : ∀ p ∈ parts, boundaryOwned p ≠ [] ↔ ∃ v < N, AtSide coords v ∧ p.rstart ≤ num v ∧ num v < p.rend := by
    intro p hp
    constructor
    · intro hb
      obtain ⟨d, hd⟩ := List.exists_mem_of_ne_nil _ hb
      obtain ⟨l, h1, h2, hs, r1, r2, -⟩ := (mem_boundaryOwned hD hp d).1 hd
      exact ⟨_, (hD.verts p hp l h1 h2).1, hs, r1, r2⟩
    · rintro ⟨v, hv, hs, r1, r2⟩ he
      obtain ⟨q, hq, q1, q2, l, hl1, hl2, rfl⟩ := hD.owner v hv
      have hpq : p = q := by
        by_contra hn
        haveI : Std.Symm fun p q : Part => p.rend ≤ q.rstart ∨ q.rend ≤ p.rstart := ⟨fun _ _ h => h.symm⟩
        have := hD.disjoint.forall hp hq hn
        omega
      subst hpq
      have := (mem_boundaryOwned hD hp _).2 ⟨l, hl1, hl2, hs, r1, r2, rfl⟩
      rw [he] at this
      cases this
  unfold buildSystem
  simp only [c1, bind, Except.bind]
  constructor
  · rintro ⟨s, hs⟩
    split at hs
    · cases hs
    · rename_i hn
      by_cases hall : ∀ p ∈ parts, boundaryOwned p ≠ []
      · exact .inl fun p hp => (hown p hp).1 (hall p hp)
      · refine .inr fun v hv hside => hn ?_
        push Not at hall
        obtain ⟨q, hq, hqe⟩ := hall
        obtain ⟨p, hp, h1, h2, l, hl1, hl2, rfl⟩ := hD.owner v hv
        exact ⟨⟨_, List.mem_map_of_mem hq, hqe⟩, _, List.mem_map_of_mem hp, (hown p hp).2 ⟨_, hv, hside, h1, h2⟩⟩
  · intro hor
    rw [if_neg]
    · exact ⟨_, rfl⟩
    · rintro ⟨⟨l, hl, rfl⟩, l', hl', hne'⟩
      obtain ⟨q, hq, hqe⟩ := List.mem_map.1 hl
      obtain ⟨p, hp, rfl⟩ := List.mem_map.1 hl'
      rcases hor with hall | hnone
      · exact (hown q hq).2 (hall q hq) hqe
      · obtain ⟨v, hv, hs, -⟩ := (hown p hp).1 hne'
        exact hnone v hv hs

end Mpi
end JaxFem
