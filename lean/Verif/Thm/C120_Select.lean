import Verif.Model.MeshCheck
import Verif.Spec.MeshCheck
import Verif.Thm.C14_Boundary
import Mathlib.Tactic.Linarith
import Mathlib.Tactic.NormNum
import Mathlib.Tactic.Ring
import Mathlib.Algebra.Order.Ring.Abs

/-!
# C120: choice of the node and selection of faces and nodes on the perturbed meshes
-/

namespace JaxFem.MeshCheck

variable {nq nfq nn : Nat}

/-! ### Helper lemmas: `argmin` -/

theorem argminFrom_spec (l : List (WithTop ℝ)) : ∀ (best : WithTop ℝ) (pos idx : Nat), pos < idx →
    (argminFrom best pos idx l = pos ∧ ∀ d ∈ l, best ≤ d) ∨
    (∃ k d, l[k]? = some d ∧ argminFrom best pos idx l = idx + k ∧ d < best ∧ (∀ e ∈ l, d ≤ e) ∧
      ∀ j < k, ∀ e, l[j]? = some e → d < e) := by
  induction l with
  | nil => intro best pos idx _; exact .inl ⟨rfl, by simp⟩
  | cons a l ih =>
    intro best pos idx hp
    by_cases h : a < best
    · have e : argminFrom best pos idx (a :: l) = argminFrom a idx (idx + 1) l := by
        rw [argminFrom, if_pos h]
      rw [e]
      rcases ih a idx (idx + 1) (Nat.lt_succ_self _) with ⟨h1, h2⟩ | ⟨k, d, h1, h2, h3, h4, h5⟩
      · refine .inr ⟨0, a, rfl, h1, h, ?_, by simp⟩
        intro e he
        rcases List.mem_cons.1 he with rfl | he
        · exact le_rfl
        · exact h2 e he
      · refine .inr ⟨k + 1, d, by simpa using h1, by rw [h2]; omega, h3.trans h, ?_, ?_⟩
        · intro e he
          rcases List.mem_cons.1 he with rfl | he
          · exact h3.le
          · exact h4 e he
        · intro j hj e he
          cases j with
          | zero =>
            have : a = e := by simpa using he
            exact this ▸ h3
          | succ j => exact h5 j (by omega) e (by simpa using he)
    · have e : argminFrom best pos idx (a :: l) = argminFrom best pos (idx + 1) l := by
        rw [argminFrom, if_neg h]
      rw [e]
      have h' : best ≤ a := not_lt.1 h
      rcases ih best pos (idx + 1) (by omega) with ⟨h1, h2⟩ | ⟨k, d, h1, h2, h3, h4, h5⟩
      · refine .inl ⟨h1, fun d hd => ?_⟩
        rcases List.mem_cons.1 hd with rfl | hd
        · exact h'
        · exact h2 d hd
      · refine .inr ⟨k + 1, d, by simpa using h1, by rw [h2]; omega, h3, ?_, ?_⟩
        · intro e he
          rcases List.mem_cons.1 he with rfl | he
          · exact h3.le.trans h'
          · exact h4 e he
        · intro j hj e he
          cases j with
          | zero =>
            have : a = e := by simpa using he
            exact this ▸ h3.trans_le h'
          | succ j => exact h5 j (by omega) e (by simpa using he)

theorem argmin_spec (l : List (WithTop ℝ)) (hl : l ≠ []) : ∃ n d, argmin l = .ok n ∧ l[n]? = some d ∧ (∀ e ∈ l, d ≤ e) ∧
    ∀ j < n, ∀ e, l[j]? = some e → d < e := by
  cases l with
  | nil => exact absurd rfl hl
  | cons a l =>
    rcases argminFrom_spec l a 0 1 Nat.one_pos with ⟨h1, h2⟩ | ⟨k, d, h1, h2, h3, h4, h5⟩
    · refine ⟨0, a, by rw [argmin, h1], rfl, ?_, by simp⟩
      intro e he
      rcases List.mem_cons.1 he with rfl | he
      · exact le_rfl
      · exact h2 e he
    · refine ⟨1 + k, d, by rw [argmin, h2], by rw [Nat.add_comm]; simpa using h1, ?_, ?_⟩
      · intro e he
        rcases List.mem_cons.1 he with rfl | he
        · exact h3.le
        · exact h4 e he
      · intro j hj e he
        cases j with
        | zero =>
          have : a = e := by simpa using he
          exact this ▸ h3
        | succ j => exact h5 j (by omega) e (by simpa using he)

theorem maskedDist_in {p : Fin 2 → ℝ} (h : InsideEdge p) : maskedDist p = ((distSq p : ℝ) : WithTop ℝ) := by
  obtain ⟨h1, h2, h3⟩ := h
  rw [maskedDist, if_pos]
  · congr 1
    rw [distSq]
    ring
  · refine ⟨?_, ?_, ?_⟩
    · rw [close, sub_zero, abs_zero]
      norm_num
      linarith
    · norm_num
      linarith
    · norm_num
      linarith

theorem maskedDist_out {p : Fin 2 → ℝ} (h : ¬ InsideEdge p) : maskedDist p = ⊤ := by
  rw [maskedDist, if_neg]
  rintro ⟨h1, h2, h3⟩
  refine h ⟨?_, ?_, ?_⟩
  · rw [close, sub_zero, abs_zero] at h1
    norm_num at h1
    linarith
  · norm_num at h2
    linarith
  · norm_num at h3
    linarith

/-! ### Helper lemmas: selection -/

theorem bottom_iff (p : Fin 2 → ℝ) : close (p 1) 0 (1 / 10 ^ 3) ↔ |p 1| ≤ 1 / 1000 := by
  rw [close, sub_zero, abs_zero]
  norm_num

theorem top_iff (p : Fin 2 → ℝ) : close (p 1) 1 (1 / 10 ^ 5) ↔ |p 1 - 1| ≤ 2 / 100000 := by
  rw [close, abs_one]
  norm_num

theorem dirichletEntry_congr {P K : Type} (points points' : List P) (f : P → Bool) (vec : Nat) (val : P → K)
    (hl : points.length = points'.length)
    (h : ∀ (n : Nat) p p', points[n]? = some p → points'[n]? = some p' → f p = f p' ∧ (f p = true → val p = val p')) :
    dirichletEntry points (.one f) vec val = dirichletEntry points' (.one f) vec val := by
  have e : (points.mapIdx fun i p => (fun p (_ : Nat) => f p) p i) = points'.mapIdx fun i p => (fun p (_ : Nat) => f p) p i := by
    refine List.ext_getElem (by simpa using hl) fun n h1 h2 => ?_
    simp only [List.getElem_mapIdx]
    rw [List.length_mapIdx] at h1 h2
    exact (h n _ _ (List.getElem?_eq_getElem h1) (List.getElem?_eq_getElem h2)).1
  have e2 : ((argwhere (points'.mapIdx fun i p => (fun p (_ : Nat) => f p) p i)).filterMap fun n => points[n]?).map val
      = ((argwhere (points'.mapIdx fun i p => (fun p (_ : Nat) => f p) p i)).filterMap fun n => points'[n]?).map val := by
    rw [List.map_filterMap, List.map_filterMap]
    refine List.filterMap_congr fun n hn => ?_
    have hn' := (mem_argwhere _ n).1 hn
    obtain ⟨h2, h3⟩ := List.getElem?_eq_some_iff.1 hn'
    rw [List.getElem_mapIdx] at h3
    rw [List.length_mapIdx] at h2
    have h1 : n < points.length := by rw [hl]; exact h2
    rw [List.getElem?_eq_getElem h1, List.getElem?_eq_getElem h2]
    obtain ⟨e1, e2⟩ := h n _ _ (List.getElem?_eq_getElem h1) (List.getElem?_eq_getElem h2)
    simp only [Option.map_some]
    rw [e2 (e1.trans h3)]
  simp only [dirichletEntry, LocFn.resolve, bind, Except.bind, pure, Except.pure]
  rw [e, e2]

theorem boundaryFlags_congr {P : Type} (points points' : List P) (cells faceInds : List (List Nat)) (f : P → Bool)
    (hl : points.length = points'.length)
    (h : ∀ (n : Nat) p p', points[n]? = some p → points'[n]? = some p' → f p = f p') :
    boundaryFlags points cells faceInds (fun p _ => f p) = boundaryFlags points' cells faceInds fun p _ => f p := by
  refine List.map_congr_left fun cell _ => List.map_congr_left fun face hface => ?_
  clear hface
  simp only [facePoints]
  induction face with
  | nil => rfl
  | cons a face ih =>
    rw [List.filterMap_cons, List.filterMap_cons]
    cases hc : cell[a]? with
    | none => simpa [hc] using ih
    | some n =>
      simp only [Option.bind_some]
      by_cases hn : n < points.length
      · have hn' : n < points'.length := hl ▸ hn
        have h1 := List.getElem?_eq_getElem hn
        have h2 := List.getElem?_eq_getElem hn'
        rw [h1, h2]
        simp only [Option.map_some, List.all_cons]
        rw [h n _ _ h1 h2, ih]
      · have hn' : ¬ n < points'.length := hl ▸ hn
        rw [List.getElem?_eq_none (not_lt.1 hn), List.getElem?_eq_none (not_lt.1 hn')]
        simpa using ih

/-- The Neumann faces and the boundary conditions that are selected are determined by which nodes are near the edges and by
the abscissas of the nodes at the top. -/
theorem build_congr (D : Disc nq nfq nn) (x x' : D.Points) (h0 : ∀ n, x' n 0 = x n 0)
    (hb : ∀ n, |x' n 1| ≤ 1 / 1000 ↔ |x n 1| ≤ 1 / 1000) (ht : ∀ n, |x' n 1 - 1| ≤ 2 / 100000 ↔ |x n 1 - 1| ≤ 2 / 100000) :
    D.build x' = D.build x := by
  have hl : (List.ofFn x').length = (List.ofFn x).length := by simp
  have key : ∀ (n : Nat) (p p' : Fin 2 → ℝ), (List.ofFn x')[n]? = some p → (List.ofFn x)[n]? = some p' →
      p 0 = p' 0 ∧ (|p 1| ≤ 1 / 1000 ↔ |p' 1| ≤ 1 / 1000) ∧ (|p 1 - 1| ≤ 2 / 100000 ↔ |p' 1 - 1| ≤ 2 / 100000) := by
    intro n p p' h1 h2
    obtain ⟨h1, rfl⟩ := List.getElem?_eq_some_iff.1 h1
    obtain ⟨h2, rfl⟩ := List.getElem?_eq_some_iff.1 h2
    rw [List.getElem_ofFn, List.getElem_ofFn]
    exact ⟨h0 _, hb _, ht _⟩
  have hd : UserBC.problemBCs (.single (List.ofFn x') info) = UserBC.problemBCs (.single (List.ofFn x) info) := by
    have : dirichletBC (List.ofFn x') info = dirichletBC (List.ofFn x) info := by
      have e1 := dirichletEntry_congr (List.ofFn x') (List.ofFn x) (fun p => decide (close (p 0) 0 (1 / 10 ^ 5))) 0 u0 hl
        fun n p p' h1 h2 => ⟨by rw [(key n p p' h1 h2).1], fun _ => rfl⟩
      have e2 := dirichletEntry_congr (List.ofFn x') (List.ofFn x) (fun p => decide (close (p 0) 1 (1 / 10 ^ 5))) 0 u0 hl
        fun n p p' h1 h2 => ⟨by rw [(key n p p' h1 h2).1], fun _ => rfl⟩
      have e3 := dirichletEntry_congr (List.ofFn x') (List.ofFn x) (fun p => decide (close (p 1) 1 (1 / 10 ^ 5))) 0 u0Top hl
        fun n p p' h1 h2 => ⟨by rw [decide_eq_decide, top_iff, top_iff]; exact (key n p p' h1 h2).2.2,
          fun _ => by rw [u0Top, u0Top, (key n p p' h1 h2).1]⟩
      simp only [dirichletBC, info, dirichletLoop]
      rw [show left = .one fun p => decide (close (p 0) 0 (1 / 10 ^ 5)) from rfl,
        show right = .one fun p => decide (close (p 0) 1 (1 / 10 ^ 5)) from rfl,
        show top = .one fun p => decide (close (p 1) 1 (1 / 10 ^ 5)) from rfl, e1, e2, e3]
    simp only [UserBC.problemBCs, UserBC.entriesFrom, UserBC.infoOf]
    simp only [List.getElem?_cons_zero, bind, Except.bind]
    rw [this]
  have hf : boundaryInds (List.ofFn x') D.cells D.faceInds (some [bottom])
      = boundaryInds (List.ofFn x) D.cells D.faceInds (some [bottom]) := by
    have e := boundaryFlags_congr (List.ofFn x') (List.ofFn x) D.cells D.faceInds
      (fun p => decide (close (p 1) 0 (1 / 10 ^ 3))) hl fun n p p' h1 h2 => by
        rw [decide_eq_decide, bottom_iff, bottom_iff]; exact (key n p p' h1 h2).2.1
    simp only [boundaryInds, boundaryLoop]
    rw [show bottom = .one fun p => decide (close (p 1) 0 (1 / 10 ^ 3)) from rfl]
    simp only [LocFn.resolve, bind, Except.bind, pure, Except.pure]
    rw [e]
  rw [Disc.build, Disc.build, hd, hf]

/-- The direction in which a node moves up. -/
def unit (D : Disc nq nfq nn) (node : Fin D.numNodes) : D.Points := fun n i => if n = node ∧ i = 1 then 1 else 0

theorem shift_moved (D : Disc nq nfq nn) (x : D.Points) (node : Nat) (hn : node < D.numNodes) (e : ℝ) :
    ∃ x', D.shift x node 1 e = .ok x' ∧ Moved x x' node (x ⟨node, hn⟩ 1 + e) ∧
      x' = x + e • unit D ⟨node, hn⟩ := by
  have hx : (fun (n : Fin D.numNodes) (i : Fin 2) => if n.1 = node ∧ i.1 = 1 then x n i + e else x n i)
      = x + e • unit D ⟨node, hn⟩ := by
    funext n i
    simp only [Pi.add_apply, Pi.smul_apply, smul_eq_mul, unit]
    by_cases h1 : n.1 = node
    · have h1' : n = ⟨node, hn⟩ := Fin.ext h1
      subst h1'
      fin_cases i <;> simp
    · have h1' : n ≠ ⟨node, hn⟩ := fun h => h1 (by rw [h])
      simp [h1, h1']
  refine ⟨_, if_pos ⟨hn, by norm_num⟩, fun n => ⟨?_, fun h => ?_, fun h => ?_⟩, hx⟩
  · simp
  · simp [h]
  · have h1' : n = ⟨node, hn⟩ := Fin.ext h
    subst h1'
    simp

/-! ### Property theorems -/

/-- **C120 (choice of the node).** If some node lies inside the edge, the script picks the first of those nearest to
`(0.35, 0)`; otherwise it silently picks node 0, and it raises for a mesh without nodes. -/
theorem C120_pick (points : List (Fin 2 → ℝ)) :
    ((∃ p ∈ points, InsideEdge p) → ∃ n, pick points = .ok n ∧ IsNearest points n) ∧
    (points ≠ [] → (∀ p ∈ points, ¬ InsideEdge p) → pick points = .ok 0) ∧ (points = [] → pick points = .error .value) := by
  refine ⟨fun ⟨p, hp, hin⟩ => ?_, fun hne hout => ?_, fun h => by rw [h]; rfl⟩
  · obtain ⟨n, d, h1, h2, h3, h4⟩ := argmin_spec (points.map maskedDist) (by
      intro h
      rw [List.map_eq_nil_iff.1 h] at hp
      cases hp)
    rw [List.getElem?_map] at h2
    obtain ⟨q, hq, rfl⟩ := Option.map_eq_some_iff.1 h2
    have hle := h3 _ (List.mem_map_of_mem hp)
    rw [maskedDist_in hin] at hle
    have hqin : InsideEdge q := by
      by_contra hcon
      rw [maskedDist_out hcon] at hle
      exact absurd hle (not_le.2 (WithTop.coe_lt_top _))
    refine ⟨n, h1, q, hq, hqin, fun r hr hrin => ?_, fun m hm r hr hrin => ?_⟩
    · have := h3 _ (List.mem_map_of_mem hr)
      rw [maskedDist_in hqin, maskedDist_in hrin] at this
      exact WithTop.coe_le_coe.1 this
    · have := h4 m hm (maskedDist r) (by rw [List.getElem?_map, hr]; rfl)
      rw [maskedDist_in hqin, maskedDist_in hrin] at this
      exact WithTop.coe_lt_coe.1 this
  · obtain ⟨n, d, h1, h2, h3, h4⟩ := argmin_spec (points.map maskedDist) (by simpa using hne)
    cases n with
    | zero => exact h1
    | succ n =>
      obtain ⟨a, l, rfl⟩ := List.exists_cons_of_ne_nil hne
      have h5 := h4 0 (Nat.succ_pos n) (maskedDist a) rfl
      have h6 := h3 (maskedDist a) (by simp)
      exact absurd h5 (not_lt.2 (le_of_eq (by
        rw [List.getElem?_map] at h2
        obtain ⟨q, hq, rfl⟩ := Option.map_eq_some_iff.1 h2
        rw [maskedDist_out (hout a (by simp)), maskedDist_out (hout q (List.mem_of_getElem? hq))])))

/-- **C120 (selection on the perturbed meshes).** Moving one node vertically within the strip `|y| ≤ 1e-3` changes neither the
Neumann faces nor the Dirichlet nodes and values that the constructor of the problem selects. -/
theorem C120_selection (D : Disc nq nfq nn) (x x' : D.Points) (node : Fin D.numNodes) (y : ℝ) (hm : Moved x x' node y)
    (h1 : |x node 1| ≤ 1 / 1000) (h2 : |y| ≤ 1 / 1000) : D.build x' = D.build x := by
  refine build_congr D x x' (fun n => (hm n).1) (fun n => ?_) fun n => ?_
  · by_cases hn : n.1 = node.1
    · rw [(hm n).2.2 hn, Fin.ext hn]
      exact ⟨fun _ => h1, fun _ => h2⟩
    · rw [(hm n).2.1 hn]
  · by_cases hn : n.1 = node.1
    · rw [(hm n).2.2 hn, Fin.ext hn]
      have a1 := abs_le.1 h1
      have a2 := abs_le.1 h2
      constructor
      · intro h
        have := (abs_le.1 h).1
        linarith
      · intro h
        have := (abs_le.1 h).1
        linarith
    · rw [(hm n).2.1 hn]

end JaxFem.MeshCheck
