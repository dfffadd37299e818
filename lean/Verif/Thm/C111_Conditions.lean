import Verif.Thm.C111_Programs

/-!
# C111: boundary conditions of the two finite-plasticity drivers
-/

namespace JaxFem
namespace FinitePlasticity

/-! ### Specification -/

/-- Distance of `(x, y)` inside the square of side 10 from its boundary. -/
def IsRimDistance (p : Fin 3 → ℝ) (r : ℝ) : Prop :=
  (r = p 0 ∨ r = 10 - p 0 ∨ r = p 1 ∨ r = 10 - p 1) ∧ r ≤ p 0 ∧ r ≤ 10 - p 0 ∧ r ≤ p 1 ∧ r ≤ 10 - p 1

/-- Infinitesimal rigid motion. -/
def IsRigid (u : (Fin 3 → ℝ) → Fin 3 → ℝ) : Prop :=
  ∃ (a : Fin 3 → ℝ) (W : M3), W.transpose = -W ∧ ∀ p, u p = a + W.mulVec p

/-! ### Helper lemmas -/

theorem isclose_self (a : ℝ) : isclose a a := by
  unfold isclose
  rw [sub_self, abs_zero]
  positivity

theorem rim_eq (p : Fin 3 → ℝ) (r : ℝ) (h : IsRimDistance p r) (h0 : 0 ≤ r) :
    min (min |p 0| |10 - p 0|) (min |p 1| |10 - p 1|) = r := by
  obtain ⟨h1, h2, h3, h4, h5⟩ := h
  rw [abs_of_nonneg (h0.trans h2), abs_of_nonneg (h0.trans h3), abs_of_nonneg (h0.trans h4), abs_of_nonneg (h0.trans h5)]
  apply le_antisymm
  · rcases h1 with rfl | rfl | rfl | rfl
    · exact (min_le_left _ _).trans (min_le_left _ _)
    · exact (min_le_left _ _).trans (min_le_right _ _)
    · exact (min_le_right _ _).trans (min_le_left _ _)
    · exact (min_le_right _ _).trans (min_le_right _ _)
  · exact le_min (le_min h2 h3) (le_min h4 h5)

theorem plate_value (s : ℝ) (p : Fin 3 → ℝ) (r : ℝ) (h : IsRimDistance p r) (h0 : 0 ≤ r) :
    ThinPlate.dirichletTop s p = -(s * (2 * r + 1 / 10 ^ 9)) := by
  unfold ThinPlate.dirichletTop
  dsimp only
  rw [rim_eq p r h h0, min_self]
  have hp : (0 : ℝ) < r / (0.5 * 10) + 1 / 10 ^ 10 := by positivity
  have e : (1 : ℝ) + (1 / (r / (0.5 * 10) + 1 / 10 ^ 10) - 1) = 1 / (r / (0.5 * 10) + 1 / 10 ^ 10) := by ring
  rw [e, one_div_one_div]
  ring

/-- If the last condition speaks about a component of a node, it decides. -/
theorem last_demand (points : List (Fin 3 → ℝ)) (its : List (UserBC.Cond (Fin 3 → ℝ) ℝ)) (it : UserBC.Cond (Fin 3 → ℝ) ℝ)
    (n c : Nat) (p : Fin 3 → ℝ) (hp : points[n]? = some p) (hc : UserBC.Concerns points it n c) (v : ℝ)
    (hv : UserBC.Demands points (its ++ [it]) n c (some v)) : v = it.2.2 p := by
  obtain _ | ⟨pre, it', post, p', e, -, h2, -, h4⟩ := hv
  rw [hp] at h2
  cases h2
  rcases List.eq_nil_or_concat post with rfl | ⟨post', x, rfl⟩
  · have := List.append_inj_right' e rfl
    simp only [List.cons.injEq, and_true] at this
    rw [this]
  · have e' : its ++ [it] = (pre ++ it' :: post') ++ [x] := by simpa using e
    have hx := List.append_inj_right' e' rfl
    simp only [List.cons.injEq, and_true] at hx
    subst hx
    exact absurd hc (h4 _ (by simp))

/-! ### Property theorems -/

/-- **C111 (load of the plate).** At a node of the top face the last condition demands for the third component the tent
`-2 s r`, shifted by `-s 10⁻⁹`, where `r` is the distance from the rim: also on the rim, where the walls demand zero. -/
theorem C111_plate (points : List (Fin 3 → ℝ)) (s : ℝ) (n : Nat) (p : Fin 3 → ℝ) (hn : points[n]? = some p)
    (hz : p 2 = 1 / 4) (r : ℝ) (hr : IsRimDistance p r) (h0 : 0 ≤ r) (v : ℝ) :
    UserBC.Demands points (UserBC.conds (ThinPlate.info s)) n 2 (some v) ↔ v = -(s * (2 * r + 1 / 10 ^ 9)) := by
  have htop : ThinPlate.top.holds p n := by
    have : isclose (p 2) 0.25 := by
      rw [hz, show (0.25 : ℝ) = 1 / 4 by norm_num]
      exact isclose_self _
    exact decide_eq_true this
  have hd : UserBC.Demands points (UserBC.conds (ThinPlate.info s)) n 2 (some (ThinPlate.dirichletTop s p)) :=
    .value [(ThinPlate.walls, 0, fun _ => 0), (ThinPlate.walls, 1, fun _ => 0), (ThinPlate.walls, 2, fun _ => 0)]
      (ThinPlate.top, 2, ThinPlate.dirichletTop s) [] p rfl rfl hn htop (by simp)
  rw [plate_value s p r hr h0] at hd
  constructor
  · intro hv
    exact last_demand points [(ThinPlate.walls, 0, fun _ => 0), (ThinPlate.walls, 1, fun _ => 0),
      (ThinPlate.walls, 2, fun _ => 0)] (ThinPlate.top, 2, ThinPlate.dirichletTop s) n 2 p hn ⟨rfl, p, hn, htop⟩ v hv
      |>.trans (plate_value s p r hr h0)
  · rintro rfl
    exact hd

/-- **C111 (conflict).** At a node of the rim of the top face two conditions of the plate speak about the third component and
disagree for every non-zero load. -/
theorem C111_plate_conflict (points : List (Fin 3 → ℝ)) (s : ℝ) (hs : s ≠ 0) (n : Nat) (y : ℝ)
    (hn : points[n]? = some ![0, y, 1 / 4]) (hy : 0 ≤ y) (hy' : y ≤ 10) :
    ¬UserBC.Compatible points (UserBC.conds (ThinPlate.info s)) := by
  intro hc
  have hr : IsRimDistance ![0, y, 1 / 4] 0 := ⟨by simp, by simp, by simp, by simpa using hy, by simpa using hy'⟩
  have hv := plate_value s _ 0 hr le_rfl
  have htop : isclose ((![0, y, 1 / 4] : Fin 3 → ℝ) 2) 0.25 := by
    rw [show (0.25 : ℝ) = 1 / 4 by norm_num]
    exact isclose_self _
  have hw : isclose ((![0, y, 1 / 4] : Fin 3 → ℝ) 0) 0 := isclose_self _
  have := hc (ThinPlate.walls, 2, fun _ => 0) (by simp [UserBC.conds, ThinPlate.info])
    (ThinPlate.top, 2, ThinPlate.dirichletTop s) (by simp [UserBC.conds, ThinPlate.info]) n 2 _ hn
    ⟨rfl, _, hn, by simp only [ThinPlate.walls, LocFn.holds]; exact decide_eq_true (Or.inl hw)⟩
    ⟨rfl, _, hn, by simp only [ThinPlate.top, LocFn.holds]; exact decide_eq_true htop⟩
  dsimp only at this
  rw [hv] at this
  apply hs
  have h9 : s * (2 * 0 + 1 / 10 ^ 9) = 0 := by linarith
  rcases mul_eq_zero.1 h9 with h | h
  · exact h
  · norm_num at h

/-- **C111 (supports of the single cell).** On a mesh with nodes at the origin and at `(1,0,0)` and `(0,1,0)`, an infinitesimal
rigid motion that satisfies the homogeneous conditions is zero; and for every load the conditions admit every homogeneous
deformation with stretches along the axes whose extension along the third axis is the load, whatever the lateral ones. -/
theorem C111_supports (points : List (Fin 3 → ℝ)) :
    ((∀ x ∈ [![0, 0, 0], ![1, 0, 0], ![0, 1, 0]], ∃ n : Nat, points[n]? = some x) →
      ∀ u, IsRigid u → (∀ (n c : Nat) p (hc : c < 3), points[n]? = some p →
        UserBC.Demands points (UserBC.conds (SingleCell.info 0)) n c (some 0) → u p ⟨c, hc⟩ = 0) → ∀ p, u p = 0) ∧
    (∀ s a b : ℝ, (∀ (n : Nat) p, points[n]? = some p → ∀ i, p i = 0 ∨ p i = 1) →
      ∀ (n c : Nat) v p (hc : c < 3), points[n]? = some p →
        UserBC.Demands points (UserBC.conds (SingleCell.info s)) n c (some v) → (![a * p 0, b * p 1, s * p 2] : Fin 3 → ℝ) ⟨c, hc⟩ = v) := by
  constructor
  · rintro hm u ⟨a, W, hW, hu⟩ hz
    have hsk : ∀ i j, W i j = -W j i := by
      intro i j
      have := congrFun (congrFun hW j) i
      simpa using this
    obtain ⟨n0, h0⟩ := hm ![0, 0, 0] (by simp)
    obtain ⟨n1, h1⟩ := hm ![1, 0, 0] (by simp)
    obtain ⟨n2, h2⟩ := hm ![0, 1, 0] (by simp)
    have hval : ∀ it ∈ UserBC.conds (SingleCell.info 0), ∀ p, it.2.2 p = 0 := by
      intro it hit p
      simp [UserBC.conds, SingleCell.info] at hit
      rcases hit with rfl | rfl | rfl | rfl | rfl <;> simp [SingleCell.dirichletTop]
    have hdem : ∀ (n c : Nat) p it, points[n]? = some p → it ∈ UserBC.conds (SingleCell.info 0) → it.2.1 = c → it.1.holds p n →
        UserBC.Demands points (UserBC.conds (SingleCell.info 0)) n c (some 0) := by
      intro n c p it hp hit hc hh
      obtain ⟨o, ho⟩ := UserBC.demands_exists points (UserBC.conds (SingleCell.info 0)) n c
      cases o with
      | none => exact absurd ⟨hc, p, hp, hh⟩ ((UserBC.demands_none_iff _ _ _ _).1 ho it hit)
      | some v =>
        have hv : v = 0 := by
          obtain _ | ⟨pre, it', post, p', e, -⟩ := ho
          exact hval it' (by simp [e]) p'
        exact hv ▸ ho
    have ho : ∀ i : Fin 3, isclose ((![0, 0, 0] : Fin 3 → ℝ) i) 0 := by
      intro i
      fin_cases i <;> exact isclose_self _
    have hx : ∀ i : Fin 3, isclose ((![1, 0, 0] : Fin 3 → ℝ) i) ((![1, 0, 0] : Fin 3 → ℝ) i) := fun i => isclose_self _
    have d00 := hz n0 0 _ (by norm_num) h0 (hdem n0 0 _ (SingleCell.origin, 0, fun _ => 0) h0 (by simp [UserBC.conds, SingleCell.info]) rfl
      (by simp only [SingleCell.origin, LocFn.holds]; exact decide_eq_true ho))
    have d01 := hz n0 1 _ (by norm_num) h0 (hdem n0 1 _ (SingleCell.origin, 1, fun _ => 0) h0 (by simp [UserBC.conds, SingleCell.info]) rfl
      (by simp only [SingleCell.origin, LocFn.holds]; exact decide_eq_true ho))
    have d02 := hz n0 2 _ (by norm_num) h0 (hdem n0 2 _ (SingleCell.bottom, 2, fun _ => 0) h0 (by simp [UserBC.conds, SingleCell.info]) rfl
      (by simp only [SingleCell.bottom, LocFn.holds]; exact decide_eq_true (isclose_self _)))
    have d11 := hz n1 1 _ (by norm_num) h1 (hdem n1 1 _ (SingleCell.xCorner, 1, fun _ => 0) h1 (by simp [UserBC.conds, SingleCell.info]) rfl
      (by simp only [SingleCell.xCorner, LocFn.holds]; exact decide_eq_true hx))
    have d12 := hz n1 2 _ (by norm_num) h1 (hdem n1 2 _ (SingleCell.bottom, 2, fun _ => 0) h1 (by simp [UserBC.conds, SingleCell.info]) rfl
      (by simp only [SingleCell.bottom, LocFn.holds]; exact decide_eq_true (isclose_self _)))
    have d22 := hz n2 2 _ (by norm_num) h2 (hdem n2 2 _ (SingleCell.bottom, 2, fun _ => 0) h2 (by simp [UserBC.conds, SingleCell.info]) rfl
      (by simp only [SingleCell.bottom, LocFn.holds]; exact decide_eq_true (isclose_self _)))
    rw [hu] at d00 d01 d02 d11 d12 d22
    simp [Matrix.mulVec, dotProduct, Fin.sum_univ_three] at d00 d01 d02 d11 d12 d22
    have w00 := hsk 0 0
    have w11 := hsk 1 1
    have w22 := hsk 2 2
    have w01 := hsk 0 1
    have w02 := hsk 0 2
    have w12 := hsk 1 2
    intro p
    rw [hu]
    have hW0 : W = 0 := by
      ext i j
      fin_cases i <;> fin_cases j <;> simp <;> linarith
    have ha : a = 0 := by
      funext i
      fin_cases i <;> simp <;> assumption
    rw [hW0, ha]
    simp
  · intro s a b hbox n c v p hc hp hv
    obtain _ | ⟨pre, it, post, p', e, h1, h2, h3, -⟩ := hv
    have hit : it ∈ UserBC.conds (SingleCell.info s) := by simp [e]
    rw [hp] at h2
    cases h2
    have hclose0 : ∀ i, isclose (p i) 0 → p i = 0 := by
      intro i hi
      rcases hbox n p hp i with h | h
      · exact h
      · rw [h] at hi
        unfold isclose at hi
        norm_num at hi
    have hclose1 : ∀ i, isclose (p i) 1 → p i = 1 := by
      intro i hi
      rcases hbox n p hp i with h | h
      · rw [h] at hi
        unfold isclose at hi
        norm_num at hi
      · exact h
    simp [UserBC.conds, SingleCell.info] at hit
    rcases hit with rfl | rfl | rfl | rfl | rfl
    · have := hclose0 0 (of_decide_eq_true h3 0)
      dsimp only at h1
      subst h1
      simp [this]
    · have := hclose0 1 (of_decide_eq_true h3 1)
      dsimp only at h1
      subst h1
      simp [this]
    · have := hclose0 1 (of_decide_eq_true h3 1)
      dsimp only at h1
      subst h1
      simp [this]
    · have := hclose0 2 (of_decide_eq_true h3)
      dsimp only at h1
      subst h1
      simp [this]
    · have := hclose1 2 (of_decide_eq_true h3)
      dsimp only at h1
      subst h1
      simp [this, SingleCell.dirichletTop]

/-- The centre of the top face sinks by the load times the width of the plate (up to the shift). -/
example (s : ℝ) : UserBC.Demands [![5, 5, 1 / 4]] (UserBC.conds (ThinPlate.info s)) 0 2 (some (-(s * (10 + 1 / 10 ^ 9)))) :=
  (C111_plate [![5, 5, 1 / 4]] s 0 ![5, 5, 1 / 4] rfl rfl 5 ⟨by simp, by simp, by simp; norm_num, by simp, by simp; norm_num⟩
    (by norm_num) _).2 (by ring)

end FinitePlasticity
end JaxFem
