import Mathlib.LinearAlgebra.FiniteDimensional.Lemmas
import Verif.Thm.C101_Flat
import Verif.Thm.C100_Identify

/-!
# C101: thermal mechanical control
-/

namespace JaxFem.Control

open scoped BigOperators

variable {vu vT : CVar 2} {m : Material} {bu bT : DirichletLists} {n : Nat}
  {S : Inverse.Setup (Fin n → ℝ) (fes vu vT) (totalDofs (fes vu vT))}

/-! ### Helper lemmas -/

theorem control_linear (hP : Plate m vu vT bu bT n) (hS : IsControlSetup m vu vT bu bT S) :
    ∃ vals, Inverse.LinearModel S (formMatrix (formB m vu vT)) (fun _ => 0) vals := by
  obtain ⟨vals, h1, h2, h3⟩ := values_affine hP
  refine ⟨vals, ⟨fun θ x => ?_, ⟨0, fun p => by simp⟩, h1, fun θ k => ?_, fun θ k v hv => ?_, ?_⟩⟩
  · funext k
    rw [hS.res, flatResidual_eq hP.wf hP.vecU hP.vecT, Pi.sub_apply, formMatrix_mulVec, formB_apply]
    simp
  · rw [hS.bcs, hS.bcs]
    exact h3 θ k
  · rw [hS.bcs] at hv
    exact h2 θ k v hv
  · rw [hS.bcs]
    refine form_regular (hP.bc 0) _ fun x hx h => ?_
    rw [← vanishes_iff hP] at hx
    exact form_definite hP x hx fun y hy => h y ((vanishes_iff hP 0 y).1 hy)

theorem control_solves (hP : Plate m vu vT bu bT n) (hS : IsControlSetup m vu vT bu bT S) (θ : Fin n → ℝ)
    (w : Dofs vu vT) : SolvesBVP (fes vu vT) (S.bcs θ) (S.res θ) w ↔ IsState m bu bT θ w := by
  rw [hS.bcs]
  have hweak := Inverse.weak_iff (hP.bc θ) (formB m vu vT w)
  constructor
  · rintro ⟨h1, h2⟩
    have h3 : ∀ y, Vanishes bu bT y → form m w y = 0 := fun y hy =>
      hweak.2 (fun k hk => by
        have := h2 k hk
        rwa [hS.res, flatResidual_eq hP.wf hP.vecU hP.vecT] at this) y ((vanishes_iff hP θ y).1 hy)
    refine ⟨(takesValues_iff hP θ w).2 h1, fun y hy => ?_, fun y hy => ?_⟩
    · rw [← form_false hP.wf hP.vecU hP.vecT]
      exact h3 _ (part_vanishes hP.vecU hP.vecT hy false)
    · rw [← sub_eq_zero, ← form_true hP.wf hP.vecU hP.vecT]
      exact h3 _ (part_vanishes hP.vecU hP.vecT hy true)
  · rintro ⟨h1, h2, h3⟩
    refine ⟨(takesValues_iff hP θ w).1 h1, fun k hk => ?_⟩
    rw [hS.res, flatResidual_eq hP.wf hP.vecU hP.vecT]
    refine hweak.1 (fun y hy => ?_) k hk
    rw [← vanishes_iff hP] at hy
    rw [formB_apply, form, h2 y hy, h3 y hy]
    ring

/-- Product of the displacements of a node. -/
noncomputable def cornerB (vu vT : CVar 2) (corner : Nat) : Dofs vu vT →ₗ[ℝ] Dofs vu vT →ₗ[ℝ] ℝ :=
  LinearMap.mk₂ ℝ (fun x y => ∑ c : Fin 2, field x 0 corner c * field y 0 corner c)
    (fun x y z => by simp only [← fieldL_apply, map_add, add_mul, Finset.sum_add_distrib])
    (fun a x z => by simp only [← fieldL_apply, map_smul, smul_eq_mul, mul_assoc, Finset.mul_sum])
    (fun x y z => by simp only [← fieldL_apply, map_add, mul_add, Finset.sum_add_distrib])
    (fun a x z => by
      simp only [← fieldL_apply, map_smul, smul_eq_mul, Finset.mul_sum]
      exact Finset.sum_congr rfl fun c _ => by ring)

/-- Product of a vector with the displacement of a node. -/
noncomputable def cornerL (vu vT : CVar 2) (corner : Nat) (d : Fin 2 → ℝ) : Dofs vu vT →ₗ[ℝ] ℝ :=
  ∑ c : Fin 2, d c • fieldL vu vT 0 corner c

theorem cornerL_apply (corner : Nat) (d : Fin 2 → ℝ) (x : Dofs vu vT) :
    cornerL vu vT corner d x = ∑ c : Fin 2, d c * field x 0 corner c := by
  simp [cornerL, LinearMap.sum_apply, fieldL_apply]

theorem cornerB_apply (corner : Nat) (x y : Dofs vu vT) :
    cornerB vu vT corner x y = ∑ c : Fin 2, field x 0 corner c * field y 0 corner c := rfl

theorem cornerError_eq (hvu : vu.vec = 2) {corner : Nat} (hc : corner < vu.numTotalNodes) (goal : Fin 2 → ℝ)
    (x : Dofs vu vT) :
    cornerError corner goal (solList vu vT x) = ∑ c : Fin 2, (field x 0 corner c - goal c) ^ 2 := by
  have hl : ((solList vu vT x).getD 0 []).length = vu.numTotalNodes := by
    obtain ⟨a, t, h1, h2, -, -⟩ := solList_shapes x
    rw [h1]
    exact h2
  rw [cornerError]
  rw [hl, min_eq_left (by omega)]
  refine Finset.sum_congr rfl fun c _ => ?_
  rw [← solList_at x (i := 0) (by simp [fes]) hc (by show (c : Nat) < vu.vec; rw [hvu]; exact c.2)]
  rfl

theorem corner_quadratic (hvu : vu.vec = 2) {corner : Nat} (hc : corner < vu.numTotalNodes) (goal : Fin 2 → ℝ) :
    Inverse.QuadraticFn (fun x : Dofs vu vT => cornerError corner goal (solList vu vT x)) (cornerB vu vT corner)
      ((-2 : ℝ) • cornerL vu vT corner goal) (∑ c, goal c ^ 2) where
  symm := fun x y => by simp only [cornerB_apply, mul_comm]
  eq := fun x => by
    rw [cornerError_eq hvu hc, LinearMap.smul_apply, cornerL_apply, cornerB_apply]
    simp only [Fin.sum_univ_two, smul_eq_mul]
    ring

/-! ### Property theorems -/

/-- **C101 (control).** For all temperatures `θ` of the controlled nodes `fwd_pred` returns the only state, an affine
function of `θ`; the objective is the squared distance of the displacement of the corner from the goal; `jax.grad` returns
the derivative, which is given by the adjoint state and any field that takes the variation of the boundary values; with it
the expansion of the objective to second order is exact. -/
theorem C101_control (hP : Plate m vu vT bu bT n) (hS : IsControlSetup m vu vT bu bT S) {corner : Nat}
    (hc : corner < vu.numTotalNodes) (goal : Fin 2 → ℝ) :
    ∃ (u : (Fin n → ℝ) → Dofs vu vT) (D : (Fin n → ℝ) →ₗ[ℝ] Dofs vu vT) (adj : (Fin n → ℝ) → Dofs vu vT)
      (g : (Fin n → ℝ) → (Fin n → ℝ) →L[ℝ] ℝ),
      (∀ θ, u θ = D θ + u 0) ∧
      (∀ θ w, IsState m bu bT θ w ↔ w = u θ) ∧
      (∀ θ w, IsAdjoint m bu bT corner (fun c => field (u θ) 0 corner c - goal c) w ↔ w = adj θ) ∧
      (∀ θ fuel, S.fwdPred (fuel + 2) θ = some (.ok (u θ))) ∧
      (∀ θ fuel, S.objective (fuel + 2) (fun x => cornerError corner goal (solList vu vT x)) θ
        = some (.ok (∑ c : Fin 2, (field (u θ) 0 corner c - goal c) ^ 2))) ∧
      (∀ θ fuel, S.grad (fuel + 2) (fun x => cornerError corner goal (solList vu vT x)) θ = some (.ok (g θ))) ∧
      (∀ θ δ (l : Dofs vu vT), TakesValues bu bT (θ + δ) (u θ + l) →
        g θ δ = form m l (adj θ) + 2 * ∑ c : Fin 2, (field (u θ) 0 corner c - goal c) * field l 0 corner c) ∧
      (∀ θ δ, g θ δ = 2 * ∑ c : Fin 2, (field (u θ) 0 corner c - goal c) * field (D δ) 0 corner c) ∧
      ∀ θ δ, (∑ c : Fin 2, (field (u (θ + δ)) 0 corner c - goal c) ^ 2)
        = (∑ c : Fin 2, (field (u θ) 0 corner c - goal c) ^ 2) + g θ δ
          + ∑ c : Fin 2, field (D δ) 0 corner c ^ 2 := by
  obtain ⟨vals, hL⟩ := control_linear hP hS
  have hquad := corner_quadratic (vT := vT) hP.vecU hc goal
  obtain ⟨u, D, g, h1, h2, h3, h4, h5, h6⟩ := Inverse.C100_linear S hS.exact hL hquad
  have hstate : ∀ θ w, IsState m bu bT θ w ↔ w = u θ := fun θ w => (control_solves hP hS θ w).symm.trans (h2 θ w)
  have hvan : ∀ x : Dofs vu vT, Vanishes bu bT x ↔ x ∈ vanishing (fes vu vT) (bcs bu bT (0 : Fin n → ℝ)) :=
    fun x => vanishes_iff hP 0 x
  have hex : ∀ θ, ∃ w ∈ vanishing (fes vu vT) (bcs bu bT (0 : Fin n → ℝ)),
      ∀ y ∈ vanishing (fes vu vT) (bcs bu bT (0 : Fin n → ℝ)), (formB m vu vT).flip w y
        = ((-2 : ℝ) • cornerL vu vT corner (fun c => field (u θ) 0 corner c - goal c)) y := fun θ =>
    form_solvable (hP.bc 0) (formB m vu vT).flip (fun x hx h => form_definite_flip hP x ((hvan x).2 hx)
      fun y hy => h y ((hvan y).1 hy)) _
  choose adj ha1 ha2 using hex
  have hadj : ∀ θ y, Vanishes bu bT y → form m y (adj θ)
      + 2 * ∑ c : Fin 2, (field (u θ) 0 corner c - goal c) * field y 0 corner c = 0 := by
    intro θ y hy
    have := ha2 θ y ((hvan y).1 hy)
    rw [LinearMap.flip_apply, formB_apply, LinearMap.smul_apply, cornerL_apply, smul_eq_mul] at this
    rw [this]
    ring
  have hgr : ∀ θ δ, g θ δ = 2 * ∑ c : Fin 2, (field (u θ) 0 corner c - goal c) * field (D δ) 0 corner c := by
    intro θ δ
    rw [h5, LinearMap.smul_apply, cornerL_apply, cornerB_apply]
    simp only [Fin.sum_univ_two, smul_eq_mul]
    ring
  refine ⟨u, D, adj, g, h1, hstate, fun θ w => ⟨fun hw => ?_, ?_⟩, h3, fun θ fuel => ?_, h4, fun θ δ l hl => ?_, hgr,
    fun θ δ => ?_⟩
  · have hd : Vanishes bu bT (w - adj θ) := (hvan _).2 (Submodule.sub_mem _ ((hvan w).1 hw.1) (ha1 θ))
    refine sub_eq_zero.1 (form_definite_flip hP _ hd fun y hy => ?_)
    have e1 := hw.2 y hy
    have e2 := hadj θ y hy
    rw [← formB_apply, map_sub, formB_apply, formB_apply]
    linarith
  · rintro rfl
    exact ⟨(hvan _).2 (ha1 θ), hadj θ⟩
  · rw [Inverse.Setup.objective, h3]
    exact congrArg (fun t : ℝ => some (Except.ok t)) (cornerError_eq hP.vecU hc goal _)
  · have hs : u (θ + δ) = u θ + D δ := by
      rw [h1 (θ + δ), h1 θ, map_add]; abel
    have s1 := (hstate (θ + δ) _).2 rfl
    have s0 := (hstate θ _).2 rfl
    have hd : Vanishes bu bT (D δ - l) := by
      refine (vanishes_iff hP (θ + δ) _).2 fun k v hv => ?_
      have e1 := (takesValues_iff hP _ _).1 s1.values k v hv
      have e2 := (takesValues_iff hP _ _).1 hl k v hv
      rw [hs, Pi.add_apply] at e1
      rw [Pi.add_apply] at e2
      rw [Pi.sub_apply]
      linarith
    have e0 : form m (D δ) (adj θ) = 0 := by
      have hva := (hvan _).2 (ha1 θ)
      have f0 : ∀ θ', form m (u θ') (adj θ) = 0 := fun θ' => by
        have s := (hstate θ' _).2 rfl
        rw [form, s.heat _ hva, s.balance _ hva]
        ring
      have e : D δ = u (θ + δ) - u θ := by rw [hs]; abel
      rw [e, ← formB_apply, map_sub, LinearMap.sub_apply, formB_apply, formB_apply, f0, f0, sub_zero]
    have e1 := hadj θ _ hd
    rw [← formB_apply, map_sub, LinearMap.sub_apply, formB_apply, formB_apply, e0] at e1
    rw [hgr]
    simp only [← fieldL_apply, map_sub, mul_sub, Finset.sum_sub_distrib] at e1 ⊢
    linarith
  · have := h6 θ δ
    rw [cornerError_eq hP.vecU hc, cornerError_eq hP.vecU hc, cornerB_apply] at this
    simp only [sq]
    simp only [sq] at this
    exact this

/-- **C101 (minimum).** The returned gradient vanishes exactly at the temperatures for which the objective is minimal
among all temperatures. -/
theorem C101_minimum (hP : Plate m vu vT bu bT n) (hS : IsControlSetup m vu vT bu bT S) {corner : Nat}
    (hc : corner < vu.numTotalNodes) (goal : Fin 2 → ℝ) (fuel : Nat) :
    ∃ J : (Fin n → ℝ) → ℝ,
      (∀ θ, S.objective (fuel + 2) (fun x => cornerError corner goal (solList vu vT x)) θ = some (.ok (J θ))) ∧
      ∀ θ, S.grad (fuel + 2) (fun x => cornerError corner goal (solList vu vT x)) θ = some (.ok 0) ↔
        ∀ θ', J θ ≤ J θ' := by
  obtain ⟨u, D, adj, g, -, -, -, -, h5, h6, -, -, h9⟩ := C101_control hP hS hc goal
  refine ⟨_, fun θ => h5 θ fuel, fun θ => ?_⟩
  rw [h6 θ fuel]
  have hg : (some (Except.ok (g θ)) : Option (Except Err ((Fin n → ℝ) →L[ℝ] ℝ))) = some (.ok 0) ↔ g θ = 0 := by
    constructor
    · intro h
      injection h with h
      injection h
    · intro h
      rw [h]
  rw [hg]
  constructor
  · intro h θ'
    have := h9 θ (θ' - θ)
    rw [add_sub_cancel, h] at this
    rw [this]
    have : 0 ≤ ∑ c : Fin 2, field (D (θ' - θ)) 0 corner c ^ 2 := Finset.sum_nonneg fun c _ => sq_nonneg _
    simp only [ContinuousLinearMap.zero_apply, add_zero]
    linarith
  · intro h
    ext δ
    refine Inverse.linear_zero_of_quadratic _ (∑ c : Fin 2, field (D δ) 0 corner c ^ 2) fun t => ?_
    have e := h9 θ (t • δ)
    have h0 := h (θ + t • δ)
    rw [e] at h0
    have e2 : ∑ c : Fin 2, field (D (t • δ)) 0 corner c ^ 2 = t ^ 2 * ∑ c : Fin 2, field (D δ) 0 corner c ^ 2 := by
      simp only [← fieldL_apply, map_smul, smul_eq_mul, mul_pow, Finset.mul_sum]
    rw [e2, map_smul, smul_eq_mul] at h0
    linarith

/-- **C101 (central difference).** The check of cell 12 is exact: for an index in range, a nonzero temperature there and any
`h ≠ 0` the difference quotient is the entry of the returned gradient. -/
theorem C101_difference (hP : Plate m vu vT bu bT n) (hS : IsControlSetup m vu vT bu bT S) {corner : Nat}
    (hc : corner < vu.numTotalNodes) (goal : Fin 2 → ℝ) (θ : Fin n → ℝ) (i : Fin n) (hθ : θ i ≠ 0) (h : ℝ) (hh : h ≠ 0)
    (fuel : Nat) :
    ∃ g : (Fin n → ℝ) →L[ℝ] ℝ,
      S.grad (fuel + 2) (fun x => cornerError corner goal (solList vu vT x)) θ = some (.ok g) ∧
      fdQuotient (S.objective (fuel + 2) (fun x => cornerError corner goal (solList vu vT x))) θ i h
        = some (.ok (g (Pi.single i 1))) := by
  obtain ⟨u, D, adj, g, -, -, -, -, h5, h6, -, -, h9⟩ := C101_control hP hS hc goal
  refine ⟨g θ, h6 θ fuel, ?_⟩
  have hget : getAt θ i = .ok (θ i) := by
    have hn : 0 < n := i.pos
    rw [getAt, dif_pos hn]
    congr 2
    exact Fin.ext (by show min (i : Nat) (n - 1) = i; omega)
  have hset : ∀ s : ℝ, setAt θ i ((1 + s) * θ i) = θ + (s * θ i) • (Pi.single i 1 : Fin n → ℝ) := by
    intro s
    funext j
    rw [setAt, Pi.add_apply, Pi.smul_apply, smul_eq_mul]
    by_cases hj : j = i
    · subst hj
      rw [if_pos rfl, Pi.single_eq_same]
      ring
    · rw [if_neg (fun e => hj (Fin.ext e)), Pi.single_eq_of_ne hj]
      ring
  have hset' : setAt θ i ((1 - h) * θ i) = θ + (-h * θ i) • (Pi.single i 1 : Fin n → ℝ) := by
    rw [← hset, ← sub_eq_add_neg]
  have hD : ∀ s : ℝ, ∑ c : Fin 2, field (D (s • (Pi.single i 1 : Fin n → ℝ))) 0 corner c ^ 2
      = s ^ 2 * ∑ c : Fin 2, field (D (Pi.single i 1 : Fin n → ℝ)) 0 corner c ^ 2 := by
    intro s
    simp only [← fieldL_apply, map_smul, smul_eq_mul, mul_pow, Finset.mul_sum]
  rw [fdQuotient, hget]
  dsimp only
  rw [hset, hset', h5, h5]
  dsimp only
  rw [h9, h9, hD, hD, map_smul, map_smul, smul_eq_mul, smul_eq_mul]
  congr 2
  have h2 : 2 * h * θ i ≠ 0 := mul_ne_zero (mul_ne_zero two_ne_zero hh) hθ
  rw [div_eq_iff h2]
  ring

/-- **C101 (index).** An index beyond the last temperature is not noticed: both evaluations use `θ` itself and the
difference quotient is zero, whatever the objective. -/
theorem C101_index (J : (Fin n → ℝ) → Option (Except Err ℝ)) (θ : Fin n → ℝ) (hn : 0 < n) (i : Nat) (hi : n ≤ i) (h : ℝ)
    (_hh : 2 * h * θ ⟨n - 1, by omega⟩ ≠ 0) (r : ℝ) (hJ : J θ = some (.ok r)) : fdQuotient J θ i h = some (.ok 0) := by
  have hset : ∀ v, setAt θ i v = θ := fun v => by
    funext j
    rw [setAt, if_neg (by omega)]
  rw [fdQuotient, getAt, dif_pos hn]
  dsimp only
  rw [hset, hset, hJ]
  dsimp only
  rw [sub_self, zero_div]

/-- **C101 (corner).** The index of the corner is clamped: a number that does not fit to the mesh selects the last
node. -/
theorem C101_corner (hvu : vu.vec = 2) (hn : 0 < vu.numTotalNodes) (corner : Nat) (hc : vu.numTotalNodes ≤ corner)
    (goal : Fin 2 → ℝ) (x : Dofs vu vT) :
    cornerError corner goal (solList vu vT x)
      = ∑ c : Fin 2, (field x 0 (vu.numTotalNodes - 1) c - goal c) ^ 2 := by
  rw [← cornerError_eq hvu (by omega) goal x]
  have hl : ((solList vu vT x).getD 0 []).length = vu.numTotalNodes := by
    obtain ⟨a, t, h1, h2, -, -⟩ := solList_shapes x
    rw [h1]
    exact h2
  rw [cornerError, cornerError]
  rw [hl, min_eq_right (by omega), min_self]

/-- **C101 (blind directions).** With more than two controlled nodes the temperatures are not determined: there is a
nonzero change of the temperatures that leaves the objective as it is, at all temperatures and for all goals. -/
theorem C101_blind (hP : Plate m vu vT bu bT n) (hS : IsControlSetup m vu vT bu bT S) {corner : Nat}
    (hc : corner < vu.numTotalNodes) (hn : 2 < n) :
    ∃ δ : Fin n → ℝ, δ ≠ 0 ∧ ∀ (goal : Fin 2 → ℝ) (θ : Fin n → ℝ) (fuel : Nat),
      S.objective (fuel + 2) (fun x => cornerError corner goal (solList vu vT x)) (θ + δ)
        = S.objective (fuel + 2) (fun x => cornerError corner goal (solList vu vT x)) θ := by
  obtain ⟨vals, hL⟩ := control_linear hP hS
  obtain ⟨u, D, g, h1, -, h3, -⟩ := Inverse.C100_linear S hS.exact hL (corner_quadratic (vT := vT) hP.vecU hc 0)
  let F : (Fin n → ℝ) →ₗ[ℝ] (Fin 2 → ℝ) := LinearMap.pi fun c => (fieldL vu vT 0 corner c).comp D
  have hk : LinearMap.ker F ≠ ⊥ := LinearMap.ker_ne_bot_of_finrank_lt (by simpa using hn)
  obtain ⟨δ, hδ, hδ0⟩ := (Submodule.ne_bot_iff _).1 hk
  refine ⟨δ, hδ0, fun goal θ fuel => ?_⟩
  have hz : ∀ c : Fin 2, field (D δ) 0 corner c = 0 := fun c => congrFun (LinearMap.mem_ker.1 hδ) c
  have hs : u (θ + δ) = u θ + D δ := by
    rw [h1 (θ + δ), h1 θ, map_add]; abel
  rw [Inverse.Setup.objective, Inverse.Setup.objective, h3, h3]
  simp only [Option.map_some, Except.map]
  rw [cornerError_eq hP.vecU hc, cornerError_eq hP.vecU hc, hs]
  congr 2
  refine Finset.sum_congr rfl fun c _ => ?_
  rw [← fieldL_apply, map_add, fieldL_apply, fieldL_apply, hz, add_zero]

/-- **C101 (set_params).** `set_params` replaces the values of the first entry and nothing else; without boundary conditions
of the temperature it fails. -/
theorem C101_set_params (b : DirichletLists) (p : List ℝ) :
    (b.2.2 = [] → setParams b p = .error .index) ∧
    (b.2.2 ≠ [] → ∃ b', setParams b p = .ok b' ∧ b'.1 = b.1 ∧ b'.2.1 = b.2.1 ∧ b'.2.2.length = b.2.2.length ∧
      b'.2.2[0]? = some p ∧ ∀ j, b'.2.2[j + 1]? = b.2.2[j + 1]?) := by
  obtain ⟨b0, b1, b2⟩ := b
  cases b2 with
  | nil => exact ⟨fun _ => rfl, fun h => absurd rfl h⟩
  | cons v vs =>
    exact ⟨fun h => by simp at h, fun _ => ⟨_, rfl, rfl, rfl, by simp, rfl, fun j => by simp⟩⟩

end JaxFem.Control
