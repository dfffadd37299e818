import Mathlib.LinearAlgebra.FiniteDimensional.Lemmas
import Mathlib.LinearAlgebra.Dimension.Constructions
import Mathlib.LinearAlgebra.Basis.VectorSpace
import Verif.Thm.C100_Source

/-!
# C100: stationary points, reachable data, ambiguity and the finite-difference check
-/

namespace JaxFem.Inverse

open scoped BigOperators

variable {nq nfq nn dim : Nat} {P : Problem1 ℝ nq nfq nn 1 dim} {bcs : List (List (BCEntry ℝ))}
  {S : Setup (Fin P.cells.length → Fin nq → ℝ) P.fes (totalDofs P.fes)}

/-- The objective of the tutorial for data `ū`. -/
noncomputable def misfit (P : Problem1 ℝ nq nfq nn 1 dim) (ū x : Fin (totalDofs P.fes) → ℝ) : ℝ :=
  l2Error P (P.solArray x) (P.solArray ū)

/-! ### Helper lemmas -/

/-- A linear function that is bounded below by a quadratic one with no linear part vanishes. -/
theorem linear_zero_of_quadratic (a b : ℝ) (h : ∀ t : ℝ, 0 ≤ t * a + t ^ 2 * b) : a = 0 := by
  by_contra ha
  have hb : 0 < |b| + 1 := by positivity
  have := h (-a / (|b| + 1))
  have e : -a / (|b| + 1) * a + (-a / (|b| + 1)) ^ 2 * b = a ^ 2 / (|b| + 1) ^ 2 * (b - (|b| + 1)) := by
    field_simp
    ring
  rw [e] at this
  have hn : b - (|b| + 1) < 0 := by
    have := le_abs_self b
    linarith
  have hp : 0 < a ^ 2 / (|b| + 1) ^ 2 := by positivity
  nlinarith

theorem sum_single {C Q : Nat} (c : Fin C) (q : Fin Q) (r : ℝ) (F : Fin C → Fin Q → ℝ) :
    ∑ i : Fin C, ∑ j : Fin Q, (if (i : Nat) = c ∧ (j : Nat) = q then r else 0) * F i j = r * F c q := by
  rw [Finset.sum_eq_single c, Finset.sum_eq_single q]
  · simp
  · intro j _ hj
    have : ¬ ((j : Nat) = q) := fun h => hj (Fin.ext h)
    simp [this]
  · simp
  · intro i _ hi
    have : ¬ ((i : Nat) = c) := fun h => hi (Fin.ext h)
    simp [this]
  · simp

/-! ### Property theorems -/

/-- **C100 (stationary points).** A source is a stationary point of the objective exactly if it is a global minimum. For
data that satisfy the boundary conditions this is so exactly if the prediction equals the data at all nodes. -/
theorem C100_stationary (hA : Admissible P bcs) (hval : ValuesDetermine P.el) (hS : IsSourceSetup P bcs S)
    (ū : Fin (totalDofs P.fes) → ℝ) (θ : Fin P.cells.length → Fin nq → ℝ) (fuel : Nat) :
    ∃ g J, S.grad (fuel + 2) (misfit P ū) θ = some (.ok g) ∧ S.objective (fuel + 2) (misfit P ū) θ = some (.ok J) ∧
      (g = 0 ↔ ∀ θ' J', S.objective (fuel + 2) (misfit P ū) θ' = some (.ok J') → J ≤ J') ∧
      ((∀ (k : Fin (totalDofs P.fes)) v, Prescribed P.fes bcs k (some v) → ū k = 0) →
        (g = 0 ↔ J = 0) ∧ (g = 0 ↔ S.fwdPred (fuel + 2) θ = some (.ok ū))) := by
  obtain ⟨u, adj, g, h1, h2, h3, h4, h5, h6, h7⟩ := C100_source hA hS ū
  refine ⟨g θ, _, h5 θ fuel, h4 θ fuel, ⟨fun hg θ' J' hJ' => ?_, fun hmin => ?_⟩, fun hū => ?_⟩
  · rw [show S.objective (fuel + 2) (misfit P ū) θ' = _ from h4 θ' fuel] at hJ'
    have := Except.ok.inj (Option.some.inj hJ')
    rw [← this]
    have e := h7 θ (θ' - θ)
    rw [add_sub_cancel, hg] at e
    have := mass_nonneg hA.positive (u (θ' - θ))
    rw [e]
    simp only [zero_apply]
    linarith
  · refine ContinuousLinearMap.ext fun δ => ?_
    refine linear_zero_of_quadratic (g θ δ) (massProduct P (u δ) (u δ)) fun t => ?_
    have := hmin (θ + t • δ) _ (h4 _ fuel)
    rw [h7, map_smul, map_smul, ← massB_apply P (t • u δ), map_smul (massB P), LinearMap.smul_apply,
      map_smul, massB_apply, smul_eq_mul, smul_eq_mul, smul_eq_mul] at this
    linarith
  · have hvan : u θ - ū ∈ vanishing P.fes bcs := Submodule.sub_mem _ ((h1 θ (u θ)).2 rfl).1 hū
    have key : g θ = 0 → u θ = ū := by
      intro hg
      have hadj := (h2 θ (adj θ)).2 rfl
      have hv : ∀ c q, valueAt P (adj θ) c q = 0 := by
        intro c q
        have := h6 θ fun i j => if (i : Nat) = c ∧ (j : Nat) = q then 1 else 0
        rw [sum_single c q 1 fun i j => valueAt P (adj θ) i j * P.measureAt i j, hg, one_mul] at this
        rcases mul_eq_zero.1 this.symm with h | h
        · exact h
        · exact absurd h (hA.positive _ (List.getElem_mem _) q).ne'
      have hz : adj θ = 0 := zero_of_values hA.wf hval hA.bc hA.anchored hadj.1 hv
      have e := hadj.2 _ hvan
      rw [hz, ← dirichletB_apply, map_zero, LinearMap.zero_apply, zero_add] at e
      have em : massProduct P (u θ - ū) (u θ - ū) = 0 := by linarith
      exact sub_eq_zero.1 (zero_of_values hA.wf hval hA.bc hA.anchored hvan
        (value_zero_of_mass hA.positive _ em))
    have back : massProduct P (u θ - ū) (u θ - ū) = 0 → g θ = 0 := by
      intro hJ
      have hd := zero_of_values hA.wf hval hA.bc hA.anchored hvan (value_zero_of_mass hA.positive _ hJ)
      have ha : (0 : Fin (totalDofs P.fes) → ℝ) = adj θ := by
        refine (h2 θ 0).1 ⟨fun _ _ _ => rfl, fun y _ => ?_⟩
        rw [hd, ← dirichletB_apply, ← massB_apply]
        simp
      refine ContinuousLinearMap.ext fun δ => ?_
      rw [h6, ← ha]
      simp only [← valueL_apply, map_zero, zero_mul, mul_zero, Finset.sum_const_zero, zero_apply]
    have zero_of_eq : u θ = ū → massProduct P (u θ - ū) (u θ - ū) = 0 := fun h => by
      rw [h, sub_self, ← massB_apply, map_zero]
    refine ⟨⟨fun hg => zero_of_eq (key hg), back⟩, fun hg => ?_, fun hf => ?_⟩
    · rw [h3, key hg]
    · rw [h3] at hf
      exact back (zero_of_eq (Except.ok.inj (Option.some.inj hf)))

/-- **C100 (reachable data).** Every nodal field that satisfies the boundary conditions is the prediction for some
source, so that the smallest value of the objective is zero. -/
theorem C100_reachable (hA : Admissible P bcs) (hval : ValuesDetermine P.el) (hS : IsSourceSetup P bcs S)
    (ū : Fin (totalDofs P.fes) → ℝ)
    (hū : ∀ (k : Fin (totalDofs P.fes)) v, Prescribed P.fes bcs k (some v) → ū k = 0) :
    ∃ θ, ∀ fuel, S.fwdPred (fuel + 2) θ = some (.ok ū) ∧ S.objective (fuel + 2) (misfit P ū) θ = some (.ok 0) := by
  obtain ⟨u, adj, g, h1, h2, h3, h4, h5, h6, h7⟩ := C100_source hA hS ū
  let V := vanishing P.fes bcs
  let ι : V →ₗ[ℝ] (Fin P.cells.length → Fin nq → ℝ) :=
    LinearMap.pi fun c => LinearMap.pi fun q => P.measureAt c q • (valueL P c q).comp V.subtype
  have hι : ∀ (y : V) c q, ι y c q = valueAt P y.1 c q * P.measureAt c q := fun y c q => mul_comm _ _
  have hinj : LinearMap.ker ι = ⊥ := by
    refine (Submodule.eq_bot_iff _).2 fun y hy => ?_
    refine Subtype.ext (zero_of_values hA.wf hval hA.bc hA.anchored y.2 fun c q => ?_)
    have := congrFun (congrFun (LinearMap.mem_ker.1 hy) c) q
    rw [hι] at this
    rcases mul_eq_zero.1 this with h | h
    · exact h
    · exact absurd h (hA.positive _ (List.getElem_mem _) q).ne'
  obtain ⟨L, hL⟩ := ι.exists_leftInverse_of_injective hinj
  let φ : (Fin P.cells.length → Fin nq → ℝ) →ₗ[ℝ] ℝ := -((dirichletB P ū).comp (V.subtype.comp L))
  let θ : Fin P.cells.length → Fin nq → ℝ := fun c q => φ (Pi.single c (Pi.single q 1))
  have hφ : ∀ w, φ w = ∑ c, ∑ q, θ c q * w c q := by
    intro w
    have e : w = ∑ c, ∑ q, w c q • (Pi.single c (Pi.single q 1) : Fin P.cells.length → Fin nq → ℝ) := by
      funext i j
      simp only [Finset.sum_apply, Pi.smul_apply, smul_eq_mul]
      rw [Finset.sum_eq_single i, Finset.sum_eq_single j]
      · simp
      · intro b _ hb
        simp [Pi.single_eq_of_ne hb.symm]
      · simp
      · intro b _ hb
        refine Finset.sum_eq_zero fun q _ => ?_
        rw [Pi.single_eq_of_ne hb.symm, Pi.zero_apply, mul_zero]
      · simp
    conv_lhs => rw [e]
    simp only [map_sum, map_smul, smul_eq_mul]
    exact Finset.sum_congr rfl fun c _ => Finset.sum_congr rfl fun q _ => mul_comm _ _
  have hst : IsState P bcs θ ū := by
    refine ⟨hū, fun y hy => ?_⟩
    have e1 := hφ (ι ⟨y, hy⟩)
    have e2 : L (ι ⟨y, hy⟩) = ⟨y, hy⟩ := LinearMap.congr_fun hL _
    have e3 : φ (ι ⟨y, hy⟩) = -dirichletForm P ū y := by
      show -(dirichletB P ū) (V.subtype (L (ι ⟨y, hy⟩))) = _
      rw [e2]
      rfl
    rw [e3] at e1
    have e4 : sourceWork P θ y = ∑ c, ∑ q, θ c q * ι ⟨y, hy⟩ c q := by
      simp only [sourceWork, hι, mul_assoc]
    linarith
  refine ⟨θ, fun fuel => ?_⟩
  have hu := (h1 θ ū).1 hst
  refine ⟨by rw [h3, hu], (h4 θ fuel).trans ?_⟩
  rw [← hu, sub_self, ← massB_apply, map_zero]

/-- **C100 (ambiguity).** With at least as many quadrature points as degrees of freedom, and one of these constrained,
the source is not determined by the prediction: there is a direction along which the prediction, and with it the
objective for any data, does not change. -/
theorem C100_ambiguous (hA : Admissible P bcs) (hS : IsSourceSetup P bcs S)
    (hcount : totalDofs P.fes ≤ P.cells.length * nq)
    (hfix : ∃ (k : Fin (totalDofs P.fes)) (v : ℝ), Prescribed P.fes bcs k (some v)) :
    ∃ δ : Fin P.cells.length → Fin nq → ℝ, δ ≠ 0 ∧ ∀ θ (t : ℝ) fuel,
      S.fwdPred (fuel + 2) (θ + t • δ) = S.fwdPred (fuel + 2) θ ∧
      ∀ ū, S.objective (fuel + 2) (misfit P ū) (θ + t • δ) = S.objective (fuel + 2) (misfit P ū) θ := by
  obtain ⟨u, adj, g, h1, h2, h3, h4, h5, h6, h7⟩ := C100_source hA hS 0
  let V := vanishing P.fes bcs
  have hV : V ≠ ⊤ := by
    obtain ⟨k, v, hk⟩ := hfix
    intro htop
    have hm : (fun _ => 1 : Fin (totalDofs P.fes) → ℝ) ∈ V := htop ▸ Submodule.mem_top
    exact one_ne_zero (hm k v hk)
  let uV : (Fin P.cells.length → Fin nq → ℝ) →ₗ[ℝ] V := u.codRestrict V fun θ => ((h1 θ (u θ)).2 rfl).1
  have hlt : Module.finrank ℝ V < Module.finrank ℝ (Fin P.cells.length → Fin nq → ℝ) := by
    have e1 := Submodule.finrank_lt hV
    rw [Module.finrank_fin_fun] at e1
    have e2 : Module.finrank ℝ (Fin P.cells.length → Fin nq → ℝ) = P.cells.length * nq := by
      rw [Module.finrank_pi_fintype]
      simp
    omega
  obtain ⟨δ, hδ, hne⟩ := (Submodule.ne_bot_iff _).1 (LinearMap.ker_ne_bot_of_finrank_lt (f := uV) hlt)
  have hu : u δ = 0 := congrArg Subtype.val (LinearMap.mem_ker.1 hδ)
  have hf : ∀ θ (t : ℝ) fuel, S.fwdPred (fuel + 2) (θ + t • δ) = S.fwdPred (fuel + 2) θ := fun θ t fuel => by
    rw [h3, h3, map_add, map_smul, hu, smul_zero, add_zero]
  exact ⟨δ, hne, fun θ t fuel => ⟨hf θ t fuel, fun ū => by rw [Setup.objective, Setup.objective, hf]⟩⟩

/-- **C100 (finite-difference check).** Since the objective is quadratic, the central difference quotient of the tutorial
equals the entry of the gradient for every step `h`, not only in the limit. -/
theorem C100_difference (hA : Admissible P bcs) (hS : IsSourceSetup P bcs S) (ū : Fin (totalDofs P.fes) → ℝ)
    (θ : Fin P.cells.length → Fin nq → ℝ) (fuel : Nat) :
    ∃ g, S.grad (fuel + 2) (misfit P ū) θ = some (.ok g) ∧
      ∀ (c : Fin P.cells.length) (q : Fin nq) (h : ℝ), h ≠ 0 → θ c q ≠ 0 →
        fdQuotient (S.objective (fuel + 2) (misfit P ū)) θ c q h = some (.ok (g (Pi.single c (Pi.single q 1)))) := by
  obtain ⟨u, adj, g, h1, h2, h3, h4, h5, h6, h7⟩ := C100_source hA hS ū
  refine ⟨g θ, h5 θ fuel, fun c q h hh hθ => ?_⟩
  set e : Fin P.cells.length → Fin nq → ℝ := Pi.single c (Pi.single q 1) with he
  have hget : getAt θ c q = .ok (θ c q) := by
    have hc := c.2
    have hq := q.2
    rw [getAt, dif_pos ⟨by omega, by omega⟩]
    congr 2 <;> exact Fin.ext (by simp; omega)
  have hset : ∀ v, setAt θ c q v = θ + (v - θ c q) • e := by
    intro v
    funext i j
    by_cases hi : i = c
    · subst hi
      by_cases hj : j = q
      · subst hj
        simp [setAt, he]
      · have : ¬ ((j : Nat) = q) := fun h => hj (Fin.ext h)
        simp [setAt, he, this, Pi.single_eq_of_ne hj]
    · have : ¬ ((i : Nat) = c) := fun h => hi (Fin.ext h)
      simp [setAt, he, this, Pi.single_eq_of_ne hi]
  rw [fdQuotient, hget]
  dsimp only
  rw [hset, hset, show S.objective (fuel + 2) (misfit P ū) _ = _ from h4 _ fuel,
    show S.objective (fuel + 2) (misfit P ū) (θ + ((1 - h) * θ c q - θ c q) • e) = _ from h4 _ fuel]
  dsimp only
  congr 2
  rw [h7, h7]
  simp only [map_smul, ← massB_apply, LinearMap.smul_apply, smul_eq_mul]
  field_simp
  ring

/-- **C100 (indices).** For an index outside the array JAX drops the update and reads the last entry, so that the check
silently returns zero; an array without entries cannot be read. -/
theorem C100_index {C Q : Nat} (J : (Fin C → Fin Q → ℝ) → Option (Except Err ℝ)) (θ : Fin C → Fin Q → ℝ) (c q : Nat)
    (h a : ℝ) :
    (0 < C → 0 < Q → C ≤ c ∨ Q ≤ q → J θ = some (.ok a) → fdQuotient J θ c q h = some (.ok 0)) ∧
    (C = 0 ∨ Q = 0 → fdQuotient J θ c q h = some (.error .index)) := by
  constructor
  · intro hC hQ hout hJ
    have hset : ∀ v, setAt θ c q v = θ := by
      intro v
      funext i j
      have : ¬ ((i : Nat) = c ∧ (j : Nat) = q) := by
        have := i.2
        have := j.2
        omega
      simp [setAt, this]
    rw [fdQuotient, getAt, dif_pos ⟨hC, hQ⟩]
    dsimp only
    rw [hset, hset, hJ]
    simp
  · intro h0
    rw [fdQuotient, getAt, dif_neg (by omega)]

end JaxFem.Inverse
