import Verif.Thm.C99_Pencil
import Mathlib.LinearAlgebra.FiniteDimensional.Lemmas
import Mathlib.Topology.Compactness.Compact
import Mathlib.Analysis.Normed.Module.FiniteDimension

/-!
# C99: the eigenvalues of a free body next to a target (helper lemmas)
-/

namespace JaxFem.Modal

open scoped BigOperators Topology

variable {N : Nat}

/-- Matrices of a free body: symmetric, positive semidefinite stiffness with three rigid modes, definite mass. -/
structure FreePencil (K M : Matrix (Fin N) (Fin N) ℝ) : Prop where
  symmK : K.IsSymm
  symmM : M.IsSymm
  psd : ∀ v, 0 ≤ dotProduct v (K.mulVec v)
  def' : ∀ v, v ≠ 0 → 0 < dotProduct v (M.mulVec v)
  nullity : Module.finrank ℝ (LinearMap.ker K.mulVecLin) = 3

variable {K M : Matrix (Fin N) (Fin N) ℝ}

theorem FreePencil.nonneg (h : FreePencil K M) {mu : ℝ} {w : Fin N → ℝ} (hw : IsEigenpair K M mu w) : 0 ≤ mu := by
  have h1 := h.psd w
  rw [hw.2, dotProduct_smul, smul_eq_mul] at h1
  exact nonneg_of_mul_nonneg_left h1 (h.def' w hw.1)

/-- A rigid mode that is orthogonal to two given vectors. -/
theorem FreePencil.rigid_orth (h : FreePencil K M) (a b : Fin N → ℝ) :
    ∃ w, IsEigenpair K M 0 w ∧ dotProduct w (M.mulVec a) = 0 ∧ dotProduct w (M.mulVec b) = 0 := by
  let f : LinearMap.ker K.mulVecLin →ₗ[ℝ] (Fin 2 → ℝ) :=
    { toFun := fun w => ![dotProduct (w : Fin N → ℝ) (M.mulVec a), dotProduct (w : Fin N → ℝ) (M.mulVec b)]
      map_add' := fun x y => by
        funext i
        fin_cases i <;> simp [add_dotProduct]
      map_smul' := fun c x => by
        funext i
        fin_cases i <;> simp [smul_dotProduct] }
  have hlt : Module.finrank ℝ (Fin 2 → ℝ) < Module.finrank ℝ (LinearMap.ker K.mulVecLin) := by
    rw [h.nullity]
    simp
  obtain ⟨w, hw, hne⟩ := (Submodule.ne_bot_iff _).1 (LinearMap.ker_ne_bot_of_finrank_lt (f := f) hlt)
  have h0 := congrFun hw 0
  have h1 := congrFun hw 1
  refine ⟨w, ⟨fun h => hne (Subtype.ext h), ?_⟩, h0, h1⟩
  rw [zero_smul]
  exact w.2

/-- No four orthonormal rigid modes. -/
theorem FreePencil.not_four (h : FreePencil K M) (v : Fin 4 → Fin N → ℝ)
    (ho : ∀ i j, dotProduct (v i) (M.mulVec (v j)) = if i = j then 1 else 0) : ¬ ∀ i, K.mulVec (v i) = 0 := by
  intro hz
  have hli : LinearIndependent ℝ fun i => (⟨v i, hz i⟩ : LinearMap.ker K.mulVecLin) := by
    refine Fintype.linearIndependent_iff.2 fun g hg i => ?_
    have e : ∑ j, g j • v j = 0 := by
      have := congrArg Subtype.val hg
      simpa using this
    have e2 := congrArg (fun z => dotProduct z (M.mulVec (v i))) e
    simp only [sum_dotProduct, smul_dotProduct, ho, zero_dotProduct, smul_eq_mul, mul_ite, mul_one, mul_zero,
      Finset.sum_ite_eq', Finset.mem_univ, if_true] at e2
    exact e2
  have := hli.fintype_card_le_finrank
  rw [h.nullity] at this
  simp at this

variable {m : Nat} {pair : Nat → ℝ × (Fin N → ℝ)}

theorem Nearest.dichotomy (h : FreePencil K M) (hn : Nearest K M 10 m pair) {mu : ℝ} {w : Fin N → ℝ}
    (hw : IsEigenpair K M mu w) :
    (∀ i < m, dotProduct w (M.mulVec (pair i).2) = 0) ∨ ∃ i < m, dotProduct w (M.mulVec (pair i).2) ≠ 0 ∧
      mu = (pair i).1 := by
  by_cases hc : ∀ i < m, dotProduct w (M.mulVec (pair i).2) = 0
  · exact Or.inl hc
  · push Not at hc
    obtain ⟨i, hi, hne⟩ := hc
    refine Or.inr ⟨i, hi, hne, ?_⟩
    by_contra hcon
    exact hne (orthogonal_of_ne h.symmK h.symmM (hn.eigen i hi) hw (Ne.symm hcon))

/-- With at least one pair beyond the rigid modes, the nearest pairs begin with the three rigid modes. -/
theorem nearest_modes (h : FreePencil K M) (hn : Nearest K M 10 m pair) (hm : 6 ≤ m)
    (hgap : ∀ mu w, IsEigenpair K M mu w → mu ≠ 0 → 20 < mu) :
    (∀ i < 3, (pair i).1 = 0) ∧ (∀ i < m, 3 ≤ i → 20 < (pair i).1) ∧
    (∀ i < m, ∀ j < m, 3 ≤ i → i ≤ j → (pair i).1 ≤ (pair j).1) ∧
    (∀ mu w, IsEigenpair K M mu w → mu ≠ 0 → (pair 3).1 ≤ mu) ∧
    ∀ i < m, 3 ≤ i → ∀ mu w, IsEigenpair K M mu w → mu ≠ 0 →
      (∀ j, 3 ≤ j → j < i → dotProduct w (M.mulVec (pair j).2) = 0) → (pair i).1 ≤ mu := by
  have hdist : ∀ mu w, IsEigenpair K M mu w → |mu - 10| ≤ 10 → mu = 0 := by
    intro mu w hw hd
    by_contra hne
    have := hgap mu w hw hne
    rw [abs_le] at hd
    linarith
  have hz : ∀ i < m, ∀ j < m, i ≤ j → (pair j).1 = 0 → (pair i).1 = 0 := by
    intro i hi j hj hij h0
    have := hn.ordered i hi j hj hij
    rw [h0] at this
    exact hdist _ _ (hn.eigen i hi) (this.trans (by norm_num))
  have h2 : (pair 2).1 = 0 := by
    by_contra hne
    obtain ⟨w, hw, ha, hb⟩ := h.rigid_orth (pair 0).2 (pair 1).2
    have horth : ∀ i < m, dotProduct w (M.mulVec (pair i).2) = 0 := by
      intro i hi
      by_cases hi0 : i = 0
      · rw [hi0]; exact ha
      by_cases hi1 : i = 1
      · rw [hi1]; exact hb
      · refine orthogonal_of_ne h.symmK h.symmM (hn.eigen i hi) hw fun he => hne ?_
        exact hz 2 (by omega) i hi (by omega) he
    exact hne (hdist _ _ (hn.eigen 2 (by omega)) ((hn.complete 0 w hw horth 2 (by omega)).trans (by norm_num)))
  have h3 : (pair 3).1 ≠ 0 := by
    intro h3
    refine h.not_four (fun i => (pair i).2) (fun i j => ?_) fun i => ?_
    · rw [hn.orthonormal i (by omega) j (by omega)]
      simp only [Fin.ext_iff]
    · have := (hn.eigen i (by omega)).2
      rw [hz i (by omega) 3 (by omega) (by omega) h3, zero_smul] at this
      exact this
  have hpos : ∀ i < m, 3 ≤ i → 20 < (pair i).1 := fun i hi h3i =>
    hgap _ _ (hn.eigen i hi) fun he => h3 (hz 3 (by omega) i hi h3i he)
  have hord : ∀ i < m, ∀ j < m, 3 ≤ i → i ≤ j → (pair i).1 ≤ (pair j).1 := by
    intro i hi j hj h3i hij
    have := hn.ordered i hi j hj hij
    have p1 := hpos i hi h3i
    have p2 := hpos j hj (by omega)
    rw [abs_of_pos (by linarith), abs_of_pos (by linarith)] at this
    linarith
  have h012 : ∀ i < 3, (pair i).1 = 0 := fun i hi => hz i (by omega) 2 (by omega) (by omega) h2
  have hlast : ∀ i < m, 3 ≤ i → ∀ mu w, IsEigenpair K M mu w → mu ≠ 0 →
      (∀ j, 3 ≤ j → j < i → dotProduct w (M.mulVec (pair j).2) = 0) → (pair i).1 ≤ mu := by
    intro i hi h3i mu w hw hne ho
    have hmu := hgap mu w hw hne
    rcases hn.dichotomy h hw with hall | ⟨k, hk, hk0, hke⟩
    · have := hn.complete mu w hw hall i hi
      have p1 := hpos i hi h3i
      rw [abs_of_pos (by linarith), abs_of_pos (by linarith)] at this
      linarith
    · have hk3 : 3 ≤ k := by
        by_contra hcon
        exact hne (hke.trans (h012 k (by omega)))
      have hki : i ≤ k := by
        by_contra hcon
        exact hk0 (ho k hk3 (by omega))
      rw [hke]
      exact hord i hi k hk h3i hki
  refine ⟨h012, hpos, hord, fun mu w hw hne => hlast 3 (by omega) le_rfl mu w hw hne fun j h1 h2 => by omega, hlast⟩

/-- If the fourth nearest eigenvalue is beyond a bound, so is every elastic eigenvalue. -/
theorem nearest_bound (h : FreePencil K M) (hn : Nearest K M 10 m pair) (hm : 6 ≤ m) (t : ℝ) (ht : 20 < t)
    (h3 : t ≤ (pair 3).1) (mu : ℝ) (w : Fin N → ℝ) (hw : IsEigenpair K M mu w) (hne : mu ≠ 0) : t ≤ mu := by
  by_contra hcon
  push Not at hcon
  have h0 := h.nonneg hw
  have hfar : ∀ i < m, 3 ≤ i → t - 10 ≤ |(pair i).1 - 10| := fun i hi h3i => by
    have := hn.ordered 3 (by omega) i hi h3i
    rw [abs_of_pos (by linarith)] at this
    linarith
  have hnear : |mu - 10| < t - 10 := by
    rw [abs_lt]
    constructor <;> linarith
  rcases hn.dichotomy h hw with hall | ⟨k, hk, hk0, hke⟩
  · exact absurd (hn.complete mu w hw hall 3 (by omega)) (not_le.2 (lt_of_lt_of_le hnear (hfar 3 (by omega) le_rfl)))
  · have hk3 : k < 3 := by
      by_contra hc
      have := hfar k hk (by omega)
      rw [← hke] at this
      linarith
    obtain ⟨a, b, hab⟩ : ∃ a b : Nat, ∀ i < 3, i = a ∨ i = b ∨ i = k := by
      rcases (show k = 0 ∨ k = 1 ∨ k = 2 by omega) with rfl | rfl | rfl
      · exact ⟨1, 2, fun i hi => by omega⟩
      · exact ⟨0, 2, fun i hi => by omega⟩
      · exact ⟨0, 1, fun i hi => by omega⟩
    obtain ⟨z, hz, ha, hb⟩ := h.rigid_orth (pair a).2 (pair b).2
    have horth : ∀ i < m, dotProduct z (M.mulVec (pair i).2) = 0 := by
      intro i hi
      by_cases hi3 : i < 3
      · rcases hab i hi3 with rfl | rfl | rfl
        · exact ha
        · exact hb
        · exact orthogonal_of_ne h.symmK h.symmM (hn.eigen i hi) hz (hke ▸ hne)
      · refine orthogonal_of_ne h.symmK h.symmM (hn.eigen i hi) hz fun he => ?_
        have := hfar i hi (by omega)
        rw [he] at this
        norm_num at this
        linarith
    have := hn.complete 0 z hz horth 3 (by omega)
    have := hfar 3 (by omega) le_rfl
    norm_num at *
    linarith

/-- Eigenpairs that are orthogonal to given ones stay above a bound when the matrices change little. -/
theorem gap_open {X : Type} [TopologicalSpace X] (K M : X → Matrix (Fin N) (Fin N) ℝ) (x0 : X)
    (hK : ∀ i j, ContinuousAt (fun x => K x i j) x0) (hM : ∀ i j, ContinuousAt (fun x => M x i j) x0)
    {ι : Type} [Fintype ι] (V : ι → X → Fin N → ℝ) (hV : ∀ i, ContinuousAt (V i) x0)
    (hpos : ∀ᶠ x in 𝓝 x0, ∀ mu w, IsEigenpair (K x) (M x) mu w → 0 ≤ mu) (t : ℝ)
    (h0 : ∀ mu w, IsEigenpair (K x0) (M x0) mu w → (∀ i, dotProduct w ((M x0).mulVec (V i x0)) = 0) → t < mu) :
    ∀ᶠ x in 𝓝 x0, ∀ mu w, IsEigenpair (K x) (M x) mu w → (∀ i, dotProduct w ((M x).mulVec (V i x)) = 0) →
      t < mu := by
  let S : Set ((Fin N → ℝ) × ℝ) := Metric.sphere 0 1 ×ˢ Set.Icc 0 t
  have hS : IsCompact S := (isCompact_sphere _ _).prod isCompact_Icc
  let Phi : X × ((Fin N → ℝ) × ℝ) → (Fin N → ℝ) × (ι → ℝ) := fun p =>
    ((K p.1).mulVec p.2.1 - p.2.2 • (M p.1).mulVec p.2.1, fun i => dotProduct p.2.1 ((M p.1).mulVec (V i p.1)))
  have hmul : ∀ (A : X → Matrix (Fin N) (Fin N) ℝ), (∀ i j, ContinuousAt (fun x => A x i j) x0) →
      ∀ (f : X × ((Fin N → ℝ) × ℝ) → Fin N → ℝ) (y : (Fin N → ℝ) × ℝ), ContinuousAt f (x0, y) →
      ContinuousAt (fun p => (A p.1).mulVec (f p)) (x0, y) := by
    intro A hA f y hf
    refine continuousAt_pi.2 fun i => ?_
    show ContinuousAt (fun p => ∑ j, A p.1 i j * f p j) (x0, y)
    exact tendsto_finsetSum _ fun j _ =>
      (ContinuousAt.comp (g := fun x => A x i j) (f := Prod.fst) (x := (x0, y)) (hA i j) continuousAt_fst).mul
        (continuousAt_pi.1 hf j)
  have hPhi : ∀ y, ContinuousAt Phi (x0, y) := by
    intro y
    have e1 : ContinuousAt (fun p : X × ((Fin N → ℝ) × ℝ) => p.2.1) (x0, y) := by fun_prop
    have e2 : ContinuousAt (fun p : X × ((Fin N → ℝ) × ℝ) => p.2.2) (x0, y) := by fun_prop
    refine ContinuousAt.prodMk ((hmul K hK _ y e1).sub (e2.smul (hmul M hM _ y e1))) ?_
    refine continuousAt_pi.2 fun i => ?_
    have e3 := hmul M hM (fun p => V i p.1) y
      (ContinuousAt.comp (g := V i) (f := Prod.fst) (x := (x0, y)) (hV i) continuousAt_fst)
    show ContinuousAt (fun p : X × ((Fin N → ℝ) × ℝ) => ∑ j, p.2.1 j * (M p.1).mulVec (V i p.1) j) (x0, y)
    exact tendsto_finsetSum _ fun j _ => (continuousAt_pi.1 e1 j).mul (continuousAt_pi.1 e3 j)
  have hev := hS.eventually_forall_of_forall_eventually (x₀ := x0) (P := fun x y => Phi (x, y) ≠ 0) (fun y hy => by
    refine (hPhi y).eventually_ne fun hzero => ?_
    have hy1 : ‖y.1‖ = 1 := by simpa using hy.1
    have hne : y.1 ≠ 0 := fun h => by rw [h, norm_zero] at hy1; exact one_ne_zero hy1.symm
    exact absurd (h0 y.2 y.1 ⟨hne, sub_eq_zero.1 (congrArg Prod.fst hzero)⟩ fun i =>
      congrFun (congrArg Prod.snd hzero) i) (not_lt.2 hy.2.2))
  filter_upwards [hev, hpos] with x hx hp mu w hw ho
  by_contra hcon
  push Not at hcon
  have hnw : ‖w‖ ≠ 0 := norm_ne_zero_iff.2 hw.1
  refine hx (‖w‖⁻¹ • w, mu) ⟨?_, hp mu w hw, hcon⟩ (Prod.ext ?_ (funext fun i => ?_))
  · simp [norm_smul, hnw]
  · show (K x).mulVec (‖w‖⁻¹ • w) - mu • (M x).mulVec (‖w‖⁻¹ • w) = 0
    rw [Matrix.mulVec_smul, Matrix.mulVec_smul, hw.2, smul_comm, sub_self]
  · show dotProduct (‖w‖⁻¹ • w) ((M x).mulVec (V i x)) = 0
    rw [smul_dotProduct, ho i, smul_zero]

/-- An eigenvalue is simple if the remaining ones of a complete family differ from it. -/
theorem simple_of_gap (hK : K.IsSymm) (hM : M.IsSymm) {ι : Type} (mu : ι → ℝ) (v : ι → Fin N → ℝ) (t : ℝ) (i0 : ι)
    (hv : ∀ i, IsEigenpair K M (mu i) (v i)) (hd : dotProduct (v i0) (M.mulVec (v i0)) ≠ 0)
    (hne : ∀ i, i ≠ i0 → mu i ≠ mu i0) (ht : mu i0 ≤ t)
    (hgap : ∀ nu w, IsEigenpair K M nu w → (∀ i, dotProduct w (M.mulVec (v i)) = 0) → t < nu) (w : Fin N → ℝ)
    (hw : IsEigenpair K M (mu i0) w) : ∃ c : ℝ, w = c • v i0 := by
  let c := dotProduct w (M.mulVec (v i0)) / dotProduct (v i0) (M.mulVec (v i0))
  refine ⟨c, ?_⟩
  by_contra hcon
  have hz : IsEigenpair K M (mu i0) (w - c • v i0) := by
    refine ⟨sub_ne_zero.2 hcon, ?_⟩
    rw [Matrix.mulVec_sub, Matrix.mulVec_sub, Matrix.mulVec_smul, Matrix.mulVec_smul, hw.2, (hv i0).2, smul_sub,
      smul_comm c]
  refine absurd (hgap _ _ hz fun i => ?_) (not_lt.2 ht)
  by_cases hi : i = i0
  · subst hi
    rw [sub_dotProduct, smul_dotProduct, smul_eq_mul, div_mul_cancel₀ _ hd, sub_self]
  · exact orthogonal_of_ne hK hM (hv i) hz (hne i hi)

/-- The kept eigenvalues as functions of the parameters. -/
theorem kept_branches {X : Type} [NormedAddCommGroup X] [NormedSpace ℝ X] [CompleteSpace X]
    (K M : X → Matrix (Fin N) (Fin N) ℝ) (x0 : X) (hKc : ∀ i j, ContDiffAt ℝ 1 (fun x => K x i j) x0)
    (hMc : ∀ i j, ContDiffAt ℝ 1 (fun x => M x i j) x0) (hKs : ∀ x, (K x).IsSymm) (hMs : ∀ x, (M x).IsSymm)
    (hfree : ∀ᶠ x in 𝓝 x0, FreePencil (K x) (M x))
    (hker : ∀ᶠ x in 𝓝 x0, ∀ v, (K x0).mulVec v = 0 → (K x).mulVec v = 0)
    {m : Nat} {pair : Nat → ℝ × (Fin N → ℝ)} (hn : Nearest (K x0) (M x0) 10 m pair) (hm : 7 ≤ m)
    (hgap : ∀ mu w, IsEigenpair (K x0) (M x0) mu w → mu ≠ 0 → 20 < mu)
    (h34 : (pair 3).1 < (pair 4).1) (h45 : (pair 4).1 < (pair 5).1) (h56 : (pair 5).1 < (pair 6).1) :
    ∃ lam : Fin 3 → X → ℝ, (∀ j, lam j x0 = (pair (3 + j)).1) ∧
      (∀ j : Fin 3, HasFDerivAt (lam j) ((1 / dotProduct (pair (3 + j)).2 ((M x0).mulVec (pair (3 + j)).2)) •
        (fderiv ℝ (fun x => dotProduct (pair (3 + j)).2 ((K x).mulVec (pair (3 + j)).2)) x0
          - (pair (3 + j)).1 • fderiv ℝ (fun x => dotProduct (pair (3 + j)).2 ((M x).mulVec (pair (3 + j)).2)) x0)) x0) ∧
      ∀ᶠ x in 𝓝 x0, ∀ m' pair', Nearest (K x) (M x) 10 m' pair' → 6 ≤ m' → ∀ j : Fin 3,
        (pair' (3 + j)).1 = lam j x := by
  have h0 := hfree.self_of_nhds
  obtain ⟨z012, hpos, hord, hfirst, hlast⟩ := nearest_modes h0 hn (by omega) hgap
  have hlt6 : ∀ i < m, i ≠ 6 → 6 ≤ i → (pair 6).1 ≤ (pair i).1 := fun i hi _ h6 => hord 6 (by omega) i hi (by omega) h6
  have hp3 := hpos 3 (by omega) le_rfl
  let t := ((pair 5).1 + (pair 6).1) / 2
  have ht5 : (pair 5).1 < t := by simp only [t]; linarith
  have ht6 : t < (pair 6).1 := by simp only [t]; linarith
  -- nothing besides the first six below `t`
  have hsix : ∀ mu w, IsEigenpair (K x0) (M x0) mu w →
      (∀ i : Fin 6, dotProduct w ((M x0).mulVec (pair i).2) = 0) → t < mu := by
    intro mu w hw ho
    have hmu : mu ≠ 0 := by
      rintro rfl
      have : ∀ i < m, dotProduct w ((M x0).mulVec (pair i).2) = 0 := fun i hi => by
        by_cases h6 : i < 6
        · exact ho ⟨i, h6⟩
        · exact orthogonal_of_ne (hKs x0) (hMs x0) (hn.eigen i hi) hw
            (by have := hpos i hi (by omega); exact fun he => by linarith)
      have := hn.complete 0 w hw this 3 (by omega)
      rw [abs_of_pos (by linarith)] at this
      norm_num at this
      linarith
    exact lt_of_lt_of_le ht6 (hlast 6 (by omega) (by omega) mu w hw hmu fun j _ h6 => ho ⟨j, h6⟩)
  have hvals : ∀ i : Fin 6, (pair i).1 ≤ t := by
    intro i
    fin_cases i
    · show (pair 0).1 ≤ t; rw [z012 0 (by omega)]; linarith
    · show (pair 1).1 ≤ t; rw [z012 1 (by omega)]; linarith
    · show (pair 2).1 ≤ t; rw [z012 2 (by omega)]; linarith
    · show (pair 3).1 ≤ t; linarith
    · show (pair 4).1 ≤ t; linarith
    · show (pair 5).1 ≤ t; linarith
  have hdist : ∀ j : Fin 3, ∀ i : Fin 6, i ≠ ⟨3 + j, by omega⟩ → (pair i).1 ≠ (pair (3 + j)).1 := by
    have e0 := z012 0 (by omega)
    have e1 := z012 1 (by omega)
    have e2 := z012 2 (by omega)
    intro j i hij
    fin_cases j <;> fin_cases i <;> first | exact absurd rfl hij | (intro he; simp at he; linarith)
  have hd1 : ∀ j : Fin 3, dotProduct (pair (3 + j)).2 ((M x0).mulVec (pair (3 + j)).2) ≠ 0 := fun j => by
    rw [hn.orthonormal _ (by omega) _ (by omega), if_pos rfl]
    exact one_ne_zero
  have hmult : ∀ j : Fin 3, ∀ w, IsEigenpair (K x0) (M x0) (pair (3 + j)).1 w → ∃ c : ℝ, w = c • (pair (3 + j)).2 :=
    fun j => simple_of_gap (hKs x0) (hMs x0) (fun i : Fin 6 => (pair i).1) (fun i : Fin 6 => (pair i).2) t
      ⟨3 + j, by omega⟩ (fun i => hn.eigen i (by omega)) (hd1 j) (hdist j) (hvals _) hsix
  have hsimple : ∀ j : Fin 3, IsSimple (K x0) (M x0) (pair (3 + j)).1 := by
    intro j v w hv hw
    obtain ⟨a, ha⟩ := hmult j v hv
    obtain ⟨b, hb⟩ := hmult j w hw
    have ha0 : a ≠ 0 := by
      rintro rfl
      exact hv.1 (by rw [ha, zero_smul])
    exact ⟨b / a, by rw [ha, smul_smul, div_mul_cancel₀ _ ha0, hb]⟩
  have hbr := fun j : Fin 3 => simple_branch K M x0 hKc hMc hKs hMs (pair (3 + j)).1 (pair (3 + j)).2
    (hn.eigen _ (by omega)) (hsimple j) (hd1 j)
  choose lam v hlam hv hev huniq hvd hder using hbr
  refine ⟨lam, hlam, hder, ?_⟩
  -- the six vectors at neighbouring parameters
  let V : Fin 3 ⊕ Fin 3 → X → Fin N → ℝ := Sum.elim (fun i _ => (pair i).2) v
  have hVc : ∀ i, ContinuousAt (V i) x0 := by
    rintro (i | j)
    · exact continuousAt_const
    · exact (hvd j).continuousAt
  have hVgap := gap_open K M x0 (fun i j => (hKc i j).continuousAt) (fun i j => (hMc i j).continuousAt) V hVc
    (hfree.mono fun x hx mu w hw => hx.nonneg hw) t (fun mu w hw ho => hsix mu w hw fun i => by
      by_cases h3 : (i : Nat) < 3
      · exact ho (Sum.inl ⟨i, h3⟩)
      · have := ho (Sum.inr ⟨i - 3, by omega⟩)
        simp only [V, Sum.elim_inr, hv] at this
        rwa [show 3 + ((i : Nat) - 3) = i by omega] at this)
  have hc : ∀ j, ContinuousAt (lam j) x0 := fun j => (hder j).continuousAt
  have hl0 : ∀ᶠ x in 𝓝 x0, 20 < lam 0 x := (hc 0).eventually (lt_mem_nhds (by
    show 20 < lam 0 x0
    rw [hlam]; exact hp3))
  have hl01 : ∀ᶠ x in 𝓝 x0, lam 0 x < lam 1 x := (hc 0).eventually_lt (hc 1) (by rw [hlam, hlam]; exact h34)
  have hl12 : ∀ᶠ x in 𝓝 x0, lam 1 x < lam 2 x := (hc 1).eventually_lt (hc 2) (by rw [hlam, hlam]; exact h45)
  have hl2 : ∀ᶠ x in 𝓝 x0, lam 2 x < t := (hc 2).eventually (gt_mem_nhds (by
    show lam 2 x0 < t
    rw [hlam]; exact ht5))
  filter_upwards [hVgap, hl0, hl01, hl12, hl2, hfree, hker, Filter.eventually_all.2 hev]
    with x xgap x0' x01 x12 x2 xfree xker xev m' pair' hn' hm' j
  have hmono : ∀ i j : Fin 3, i < j → lam i x < lam j x := by
    intro i j hij
    fin_cases i <;> fin_cases j <;> first | exact absurd hij (by decide) | exact x01 | exact x12 | exact x01.trans x12
  have hlow : ∀ j, 20 < lam j x := by
    intro j
    fin_cases j
    · exact x0'
    · exact x0'.trans x01
    · exact x0'.trans (x01.trans x12)
  have hup : ∀ j, lam j x < t := by
    intro j
    fin_cases j
    · exact x01.trans (x12.trans x2)
    · exact x12.trans x2
    · exact x2
  have hrig : ∀ i : Fin 3, IsEigenpair (K x) (M x) 0 (pair i).2 := by
    intro i
    have e := hn.eigen i (by omega)
    refine ⟨e.1, ?_⟩
    rw [zero_smul]
    refine xker _ ?_
    rw [e.2, z012 i i.2, zero_smul]
  -- elastic eigenvalues at `x`
  have hel : ∀ mu w, IsEigenpair (K x) (M x) mu w → mu ≠ 0 → (∃ j, mu = lam j x) ∨ t < mu := by
    intro mu w hw hmu
    by_cases hcase : ∃ j, mu = lam j x
    · exact Or.inl hcase
    · push Not at hcase
      refine Or.inr (xgap mu w hw ?_)
      rintro (i | j)
      · exact orthogonal_of_ne (hKs x) (hMs x) (hrig i) hw (Ne.symm hmu)
      · exact orthogonal_of_ne (hKs x) (hMs x) (xev j) hw (Ne.symm (hcase j))
  have hgap' : ∀ mu w, IsEigenpair (K x) (M x) mu w → mu ≠ 0 → 20 < mu := by
    intro mu w hw hmu
    rcases hel mu w hw hmu with ⟨j, rfl⟩ | h
    · exact hlow j
    · linarith
  obtain ⟨_, hpos', _, _, hlast'⟩ := nearest_modes xfree hn' hm' hgap'
  have hsimp : ∀ j w, IsEigenpair (K x) (M x) (lam j x) w → ∃ c : ℝ, w = c • v j x := by
    intro j
    refine simple_of_gap (hKs x) (hMs x) (Sum.elim (fun _ => 0) fun j => lam j x : Fin 3 ⊕ Fin 3 → ℝ)
      (fun i => V i x) t (Sum.inr j) ?_ (xfree.def' _ (xev j).1).ne' ?_ (hup j).le xgap
    · rintro (i | i)
      · exact hrig i
      · exact xev i
    · rintro (i | i) hi
      · exact (by have := hlow j; linarith : (0 : ℝ) < lam j x).ne
      · rcases lt_trichotomy i j with h | h | h
        · exact (hmono i j h).ne
        · exact absurd (by rw [h]) hi
        · exact (hmono j i h).ne'
  have key : ∀ n : Nat, ∀ hn3 : n < 3, (pair' (3 + n)).1 = lam ⟨n, hn3⟩ x := by
    intro n
    induction n using Nat.strong_induction_on with
    | _ n ih =>
      intro hn3
      have hle : (pair' (3 + n)).1 ≤ lam ⟨n, hn3⟩ x := by
        refine hlast' (3 + n) (by omega) (by omega) _ _ (xev ⟨n, hn3⟩)
          (by have := hlow ⟨n, hn3⟩; exact fun h => by linarith) fun k h3 hk => ?_
        have hk' := ih (k - 3) (by omega) (by omega)
        rw [show 3 + (k - 3) = k by omega] at hk'
        refine orthogonal_of_ne (hKs x) (hMs x) (hn'.eigen k (by omega)) (xev ⟨n, hn3⟩) ?_
        rw [hk']
        exact (hmono _ _ (Fin.lt_def.2 (by show k - 3 < n; omega))).ne
      have hp := hpos' (3 + n) (by omega) (by omega)
      rcases hel _ _ (hn'.eigen (3 + n) (by omega)) (by linarith) with ⟨k, hk⟩ | h
      · rcases lt_trichotomy k ⟨n, hn3⟩ with hlt | heq | hgt
        · exfalso
          have hkn : (k : Nat) < n := hlt
          have ek := ih k hkn k.2
          obtain ⟨a, ha⟩ := hsimp k _ (hk ▸ hn'.eigen (3 + n) (by omega))
          obtain ⟨b, hb⟩ := hsimp k _ (ek ▸ hn'.eigen (3 + k) (by omega))
          have o1 := hn'.orthonormal (3 + n) (by omega) (3 + k) (by omega)
          rw [if_neg (by omega), ha, hb, Matrix.mulVec_smul, smul_dotProduct, dotProduct_smul, smul_eq_mul,
            smul_eq_mul] at o1
          have hd := (xfree.def' _ (xev k).1).ne'
          have ha0 : a ≠ 0 := by
            rintro rfl
            exact (hn'.eigen (3 + n) (by omega)).1 (by rw [ha, zero_smul])
          have hb0 : b ≠ 0 := by
            rintro rfl
            exact (hn'.eigen (3 + k) (by omega)).1 (by rw [hb, zero_smul])
          exact (mul_ne_zero ha0 (mul_ne_zero hb0 hd)) o1
        · rw [hk, heq]
        · have := hmono _ _ hgt
          rw [← hk] at this
          linarith
      · have := hup ⟨n, hn3⟩
        linarith
  exact key j j.2

end JaxFem.Modal
