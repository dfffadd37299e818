import Verif.Thm.C101_Forms
import Verif.Thm.C100_Forms

/-!
# C101: Dirichlet values as parameters
-/

namespace JaxFem.Control

open scoped BigOperators

variable {vu vT : CVar 2} {m : Material} {bu bT : DirichletLists} {n : Nat}

/-! ### Helper lemmas -/

theorem mem_entries (b : DirichletLists) (e : BCEntry ℝ) :
    e ∈ SplitVars.entries b ↔
      ∃ j : Nat, b.1[j]? = some e.nodes ∧ b.2.1[j]? = some e.comps ∧ b.2.2[j]? = some e.vals := by
  rw [SplitVars.entries, List.mem_iff_getElem?]
  refine exists_congr fun j => ?_
  obtain ⟨ns, cs, vs⟩ := e
  cases h1 : b.1[j]? <;> cases h2 : b.2.1[j]? <;> cases h3 : b.2.2[j]? <;>
    simp [List.getElem?_zipWith, List.zip, h1, h2, h3]

theorem constrained_iff (b : DirichletLists) (h2 : b.1.length = b.2.2.length)
    (hv : ∀ e ∈ SplitVars.entries b, e.vals.length = e.nodes.length) (a c : Nat) :
    Constrained b a c ↔ ¬ FreeDof (SplitVars.entries b) a c := by
  constructor
  · rintro ⟨j, k, ns, cs, h3, h4, h5, h6⟩ hf
    have hj : j < b.2.2.length := by
      rw [← h2]
      exact (List.getElem?_eq_some_iff.1 h3).1
    have hmem : (⟨ns, cs, b.2.2[j]⟩ : BCEntry ℝ) ∈ SplitVars.entries b :=
      (mem_entries b _).2 ⟨j, h3, h4, List.getElem?_eq_getElem hj⟩
    have hk : k < (b.2.2[j]).length := by
      have := hv _ hmem
      rw [this]
      exact (List.getElem?_eq_some_iff.1 h5).1
    exact hf _ hmem _ ⟨k, h5, h6, List.getElem?_eq_getElem hk⟩
  · intro hf
    unfold FreeDof at hf
    push Not at hf
    obtain ⟨e, he, v, k, h3, h4, -⟩ := hf
    obtain ⟨j, h5, h6, -⟩ := (mem_entries b e).1 he
    exact ⟨j, k, _, _, h5, h6, h3, h4⟩

theorem getElem?_entries (b : DirichletLists) (j : Nat) (e : BCEntry ℝ) :
    (SplitVars.entries b)[j]? = some e ↔
      b.1[j]? = some e.nodes ∧ b.2.1[j]? = some e.comps ∧ b.2.2[j]? = some e.vals := by
  obtain ⟨ns, cs, vs⟩ := e
  rw [SplitVars.entries]
  cases h1 : b.1[j]? <;> cases h2 : b.2.1[j]? <;> cases h3 : b.2.2[j]? <;>
    simp [List.getElem?_zipWith, List.zip, h1, h2, h3]

theorem prescribes_iff (b : DirichletLists) (h2 : b.1.length = b.2.2.length)
    (hv : ∀ e ∈ SplitVars.entries b, e.vals.length = e.nodes.length) (a c : Nat) (v : ℝ) :
    Prescribes b a c v ↔ LastPrescribes (SplitVars.entries b) a c v := by
  constructor
  · rintro ⟨j, k, ns, cs, vs, h3, h4, h5, h6, h7, h8, h9⟩
    have hj : (SplitVars.entries b)[j]? = some ⟨ns, cs, vs⟩ := (getElem?_entries b j _).2 ⟨h3, h4, h5⟩
    obtain ⟨hlt, he⟩ := List.getElem?_eq_some_iff.1 hj
    refine ⟨(SplitVars.entries b).take j, ⟨ns, cs, vs⟩, (SplitVars.entries b).drop (j + 1), ?_, ⟨k, h6, h7, h8⟩, ?_⟩
    · rw [← he, ← List.drop_eq_getElem_cons hlt, List.take_append_drop]
    · rintro e hmem v' ⟨k', h10, h11, -⟩
      obtain ⟨i, hi⟩ := List.mem_iff_getElem?.1 hmem
      rw [List.getElem?_drop] at hi
      obtain ⟨h12, h13, -⟩ := (getElem?_entries b _ e).1 hi
      exact h9 (j + 1 + i) (by omega) k' _ _ h12 h13 h10 h11
  · rintro ⟨be, e, af, h3, ⟨k, h4, h5, h6⟩, h7⟩
    have hj : (SplitVars.entries b)[be.length]? = some e := by rw [h3]; simp
    obtain ⟨h8, h9, h10⟩ := (getElem?_entries b _ e).1 hj
    refine ⟨be.length, k, _, _, _, h8, h9, h10, h4, h5, h6, fun j' hj' k' ns' cs' h11 h12 h13 h14 => ?_⟩
    have hlt : j' < b.2.2.length := by
      rw [← h2]
      exact (List.getElem?_eq_some_iff.1 h11).1
    have hj2 : (SplitVars.entries b)[j']? = some ⟨ns', cs', b.2.2[j']⟩ :=
      (getElem?_entries b j' _).2 ⟨h11, h12, List.getElem?_eq_getElem hlt⟩
    have hmem : (⟨ns', cs', b.2.2[j']⟩ : BCEntry ℝ) ∈ SplitVars.entries b := List.mem_of_getElem? hj2
    have haf : (⟨ns', cs', b.2.2[j']⟩ : BCEntry ℝ) ∈ af := by
      rw [h3, List.getElem?_append_right (by omega)] at hj2
      obtain ⟨i, hi⟩ : ∃ i, j' - be.length = i + 1 := ⟨j' - be.length - 1, by omega⟩
      rw [hi, List.getElem?_cons_succ] at hj2
      exact List.mem_of_getElem? hj2
    have hk : k' < (b.2.2[j']).length := by
      have := hv _ hmem
      rw [this]
      exact (List.getElem?_eq_some_iff.1 h13).1
    exact h7 _ haf _ ⟨k', h13, h14, List.getElem?_eq_getElem hk⟩

theorem setParams_ok (hP : Plate m vu vT bu bT n) (θ : Fin n → ℝ) :
    ∃ (e : BCEntry ℝ) (rest : List (BCEntry ℝ)), (∀ θ' : Fin n → ℝ, bcs bu bT θ'
        = [SplitVars.entries bu, { e with vals := List.ofFn θ' } :: rest]) ∧
      e.nodes.length = n ∧
      (∀ θ' : Fin n → ℝ, ∃ b, b = (bT.1, bT.2.1, List.ofFn θ' :: bT.2.2.tail) ∧ b.1.length = b.2.2.length ∧
        SplitVars.entries b = { e with vals := List.ofFn θ' } :: rest) := by
  obtain ⟨ns, nss, vs, vss, h1, h2, h3⟩ := hP.first
  obtain ⟨l1, l2, l3, l4⟩ := hP.lists
  obtain ⟨cs, css, h4⟩ : ∃ cs css, bT.2.1 = cs :: css := by
    cases h : bT.2.1 with
    | nil => rw [h2, h] at l3; simp at l3
    | cons cs css => exact ⟨cs, css, rfl⟩
  have hs : ∀ θ' : Fin n → ℝ, setParams bT (List.ofFn θ') = .ok (bT.1, bT.2.1, List.ofFn θ' :: vss) := by
    intro θ'
    rw [setParams, h3]
  have he : ∀ θ' : Fin n → ℝ, SplitVars.entries (bT.1, bT.2.1, List.ofFn θ' :: vss)
      = ⟨ns, cs, List.ofFn θ'⟩ :: SplitVars.entries (nss, css, vss) := by
    intro θ'
    rw [h2, h4]
    rfl
  refine ⟨⟨ns, cs, []⟩, SplitVars.entries (nss, css, vss), fun θ' => ?_, h1, fun θ' => ?_⟩
  · rw [bcs, hs θ']
    dsimp only
    rw [he]
  · refine ⟨(bT.1, bT.2.1, List.ofFn θ' :: vss), by rw [h3]; rfl, ?_, he θ'⟩
    rw [h3] at l4
    simpa using l4

theorem field_dof (x : Dofs vu vT) (k : Fin (totalDofs (fes vu vT))) (i a c : Nat)
    (h : (k : Nat) = dofNum (fes vu vT) i a c) : field x i a c = x k := by
  have hlt : dofNum (fes vu vT) i a c < totalDofs (fes vu vT) := h ▸ k.2
  rw [field, dif_pos hlt]
  congr 1
  exact Fin.ext h.symm

theorem vanishes_iff (hP : Plate m vu vT bu bT n) (θ : Fin n → ℝ) (x : Dofs vu vT) :
    Vanishes bu bT x ↔ x ∈ vanishing (fes vu vT) (bcs bu bT θ) := by
  obtain ⟨e, rest, h1, -, h3⟩ := setParams_ok hP θ
  obtain ⟨b, b0, b3, b4⟩ := h3 θ
  have b1 : b.1 = bT.1 := by rw [b0]
  have b2 : b.2.1 = bT.2.1 := by rw [b0]
  have hb := hP.bc θ
  rw [h1 θ, ← b4] at hb
  have hcU : ∀ a c, Constrained bu a c ↔ ¬ FreeDof (SplitVars.entries bu) a c :=
    constrained_iff bu hP.lists.2.1 (fun e he => hb.vals _ (by simp) e he)
  have hcT : ∀ a c, Constrained bT a c ↔ ¬ FreeDof (SplitVars.entries b) a c := by
    intro a c
    rw [← constrained_iff b b3 (fun e he => hb.vals _ (by simp) e he)]
    unfold Constrained
    rw [b1, b2]
  rw [h1 θ, ← b4]
  constructor
  · rintro ⟨hu, hT⟩ k v hp
    cases hp with
    | fixed i a c fe es v f1 f2 f3 f4 f5 f6 =>
      obtain ⟨be, e', af, rfl, f7, f8⟩ := f6
      have hnf : ¬ FreeDof (be ++ e' :: af) a c := fun hf => hf e' (by simp) v f7
      rcases i with _ | _ | i
      · simp only [fes, List.getElem?_cons_zero, Option.some.injEq] at f1 f2
        subst f1
        rw [← field_dof x k 0 a c f5]
        refine hu a f3 c (by rw [← hP.vecU]; exact f4) ((hcU a c).2 ?_)
        rw [f2]; exact hnf
      · simp only [fes, List.getElem?_cons_succ, List.getElem?_cons_zero, Option.some.injEq] at f1 f2
        subst f1
        have hc0 : c = 0 := by
          have : c < vT.vec := f4
          rw [hP.vecT] at this
          omega
        subst hc0
        rw [← field_dof x k 1 a 0 f5]
        refine hT a f3 ((hcT a 0).2 ?_)
        rw [f2]; exact hnf
      · simp [fes] at f1
  · intro hx
    constructor
    · intro a ha c hc hcon
      have hc' : c < vu.vec := by rw [hP.vecU]; exact hc
      obtain ⟨v, hv⟩ := (free_or_last (SplitVars.entries bu) a c).resolve_left ((hcU a c).1 hcon)
      have hlt : dofNum (fes vu vT) 0 a c < totalDofs (fes vu vT) := dofNum_lt (fes vu vT) (fe := vu.fe) rfl ha hc'
      rw [field_dof x ⟨_, hlt⟩ 0 a c rfl]
      exact hx ⟨_, hlt⟩ v (.fixed 0 a c vu.fe _ v rfl rfl ha hc' rfl hv)
    · intro a ha hcon
      have hc' : 0 < vT.vec := by rw [hP.vecT]; exact Nat.one_pos
      obtain ⟨v, hv⟩ := (free_or_last (SplitVars.entries b) a 0).resolve_left ((hcT a 0).1 hcon)
      have hlt : dofNum (fes vu vT) 1 a 0 < totalDofs (fes vu vT) := dofNum_lt (fes vu vT) (fe := vT.fe) rfl ha hc'
      rw [field_dof x ⟨_, hlt⟩ 1 a 0 rfl]
      exact hx ⟨_, hlt⟩ v (.fixed 1 a 0 vT.fe _ v rfl rfl ha hc' rfl hv)

theorem takesValues_iff (hP : Plate m vu vT bu bT n) (θ : Fin n → ℝ) (w : Dofs vu vT) :
    TakesValues bu bT θ w ↔ ∀ (k : Fin (totalDofs (fes vu vT))) v,
      Prescribed (fes vu vT) (bcs bu bT θ) k (some v) → w k = v := by
  obtain ⟨e, rest, h1, -, h3⟩ := setParams_ok hP θ
  obtain ⟨b, b0, b3, b4⟩ := h3 θ
  have hb := hP.bc θ
  rw [h1 θ, ← b4] at hb
  have hcU := prescribes_iff bu hP.lists.2.1 (fun e he => hb.vals _ (by simp) e he)
  have hcT := prescribes_iff b b3 (fun e he => hb.vals _ (by simp) e he)
  rw [h1 θ, ← b4]
  unfold TakesValues
  rw [← b0]
  constructor
  · rintro ⟨hu, hT⟩ k v hp
    cases hp with
    | fixed i a c fe es v f1 f2 f3 f4 f5 f6 =>
      rcases i with _ | _ | i
      · simp only [fes, List.getElem?_cons_zero, Option.some.injEq] at f1 f2
        subst f1
        rw [← field_dof w k 0 a c f5]
        exact hu a f3 c (by rw [← hP.vecU]; exact f4) v ((hcU a c v).2 (by rw [f2]; exact f6))
      · simp only [fes, List.getElem?_cons_succ, List.getElem?_cons_zero, Option.some.injEq] at f1 f2
        subst f1
        have hc0 : c = 0 := by
          have : c < vT.vec := f4
          rw [hP.vecT] at this
          omega
        subst hc0
        rw [← field_dof w k 1 a 0 f5]
        exact hT a f3 v ((hcT a 0 v).2 (by rw [f2]; exact f6))
      · simp [fes] at f1
  · intro hx
    constructor
    · intro a ha c hc v hp
      have hc' : c < vu.vec := by rw [hP.vecU]; exact hc
      have hlt : dofNum (fes vu vT) 0 a c < totalDofs (fes vu vT) := dofNum_lt (fes vu vT) (fe := vu.fe) rfl ha hc'
      rw [field_dof w ⟨_, hlt⟩ 0 a c rfl]
      exact hx ⟨_, hlt⟩ v (.fixed 0 a c vu.fe _ v rfl rfl ha hc' rfl ((hcU a c v).1 hp))
    · intro a ha v hp
      have hc' : 0 < vT.vec := by rw [hP.vecT]; exact Nat.one_pos
      have hlt : dofNum (fes vu vT) 1 a 0 < totalDofs (fes vu vT) := dofNum_lt (fes vu vT) (fe := vT.fe) rfl ha hc'
      rw [field_dof w ⟨_, hlt⟩ 1 a 0 rfl]
      exact hx ⟨_, hlt⟩ v (.fixed 1 a 0 vT.fe _ v rfl rfl ha hc' rfl ((hcT a 0 v).1 hp))

/-- A degree of freedom is free for all parameters, or has a constant value, or is one of the parameters. -/
theorem values_cases (hP : Plate m vu vT bu bT n) (k : Fin (totalDofs (fes vu vT))) :
    (∀ θ : Fin n → ℝ, Prescribed (fes vu vT) (bcs bu bT θ) k none) ∨
    (∃ v, ∀ θ : Fin n → ℝ, Prescribed (fes vu vT) (bcs bu bT θ) k (some v)) ∨
    ∃ i : Fin n, ∀ θ : Fin n → ℝ, Prescribed (fes vu vT) (bcs bu bT θ) k (some (θ i)) := by
  obtain ⟨e, rest, h1, h2, -⟩ := setParams_ok hP 0
  obtain ⟨i, a, c, hi, ha, hc, hk⟩ := exists_dofNum (fes vu vT) k k.2
  rcases i with _ | _ | i
  · rcases free_or_last (SplitVars.entries bu) a c with hf | ⟨v, hv⟩
    · exact .inl fun θ => .free 0 a c _ _ rfl (by rw [h1]; rfl) ha hc hk hf
    · exact .inr (.inl ⟨v, fun θ => .fixed 0 a c _ _ v rfl (by rw [h1]; rfl) ha hc hk hv⟩)
  · rcases free_or_last rest a c with hf | ⟨v, be, e', af, hv, hp, hfr⟩
    · by_cases hex : ∃ j : Nat, e.nodes[j]? = some a ∧ e.comps[j]? = some c
      · obtain ⟨j, j1, j2⟩ := hex
        have hj : j < n := by rw [← h2]; exact (List.getElem?_eq_some_iff.1 j1).1
        refine .inr (.inr ⟨⟨j, hj⟩, fun θ => .fixed 1 a c _ _ _ rfl (by rw [h1]; rfl) ha hc hk
          ⟨[], { e with vals := List.ofFn θ }, rest, rfl, ⟨j, j1, j2, ?_⟩, hf⟩⟩)
        show (List.ofFn θ)[j]? = _
        rw [List.getElem?_eq_getElem (by simpa using hj), List.getElem_ofFn]
      · refine .inl fun θ => .free 1 a c _ _ rfl (by rw [h1]; rfl) ha hc hk ?_
        intro e' he' v hv
        rcases List.mem_cons.1 he' with rfl | he'
        · obtain ⟨j, j1, j2, -⟩ := hv
          exact hex ⟨j, j1, j2⟩
        · exact hf e' he' v hv
    · exact .inr (.inl ⟨v, fun θ => .fixed 1 a c _ _ v rfl (by rw [h1]; rfl) ha hc hk
        ⟨_ :: be, e', af, by rw [hv]; rfl, hp, hfr⟩⟩)
  · simp [fes] at hi

/-- The prescribed values are an affine function of the parameters. -/
theorem values_affine (hP : Plate m vu vT bu bT n) :
    ∃ vals : (Fin n → ℝ) → Dofs vu vT, Inverse.AffineIn vals ∧
      (∀ (θ : Fin n → ℝ) (k : Fin (totalDofs (fes vu vT))) v, Prescribed (fes vu vT) (bcs bu bT θ) k (some v) → v = vals θ k) ∧
      ∀ (θ : Fin n → ℝ) (k : Fin (totalDofs (fes vu vT))), Prescribed (fes vu vT) (bcs bu bT θ) k none ↔
        Prescribed (fes vu vT) (bcs bu bT (0 : Fin n → ℝ)) k none := by
  have h : ∀ k : Fin (totalDofs (fes vu vT)), ∃ (L : (Fin n → ℝ) →ₗ[ℝ] ℝ) (c : ℝ),
      ∀ (θ : Fin n → ℝ) v, Prescribed (fes vu vT) (bcs bu bT θ) k (some v) → v = L θ + c := by
    intro k
    rcases values_cases hP k with h | ⟨v0, h⟩ | ⟨i, h⟩
    · refine ⟨0, 0, fun θ v hv => ?_⟩
      have := prescribed_unique _ _ (hP.bc θ) k _ _ (h θ) hv
      cases this
    · refine ⟨0, v0, fun θ v hv => ?_⟩
      have := prescribed_unique _ _ (hP.bc θ) k _ _ hv (h θ)
      rw [Option.some.inj this, LinearMap.zero_apply, zero_add]
    · refine ⟨LinearMap.proj i, 0, fun θ v hv => ?_⟩
      have := prescribed_unique _ _ (hP.bc θ) k _ _ hv (h θ)
      rw [Option.some.inj this, LinearMap.proj_apply, add_zero]
  choose L c hLc using h
  refine ⟨fun θ k => L k θ + c k, ⟨LinearMap.pi L, fun θ => funext fun k => ?_⟩, fun θ k v hv => hLc k θ v hv,
    fun θ k => ?_⟩
  · show L k θ + c k = L k θ + (L k 0 + c k)
    rw [map_zero, zero_add]
  · rcases values_cases hP k with h | ⟨v0, h⟩ | ⟨i, h⟩
    · exact ⟨fun _ => h 0, fun _ => h θ⟩
    · constructor
      · intro hn
        have := prescribed_unique _ _ (hP.bc θ) k _ _ hn (h θ)
        cases this
      · intro hn
        have := prescribed_unique _ _ (hP.bc 0) k _ _ hn (h 0)
        cases this
    · constructor
      · intro hn
        have := prescribed_unique _ _ (hP.bc θ) k _ _ hn (h θ)
        cases this
      · intro hn
        have := prescribed_unique _ _ (hP.bc 0) k _ _ hn (h 0)
        cases this

end JaxFem.Control
