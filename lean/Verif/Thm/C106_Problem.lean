import Verif.Model.Gradients
import Verif.Spec.Gradients
import Verif.Thm.C104_Gradient
import Verif.Thm.C14_Boundary

/-!
# C106: computing gradients: residual and boundary conditions
-/

namespace JaxFem.Gradients

open scoped BigOperators Topology

variable {nq nfq nn : Nat}

/-! ### Helper lemmas -/

section

variable (numTotalNodes : Nat) (points : List (Fin 3 → ℝ)) (cells : List (List Nat)) (el : RefElement ℝ nq nn 3)
  (fc : RefFaces ℝ nfq nn 3) (faces : List (Nat × Nat))

local notation "𝒫" => problem numTotalNodes points cells el fc faces
set_option quotPrecheck false in
local notation "U" => Fin (totalDofs (𝒫).fes) → ℝ
set_option quotPrecheck false in
local notation "Θ" => Params (𝒫).cells.length nq

/-- Energy with Young's modulus 1. -/
noncomputable abbrev unitEnergy : (Fin 3 → Fin 3 → ℝ) → ℝ := Hyper.psi 3 (Hyper.muOf 1 (3 / 10)) (Hyper.kappaOf 1 (3 / 10))

theorem problem_tensor (iv : ℝ × ℝ) (G : Fin 3 → Fin 3 → ℝ) :
    (𝒫).tensorMap iv G = (iv.1 * iv.2) • Hyper.firstPK unitEnergy G := by
  have e : energy iv.1 iv.2 = fun F => iv.1 * iv.2 * unitEnergy F := funext fun F => Hyper.psi_scale 3 _ _ F
  show Hyper.firstPK (energy iv.1 iv.2) G = _
  rw [e, Hyper.firstPK_scale]

theorem problem_dead : (𝒫).DeadLoads := by
  intro s hs iv u u' x
  have hs' : s ∈ [(⟨fun _ => surfaceMap, faces.map fun f => ⟨f.1, f.2, fun _ => (0, 0)⟩⟩ : Surface ℝ (ℝ × ℝ) nfq 3 3)] := hs
  rw [List.mem_singleton] at hs'
  subst hs'
  rfl

theorem problem_lift (w : Nat → Fin 3 → ℝ) : (𝒫).surfaceWork 0 w = 1000 * lift 𝒫 faces w := by
  have e : (𝒫).surfaces = [⟨fun _ => surfaceMap, faces.map fun f => ⟨f.1, f.2, fun _ => (0, 0)⟩⟩] := rfl
  rw [Problem1.surfaceWork, e, lift]
  simp only [List.map_cons, List.map_nil, List.sum_cons, List.sum_nil, add_zero, List.map_map]
  rw [← List.sum_map_mul_left]
  congr 1
  refine List.map_congr_left fun f _ => ?_
  simp only [Function.comp_apply, Finset.mul_sum]
  refine Finset.sum_congr rfl fun q _ => ?_
  simp only [surfaceMap, Fin.sum_univ_three]
  simp
  ring

/-- Internal variables of the parameters. -/
abbrev ivOf {C : Nat} (p : Params C nq) : Nat → Fin nq → ℝ × ℝ := fun c q => (p.1, if h : c < C then p.2.1 ⟨c, h⟩ q else 0)

theorem ivOf_apply {C : Nat} (p : Params C nq) (c : Fin C) (q : Fin nq) : ivOf p c q = (p.1, p.2.1 c q) := by
  simp [ivOf]

/-- One entry of the residual. -/
theorem res_entry (h : (𝒫).WF) (p : Θ) (u : U) (k : Fin (totalDofs (𝒫).fes)) :
    (setParams 𝒫 p).flat u k = (∑ c, ∑ q, p.1 * p.2.1 c q * power 𝒫 (Hyper.firstPK unitEnergy) ((𝒫).vecField u) ((𝒫).vecField (Pi.single k 1)) c q)
      + 1000 * lift 𝒫 faces ((𝒫).vecField (Pi.single k 1)) := by
  have h1 := Hyper.flat_atIv 𝒫 h rfl (problem_dead numTotalNodes points cells el fc faces) (ivOf p) u k
  refine h1.trans ?_
  rw [problem_lift]
  congr 1
  refine Finset.sum_congr rfl fun c _ => Finset.sum_congr rfl fun q _ => ?_
  rw [ivOf_apply, problem_tensor, power, ← mul_assoc]
  congr 1
  simp only [contract, Pi.smul_apply, smul_eq_mul, Finset.mul_sum]
  exact Finset.sum_congr rfl fun i _ => Finset.sum_congr rfl fun j _ => mul_assoc _ _ _

/-- The residual is continuously differentiable in displacement and parameters. -/
theorem gradients_smooth (h : (𝒫).WF) (p0 : Θ) (u0 : U) (hadm : (𝒫).Admissible ((𝒫).vecField u0)) :
    ContDiffAt ℝ 1 (fun up : U × Θ => fun k : Fin (totalDofs (𝒫).fes) => (setParams 𝒫 up.2).flat up.1 k) (u0, p0) := by
  refine Hyper.res_smooth 𝒫 h rfl (problem_dead numTotalNodes points cells el fc faces) (fun iv => iv.1 * iv.2) _
    (problem_tensor numTotalNodes points cells el fc faces) (fun p : Θ => ivOf p) u0 p0 ?_ ?_
  · intro c q
    have e : (fun p : Θ => (ivOf p c q).1 * (ivOf p c q).2) = fun p : Θ => p.1 * p.2.1 c q := funext fun p => by rw [ivOf_apply]
    show ContDiffAt ℝ 1 (fun p : Θ => (ivOf p c q).1 * (ivOf p c q).2) p0
    rw [e]
    refine contDiffAt_fst.mul ?_
    have h1 : ContDiff ℝ 1 fun p : Θ => p.2.1 := contDiff_fst.comp contDiff_snd
    exact ((contDiff_apply_apply ℝ ℝ c q).comp h1).contDiffAt
  · intro c hc q
    exact (Hyper.C88_smooth _ _ 2).1 3 _ _ (.inl (hadm c hc q))

end

/-! #### Boundary conditions -/

theorem bottom_holds (p : Fin 3 → ℝ) (n : Nat) : bottom.holds p n ↔ |p 2| ≤ 1 / 100000 := by
  simp [bottom, LocFn.holds]
  norm_num

theorem onDirichlet_iff (points : List (Fin 3 → ℝ)) (n : Nat) : OnDirichlet points bottom n ↔ OnBottom points n :=
  exists_congr fun p => and_congr_right fun _ => bottom_holds p n

theorem bcs_entries (points : List (Fin 3 → ℝ)) (Lz s : ℝ) : ∃ e0 e1 e2 : BCEntry ℝ, bcs points Lz s = [[e0, e1, e2]] ∧
    EntrySpec points bottom 0 (fun _ => (0 : ℝ)) e0.nodes e0.comps e0.vals ∧
    EntrySpec points bottom 1 (fun _ => (0 : ℝ)) e1.nodes e1.comps e1.vals ∧
    EntrySpec points bottom 2 (fun _ => s * Lz) e2.nodes e2.comps e2.vals := by
  obtain ⟨ns, vs, us, h0, l1, l2, l3, hsp⟩ := (dirichletLoop_spec points [bottom, bottom, bottom] [0, 1, 2]
    [fun _ => (0 : ℝ), fun _ => 0, getDirichletBottom Lz s] rfl rfl).1 (by
      intro loc hl
      have : loc = bottom := by simpa using hl
      rw [this]
      trivial)
  obtain ⟨n0, n1, n2, rfl⟩ := List.length_eq_three.1 l1
  obtain ⟨v0, v1, v2, rfl⟩ := List.length_eq_three.1 l2
  obtain ⟨u0, u1, u2, rfl⟩ := List.length_eq_three.1 l3
  refine ⟨⟨n0, v0, u0⟩, ⟨n1, v1, u1⟩, ⟨n2, v2, u2⟩, ?_, hsp 0 _ _ _ _ _ _ rfl rfl rfl rfl rfl rfl,
    hsp 1 _ _ _ _ _ _ rfl rfl rfl rfl rfl rfl, hsp 2 _ _ _ _ _ _ rfl rfl rfl rfl rfl rfl⟩
  have h1 : dirichletBC points (some (dirichletInfo Lz s)) = .ok ([n0, n1, n2], [v0, v1, v2], [u0, u1, u2]) := by
    rw [dirichletBC, dirichletInfo]
    exact h0
  rw [bcs, h1]
  rfl

theorem entry_prescribes {points : List (Fin 3 → ℝ)} {vec : Nat} {a : ℝ} {e : BCEntry ℝ}
    (h : EntrySpec points bottom vec (fun _ => a) e.nodes e.comps e.vals) (n c : Nat) (v : ℝ) :
    e.Prescribes n c v ↔ OnBottom points n ∧ c = vec ∧ v = a := by
  obtain ⟨-, hmem, hc, hl, hv⟩ := h
  constructor
  · rintro ⟨k, h1, h2, h3⟩
    have hb := (onDirichlet_iff points n).1 ((hmem n).1 (List.mem_of_getElem? h1))
    obtain ⟨p, hp, -⟩ := id hb
    refine ⟨hb, ?_, ?_⟩
    · rw [hc] at h2
      exact (List.mem_replicate.1 (List.mem_of_getElem? h2)).2
    · exact Option.some.inj (h3.symm.trans (hv k n p h1 hp))
  · rintro ⟨hb, rfl, rfl⟩
    obtain ⟨p, hp, -⟩ := id hb
    obtain ⟨k, hk⟩ := List.mem_iff_getElem?.1 ((hmem n).2 ((onDirichlet_iff points n).2 hb))
    refine ⟨k, hk, ?_, hv k n p hk hp⟩
    have hlt := (List.getElem?_eq_some_iff.1 hk).1
    rw [hc, List.getElem?_replicate, if_pos hlt]

theorem entry_valid {points : List (Fin 3 → ℝ)} {vec : Nat} {a : ℝ} {e : BCEntry ℝ}
    (h : EntrySpec points bottom vec (fun _ => a) e.nodes e.comps e.vals) (hv : vec < 3) :
    e.comps.length = e.nodes.length ∧ e.vals.length = e.nodes.length ∧ (e.nodes.zip e.comps).Nodup ∧
    (∀ n ∈ e.nodes, n < points.length) ∧ ∀ c ∈ e.comps, c < 3 := by
  obtain ⟨hp, hmem, hc, hl, -⟩ := h
  have hn : e.nodes.Nodup := hp.imp fun h => ne_of_lt h
  have h1 : e.comps.length = e.nodes.length := by rw [hc, List.length_replicate]
  refine ⟨h1, hl, ?_, ?_, ?_⟩
  · refine List.Nodup.of_map Prod.fst ?_
    rw [List.map_fst_zip (by rw [h1])]
    exact hn
  · intro n hn
    obtain ⟨p, hp, -⟩ := (hmem n).1 hn
    exact (List.getElem?_eq_some_iff.1 hp).1
  · intro c hcm
    rw [hc] at hcm
    rw [(List.mem_replicate.1 hcm).2]
    exact hv

/-! ### Property theorems -/

/-- **C106 (boundary conditions).** For all parameters the boundary arrays are well formed; a node at height zero (up to
`1e-5`) has all three components prescribed, with the values `0`, `0` and `scale * Lz`; all other degrees of freedom are
free. -/
theorem C106_boundary (fe : FE) (hv : fe.vec = 3) (points : List (Fin 3 → ℝ)) (hp : points.length = fe.numTotalNodes)
    (Lz s : ℝ) :
    WFBC [fe] (bcs points Lz s) ∧ ∀ n c, n < fe.numTotalNodes → c < 3 →
      (OnBottom points n → Prescribed [fe] (bcs points Lz s) (n * 3 + c) (some (if c = 2 then s * Lz else 0))) ∧
      (¬OnBottom points n → Prescribed [fe] (bcs points Lz s) (n * 3 + c) none) := by
  obtain ⟨e0, e1, e2, he, s0, s1, s2⟩ := bcs_entries points Lz s
  rw [he]
  have hall : ∀ e ∈ [e0, e1, e2], e.comps.length = e.nodes.length ∧ e.vals.length = e.nodes.length ∧
      (e.nodes.zip e.comps).Nodup ∧ (∀ n ∈ e.nodes, n < points.length) ∧ ∀ c ∈ e.comps, c < 3 := by
    intro e hm
    simp only [List.mem_cons, List.not_mem_nil, or_false] at hm
    rcases hm with rfl | rfl | rfl
    · exact entry_valid s0 (by norm_num)
    · exact entry_valid s1 (by norm_num)
    · exact entry_valid s2 (by norm_num)
  have hone : ∀ es ∈ [[e0, e1, e2]], ∀ e ∈ es, e ∈ [e0, e1, e2] := by
    intro es hes e hm
    rw [List.mem_singleton.1 hes] at hm
    exact hm
  refine ⟨⟨rfl, fun es h e h' => (hall e (hone es h e h')).1, fun es h e h' => (hall e (hone es h e h')).2.1,
    fun es h e h' => (hall e (hone es h e h')).2.2.1, ?_⟩, ?_⟩
  · intro i fe' es hfe hes e hm
    have hi : i = 0 := by
      have := (List.getElem?_eq_some_iff.1 hfe).1
      simp at this
      exact this
    subst hi
    have h1 : fe = fe' := Option.some.inj hfe
    have h2 : [e0, e1, e2] = es := Option.some.inj hes
    subst h1 h2
    obtain ⟨-, -, -, h4, h5⟩ := hall e hm
    rw [hv, ← hp]
    exact ⟨h4, h5⟩
  · intro n c hn hc
    have hk : n * 3 + c = dofNum [fe] 0 n c := by simp [dofNum, hv]
    constructor
    · intro hb
      refine .fixed 0 n c fe [e0, e1, e2] _ rfl rfl hn (by rw [hv]; exact hc) hk ?_
      have hc' : c = 0 ∨ c = 1 ∨ c = 2 := by omega
      rcases hc' with rfl | rfl | rfl
      · refine ⟨[], e0, [e1, e2], rfl, (entry_prescribes s0 n 0 _).2 ⟨hb, rfl, by simp⟩, ?_⟩
        intro e hm v hpr
        simp only [List.mem_cons, List.not_mem_nil, or_false] at hm
        rcases hm with rfl | rfl
        · exact absurd ((entry_prescribes s1 n 0 v).1 hpr).2.1 (by norm_num)
        · exact absurd ((entry_prescribes s2 n 0 v).1 hpr).2.1 (by norm_num)
      · refine ⟨[e0], e1, [e2], rfl, (entry_prescribes s1 n 1 _).2 ⟨hb, rfl, by simp⟩, ?_⟩
        intro e hm v hpr
        rw [List.mem_singleton.1 hm] at hpr
        exact absurd ((entry_prescribes s2 n 1 v).1 hpr).2.1 (by norm_num)
      · refine ⟨[e0, e1], e2, [], rfl, (entry_prescribes s2 n 2 _).2 ⟨hb, rfl, by simp⟩, ?_⟩
        intro e hm
        cases hm
    · intro hb
      refine .free 0 n c fe [e0, e1, e2] rfl rfl hn (by rw [hv]; exact hc) hk ?_
      intro e hm v hpr
      simp only [List.mem_cons, List.not_mem_nil, or_false] at hm
      rcases hm with rfl | rfl | rfl
      · exact hb ((entry_prescribes s0 n c v).1 hpr).1
      · exact hb ((entry_prescribes s1 n c v).1 hpr).1
      · exact hb ((entry_prescribes s2 n c v).1 hpr).1

section

variable (numTotalNodes : Nat) (points : List (Fin 3 → ℝ)) (cells : List (List Nat)) (el : RefElement ℝ nq nn 3)
  (fc : RefFaces ℝ nfq nn 3) (faces : List (Nat × Nat))

local notation "𝒫" => problem numTotalNodes points cells el fc faces

theorem unit_piola {u : Nat → Fin 3 → ℝ} (hadm : (𝒫).Admissible u) (c : Fin (𝒫).cells.length) (q : Fin nq) :
    Hyper.firstPK unitEnergy ((𝒫).gradAt u c q) = unitPiola ((𝒫).gradAt u c q) :=
  Hyper.firstPK_psi 3 _ _ _ (.inl (hadm ((𝒫).cells[c]) (List.getElem_mem _) q))

theorem power_piola {u : Nat → Fin 3 → ℝ} (hadm : (𝒫).Admissible u) (w : Nat → Fin 3 → ℝ) (c : Fin (𝒫).cells.length) (q : Fin nq) :
    power 𝒫 (Hyper.firstPK unitEnergy) u w c q = power 𝒫 unitPiola u w c q := by
  rw [power, power, unit_piola numTotalNodes points cells el fc faces hadm]

theorem res_work (h : (𝒫).WF) (p : Params (𝒫).cells.length nq) (u w : Fin (totalDofs (𝒫).fes) → ℝ) :
    (∑ k, w k * (setParams 𝒫 p).flat u k) = (∑ c, ∑ q, p.1 * p.2.1 c q
      * power 𝒫 (Hyper.firstPK unitEnergy) ((𝒫).vecField u) ((𝒫).vecField w) c q) + 1000 * lift 𝒫 faces ((𝒫).vecField w) := by
  have h1 := flat_virtualWork ((𝒫).atIv (ivOf p)) (atIv_WF 𝒫 h (ivOf p)) u w
  refine h1.trans ?_
  have hm' : ((𝒫).atIv (ivOf p)).massMap = none := rfl
  rw [Problem1.virtualWork, atIv_tensorWork, atIv_surfaceWork, hm',
    Hyper.deadLoads_surfaceWork 𝒫 (problem_dead numTotalNodes points cells el fc faces), problem_lift]
  show _ + 0 + _ = _
  rw [add_zero]
  congr 1
  refine Finset.sum_congr rfl fun c _ => Finset.sum_congr rfl fun q _ => ?_
  rw [ivOf_apply, problem_tensor, power, ← mul_assoc]
  congr 1
  simp only [contract, Pi.smul_apply, smul_eq_mul, Finset.mul_sum]
  exact Finset.sum_congr rfl fun i _ => Finset.sum_congr rfl fun j _ => mul_assoc _ _ _

/-- **C106 (balance of forces).** For all parameters, all displacements that turn no cell inside out and all test fields: the
residual, tested with `w`, is the work of the neo-Hookean stress with Young's modulus `E * rho` minus the work of the dead
traction `(0, 0, -1000)` on the selected faces. -/
theorem C106_balance (h : (𝒫).WF) (p : Params (𝒫).cells.length nq) (u w : Fin (totalDofs (𝒫).fes) → ℝ)
    (hadm : (𝒫).Admissible ((𝒫).vecField u)) :
    (∑ k, w k * (setParams 𝒫 p).flat u k) = (∑ c, ∑ q, p.1 * p.2.1 c q
      * power 𝒫 unitPiola ((𝒫).vecField u) ((𝒫).vecField w) c q) - (-1000) * lift 𝒫 faces ((𝒫).vecField w) := by
  rw [res_work numTotalNodes points cells el fc faces h]
  simp only [power_piola numTotalNodes points cells el fc faces hadm]
  ring

end

end JaxFem.Gradients
