import Verif.Thm.C108_Load
import Verif.Thm.C107_Rows
import Verif.Thm.C70_Equilibrium
import Verif.Thm.C32_Continuation
import Verif.Thm.C20_NewtonLoop

/-!
# C108: buckling beam: equilibrium path and continuation
-/

namespace JaxFem.Beams

open scoped BigOperators

variable {nq nfq : Nat}

attribute [local irreducible] makeMesh

/-! ### Helper lemmas -/

section

variable (el : RefElement ℝ nq 4 2) (fc : RefFaces ℝ nfq 4 2) (T : (Fin 2 → Fin 2 → ℝ) → Fin 2 → Fin 2 → ℝ)
  (S : List (((Fin 2 → ℝ) → (Fin 2 → ℝ) → Fin 2 → ℝ) × List (Nat × Nat)))

theorem beam_fes : (beam el fc T S).fes = [⟨makeMesh.1.length, 2, 4, (beam el fc T S).conn⟩] := rfl

theorem beam_dofs : totalDofs (beam el fc T S).fes = 306 := by
  rw [totalDofs_single]
  show makeMesh.1.length * 2 = 306
  rw [mesh_length]

theorem beam_suits (info : UserBC.Info (Fin 2 → ℝ) ℝ) (h : ∀ it ∈ UserBC.conds info, it.2.1 < 2) :
    UserBC.Suits (beam el fc T S).fes (.single makeMesh.1 info) := by
  refine ⟨rfl, ?_, ?_⟩
  · intro i fe pts h1 h2
    rw [beam_fes] at h1
    cases i with
    | zero => cases h1; cases h2; rfl
    | succ i => cases h1
  · intro i fe info' h1 h2 it hit
    rw [beam_fes] at h1
    cases i with
    | zero => cases h1; cases h2; exact h it hit
    | succ i => cases h1

theorem beam_prescribed (info : UserBC.Info (Fin 2 → ℝ) ℝ) (h : ∀ it ∈ UserBC.conds info, it.2.1 < 2)
    (bcs : List (List (BCEntry ℝ))) (hb : UserBC.problemBCs (.single makeMesh.1 info) = .ok bcs) :
    WFBC (beam el fc T S).fes bcs ∧ ∀ n c, n < 153 → c < 2 → ∀ o,
      Prescribed (beam el fc T S).fes bcs (n * 2 + c) o ↔ UserBC.Demands makeMesh.1 (UserBC.conds info) n c o := by
  obtain ⟨h1, h2⟩ := UserBC.C107_conditions _ _ (beam_suits el fc T S info h) bcs hb
  refine ⟨h1, fun n c hn hc o => ?_⟩
  have h3 := h2 0 n c ⟨makeMesh.1.length, 2, 4, (beam el fc T S).conn⟩ makeMesh.1 info rfl rfl rfl (by
    show n < makeMesh.1.length
    rw [mesh_length]; exact hn) hc o
  rw [dofNum_single] at h3
  exact h3

theorem clamped_conds : UserBC.conds clampedLeft
    = [(locationLeft, 0, fun _ => 0), (locationLeft, 1, fun _ => 0)] := rfl

theorem compression_conds : UserBC.conds compression
    = [(locationLeft, 0, fun _ => 0), (locationLeft, 1, fun _ => 0), (locationRight, 0, fun _ => endCompression),
      (locationRight, 1, fun _ => 0)] := rfl

theorem clamped_comps : ∀ it ∈ UserBC.conds clampedLeft, it.2.1 < 2 := by
  rw [clamped_conds]; simp

theorem compression_comps : ∀ it ∈ UserBC.conds compression, it.2.1 < 2 := by
  rw [compression_conds]; simp

theorem clamped_demands (n c : Nat) (hn : n < 153) (hc : c < 2) :
    UserBC.Demands makeMesh.1 (UserBC.conds clampedLeft) n c (if n < 3 then some 0 else none) := by
  rw [clamped_conds]
  split
  · rename_i h
    refine (UserBC.demands_some_iff _ _ ?_ n c 0).2 ?_
    · intro it hit it' hit' n c p hp h1 h2
      simp only [List.mem_cons, List.not_mem_nil, or_false] at hit hit'
      rcases hit with rfl | rfl <;> rcases hit' with rfl | rfl <;> rfl
    · have hl := (onLeft_iff n).2 h
      have : c = 0 ∨ c = 1 := by omega
      rcases this with rfl | rfl
      · exact ⟨_, List.mem_cons_self, _, mesh_point hn, ⟨rfl, hl⟩, rfl⟩
      · exact ⟨_, List.mem_cons_of_mem _ List.mem_cons_self, _, mesh_point hn, ⟨rfl, hl⟩, rfl⟩
  · rename_i h
    refine .free fun it hit hc' => ?_
    simp only [List.mem_cons, List.not_mem_nil, or_false] at hit
    rcases hit with rfl | rfl <;> exact h ((onLeft_iff n).1 hc'.2)

theorem compression_demands (n c : Nat) (hn : n < 153) (hc : c < 2) :
    UserBC.Demands makeMesh.1 (UserBC.conds compression) n c
      (if n < 3 then some 0 else if 150 ≤ n then some (if c = 0 then -5 / 2 else 0) else none) := by
  have hcomp : UserBC.Compatible makeMesh.1 (UserBC.conds compression) := by
    rw [compression_conds]
    intro it hit it' hit' n c p hp h1 h2
    simp only [List.mem_cons, List.not_mem_nil, or_false] at hit hit'
    have no : ¬(OnDirichlet makeMesh.1 locationLeft n ∧ OnDirichlet makeMesh.1 locationRight n) := by
      rw [onLeft_iff, onRight_iff]; omega
    rcases hit with rfl | rfl | rfl | rfl <;> rcases hit' with rfl | rfl | rfl | rfl
    · rfl
    · rfl
    · exact (no ⟨h1.2, h2.2⟩).elim
    · rfl
    · rfl
    · rfl
    · exact (no ⟨h1.2, h2.2⟩).elim
    · rfl
    · exact (no ⟨h2.2, h1.2⟩).elim
    · exact (no ⟨h2.2, h1.2⟩).elim
    · rfl
    · exact absurd (h1.1.trans h2.1.symm) (by decide)
    · rfl
    · rfl
    · exact absurd (h1.1.trans h2.1.symm) (by decide)
    · rfl
  have hend : endCompression = -5 / 2 := by norm_num [endCompression, Lx]
  have hc2 : c = 0 ∨ c = 1 := by omega
  split
  · rename_i h
    refine (UserBC.demands_some_iff _ _ hcomp n c 0).2 ?_
    rw [compression_conds]
    have hl := (onLeft_iff n).2 h
    rcases hc2 with rfl | rfl
    · exact ⟨(locationLeft, 0, fun _ => 0), by simp, _, mesh_point hn, ⟨rfl, hl⟩, rfl⟩
    · exact ⟨(locationLeft, 1, fun _ => 0), by simp, _, mesh_point hn, ⟨rfl, hl⟩, rfl⟩
  · rename_i h
    split
    · rename_i h'
      refine (UserBC.demands_some_iff _ _ hcomp n c _).2 ?_
      rw [compression_conds]
      have hl := (onRight_iff n).2 ⟨h', hn⟩
      rcases hc2 with rfl | rfl
      · exact ⟨(locationRight, 0, fun _ => endCompression), by simp, _, mesh_point hn, ⟨rfl, hl⟩, by simp [hend]⟩
      · exact ⟨(locationRight, 1, fun _ => 0), by simp, _, mesh_point hn, ⟨rfl, hl⟩, by simp⟩
    · rename_i h'
      rw [compression_conds]
      refine .free fun it hit hc' => ?_
      simp only [List.mem_cons, List.not_mem_nil, or_false] at hit
      rcases hit with rfl | rfl | rfl | rfl
      · exact h ((onLeft_iff n).1 hc'.2)
      · exact h ((onLeft_iff n).1 hc'.2)
      · exact h' ((onRight_iff n).1 hc'.2).1
      · exact h' ((onRight_iff n).1 hc'.2).1

/-- The degree of freedom of component `c` at node `n`. -/
theorem beam_dof (k : Fin (totalDofs (beam el fc T S).fes)) : ∃ n c, n < 153 ∧ c < 2 ∧ (k : Nat) = n * 2 + c := by
  have h : (k : Nat) < 306 := lt_of_lt_of_eq k.2 (beam_dofs el fc T S)
  exact ⟨k / 2, k % 2, by omega, by omega, by omega⟩

theorem beam_vecField (x : Fin (totalDofs (beam el fc T S).fes) → ℝ) (n : Nat) (c : Fin 2) (k : Fin (totalDofs (beam el fc T S).fes))
    (hk : (k : Nat) = n * 2 + c) : (beam el fc T S).vecField x n c = x k := by
  rw [Problem1.vecField, dif_pos (hk ▸ k.2)]
  exact congrArg x (Fin.ext hk.symm)

end

/-- Test functions decide: a vector is zero at the free degrees of freedom if its product with all vectors that vanish at
the others is zero. -/
theorem free_zero_iff {N : Nat} (free : Fin N → Prop) (r : Fin N → ℝ) :
    (∀ k, free k → r k = 0) ↔ ∀ w : Fin N → ℝ, (∀ k, ¬free k → w k = 0) → ∑ k, w k * r k = 0 := by
  classical
  constructor
  · intro h w hw
    refine Finset.sum_eq_zero fun k _ => ?_
    by_cases hk : free k
    · rw [h k hk, mul_zero]
    · rw [hw k hk, zero_mul]
  · intro h k hk
    have := h (Pi.single k 1) fun l hl => by
      rw [Pi.single_eq_of_ne]
      rintro rfl
      exact hl hk
    rw [Finset.sum_eq_single k] at this
    · simpa using this
    · intro l _ hl
      rw [Pi.single_eq_of_ne hl, zero_mul]
    · simp

/-! ### Property theorems -/

/-- **C108 (boundary conditions).** Both lists of conditions are accepted. In the force example exactly the two components at
the nodes with `x = 0` are prescribed, with value zero. In the displacement example also those at the nodes with `x = 50`: the
horizontal component has the value `-2.5`, the vertical one the value zero. -/
theorem C108_boundary (el : RefElement ℝ nq 4 2) (fc : RefFaces ℝ nfq 4 2) :
    (∃ bcs, UserBC.problemBCs (.single makeMesh.1 clampedLeft) = .ok bcs) ∧
    (∃ bcs, UserBC.problemBCs (.single makeMesh.1 compression) = .ok bcs) ∧
    (∀ P bcs, forceProblem el fc = .ok P → UserBC.problemBCs (.single makeMesh.1 clampedLeft) = .ok bcs →
      WFBC P.fes bcs ∧ ∀ n c, n < P.numTotalNodes → c < 2 →
        (AtX P.points 0 n → Prescribed P.fes bcs (n * 2 + c) (some 0)) ∧
        (¬AtX P.points 0 n → Prescribed P.fes bcs (n * 2 + c) none)) ∧
    (∀ P bcs, dispProblem el fc = .ok P → UserBC.problemBCs (.single makeMesh.1 compression) = .ok bcs →
      WFBC P.fes bcs ∧ ∀ n c, n < P.numTotalNodes → c < 2 →
        (AtX P.points 0 n → Prescribed P.fes bcs (n * 2 + c) (some 0)) ∧
        (AtX P.points 50 n → Prescribed P.fes bcs (n * 2 + c) (some (if c = 0 then -5 / 2 else 0))) ∧
        (¬AtX P.points 0 n → ¬AtX P.points 50 n → Prescribed P.fes bcs (n * 2 + c) none)) := by
  refine ⟨?_, ?_, ?_, ?_⟩
  · refine (UserBC.C107_builds _).2 fun i hi => ?_
    have : i = 0 := Nat.lt_one_iff.1 hi
    subst this
    exact ⟨clampedLeft, rfl, rfl, rfl, by simp [locationLeft, LocFn.supported]⟩
  · refine (UserBC.C107_builds _).2 fun i hi => ?_
    have : i = 0 := Nat.lt_one_iff.1 hi
    subst this
    exact ⟨compression, rfl, rfl, rfl, by simp [locationLeft, locationRight, LocFn.supported]⟩
  · intro P bcs hP hb
    rw [(C108_faces el fc).1] at hP
    cases hP
    obtain ⟨h1, h2⟩ := beam_prescribed el fc (Hyper.firstPK energy) [(imperfection, midFaces), (endTractionMap, rightFaces)] _
      clamped_comps bcs hb
    refine ⟨h1, fun n c hn hc => ?_⟩
    have hn' : n < 153 := lt_of_lt_of_eq hn mesh_length
    have hd := (h2 n c hn' hc _).2 (clamped_demands n c hn' hc)
    have e : AtX (forceBeam el fc).points 0 n ↔ n < 3 := atX_left n
    rw [e]
    refine ⟨fun h => ?_, fun h => ?_⟩
    · rwa [if_pos h] at hd
    · rwa [if_neg h] at hd
  · intro P bcs hP hb
    rw [(C108_faces el fc).2.2.1] at hP
    cases hP
    obtain ⟨h1, h2⟩ := beam_prescribed el fc (Hyper.firstPK energy) [(imperfection, midFaces)] _ compression_comps bcs hb
    refine ⟨h1, fun n c hn hc => ?_⟩
    have hn' : n < 153 := lt_of_lt_of_eq hn mesh_length
    have hd := (h2 n c hn' hc _).2 (compression_demands n c hn' hc)
    have e : AtX (dispBeam el fc).points 0 n ↔ n < 3 := atX_left n
    have e' : AtX (dispBeam el fc).points 50 n ↔ 150 ≤ n ∧ n < 153 := atX_right n
    rw [e, e']
    refine ⟨fun h => ?_, fun h => ?_, fun h h' => ?_⟩
    · rwa [if_pos h] at hd
    · rwa [if_neg (by omega), if_pos h.1] at hd
    · rwa [if_neg h, if_neg (by omega)] at hd

/-- **C108 (path, force control).** The zeros of the out-of-balance vector of force control are exactly the equilibria of the
clamped beam with `λ` times the end load and the full imperfection. At `λ = 1` this is the problem of the main class, without
the counter load. -/
theorem C108_path_force (el : RefElement ℝ nq 4 2) (fc : RefFaces ℝ nfq 4 2) (P Q : Problem1 Unit nq nfq 4 2 2)
    (hP : forceProblem el fc = .ok P) (hQ : counterProblem el fc = .ok Q) (bcs : List (List (BCEntry ℝ)))
    (hb : UserBC.problemBCs (.single makeMesh.1 clampedLeft) = .ok bcs) :
    ∃ h : totalDofs P.fes = totalDofs Q.fes, ∀ (lam : ℝ) (u : Fin (totalDofs P.fes) → ℝ), Invertible P (P.vecField u) →
      (IsForceResidual P.fes bcs P.flat (fun k => getQVec Q.flat (Fin.cast h k)) u lam 0 ↔
        (∀ n i, AtX P.points 0 n → P.vecField u n i = 0) ∧
          Balanced P (AtX P.points 0) (lam * 5) (1 / 100000) (P.vecField u)) := by
  obtain ⟨h, hl⟩ := C108_load el fc P Q hP hQ
  obtain ⟨-, -, hbd, -⟩ := C108_boundary el fc
  obtain ⟨wf, hpr⟩ := hbd P bcs hP hb
  refine ⟨h, fun lam u hu => ?_⟩
  have hl' := hl lam u
  clear hl hbd
  rw [(C108_faces el fc).1] at hP
  cases hP
  have hdof := beam_dof el fc (Hyper.firstPK energy) [(imperfection, midFaces), (endTractionMap, rightFaces)]
  have hvf := beam_vecField el fc (Hyper.firstPK energy) [(imperfection, midFaces), (endTractionMap, rightFaces)]
  have hdl := beam_dofs el fc (Hyper.firstPK energy) [(imperfection, midFaces), (endTractionMap, rightFaces)]
  have hnum : (forceBeam el fc).numTotalNodes = 153 := mesh_length
  have hbig : ∀ n, AtX (forceBeam el fc).points 0 n → n < 3 := fun n hn => (atX_left n).1 hn
  -- a degree of freedom is constrained iff its node is on the left
  have hfree : ∀ (k : Fin (totalDofs (forceBeam el fc).fes)) n c, n < 153 → c < 2 → (k : Nat) = n * 2 + c →
      (Prescribed (forceBeam el fc).fes bcs k none ↔ ¬AtX (forceBeam el fc).points 0 n) ∧
      ∀ v, Prescribed (forceBeam el fc).fes bcs k (some v) ↔ AtX (forceBeam el fc).points 0 n ∧ v = 0 := by
    intro k n c hn hc hk
    obtain ⟨p1, p2⟩ := hpr n c (hnum ▸ hn) hc
    rw [hk]
    refine ⟨⟨fun hp ha => ?_, p2⟩, fun v => ⟨fun hp => ?_, ?_⟩⟩
    · cases prescribed_unique _ bcs wf _ _ _ hp (p1 ha)
    · by_cases ha : AtX (forceBeam el fc).points 0 n
      · cases prescribed_unique _ bcs wf _ _ _ hp (p1 ha)
        exact ⟨ha, rfl⟩
      · cases prescribed_unique _ bcs wf _ _ _ hp (p2 ha)
    · rintro ⟨ha, rfl⟩
      exact p1 ha
  have key : (∀ k : Fin (totalDofs (forceBeam el fc).fes), Prescribed (forceBeam el fc).fes bcs k none →
      (forceBeam el fc).flat u k + (1 - lam) * getQVec Q.flat (Fin.cast h k) = 0) ↔
      Balanced (forceBeam el fc) (AtX (forceBeam el fc).points 0) (lam * 5) (1 / 100000) ((forceBeam el fc).vecField u) := by
    rw [free_zero_iff (fun k : Fin (totalDofs (forceBeam el fc).fes) => Prescribed (forceBeam el fc).fes bcs k none)]
    refine forall_congr' fun w => imp_congr ?_ ?_
    · constructor
      · intro hw n i hn
        have h3 := hbig n hn
        have hi := i.2
        have hlt : n * 2 + (i : Nat) < totalDofs (forceBeam el fc).fes := by rw [hdl]; omega
        rw [hvf w n i ⟨_, hlt⟩ rfl]
        exact hw _ fun hp => ((hfree ⟨_, hlt⟩ n i (by omega) hi rfl).1.1 hp) hn
      · intro hw k hk
        obtain ⟨n, c, hn, hc, hkn⟩ := hdof k
        rw [(hfree k n c hn hc hkn).1, not_not] at hk
        rw [← hvf w n ⟨c, hc⟩ k hkn]
        exact hw n ⟨c, hc⟩ hk
    · exact (Eq.congr_left (hl' w hu))
  rw [← key]
  constructor
  · intro hr
    refine ⟨fun n i hn => ?_, fun k hk => ?_⟩
    · have h3 := hbig n hn
      have hi := i.2
      have hlt : n * 2 + (i : Nat) < totalDofs (forceBeam el fc).fes := by rw [hdl]; omega
      rw [hvf u n i ⟨_, hlt⟩ rfl]
      have := (hr ⟨_, hlt⟩).2 0 (((hfree ⟨_, hlt⟩ n i (by omega) hi rfl).2 0).2 ⟨hn, rfl⟩)
      rw [sub_zero] at this
      exact this.symm
    · exact ((hr k).1 hk).symm
  · rintro ⟨h1, h2⟩ k
    refine ⟨fun hk => (h2 k hk).symm, fun v hv => ?_⟩
    obtain ⟨n, c, hn, hc, hkn⟩ := hdof k
    obtain ⟨ha, rfl⟩ := ((hfree k n c hn hc hkn).2 v).1 hv
    rw [sub_zero, ← hvf u n ⟨c, hc⟩ k hkn]
    exact (h1 n ⟨c, hc⟩ ha).symm

/-- **C108 (path, displacement control).** The zeros of the out-of-balance vector of displacement control are exactly the
equilibria with the full imperfection whose left end is fixed and whose right end has been moved by `-2.5 λ` along the beam
and not at all across it. -/
theorem C108_path_disp (el : RefElement ℝ nq 4 2) (fc : RefFaces ℝ nfq 4 2) (P : Problem1 Unit nq nfq 4 2 2)
    (hP : dispProblem el fc = .ok P) (bcs : List (List (BCEntry ℝ)))
    (hb : UserBC.problemBCs (.single makeMesh.1 compression) = .ok bcs)
    (lam : ℝ) (u : Fin (totalDofs P.fes) → ℝ) (hu : Invertible P (P.vecField u)) :
    IsDispResidual P.fes bcs P.flat u lam 0 ↔
      (∀ n i, AtX P.points 0 n → P.vecField u n i = 0) ∧
      (∀ n, AtX P.points 50 n → P.vecField u n 0 = -5 / 2 * lam ∧ P.vecField u n 1 = 0) ∧
      Balanced P (fun n => AtX P.points 0 n ∨ AtX P.points 50 n) 0 (1 / 100000) (P.vecField u) := by
  obtain ⟨-, -, -, hbd⟩ := C108_boundary el fc
  obtain ⟨wf, hpr⟩ := hbd P bcs hP hb
  clear hbd
  rw [(C108_faces el fc).2.2.1] at hP
  cases hP
  have hdof := beam_dof el fc (Hyper.firstPK energy) [(imperfection, midFaces)]
  have hvf := beam_vecField el fc (Hyper.firstPK energy) [(imperfection, midFaces)]
  have hdl := beam_dofs el fc (Hyper.firstPK energy) [(imperfection, midFaces)]
  have hnum : (dispBeam el fc).numTotalNodes = 153 := mesh_length
  have hleft : ∀ n, AtX (dispBeam el fc).points 0 n → n < 3 := fun n hn => (atX_left n).1 hn
  have hright : ∀ n, AtX (dispBeam el fc).points 50 n → 150 ≤ n ∧ n < 153 := fun n hn => (atX_right n).1 hn
  have hfree : ∀ (k : Fin (totalDofs (dispBeam el fc).fes)) n c, n < 153 → c < 2 → (k : Nat) = n * 2 + c →
      (Prescribed (dispBeam el fc).fes bcs k none ↔ ¬(AtX (dispBeam el fc).points 0 n ∨ AtX (dispBeam el fc).points 50 n)) ∧
      ∀ v, Prescribed (dispBeam el fc).fes bcs k (some v) ↔ (AtX (dispBeam el fc).points 0 n ∧ v = 0) ∨
        (AtX (dispBeam el fc).points 50 n ∧ v = if c = 0 then -5 / 2 else 0) := by
    intro k n c hn hc hk
    obtain ⟨p1, p2, p3⟩ := hpr n c (hnum ▸ hn) hc
    rw [hk]
    refine ⟨⟨fun hp ha => ?_, fun hp => p3 (fun h => hp (.inl h)) fun h => hp (.inr h)⟩, fun v => ⟨fun hp => ?_, ?_⟩⟩
    · rcases ha with ha | ha
      · cases prescribed_unique _ bcs wf _ _ _ hp (p1 ha)
      · cases prescribed_unique _ bcs wf _ _ _ hp (p2 ha)
    · by_cases ha : AtX (dispBeam el fc).points 0 n
      · cases prescribed_unique _ bcs wf _ _ _ hp (p1 ha)
        exact .inl ⟨ha, rfl⟩
      · by_cases ha' : AtX (dispBeam el fc).points 50 n
        · exact .inr ⟨ha', Option.some.inj (prescribed_unique _ bcs wf _ _ _ hp (p2 ha'))⟩
        · cases prescribed_unique _ bcs wf _ _ _ hp (p3 ha ha')
    · rintro (⟨ha, rfl⟩ | ⟨ha, rfl⟩)
      · exact p1 ha
      · exact p2 ha
  have key : (∀ k : Fin (totalDofs (dispBeam el fc).fes), Prescribed (dispBeam el fc).fes bcs k none →
      (dispBeam el fc).flat u k = 0) ↔
      Balanced (dispBeam el fc) (fun n => AtX (dispBeam el fc).points 0 n ∨ AtX (dispBeam el fc).points 50 n) 0 (1 / 100000)
        ((dispBeam el fc).vecField u) := by
    rw [free_zero_iff (fun k : Fin (totalDofs (dispBeam el fc).fes) => Prescribed (dispBeam el fc).fes bcs k none)]
    refine forall_congr' fun w => imp_congr ?_ ?_
    · constructor
      · intro hw n i hn
        have h3 : n < 153 := by
          rcases hn with hn | hn
          · exact lt_trans (hleft n hn) (by omega)
          · exact (hright n hn).2
        have hi := i.2
        have hlt : n * 2 + (i : Nat) < totalDofs (dispBeam el fc).fes := by rw [hdl]; omega
        rw [hvf w n i ⟨_, hlt⟩ rfl]
        exact hw _ fun hp => ((hfree ⟨_, hlt⟩ n i h3 hi rfl).1.1 hp) hn
      · intro hw k hk
        obtain ⟨n, c, hn, hc, hkn⟩ := hdof k
        rw [(hfree k n c hn hc hkn).1, not_not] at hk
        rw [← hvf w n ⟨c, hc⟩ k hkn]
        exact hw n ⟨c, hc⟩ hk
    · rw [zero_mul, add_zero]
      exact (Eq.congr_left (disp_work el fc u w hu))
  rw [← key]
  constructor
  · intro hr
    refine ⟨fun n i hn => ?_, fun n hn => ?_, fun k hk => ?_⟩
    · have h3 := hleft n hn
      have hi := i.2
      have hlt : n * 2 + (i : Nat) < totalDofs (dispBeam el fc).fes := by rw [hdl]; omega
      rw [hvf u n i ⟨_, hlt⟩ rfl]
      have := (hr ⟨_, hlt⟩).2 0 (((hfree ⟨_, hlt⟩ n i (by omega) hi rfl).2 0).2 (.inl ⟨hn, rfl⟩))
      rw [mul_zero, sub_zero] at this
      exact this.symm
    · have h3 := hright n hn
      have hlt0 : n * 2 + 0 < totalDofs (dispBeam el fc).fes := by rw [hdl]; omega
      have hlt1 : n * 2 + 1 < totalDofs (dispBeam el fc).fes := by rw [hdl]; omega
      rw [hvf u n 0 ⟨_, hlt0⟩ rfl, hvf u n 1 ⟨_, hlt1⟩ rfl]
      have a := (hr ⟨_, hlt0⟩).2 _ (((hfree ⟨_, hlt0⟩ n 0 h3.2 (by omega) rfl).2 _).2 (.inr ⟨hn, rfl⟩))
      have b := (hr ⟨_, hlt1⟩).2 _ (((hfree ⟨_, hlt1⟩ n 1 h3.2 (by omega) rfl).2 _).2 (.inr ⟨hn, rfl⟩))
      rw [if_pos rfl, Pi.zero_apply] at a
      rw [if_neg one_ne_zero, Pi.zero_apply, mul_zero, sub_zero] at b
      exact ⟨by linarith, b.symm⟩
    · exact ((hr k).1 hk).symm
  · rintro ⟨h1, h2, h3⟩ k
    refine ⟨fun hk => (h3 k hk).symm, fun v hv => ?_⟩
    obtain ⟨n, c, hn, hc, hkn⟩ := hdof k
    rw [Pi.zero_apply]
    rcases ((hfree k n c hn hc hkn).2 v).1 hv with ⟨ha, rfl⟩ | ⟨ha, rfl⟩
    · rw [mul_zero, sub_zero, ← hvf u n ⟨c, hc⟩ k hkn]
      exact (h1 n ⟨c, hc⟩ ha).symm
    · obtain ⟨a, b⟩ := h2 n ha
      have : c = 0 ∨ c = 1 := by omega
      rcases this with rfl | rfl
      · rw [if_pos rfl, ← hvf u n 0 k hkn, a]
        ring
      · rw [if_neg one_ne_zero, mul_zero, sub_zero, ← hvf u n 1 k hkn, b]

end JaxFem.Beams
