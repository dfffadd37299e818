import Verif.Model.Benchmarks
import Verif.Thm.C118_Virial
import Verif.Thm.C20_NewtonLoop
import Verif.Thm.C54_Plasticity
import Verif.Thm.C107_Rows

/-!
# C118: a load step of the plasticity test
-/

namespace JaxFem.Benchmarks

open scoped BigOperators

open Plasticity (PState)

variable {nq nfq nn : Nat}

/-! ### Helper lemmas: conditions -/

theorem onDirichlet_top (points : List (Fin 3 → ℝ)) (n : Nat) : OnDirichlet points top n ↔ OnTop points n := by
  refine exists_congr fun p => and_congr_right fun _ => ?_
  simp only [top, LocFn.holds, FinitePlasticity.isclose, decide_eq_true_eq]
  norm_num

theorem onDirichlet_bottom (points : List (Fin 3 → ℝ)) (n : Nat) : OnDirichlet points bottom n ↔ OnBottom points n := by
  refine exists_congr fun p => and_congr_right fun _ => ?_
  simp only [bottom, LocFn.holds, FinitePlasticity.isclose, decide_eq_true_eq]
  norm_num

theorem demands_top (points : List (Fin 3 → ℝ)) (disp : ℝ) (n : Nat) (c : Fin 3) (h : OnTop points n) :
    UserBC.Demands points (UserBC.conds (info disp)) n c (some (if c = 2 then disp else 0)) := by
  obtain ⟨p, hp, hh⟩ := (onDirichlet_top points n).2 h
  fin_cases c
  · exact .value [(bottom, 0, fun _ => 0), (bottom, 1, fun _ => 0), (bottom, 2, fun _ => 0)] (top, 0, fun _ => 0)
      [(top, 1, fun _ => 0), (top, 2, fun _ => disp)] p rfl rfl hp hh (by simp [UserBC.Concerns])
  · exact .value [(bottom, 0, fun _ => 0), (bottom, 1, fun _ => 0), (bottom, 2, fun _ => 0), (top, 0, fun _ => 0)]
      (top, 1, fun _ => 0) [(top, 2, fun _ => disp)] p rfl rfl hp hh (by simp [UserBC.Concerns])
  · exact .value [(bottom, 0, fun _ => 0), (bottom, 1, fun _ => 0), (bottom, 2, fun _ => 0), (top, 0, fun _ => 0),
      (top, 1, fun _ => 0)] (top, 2, fun _ => disp) [] p rfl rfl hp hh (by simp)

theorem demands_bottom (points : List (Fin 3 → ℝ)) (disp : ℝ) (n : Nat) (c : Fin 3) (h : OnBottom points n)
    (ht : ¬OnTop points n) : UserBC.Demands points (UserBC.conds (info disp)) n c (some 0) := by
  obtain ⟨p, hp, hh⟩ := (onDirichlet_bottom points n).2 h
  rw [← onDirichlet_top] at ht
  fin_cases c
  · exact .value [] (bottom, 0, fun _ => 0) [(bottom, 1, fun _ => 0), (bottom, 2, fun _ => 0), (top, 0, fun _ => 0),
      (top, 1, fun _ => 0), (top, 2, fun _ => disp)] p rfl rfl hp hh (by simp [UserBC.Concerns, ht])
  · exact .value [(bottom, 0, fun _ => 0)] (bottom, 1, fun _ => 0) [(bottom, 2, fun _ => 0), (top, 0, fun _ => 0),
      (top, 1, fun _ => 0), (top, 2, fun _ => disp)] p rfl rfl hp hh (by simp [UserBC.Concerns, ht])
  · exact .value [(bottom, 0, fun _ => 0), (bottom, 1, fun _ => 0)] (bottom, 2, fun _ => 0) [(top, 0, fun _ => 0),
      (top, 1, fun _ => 0), (top, 2, fun _ => disp)] p rfl rfl hp hh (by simp [UserBC.Concerns, ht])

theorem demands_free (points : List (Fin 3 → ℝ)) (disp : ℝ) (n : Nat) (c : Fin 3) (h : ¬OnBottom points n)
    (ht : ¬OnTop points n) : UserBC.Demands points (UserBC.conds (info disp)) n c none := by
  rw [← onDirichlet_top] at ht
  rw [← onDirichlet_bottom] at h
  refine .free ?_
  intro it hit
  simp only [UserBC.conds, info, List.zip_cons_cons, List.zip_nil_right, List.mem_cons, List.not_mem_nil, or_false] at hit
  rcases hit with rfl | rfl | rfl | rfl | rfl | rfl <;> simp [UserBC.Concerns, ht, h]

theorem readable (disp : ℝ) : UserBC.Readable (info disp) ∧ ∀ it ∈ UserBC.conds (info disp), it.2.1 < 3 := by
  constructor
  · refine ⟨rfl, rfl, ?_⟩
    intro loc hl
    simp only [List.mem_cons, List.not_mem_nil, or_false] at hl
    rcases hl with rfl | rfl | rfl | rfl | rfl | rfl <;> trivial
  · intro it hit
    simp only [UserBC.conds, info, List.zip_cons_cons, List.zip_nil_right, List.mem_cons, List.not_mem_nil, or_false] at hit
    rcases hit with rfl | rfl | rfl | rfl | rfl | rfl <;> norm_num

section

variable (numTotalNodes : Nat) (points : List (Fin 3 → ℝ)) (cells : List (List Nat)) (el : RefElement ℝ nq nn 3)
  (fc : RefFaces ℝ nfq nn 3)

local notation "𝒫" => plastic numTotalNodes points cells el fc

theorem bc_builds (h : (𝒫).WF) (disp : ℝ) : ∃ b, dirichletBC (𝒫).points (info disp) = .ok b ∧
      UserBC.problemBCs (.single (𝒫).points (info disp)) = .ok [UserBC.entries b] ∧
      UserBC.Suits (𝒫).fes (.single (𝒫).points (info disp)) := by
  obtain ⟨bcs, hb⟩ := (UserBC.C107_builds (.single (𝒫).points (info disp))).2 (by
    intro i hi'
    have : i = 0 := by simpa [UserBC.Args.meshes] using hi'
    subst this
    exact ⟨info disp, rfl, (readable disp).1⟩)
  cases hd : dirichletBC (𝒫).points (info disp) with
  | error e =>
    have : UserBC.problemBCs (.single (𝒫).points (info disp)) = .error e := by
      show (dirichletBC (𝒫).points (info disp) >>= fun b => Except.ok [UserBC.entries b]) = _
      rw [hd]
      rfl
    rw [this] at hb
    cases hb
  | ok b =>
    refine ⟨b, rfl, ?_, ?_, ?_, ?_⟩
    · show (dirichletBC (𝒫).points (info disp) >>= fun b => Except.ok [UserBC.entries b]) = _
      rw [hd]
      rfl
    · rfl
    · intro i fe pts h1 h2
      have h0 : i = 0 := by
        have := (List.getElem?_eq_some_iff.1 h1).1
        simpa [Problem1.fes] using this
      subst h0
      have e1 : fe = ⟨(𝒫).numTotalNodes, 3, nn, (𝒫).conn⟩ := by simpa [Problem1.fes] using h1.symm
      have e2 : pts = (𝒫).points := by simpa [UserBC.Args.meshes] using h2.symm
      rw [e1, e2]
      exact h.points
    · intro i fe info' h1 h2 it hit
      have h0 : i = 0 := by
        have := (List.getElem?_eq_some_iff.1 h1).1
        simpa [Problem1.fes] using this
      subst h0
      have e1 : fe = ⟨(𝒫).numTotalNodes, 3, nn, (𝒫).conn⟩ := by simpa [Problem1.fes] using h1.symm
      have e2 : info' = info disp := by simpa [UserBC.Args.given] using h2.symm
      rw [e2] at hit
      rw [e1]
      exact (readable disp).2 it hit

/-! ### Helper lemmas: residual -/

/-- Stress that the problem with stored variables `vars` has for the displacement `u`. -/
noncomputable def stressAt (vars : Vars (𝒫).cells.length nq) (u : Fin (totalDofs (𝒫).fes) → ℝ)
    (c : Fin (𝒫).cells.length) (q : Fin nq) : Matrix (Fin 3) (Fin 3) ℝ :=
  Plasticity.stressReturnMap 70000 0.3 250 (Matrix.of ((𝒫).gradAt ((𝒫).vecField u) c q)) (vars c q).sig (vars c q).eps

theorem vecField_single (k : Fin (totalDofs (𝒫).fes)) (n : Nat) (i : Fin 3) (hk : (k : Nat) = n * 3 + i) :
    (𝒫).vecField (Pi.single k 1) = unitMove 3 n i := by
  funext m c
  rw [Problem1.vecField, unitMove]
  have hiff : m * 3 + (c : Nat) = n * 3 + i ↔ m = n ∧ c = i := by
    constructor
    · intro he
      refine ⟨by omega, Fin.ext (by omega)⟩
    · rintro ⟨rfl, rfl⟩; rfl
  split_ifs with h1 h2 h2
  · have : (⟨m * 3 + c, h1⟩ : Fin (totalDofs (𝒫).fes)) = k := Fin.ext (by rw [hk]; exact hiff.2 h2)
    rw [this, Pi.single_eq_same]
  · rw [Pi.single_eq_of_ne]
    intro he
    exact h2 (hiff.1 (by rw [← hk, ← he]))
  · exact absurd (by rw [hiff.2 h2, ← hk]; exact k.2) h1
  · rfl

theorem residualVec_eq (h : (𝒫).WF) (vars : Vars (𝒫).cells.length nq) (u : Fin (totalDofs (𝒫).fes) → ℝ)
    (k : Fin (totalDofs (𝒫).fes)) (n : Nat) (i : Fin 3) (hk : (k : Nat) = n * 3 + i) :
    residualVec 𝒫 vars u k = nodalForce 𝒫 (stressAt numTotalNodes points cells el fc vars u) n i := by
  have hf : residualVec 𝒫 vars u = (setVars 𝒫 vars).flat u := rfl
  have h1 := flat_virtualWork (setVars 𝒫 vars) (atIv_WF 𝒫 h _) u (Pi.single k 1)
  have h2 : (∑ l : Fin (totalDofs (𝒫).fes), (Pi.single k 1 : Fin (totalDofs (𝒫).fes) → ℝ) l
      * (setVars 𝒫 vars).flat u l) = (setVars 𝒫 vars).flat u k := by
    rw [Finset.sum_eq_single k]
    · rw [Pi.single_eq_same, one_mul]
    · intro l _ hl
      rw [Pi.single_eq_of_ne hl, zero_mul]
    · simp
  rw [hf, ← h2]
  refine h1.trans ?_
  have hs : (setVars 𝒫 vars).surfaceWork ((setVars 𝒫 vars).vecField u) ((setVars 𝒫 vars).vecField (Pi.single k 1)) = 0 := by
    simp [Problem1.surfaceWork, setVars, Problem1.atIv, plastic]
  rw [Problem1.virtualWork, hs, add_zero]
  have ht := atIv_tensorWork 𝒫 (fun c q => if h : c < (𝒫).cells.length then vars ⟨c, h⟩ q else Plasticity.pInit 3)
    ((𝒫).vecField u) ((𝒫).vecField (Pi.single k 1))
  show (setVars 𝒫 vars).tensorWork _ _ + 0 = _
  rw [add_zero]
  refine Eq.trans ht ?_
  rw [nodalForce]
  refine Finset.sum_congr rfl fun c _ => Finset.sum_congr rfl fun q _ => ?_
  rw [dif_pos c.2, vecField_single numTotalNodes points cells el fc k n i hk]
  rfl

/-- The vector the solver drives to zero. -/
theorem misfit_eq (h : (𝒫).WF) (disp : ℝ) (b : List (List Nat) × List (List Nat) × List (List ℝ))
    (hb : dirichletBC (𝒫).points (info disp) = .ok b) (vars : Vars (𝒫).cells.length nq) (u : Fin (totalDofs (𝒫).fes) → ℝ)
    (k : Fin (totalDofs (𝒫).fes)) (n : Nat) (c : Fin 3) (hn : n < numTotalNodes) (hk : (k : Nat) = n * 3 + c) :
    applyBcV (𝒫).fes [UserBC.entries b] 1 (residualVec 𝒫 vars u) u k
      = misfit points disp ((𝒫).vecField u) (nodalForce 𝒫 (stressAt numTotalNodes points cells el fc vars u)) n c := by
  obtain ⟨b', hb', hp, hs⟩ := bc_builds numTotalNodes points cells el fc h disp
  rw [hb] at hb'
  cases hb'
  have key := UserBC.C107_rows (𝒫).fes (.single (𝒫).points (info disp)) hs _ hp 0 n c ⟨(𝒫).numTotalNodes, 3, nn, (𝒫).conn⟩
    (𝒫).points (info disp) rfl rfl rfl hn c.2 k (by rw [hk, dofNum_single]) 1 (residualVec 𝒫 vars u) u 0
  have hv : (𝒫).vecField u n c = u k := by
    have hlt : n * 3 + (c : Nat) < totalDofs (𝒫).fes := hk ▸ k.2
    rw [Problem1.vecField, dif_pos hlt]
    congr 1
    exact Fin.ext hk.symm
  unfold misfit
  split_ifs with h1 h2 h3
  · rw [((key.1 _ (demands_top points disp n c h1)).1), if_pos h2, hv, mul_one]
  · rw [((key.1 _ (demands_top points disp n c h1)).1), if_neg h2, hv, mul_one]
  · rw [((key.1 _ (demands_bottom points disp n c h3 h1)).1), hv]
    ring
  · rw [((key.2 (demands_free points disp n c h3 h1)).1), residualVec_eq numTotalNodes points cells el fc h vars u k n c hk]

theorem norm2_eq (d : Fin (totalDofs (𝒫).fes) → ℝ) (e : Nat → Fin 3 → ℝ)
    (hd : ∀ (k : Fin (totalDofs (𝒫).fes)) (n : Nat) (c : Fin 3), n < numTotalNodes → (k : Nat) = n * 3 + c → d k = e n c) :
    FinitePlasticity.norm2 d = size numTotalNodes e := by
  rw [FinitePlasticity.norm2, size]
  congr 1
  have hy : ∀ k : Fin (totalDofs (𝒫).fes), d k ^ 2 = (fun k : Nat => (List.ofFn d).getD k 0 ^ 2) k := by
    intro k
    dsimp only
    rw [ofFn_getD]
  rw [Finset.sum_congr rfl fun k _ => hy k, ← Finset.sum_range (f := fun k : Nat => (List.ofFn d).getD k 0 ^ 2)]
  have hgrid := sum_range_grid (𝒫).numTotalNodes 3 (fun k : Nat => (List.ofFn d).getD k 0 ^ 2)
  rw [← totalDofs_single] at hgrid
  rw [hgrid]
  refine Finset.sum_congr rfl fun n hn => Finset.sum_congr rfl fun c _ => ?_
  have hn := Finset.mem_range.1 hn
  have hlt : n * 3 + (c : Nat) < totalDofs (𝒫).fes := by
    rw [totalDofs_single]; exact gridNode_lt hn c.2
  rw [← hd ⟨_, hlt⟩ n c hn rfl]
  congr 1
  exact ofFn_getD d ⟨_, hlt⟩

theorem solToGrad_eq (u : Fin (totalDofs (𝒫).fes) → ℝ) (c : Fin (𝒫).cells.length) (q : Fin nq) :
    solToGrad (𝒫).el 3 (𝒫).points (solOf 𝒫 u) ((𝒫).cells[c]).nodes q = (𝒫).gradAt ((𝒫).vecField u) c q := by
  obtain ⟨sol, e1, e2, e3⟩ := unravel_single 𝒫 u
  have hs : solOf 𝒫 u = sol := by rw [solOf, e1]; rfl
  rw [hs, ← e3]
  funext i j
  show _ = (𝒫).gradient (fieldOf 3 sol) ((𝒫).cells[c]).nodes q i j
  rw [gradient_eq]
  rfl

theorem avg_eq (vars : Vars (𝒫).cells.length nq) (i j : Fin 3) :
    computeAvgStress 𝒫 vars i j = (∑ c, ∑ q, (vars c q).sig i j * (𝒫).measureAt c q) / volume 𝒫 := by
  have e : ∀ c q, jxw 𝒫 c q = (𝒫).measureAt c q := fun c q => cellJxW_eq _ _ _ _
  simp only [computeAvgStress, e, volume]

/-- A finished step in terms of its Newton solve. -/
theorem loadStep_cases (num : Numerics (𝒫).cells.length nq (totalDofs (𝒫).fes)) (fuel : Nat)
    (vars : Vars (𝒫).cells.length nq) (disp : ℝ) (st : Step (𝒫).cells.length nq (totalDofs (𝒫).fes))
    (hst : loadStep 𝒫 num fuel vars disp = some (.ok st)) :
    ∃ b n, dirichletBC (𝒫).points (info disp) = .ok b ∧
      newtonSolve (newtonUpdate (𝒫).fes [UserBC.entries b] (residualVec 𝒫 vars) (num.tan vars))
        (fun rA => .fin (FinitePlasticity.norm2 rA.1))
        (newtonStep (𝒫).fes [UserBC.entries b] (fun r => .fin (FinitePlasticity.norm2 r)) (residualVec 𝒫 vars) num.solve false)
        (fun _ => true) (1 / 10 ^ 6) (1 / 10 ^ 8) 0 fuel = some (.ok (st.sol, n)) ∧
      st.vars = (fun c q => Plasticity.pUpdate 70000 0.3 250 (vars c q) (Matrix.of ((𝒫).gradAt ((𝒫).vecField st.sol) c q))) ∧
      st.avg = computeAvgStress 𝒫 st.vars := by
  rw [loadStep] at hst
  cases hd : dirichletBC (𝒫).points (info disp) with
  | error e => rw [hd] at hst; cases hst
  | ok b =>
    rw [hd] at hst
    dsimp only at hst
    generalize hr : newtonSolve (newtonUpdate (𝒫).fes [UserBC.entries b] (residualVec 𝒫 vars) (num.tan vars))
      (fun rA => .fin (FinitePlasticity.norm2 rA.1)) (newtonStep (𝒫).fes [UserBC.entries b]
        (fun r => .fin (FinitePlasticity.norm2 r)) (residualVec 𝒫 vars) num.solve false) (fun _ => true) (1 / 10 ^ 6)
        (1 / 10 ^ 8) 0 fuel = r at hst
    match r, hr, hst with
    | none, _, h => cases h
    | some (.error e), _, h => cases h
    | some (.ok (d, n)), hr, h =>
      cases h
      refine ⟨b, n, rfl, hr, ?_, rfl⟩
      funext c q
      show Plasticity.pUpdate 70000 0.3 250 (vars c q) (Matrix.of (solToGrad (𝒫).el 3 (𝒫).points (solOf 𝒫 d) ((𝒫).cells[c]).nodes q)) = _
      rw [solToGrad_eq]

end

/-! ### Helper lemmas: return mapping -/

theorem law_eq (e : Matrix (Fin 3) (Fin 3) ℝ) : Plasticity.stress 70000 0.3 e = barLaw e := by
  rw [Plasticity.stress_eq, barLaw, Plasticity.lmbdaOf, Plasticity.muOf, show (0.3 : ℝ) = 3 / 10 by norm_num]

theorem isReturn (g sig eps : Matrix (Fin 3) (Fin 3) ℝ) : Plasticity.IsReturn 250 (sig + barLaw (Plasticity.symPart g - eps))
    (Plasticity.stressReturnMap 70000 0.3 250 g sig eps) := by
  have ht : Plasticity.sigmaTrial 70000 0.3 g sig eps = sig + barLaw (Plasticity.symPart g - eps) := by
    rw [← law_eq, ← Plasticity.strain_eq]
    ext i j
    rw [Matrix.add_apply, add_comm]
    rfl
  rw [← ht]
  exact ⟨Plasticity.C54_admissible 250 (by norm_num) _, fun tau htau => Plasticity.C54_projection 250 (by norm_num) _ tau htau⟩

/-! ### Property theorems -/

section

variable (numTotalNodes : Nat) (points : List (Fin 3 → ℝ)) (cells : List (List Nat)) (el : RefElement ℝ nq nn 3)
  (fc : RefFaces ℝ nfq nn 3)

local notation "𝒫" => plastic numTotalNodes points cells el fc

theorem barLaw_neg (e : Matrix (Fin 3) (Fin 3) ℝ) : barLaw (-e) = -barLaw e := by
  ext i j
  simp [barLaw, Plasticity.hooke, Matrix.trace_neg]
  ring

theorem size_misfit (h : (𝒫).WF) (disp : ℝ) (b : List (List Nat) × List (List Nat) × List (List ℝ))
    (hb : dirichletBC (𝒫).points (info disp) = .ok b) (vars : Vars (𝒫).cells.length nq) (u : Fin (totalDofs (𝒫).fes) → ℝ) :
    FinitePlasticity.norm2 (applyBcV (𝒫).fes [UserBC.entries b] 1 (residualVec 𝒫 vars u) u)
      = size numTotalNodes (misfit points disp ((𝒫).vecField u)
          (nodalForce 𝒫 (stressAt numTotalNodes points cells el fc vars u))) :=
  norm2_eq numTotalNodes points cells el fc _ _ fun k n c hn hk =>
    misfit_eq numTotalNodes points cells el fc h disp b hb vars u k n c hn hk

/-- A load step that finishes is a load step of the bar, and it reports the mean of the new stresses. -/
theorem C118_step (h : (𝒫).WF) (num : Numerics (𝒫).cells.length nq (totalDofs (𝒫).fes)) (fuel : Nat)
    (vars : Vars (𝒫).cells.length nq) (disp : ℝ) (st : Step (𝒫).cells.length nq (totalDofs (𝒫).fes))
    (hst : loadStep 𝒫 num fuel vars disp = some (.ok st)) :
    BarStep 𝒫 disp (fun c q => (vars c q).sig) (fun c q => (vars c q).eps) ((𝒫).vecField st.sol)
      (fun c q => (st.vars c q).sig) (fun c q => (st.vars c q).eps) ∧
    ∀ i j, st.avg i j = (∑ c, ∑ q, (st.vars c q).sig i j * (𝒫).measureAt c q) / volume 𝒫 := by
  obtain ⟨b, n, hb, hn, hv, ha⟩ := loadStep_cases numTotalNodes points cells el fc num fuel vars disp st hst
  have hsig : (fun c q => (st.vars c q).sig) = stressAt numTotalNodes points cells el fc vars st.sol := by
    rw [hv]; rfl
  refine ⟨⟨?_, ?_, ?_⟩, fun i j => by rw [ha, avg_eq]⟩
  · intro c q
    rw [hv]
    exact isReturn _ _ _
  · intro c q
    rw [hv]
    exact Plasticity.strain_eq _
  · obtain ⟨r0, r, x, h0, -, hr, hx, -, hc⟩ := C20_converged _ _ _ _ _ _ (fun r x hx => by
      cases hx
      exact Real.sqrt_nonneg _) _ _ _ _ hn
    rw [hsig]
    have er : x = size numTotalNodes (misfit points disp ((𝒫).vecField st.sol)
        (nodalForce 𝒫 (stressAt numTotalNodes points cells el fc vars st.sol))) := by
      rw [← size_misfit numTotalNodes points cells el fc h disp b hb vars st.sol]
      cases hr
      cases hx
      rfl
    rcases hc with hc | ⟨x0, hx0, hc⟩
    · exact .inl (er ▸ hc)
    · refine .inr ⟨stressAt numTotalNodes points cells el fc vars 0, ?_, ?_⟩
      · intro c q
        have hz : (𝒫).gradAt ((𝒫).vecField 0) c q = 0 := by
          have hv0 : (𝒫).vecField 0 = fun _ _ => 0 := by
            funext m c
            simp [Problem1.vecField]
          funext i j
          rw [hv0]
          show (𝒫).gradient (fun _ _ => 0) ((𝒫).cells[c]).nodes q i j = 0
          rw [gradient_eq]
          simp
        have := isReturn (Matrix.of ((𝒫).gradAt ((𝒫).vecField 0) c q)) (vars c q).sig (vars c q).eps
        have hs : Plasticity.symPart (Matrix.of ((𝒫).gradAt ((𝒫).vecField 0) c q)) - (vars c q).eps = -(vars c q).eps := by
          rw [hz]
          ext i j
          simp [Plasticity.symPart]
        rw [hs, barLaw_neg, ← sub_eq_add_neg] at this
        exact this
      · have hv0 : (𝒫).vecField 0 = fun _ _ => 0 := by
          funext m c
          simp [Problem1.vecField]
        have e0 : x0 = size numTotalNodes (misfit points disp (fun _ _ => 0)
            (nodalForce 𝒫 (stressAt numTotalNodes points cells el fc vars 0))) := by
          rw [← hv0, ← size_misfit numTotalNodes points cells el fc h disp b hb vars 0]
          cases h0
          cases hx0
          rfl
        rw [er, e0] at hc
        exact hc

end

end JaxFem.Benchmarks
