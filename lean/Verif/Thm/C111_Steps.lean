import Verif.Spec.PlasticDrivers
import Verif.Thm.C111_Reevaluate
import Verif.Thm.C92_Design
import Verif.Thm.C107_Rows

/-!
# C111: the load steps of the finite-plasticity drivers
-/

namespace JaxFem
namespace FinitePlasticity

open scoped BigOperators

variable {nq nfq nn : Nat}

section

variable (m : Mat) (numTotalNodes : Nat) (points : List (Fin 3 → ℝ)) (cells : List (List Nat)) (el : RefElement ℝ nq nn 3)
  (fc : RefFaces ℝ nfq nn 3)

local notation "𝒫" => problem m numTotalNodes points cells el fc

/-! ### Helper lemmas -/

theorem solToGrad_eq (u : Fin (totalDofs (𝒫).fes) → ℝ) (c : Fin (𝒫).cells.length) (q : Fin nq) :
    solToGrad (𝒫).el 3 (𝒫).points (solOf 𝒫 u) ((𝒫).cells[c]).nodes q = (𝒫).gradAt ((𝒫).vecField u) c q := by
  obtain ⟨sol, e1, e2, e3⟩ := unravel_single 𝒫 u
  have hs : solOf 𝒫 u = sol := by rw [solOf, e1]; rfl
  rw [hs, ← e3]
  funext i j
  show _ = (𝒫).gradient (fieldOf 3 sol) ((𝒫).cells[c]).nodes q i j
  rw [gradient_eq]
  rfl

theorem gp_eq (u : Fin (totalDofs (𝒫).fes) → ℝ) (vars : Vars (𝒫).cells.length nq) :
    updateIntVarsGp m 𝒫 (solOf 𝒫 u) vars
      = fun c q => updateVars m (vars c q) (Matrix.of ((𝒫).gradAt ((𝒫).vecField u) c q)) := by
  funext c q
  rw [updateIntVarsGp, solToGrad_eq]

theorem stress_eq (u : Fin (totalDofs (𝒫).fes) → ℝ) (vars : Vars (𝒫).cells.length nq) :
    computeStress m 𝒫 (solOf 𝒫 u) vars
      = fun c q => cauchy m (vars c q) (Matrix.of ((𝒫).gradAt ((𝒫).vecField u) c q)) := by
  funext c q
  rw [computeStress, solToGrad_eq]

/-- First Piola–Kirchhoff stresses of the displacement `u`. -/
noncomputable def piolaAt (vars : Vars (𝒫).cells.length nq) (u : Fin (totalDofs (𝒫).fes) → ℝ)
    (c : Fin (𝒫).cells.length) (q : Fin nq) : M3 :=
  firstPK m (vars c q) (Matrix.of ((𝒫).gradAt ((𝒫).vecField u) c q))

theorem residualVec_eq (h : (𝒫).WF) (vars : Vars (𝒫).cells.length nq) (u : Fin (totalDofs (𝒫).fes) → ℝ) :
    residualVec 𝒫 vars u = internalForce 𝒫 (piolaAt m numTotalNodes points cells el fc vars u) := by
  funext k
  have hf : residualVec 𝒫 vars u = (setVars 𝒫 vars).flat u := rfl
  have h1 := flat_virtualWork (setVars 𝒫 vars) (atIv_WF 𝒫 h _) u (Pi.single k 1)
  have h2 : (∑ l : Fin (totalDofs (𝒫).fes), (Pi.single k 1 : Fin (totalDofs (𝒫).fes) → ℝ) l
      * (setVars 𝒫 vars).flat u l) = (setVars 𝒫 vars).flat u k := by
    rw [Finset.sum_eq_single k]
    · rw [Pi.single_eq_same, one_mul]
    · intro l _ hl
      rw [Pi.single_eq_of_ne hl, zero_mul]
    · simp
  rw [hf, ← h2]
  refine h1.trans ?_
  have hs : (setVars 𝒫 vars).surfaceWork ((setVars 𝒫 vars).vecField u) ((setVars 𝒫 vars).vecField (Pi.single k 1)) = 0 := by
    simp [Problem1.surfaceWork, setVars, Problem1.atIv, problem]
  rw [Problem1.virtualWork, hs, add_zero]
  have ht := atIv_tensorWork 𝒫 (fun c q => if h : c < (𝒫).cells.length then vars ⟨c, h⟩ q else fInit)
    ((𝒫).vecField u) ((𝒫).vecField (Pi.single k 1))
  show (setVars 𝒫 vars).tensorWork _ _ + 0 = _
  rw [add_zero]
  refine Eq.trans ht ?_
  refine Finset.sum_congr rfl fun c _ => Finset.sum_congr rfl fun q _ => ?_
  rw [dif_pos c.2]
  rfl

/-- The user's conditions are readable and name components 0, 1, 2. -/
def Proper (info : UserBC.Info (Fin 3 → ℝ) ℝ) : Prop :=
  UserBC.Readable info ∧ ∀ it ∈ UserBC.conds info, it.2.1 < 3

theorem bc_builds (h : (𝒫).WF) (info : UserBC.Info (Fin 3 → ℝ) ℝ) (hi : Proper info) :
    ∃ b, dirichletBC (𝒫).points info = .ok b ∧
      UserBC.problemBCs (.single (𝒫).points info) = .ok [UserBC.entries b] ∧
      UserBC.Suits (𝒫).fes (.single (𝒫).points info) := by
  obtain ⟨bcs, hb⟩ := (UserBC.C107_builds (.single (𝒫).points info)).2 (by
    intro i hi'
    have : i = 0 := by simpa [UserBC.Args.meshes] using hi'
    subst this
    exact ⟨info, rfl, hi.1⟩)
  cases hd : dirichletBC (𝒫).points info with
  | error e =>
    have : UserBC.problemBCs (.single (𝒫).points info) = .error e := by
      show (dirichletBC (𝒫).points info >>= fun b => Except.ok [UserBC.entries b]) = _
      rw [hd]
      rfl
    rw [this] at hb
    cases hb
  | ok b =>
    refine ⟨b, rfl, ?_, ?_, ?_, ?_⟩
    · show (dirichletBC (𝒫).points info >>= fun b => Except.ok [UserBC.entries b]) = _
      rw [hd]
      rfl
    · rfl
    · intro i fe pts h1 h2
      have h0 : i = 0 := by
        have := (List.getElem?_eq_some_iff.1 h1).1
        simpa [Problem1.fes] using this
      subst h0
      have e1 : fe = ⟨(𝒫).numTotalNodes, 3, nn, (𝒫).conn⟩ := by simpa [Problem1.fes] using h1.symm
      have e2 : pts = (𝒫).points := by simpa [UserBC.Args.meshes] using h2.symm
      rw [e1, e2]
      exact h.points
    · intro i fe info' h1 h2 it hit
      have h0 : i = 0 := by
        have := (List.getElem?_eq_some_iff.1 h1).1
        simpa [Problem1.fes] using this
      subst h0
      have e1 : fe = ⟨(𝒫).numTotalNodes, 3, nn, (𝒫).conn⟩ := by simpa [Problem1.fes] using h1.symm
      have e2 : info' = info := by simpa [UserBC.Args.given] using h2.symm
      rw [e2] at hit
      rw [e1]
      exact hi.2 it hit

theorem misfit_iff (h : (𝒫).WF) (info : UserBC.Info (Fin 3 → ℝ) ℝ) (hi : Proper info)
    (b : List (List Nat) × List (List Nat) × List (List ℝ)) (hb : dirichletBC (𝒫).points info = .ok b)
    (stress : Fin (𝒫).cells.length → Fin nq → M3) (u d : Fin (totalDofs (𝒫).fes) → ℝ) :
    Misfit 𝒫 info stress u d ↔ d = applyBcV (𝒫).fes [UserBC.entries b] 1 (internalForce 𝒫 stress) u := by
  obtain ⟨b', hb', hp, hs⟩ := bc_builds m numTotalNodes points cells el fc h info hi
  rw [hb] at hb'
  cases hb'
  have key := fun n c (hn : n < (𝒫).numTotalNodes) (hc : c < 3) (k : Fin (totalDofs (𝒫).fes)) (hk : (k : Nat) = n * 3 + c) =>
    UserBC.C107_rows (𝒫).fes (.single (𝒫).points info) hs _ hp 0 n c ⟨(𝒫).numTotalNodes, 3, nn, (𝒫).conn⟩ (𝒫).points info
      rfl rfl rfl hn hc k (by rw [hk, dofNum_single]) 1 (internalForce 𝒫 stress) u 0
  constructor
  · intro hm
    funext k
    obtain ⟨i, n, c, hfe, hn, hc, hk⟩ := exists_dofNum (𝒫).fes k k.2
    have h0 : i = 0 := by simpa [Problem1.fes] using hfe
    subst h0
    have hk' : (k : Nat) = n * 3 + c := by rw [hk, dofNum_single]
    obtain ⟨o, ho⟩ := UserBC.demands_exists (𝒫).points (UserBC.conds info) n c
    cases o with
    | none => rw [(hm n hn c hc k hk').2 ho, ((key n c hn hc k hk').2 ho).1]
    | some v => rw [(hm n hn c hc k hk').1 v ho, ((key n c hn hc k hk').1 v ho).1, mul_one]
  · rintro rfl n hn c hc k hk
    refine ⟨fun v hv => ?_, fun hv => ?_⟩
    · rw [((key n c hn hc k hk).1 v hv).1, mul_one]
    · rw [((key n c hn hc k hk).2 hv).1]

/-- The Newton solve as a function of the misfit of the initial guess. -/
theorem newton_start {D R : Type} (update : D → Except Err R) (norm : R → ℝ) (step : R → D → Except Err D) (tol relTol : ℝ)
    (u : D) (r : R) (hr : update u = .ok r) (fuel : Nat) (d : D) (n : Nat) (h0 : 0 ≤ tol) (h1 : relTol < 1)
    (hs : newtonSolve update (fun x => .fin (norm x)) step (fun _ => true) tol relTol u fuel = some (.ok (d, n))) :
    (n = 0 ↔ norm r ≤ tol) ∧ (n = 0 → d = u) := by
  have mono : ∀ (fuel : Nat) (ri : Flt ℝ) (d0 : D) (r0 : R) (n0 : Nat) (d' : D) (r' : R) (n' : Nat),
      newtonLoop update (fun x => .fin (norm x)) step tol relTol ri fuel d0 r0 n0 = some (.ok (d', r', n')) → n0 ≤ n' := by
    intro fuel ri
    induction fuel with
    | zero => intro d0 r0 n0 d' r' n' h; cases h
    | succ f ih =>
      intro d0 r0 n0 d' r' n' h
      rw [newtonLoop] at h
      split at h
      · split at h
        · cases h
        · split at h
          · cases h
          · exact le_trans (Nat.le_succ n0) (ih _ _ _ _ _ _ h)
      · cases h
        exact le_refl _
  rw [newtonSolve, hr] at hs
  dsimp only at hs
  cases fuel with
  | zero => cases hs
  | succ f =>
    by_cases hn : norm r ≤ tol
    · have hg : ((((Flt.fin (norm r)).div (Flt.fin (norm r))).gt (.fin relTol)) && ((Flt.fin (norm r)).gt (.fin tol))) = false := by
        rw [Bool.and_eq_false_iff]
        right
        simpa [Flt.gt] using hn
      have hl : newtonLoop update (fun x => .fin (norm x)) step tol relTol (.fin (norm r)) (f + 1) u r 0
          = some (.ok (u, r, 0)) := by
        rw [newtonLoop, hg]
        rfl
      rw [hl] at hs
      simp only [Flt.isFinite, if_true] at hs
      cases hs
      exact ⟨⟨fun _ => hn, fun _ => rfl⟩, fun _ => rfl⟩
    · have hpos : norm r ≠ 0 := fun h => hn (h ▸ h0)
      have hg : ((((Flt.fin (norm r)).div (Flt.fin (norm r))).gt (.fin relTol)) && ((Flt.fin (norm r)).gt (.fin tol))) = true := by
        rw [Bool.and_eq_true]
        refine ⟨?_, ?_⟩
        · simp [Flt.div, hpos, Flt.gt, h1]
        · simpa [Flt.gt] using hn
      have hn0 : n ≠ 0 := by
        rw [newtonLoop, hg] at hs
        simp only [if_true] at hs
        split at hs
        · cases hs
        · cases hs
        · rename_i d' r' n' heq
          split at heq
          · cases heq
          · split at heq
            · cases heq
            · have := mono _ _ _ _ _ _ _ _ heq
              simp only [Flt.isFinite, if_true] at hs
              cases hs
              omega
      exact ⟨⟨fun h => absurd h hn0, fun h => absurd h hn⟩, fun h => absurd h hn0⟩

theorem newton_zero {D R : Type} (update : D → Except Err R) (norm : R → ℝ) (step : R → D → Except Err D) (tol relTol : ℝ)
    (u : D) (r : R) (hr : update u = .ok r) (fuel : Nat) (hn : norm r ≤ tol) :
    newtonSolve update (fun x => .fin (norm x)) step (fun _ => true) tol relTol u (fuel + 1) = some (.ok (u, 0)) := by
  have hg : ((((Flt.fin (norm r)).div (Flt.fin (norm r))).gt (.fin relTol)) && ((Flt.fin (norm r)).gt (.fin tol))) = false := by
    rw [Bool.and_eq_false_iff]
    right
    simpa [Flt.gt] using hn
  have hl : newtonLoop update (fun x => .fin (norm x)) step tol relTol (.fin (norm r)) (fuel + 1) u r 0
      = some (.ok (u, r, 0)) := by
    rw [newtonLoop, hg]
    rfl
  rw [newtonSolve, hr]
  dsimp only
  rw [hl]
  rfl

/-- A finished step in terms of its Newton solve. -/
theorem loadStep_cases (info : ℝ → UserBC.Info (Fin 3 → ℝ) ℝ) (num : Numerics (𝒫).cells.length nq (totalDofs (𝒫).fes))
    (fuel : Nat) (u : Fin (totalDofs (𝒫).fes) → ℝ) (vars : Vars (𝒫).cells.length nq) (scale : ℝ)
    (st : Step (𝒫).cells.length nq (totalDofs (𝒫).fes)) (hst : loadStep m 𝒫 info num fuel u vars scale = some (.ok st)) :
    ∃ b, dirichletBC (𝒫).points (info scale) = .ok b ∧
      newtonSolve (newtonUpdate (𝒫).fes [UserBC.entries b] (residualVec 𝒫 vars) (num.tan vars)) (fun rA => .fin (norm2 rA.1))
        (newtonStep (𝒫).fes [UserBC.entries b] (fun r => .fin (norm2 r)) (residualVec 𝒫 vars) num.solve num.lineSearch)
        (fun _ => true) num.tol num.relTol u fuel = some (.ok (st.sol, st.iters)) ∧
      st.vars = (fun c q => updateVars m (vars c q) (Matrix.of ((𝒫).gradAt ((𝒫).vecField st.sol) c q))) ∧
      st.sigmas = meanAxis1 (fun c q => cauchy m (vars c q) (Matrix.of ((𝒫).gradAt ((𝒫).vecField st.sol) c q))) := by
  rw [loadStep] at hst
  cases hd : dirichletBC (𝒫).points (info scale) with
  | error e => rw [hd] at hst; cases hst
  | ok b =>
    rw [hd] at hst
    dsimp only at hst
    refine ⟨b, rfl, ?_⟩
    generalize newtonSolve (newtonUpdate (𝒫).fes [UserBC.entries b] (residualVec 𝒫 vars) (num.tan vars))
      (fun rA => .fin (norm2 rA.1)) (newtonStep (𝒫).fes [UserBC.entries b] (fun r => .fin (norm2 r)) (residualVec 𝒫 vars)
        num.solve num.lineSearch) (fun _ => true) num.tol num.relTol u fuel = r at hst ⊢
    match r, hst with
    | none, h => cases h
    | some (.error e), h => cases h
    | some (.ok (d, n)), h =>
      cases h
      exact ⟨rfl, gp_eq m numTotalNodes points cells el fc d vars,
        congrArg meanAxis1 (stress_eq m numTotalNodes points cells el fc d vars)⟩

end

end FinitePlasticity
end JaxFem
