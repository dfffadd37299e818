import Verif.Model.PoissonBench
import Verif.Spec.PoissonBench
import Verif.Thm.C119_Grid
import Verif.Thm.C107_Rows
import Verif.Thm.C74_LinearSolve

/-!
# C119: the linear Poisson benchmark
-/

namespace JaxFem.PoissonBench

open Patch

variable {nq nfq nn : Nat}

theorem point_eq {points : List (Fin 3 → ℝ)} {n : Nat} {p : Fin 3 → ℝ} (h : points[n]? = some p) : xOf points n = p 0 := by
  rw [xOf, List.getD_eq_getElem?_getD, h]
  rfl

theorem left_holds (p : Fin 3 → ℝ) (n : Nat) : left.holds p n ↔ |p 0| ≤ 1 / 100000 := by
  simp only [left, LocFn.holds, FinitePlasticity.isclose, decide_eq_true_eq]
  norm_num

theorem right_holds (p : Fin 3 → ℝ) (n : Nat) : right.holds p n ↔ |p 0 - 1| ≤ 2 / 100000 := by
  simp only [right, LocFn.holds, FinitePlasticity.isclose, decide_eq_true_eq]
  norm_num

theorem readable : UserBC.Readable info ∧ ∀ it ∈ UserBC.conds info, it.2.1 < 1 := by
  constructor
  · refine ⟨rfl, rfl, ?_⟩
    intro loc hl
    simp only [List.mem_cons, List.not_mem_nil, or_false] at hl
    rcases hl with rfl | rfl <;> trivial
  · intro it hit
    simp only [UserBC.conds, info, List.zip_cons_cons, List.zip_nil_right, List.mem_cons, List.not_mem_nil, or_false] at hit
    rcases hit with rfl | rfl <;> norm_num

section

variable (numTotalNodes : Nat) (points : List (Fin 3 → ℝ)) (cells : List (List Nat)) (el : RefElement ℝ nq nn 3)
  (fc : RefFaces ℝ nfq nn 3)

local notation "𝒫" => linearPoisson numTotalNodes points cells el fc

theorem conn_eq : (𝒫).conn = cells := by
  simp [linearPoisson, Problem1.conn, Function.comp_def]

theorem bc_builds (h : (𝒫).WF) : ∃ b, dirichletBC (𝒫).points info = .ok b ∧
      UserBC.problemBCs (.single (𝒫).points info) = .ok [UserBC.entries b] ∧
      UserBC.Suits (𝒫).fes (.single (𝒫).points info) := by
  obtain ⟨bcs, hb⟩ := (UserBC.C107_builds (.single (𝒫).points info)).2 (by
    intro i hi'
    have : i = 0 := by simpa [UserBC.Args.meshes] using hi'
    subst this
    exact ⟨info, rfl, readable.1⟩)
  cases hd : dirichletBC (𝒫).points info with
  | error e =>
    have : UserBC.problemBCs (.single (𝒫).points info) = .error e := by
      show (dirichletBC (𝒫).points info >>= fun b => Except.ok [UserBC.entries b]) = _
      rw [hd]
      rfl
    rw [this] at hb
    cases hb
  | ok b =>
    refine ⟨b, rfl, ?_, ?_, ?_, ?_⟩
    · show (dirichletBC (𝒫).points info >>= fun b => Except.ok [UserBC.entries b]) = _
      rw [hd]
      rfl
    · rfl
    · intro i fe pts h1 h2
      have h0 : i = 0 := by
        have := (List.getElem?_eq_some_iff.1 h1).1
        simpa [Problem1.fes] using this
      subst h0
      have e1 : fe = ⟨(𝒫).numTotalNodes, 1, nn, (𝒫).conn⟩ := by simpa [Problem1.fes] using h1.symm
      have e2 : pts = (𝒫).points := by simpa [UserBC.Args.meshes] using h2.symm
      rw [e1, e2]
      exact h.points
    · intro i fe info' h1 h2 it hit
      have h0 : i = 0 := by
        have := (List.getElem?_eq_some_iff.1 h1).1
        simpa [Problem1.fes] using this
      subst h0
      have e1 : fe = ⟨(𝒫).numTotalNodes, 1, nn, (𝒫).conn⟩ := by simpa [Problem1.fes] using h1.symm
      have e2 : info' = info := by simpa [UserBC.Args.given] using h2.symm
      rw [e2] at hit
      rw [e1]
      exact readable.2 it hit

theorem mono : (𝒫).StrictlyMonotone := by
  intro iv G H hne
  have : ∃ i j, G i j ≠ H i j := by
    by_contra hcon
    push Not at hcon
    exact hne (funext fun i => funext fun j => hcon i j)
  obtain ⟨i, j, hij⟩ := this
  refine Finset.sum_pos' (fun i _ => Finset.sum_nonneg fun j _ => mul_self_nonneg _) ⟨i, Finset.mem_univ _, ?_⟩
  exact Finset.sum_pos' (fun j _ => mul_self_nonneg _) ⟨j, Finset.mem_univ _, mul_self_pos.2 (sub_ne_zero.2 hij)⟩

theorem affine : (𝒫).Affine where
  tensor := fun _ => ⟨LinearMap.id, fun G => by simp [linearPoisson]⟩
  mass := by intro m hm; simp [linearPoisson] at hm
  surface := by intro s hs; simp [linearPoisson] at hs

/-- What the conditions demand at a node. -/
theorem demands {k : Nat} {M : List (List Nat) → List Nat → Prop} (hlayer : Layer numTotalNodes k M points cells) (h : (𝒫).WF)
    (n : Nat) (hn : n < numTotalNodes) :
    (∀ v, UserBC.Demands points (UserBC.conds info) n 0 (some v) → v = xOf points n) ∧
    (UserBC.Demands points (UserBC.conds info) n 0 none → xOf points n ≠ 0 ∧ xOf points n ≠ 1) ∧
    (xOf points n = 1 → UserBC.Demands points (UserBC.conds info) n 0 (some 1)) := by
  have hlt : n < points.length := by rw [show points.length = numTotalNodes from h.points]; exact hn
  have hp := List.getElem?_eq_getElem hlt
  refine ⟨fun v hv => ?_, fun hv => ?_, fun hx => ?_⟩
  · cases hv with
    | value pre it post p hits hc hpt hh hpost =>
      have hmem : it ∈ UserBC.conds info := by rw [hits]; simp
      simp only [UserBC.conds, info, List.zip_cons_cons, List.zip_nil_right, List.mem_cons, List.not_mem_nil, or_false] at hmem
      rcases hmem with rfl | rfl
      · have := hlayer.left n hn (by rw [point_eq hpt]; exact (left_holds p n).1 hh)
        rw [this]
      · have := hlayer.right n hn (by rw [point_eq hpt]; exact (right_holds p n).1 hh)
        rw [this]
  · cases hv with
    | free hfree =>
      constructor
      · intro h0
        refine hfree (left, 0, fun _ => 0) (by simp [UserBC.conds, info]) ⟨rfl, points[n], hp, ?_⟩
        rw [left_holds, ← point_eq hp, h0]
        norm_num
      · intro h0
        refine hfree (right, 0, fun _ => 1) (by simp [UserBC.conds, info]) ⟨rfl, points[n], hp, ?_⟩
        rw [right_holds, ← point_eq hp, h0]
        norm_num
  · refine .value [(left, 0, fun _ => 0)] (right, 0, fun _ => 1) [] points[n] rfl rfl hp ?_ (by simp)
    rw [right_holds, ← point_eq hp, hx]
    norm_num

/-- **C119 (linear Poisson benchmark).** On every mesh of first-order elements between the planes `x = 0` and `x = 1` with
insulated sides, whatever the shapes of the cells, `solver` with its default options (zero initial guess), an exact linear
solver and the derivative of the residual as tangent returns, after exactly one Newton step, the nodal values of `x`. -/
theorem C119_benchmark {k : Nat} {M : List (List Nat) → List Nat → Prop} (h : (𝒫).WF) (hel : WithSides el k M)
    (hpos : (𝒫).PositiveMeasure) (hdet : el.Determines) (hlayer : Layer numTotalNodes k M points cells)
    (num : Numerics (totalDofs (𝒫).fes)) (htan : ∀ x, HasJacobianAt (residualVec 𝒫) (num.tan x) x) (hs : ExactSolver num.solve)
    (hs' : ∀ A b x0, A.det ≠ 0 → ∃ x, num.solve A b x0 = .ok x) (fuel : Nat) :
    ∃ sol, solver 𝒫 num (fuel + 2) = some (.ok (sol, 1)) ∧ HasShapes [(numTotalNodes, 1)] [sol] ∧
      ∀ n < numTotalNodes, fieldOf 1 sol n 0 = xOf points n := by
  obtain ⟨b, hb, hbcs, hsuits⟩ := bc_builds numTotalNodes points cells el fc h
  obtain ⟨hwfbc, hiff⟩ := UserBC.C107_conditions (𝒫).fes _ hsuits _ hbcs
  have hpre : ∀ n < numTotalNodes, ∀ o, Prescribed (𝒫).fes [UserBC.entries b] (dofNum (𝒫).fes 0 n 0) o ↔
      UserBC.Demands points (UserBC.conds info) n 0 o := fun n hn =>
    hiff 0 n 0 ⟨(𝒫).numTotalNodes, 1, nn, (𝒫).conn⟩ (𝒫).points info rfl rfl rfl hn Nat.one_pos
  set free : Nat → Fin 1 → Prop := fun n c => FreeDof ([UserBC.entries b].getD 0 []) n c with hfreedef
  have hfree : ∀ n < numTotalNodes, ∀ c, free n c → xOf points n ≠ 0 ∧ xOf points n ≠ 1 := by
    intro n hn c hf
    rw [Subsingleton.elim c 0] at hf
    exact (demands numTotalNodes points cells el fc hlayer h n hn).2.1 ((hpre n hn none).1
      (.free 0 n 0 _ (UserBC.entries b) rfl rfl hn Nat.one_pos rfl hf))
  have hanch : (𝒫).Anchored free := by
    intro n hn c
    obtain ⟨m, hm, hx, hl⟩ := hlayer.connected n hn
    refine ⟨m, fun hf => ?_, hm, by rw [conn_eq]; exact hl⟩
    have := hfree m hm c hf
    rcases hx with hx | hx
    · exact this.1 hx
    · exact this.2 hx
  obtain ⟨T, f, hT⟩ := C74_affine 𝒫 h (affine numTotalNodes points cells el fc)
  have hmass : (𝒫).MassMonotone := fun m hm => by simp [linearPoisson] at hm
  have hsm : (𝒫).SurfaceMonotone := fun s hs => by simp [linearPoisson] at hs
  have hregT := C74_regular 𝒫 h hpos hdet (mono numTotalNodes points cells el fc) hmass hsm [UserBC.entries b] hwfbc hanch T f hT
  have hflat : residualVec 𝒫 = fun u => T.mulVec u - f := funext hT
  have hAT : num.tan = fun _ => T := by
    funext x
    have h1 : HasFDerivAt (residualVec 𝒫) (matCLM T) x := by
      rw [hflat]
      have : (fun u : Fin (totalDofs (𝒫).fes) → ℝ => T.mulVec u - f) = fun u => matCLM T u - f := by
        funext u; rfl
      rw [this]
      exact (matCLM T).hasFDerivAt.sub_const f
    exact matCLM_inj ((htan x).unique h1)
  have hnu0 : ∀ r : Fin (totalDofs (𝒫).fes) → ℝ, 0 ≤ FinitePlasticity.norm2 r := fun r => Real.sqrt_nonneg _
  have hle : ∀ (r : Fin (totalDofs (𝒫).fes) → ℝ) k, |r k| ≤ FinitePlasticity.norm2 r := by
    intro r k
    rw [FinitePlasticity.norm2, ← Real.sqrt_sq_eq_abs]
    exact Real.sqrt_le_sqrt (Finset.single_le_sum (f := fun k => r k ^ 2) (fun k _ => sq_nonneg (r k)) (Finset.mem_univ k))
  have hnu : ∀ r : Fin (totalDofs (𝒫).fes) → ℝ, FinitePlasticity.norm2 r = 0 ↔ r = 0 := by
    intro r
    constructor
    · intro h0
      funext k
      have := hle r k
      rw [h0] at this
      exact abs_nonpos_iff.1 this
    · rintro rfl
      simp [FinitePlasticity.norm2]
  obtain ⟨u, n, h1, h2⟩ := C21_linear (𝒫).fes [UserBC.entries b] hwfbc T f hregT FinitePlasticity.norm2 hnu0 hnu num.solve hs hs'
    false (1 / 10 ^ 6) (1 / 10 ^ 8) (by positivity) 0 fuel
  -- the initial guess is not accepted
  obtain ⟨m, hm, hxm⟩ := hlayer.nonempty
  have hbig : ¬(FinitePlasticity.norm2 (applyBcV (𝒫).fes [UserBC.entries b] 1 (T.mulVec 0 - f) 0) ≤ 1 / 10 ^ 6 ∨
      (1 : ℝ) ≤ 1 / 10 ^ 8) := by
    rintro (h0 | h0)
    · have hlt : m * 1 + 0 < totalDofs (𝒫).fes := by
        rw [totalDofs_single]; exact gridNode_lt hm Nat.one_pos
      have hk : ((⟨m * 1 + 0, hlt⟩ : Fin (totalDofs (𝒫).fes)) : Nat) = dofNum (𝒫).fes 0 m 0 := (dofNum_single 𝒫 m 0).symm
      have hp : Prescribed (𝒫).fes [UserBC.entries b] ((⟨m * 1 + 0, hlt⟩ : Fin (totalDofs (𝒫).fes)) : Nat) (some 1) := by
        rw [hk]
        exact (hpre m hm (some 1)).2 ((demands numTotalNodes points cells el fc hlayer h m hm).2.2 hxm)
      have h3 := hle (applyBcV (𝒫).fes [UserBC.entries b] 1 (T.mulVec 0 - f) 0) ⟨m * 1 + 0, hlt⟩
      rw [(applyBcV_spec (𝒫).fes [UserBC.entries b] hwfbc 1 _ _ _).2 1 hp] at h3
      have h4 := h3.trans h0
      rw [Pi.zero_apply] at h4
      norm_num at h4
    · norm_num at h0
  rcases h2 with ⟨-, -, h2⟩ | ⟨rfl, h2, -⟩
  · exact absurd h2 hbig
  obtain ⟨sol, e1, e2, e3⟩ := unravel_single 𝒫 u
  rw [← hflat] at h2
  obtain ⟨h5, h6⟩ := (solvesBVP_iff 𝒫 h [UserBC.entries b] hwfbc u sol e1 e2 e3).1 h2
  refine ⟨sol, ?_, e2, ?_⟩
  · rw [solver, hb]
    dsimp only
    rw [hflat, hAT, h1]
    dsimp only [Option.map, Except.map]
    rw [e1]
    rfl
  · have hval : ∀ n (i : Fin 1), ∑ j, (fun _ : Fin 1 => ![(1 : ℝ), 0, 0]) i j * ((𝒫).points.getD n 0) j + (fun _ => 0) i
        = xOf points n := by
      intro n i
      rw [Fin.sum_univ_three]
      simp [xOf, linearPoisson]
    have h7 := (C119_solution 𝒫 h hel hpos hdet (mono numTotalNodes points cells el fc) rfl rfl (fun _ => ![1, 0, 0])
      (fun _ => ![1, 0, 0]) (fun _ => 0) (fun _ => rfl) free hanch (fun n hn c hf => by
        rw [conn_eq]
        exact hlayer.insulated n hn (hfree n hn c hf).1 (hfree n hn c hf).2) sol e2 (fun n hn i hf => by
        rw [hval n i, Subsingleton.elim i 0]
        rw [Subsingleton.elim i 0] at hf
        rcases free_or_last (UserBC.entries b) n 0 with hf' | ⟨v, hv⟩
        · exact absurd hf' hf
        · rw [h6 n hn 0 v hv]
          exact (demands numTotalNodes points cells el fc hlayer h n hn).1 v ((hpre n hn (some v)).1
            (.fixed 0 n 0 _ (UserBC.entries b) v rfl rfl hn Nat.one_pos rfl hv)))).1 h5
    intro n hn
    rw [h7 n hn 0, hval n 0]

end

end JaxFem.PoissonBench
