import Verif.Thm.C104_Gradient

/-!
# C104: shape optimisation with rotated pores — the boundary value problem
-/

namespace JaxFem.Shape

open scoped BigOperators Topology

variable {nq nfq nn : Nat}

/-- Position of quadrature point `q` of cell `c`. -/
noncomputable def position (P : Problem1 ℝ nq nfq nn 2 2) (c : Fin P.cells.length) (q : Fin nq) : Fin 2 → ℝ :=
  positionIn (P.el.shapeVals q) (coords nn P.points (P.cells[c]).nodes)

/-- Data of a setup: fixed boundary conditions, residual of the problem after `set_params`, a tangent that is the derivative
where there is one (C05). -/
structure OfProblem {M : Nat} (P : Problem1 ℝ nq nfq nn 2 2) (Lx : ℝ) (nx ny : Nat) (bcs : List (List (BCEntry ℝ)))
    (S : Inverse.Setup (Fin (M + 1) → ℝ) P.fes (totalDofs P.fes)) : Prop where
  bcs : ∀ θ, S.bcs θ = bcs
  res : ∀ θ, S.res θ = fun u => (setParams P Lx nx ny θ).flat u
  tangent : ∀ θ u, DifferentiableAt ℝ (S.res θ) u → HasJacobianAt (S.res θ) (S.tan θ u) u

/-! ### Helper lemmas -/

theorem quadPoints_eq (P : Problem1 ℝ nq nfq nn 2 2) (c : Fin P.cells.length) (q : Fin nq) :
    quadPoints P c q = position P c q := by
  have e : P.conn.getD c.1 [] = (P.cells[c]).nodes := by
    simp [Problem1.conn, List.getD_eq_getElem?_getD]
  simp only [quadPoints, position, e]
  rfl

theorem young_eq (rho : ℝ) : young rho = 1000 + 999000 * rho := by
  simp only [young]
  norm_num

theorem energy_scale (rho : ℝ) :
    energy rho = fun F => young rho * Hyper.psiPlane (Hyper.muOf 1 (3 / 10)) (Hyper.kappaOf 1 (3 / 10)) F := by
  funext F
  exact Hyper.psi_scale 3 (young rho) (3 / 10) (Hyper.embed F)

theorem poreSize_pos (Lx : ℝ) (hLx : 0 < Lx) {nx ny M : Nat} (hM : nx * ny = M + 1) : 0 < poreSize Lx nx := by
  have : 0 < nx := Nat.pos_of_mul_pos_right (by omega : 0 < nx * ny)
  rw [poreSize]
  positivity

theorem index_lt {nx ny M : Nat} (hM : nx * ny = M + 1) {i j : Nat} (hi : i < nx) (hj : j < ny) : i * ny + j < M + 1 := by
  calc i * ny + j < i * ny + ny := by omega
    _ = (i + 1) * ny := by ring
    _ ≤ nx * ny := Nat.mul_le_mul_right _ hi
    _ = M + 1 := hM

/-- Density at a point of a cell, without clamping. -/
theorem rhos_cell {C M : Nat} (pts : Fin C → Fin nq → Fin 2 → ℝ) (L : ℝ) (hL : 0 < L) {nx ny : Nat} (hM : nx * ny = M + 1)
    (c : Fin C) (q : Fin nq) {i j : Nat} (hi : i < nx) (hj : j < ny) (hc : InCell L i j (pts c q)) :
    (fun beta : Fin (M + 1) → ℝ => rhos pts L nx ny beta c q)
      = fun beta => poreFn (pts c q) (midCell L i j) L (beta ⟨i * ny + j, index_lt hM hi hj⟩) := by
  funext beta
  exact (C104_cells pts L hL nx ny beta c q).1 i hi j hj hc _ (fun _ => rfl) fun h =>
    absurd (index_lt hM hi hj) (by omega)

theorem rhos_one {C M : Nat} (pts : Fin C → Fin nq → Fin 2 → ℝ) (L : ℝ) (hL : 0 < L) (nx ny : Nat) (c : Fin C) (q : Fin nq)
    (hc : ∀ i < nx, ∀ j < ny, ¬InCell L i j (pts c q)) :
    (fun beta : Fin (M + 1) → ℝ => rhos pts L nx ny beta c q) = fun _ => 1 :=
  funext fun beta => (C104_cells pts L hL nx ny beta c q).2.1 hc

theorem rhos_smooth {C M : Nat} (pts : Fin C → Fin nq → Fin 2 → ℝ) (L : ℝ) (hL : 0 < L) {nx ny : Nat}
    (hM : nx * ny = M + 1) (θ0 : Fin (M + 1) → ℝ) (c : Fin C) (q : Fin nq)
    (hk : ∀ i j (k : Fin (M + 1)), i < nx → j < ny → k.1 = i * ny + j → InCell L i j (pts c q) →
      ¬OnDiagonal (angle (θ0 k)) (midCell L i j) (pts c q)) :
    ContDiffAt ℝ 1 (fun θ : Fin (M + 1) → ℝ => rhos pts L nx ny θ c q) θ0 := by
  by_cases hc : ∃ i < nx, ∃ j < ny, InCell L i j (pts c q)
  · obtain ⟨i, hi, j, hj, hc⟩ := hc
    rw [rhos_cell pts L hL hM c q hi hj hc]
    refine ContDiffAt.comp (g := poreFn (pts c q) (midCell L i j) L)
      (f := fun θ : Fin (M + 1) → ℝ => θ ⟨i * ny + j, index_lt hM hi hj⟩) θ0 ?_ (by fun_prop)
    exact poreFn_smooth _ _ _ _ (hk i j ⟨i * ny + j, index_lt hM hi hj⟩ hi hj rfl hc)
  · rw [rhos_one pts L hL nx ny c q (fun i hi j hj h => hc ⟨i, hi, j, hj, h⟩)]
    exact contDiffAt_const

open Classical in
theorem rhos_deriv {C M : Nat} (pts : Fin C → Fin nq → Fin 2 → ℝ) (L : ℝ) (hL : 0 < L) {nx ny : Nat}
    (hM : nx * ny = M + 1) (θ0 : Fin (M + 1) → ℝ) (c : Fin C) (q : Fin nq)
    (hk : ∀ i j (k : Fin (M + 1)), i < nx → j < ny → k.1 = i * ny + j → InCell L i j (pts c q) →
      ¬OnDiagonal (angle (θ0 k)) (midCell L i j) (pts c q))
    {i j : Nat} (k : Fin (M + 1)) (hi : i < nx) (hj : j < ny) (hkij : k.1 = i * ny + j) :
    fderiv ℝ (fun θ : Fin (M + 1) → ℝ => rhos pts L nx ny θ c q) θ0 (Pi.single k 1)
      = if InCell L i j (pts c q) then deriv (poreFn (pts c q) (midCell L i j) L) (θ0 k) else 0 := by
  have hchain : ∀ (x m : Fin 2 → ℝ) (k' : Fin (M + 1)), ¬OnDiagonal (angle (θ0 k')) m x →
      fderiv ℝ (fun θ : Fin (M + 1) → ℝ => poreFn x m L (θ k')) θ0 (Pi.single k 1)
        = (Pi.single k 1 : Fin (M + 1) → ℝ) k' * deriv (poreFn x m L) (θ0 k') := by
    intro x m k' hd
    have h1 := ((poreFn_smooth x m L (θ0 k') hd).differentiableAt one_ne_zero).hasDerivAt
    have h2 : HasFDerivAt (fun θ : Fin (M + 1) → ℝ => poreFn x m L (θ k'))
        (deriv (poreFn x m L) (θ0 k') • ContinuousLinearMap.proj (R := ℝ) (φ := fun _ : Fin (M + 1) => ℝ) k') θ0 :=
      HasDerivAt.comp_hasFDerivAt (h₂ := poreFn x m L) (f := fun θ : Fin (M + 1) → ℝ => θ k') θ0 h1 (hasFDerivAt_apply k' θ0)
    rw [h2.fderiv]
    exact mul_comm _ _
  by_cases hc : ∃ i < nx, ∃ j < ny, InCell L i j (pts c q)
  · obtain ⟨i', hi', j', hj', hc⟩ := hc
    rw [rhos_cell pts L hL hM c q hi' hj' hc, hchain _ _ _ (hk i' j' ⟨i' * ny + j', index_lt hM hi' hj'⟩ hi' hj' rfl hc)]
    by_cases hij : InCell L i j (pts c q)
    · obtain ⟨rfl, rfl⟩ := inCell_unique L hL i j i' j' _ hij hc
      have : (⟨i * ny + j, index_lt hM hi' hj'⟩ : Fin (M + 1)) = k := Fin.ext hkij.symm
      rw [this, Pi.single_eq_same, one_mul, if_pos hij]
    · rw [if_neg hij, Pi.single_eq_of_ne, zero_mul]
      intro he
      apply hij
      have h1 : i' * ny + j' = i * ny + j := by rw [← hkij, ← he]
      have h2 : i' = i := by
        have := congrArg (· / ny) h1
        simp only [Nat.mul_comm _ ny, Nat.mul_add_div (by omega : 0 < ny), Nat.div_eq_of_lt hj, Nat.div_eq_of_lt hj',
          Nat.add_zero] at this
        exact this
      subst h2
      have h3 : j' = j := by omega
      subst h3
      exact hc
  · rw [rhos_one pts L hL nx ny c q (fun i hi j hj h => hc ⟨i, hi, j, hj, h⟩), if_neg fun h => hc ⟨i, hi, j, hj, h⟩]
    simp

/-! ### Property theorems -/

/-- **C104 (densities).** All densities lie in `(0, 1]`, whatever the points and the length of the vector of variables. -/
theorem C104_density {C M : Nat} (pts : Fin C → Fin nq → Fin 2 → ℝ) (L : ℝ) (hL : 0 < L) (nx ny : Nat)
    (beta : Fin (M + 1) → ℝ) (c : Fin C) (q : Fin nq) :
    0 < rhos pts L nx ny beta c q ∧ rhos pts L nx ny beta c q ≤ 1 := by
  by_cases hc : ∃ i < nx, ∃ j < ny, InCell L i j (pts c q)
  · obtain ⟨i, hi, j, hj, hc⟩ := hc
    have : ∃ b, rhos pts L nx ny beta c q = poreFn (pts c q) (midCell L i j) L b := by
      by_cases hlt : i * ny + j < M + 1
      · exact ⟨_, (C104_cells pts L hL nx ny beta c q).1 i hi j hj hc (beta ⟨i * ny + j, hlt⟩) (fun _ => rfl)
          fun h => absurd hlt (by omega)⟩
      · exact ⟨_, (C104_cells pts L hL nx ny beta c q).1 i hi j hj hc _ (fun h => absurd h hlt) fun _ => rfl⟩
    obtain ⟨b, hb⟩ := this
    rw [hb, poreFn_eq]
    obtain ⟨h0, h1⟩ := smoothHole_pos (angle b) (9 / 20 * L) (midCell L i j) (pts c q)
    exact ⟨h0, h1.le⟩
  · rw [(C104_cells pts L hL nx ny beta c q).2.1 fun i hi j hj h => hc ⟨i, hi, j, hj, h⟩]
    exact ⟨one_pos, le_refl 1⟩

/-- **C104 (material).** For densities between 0 and 1 Young's modulus lies between `1e3` and `1e6`, the energy is not
negative, it vanishes for rotations only, and the undeformed solid is free of stress. -/
theorem C104_material (rho : ℝ) (h0 : 0 ≤ rho) (h1 : rho ≤ 1) :
    10 ^ 3 ≤ young rho ∧ young rho ≤ 10 ^ 6 ∧
    (∀ F : Fin 2 → Fin 2 → ℝ, 0 < (Matrix.of F).det → 0 ≤ energy rho F ∧ (energy rho F = 0 ↔ IsRotation (Matrix.of F))) ∧
    Hyper.firstPK (energy rho) 0 = 0 := by
  have hy : 0 < young rho := by rw [young_eq]; linarith
  have hE := (Hyper.C88_energy (Hyper.muOf (young rho) (3 / 10)) (Hyper.kappaOf (young rho) (3 / 10))
    (by rw [Hyper.muOf]; positivity) (by rw [Hyper.kappaOf]; exact div_pos hy (by norm_num))).2.1
  refine ⟨by rw [young_eq]; linarith, by rw [young_eq]; linarith, hE, ?_⟩
  have hone : IsRotation (1 : Matrix (Fin 2) (Fin 2) ℝ) := ⟨by simp, by simp⟩
  set I : Fin 2 → Fin 2 → ℝ := fun i j => (0 : Fin 2 → Fin 2 → ℝ) i j + if i = j then 1 else 0 with hI
  have hI1 : Matrix.of I = 1 := by
    ext i j
    simp [hI, Matrix.one_apply]
  have hmin : IsLocalMin (energy rho) I := by
    have hdet : ∀ᶠ F in 𝓝 I, 0 < (Matrix.of F).det :=
      ((Hyper.detsmooth (n := 2) (m := 0)).continuous.continuousAt (x := I)).eventually (lt_mem_nhds (by show 0 < (Matrix.of I).det; rw [hI1]; simp))
    filter_upwards [hdet] with F hF
    have e0 : energy rho I = 0 := (hE I (by rw [hI1]; simp)).2.2 (by rw [hI1]; exact hone)
    rw [e0]
    exact (hE F hF).1
  funext i j
  show fderiv ℝ (energy rho) I _ = 0
  rw [hmin.fderiv_eq_zero]
  rfl

section

variable (numTotalNodes : Nat) (points : List (Fin 2 → ℝ)) (cells : List (List Nat)) (el : RefElement ℝ nq nn 2)
  (fc : RefFaces ℝ nfq nn 2) (faces : List (FaceSpec ℝ nfq))

local notation "𝒫" => problem numTotalNodes points cells el fc faces

theorem problem_dead : (𝒫).DeadLoads := by
  intro s hs iv u u' x
  have hs' : s ∈ [(⟨fun _ _ _ => ![0, 10 ^ 4], faces⟩ : Surface ℝ ℝ nfq 2 2)] := hs
  rw [List.mem_singleton] at hs'
  subst hs'
  rfl

theorem problem_deadLoad : (𝒫).DeadLoad := ⟨rfl, _, rfl, fun _ _ _ _ => rfl⟩

theorem problem_tensor (rho : ℝ) (G : Fin 2 → Fin 2 → ℝ) : (𝒫).tensorMap rho G
    = young rho • Hyper.firstPK (Hyper.psiPlane (Hyper.muOf 1 (3 / 10)) (Hyper.kappaOf 1 (3 / 10))) G := by
  show Hyper.firstPK (energy rho) G = _
  rw [energy_scale, Hyper.firstPK_scale]

/-- The densities as a function on all cell numbers. -/
noncomputable abbrev ivOf {M : Nat} (Lx : ℝ) (nx ny : Nat) (θ : Fin (M + 1) → ℝ) : Nat → Fin nq → ℝ :=
  fun c q => if h : c < (𝒫).cells.length then
    rhos (C := (𝒫).cells.length) (quadPoints 𝒫) (poreSize Lx nx) nx ny θ ⟨c, h⟩ q else 0

theorem ivOf_apply {M : Nat} (Lx : ℝ) (nx ny : Nat) (θ : Fin (M + 1) → ℝ) (c : Fin (𝒫).cells.length) (q : Fin nq) :
    ivOf numTotalNodes points cells el fc faces Lx nx ny θ c q
      = rhos (C := (𝒫).cells.length) (position 𝒫) (poreSize Lx nx) nx ny θ c q := by
  have e : (quadPoints 𝒫 : Fin (𝒫).cells.length → Fin nq → Fin 2 → ℝ) = position 𝒫 :=
    funext fun c => funext fun q => quadPoints_eq 𝒫 c q
  simp only [ivOf, dif_pos c.2, e]

theorem loadWork_differentiable (h : (𝒫).WF) (u0 : Fin (totalDofs (𝒫).fes) → ℝ) :
    DifferentiableAt ℝ (fun u => (𝒫).loadWork ((𝒫).vecField u)) u0 := by
  obtain ⟨l, hl⟩ := Hyper.loads_linear 𝒫 h
  have e : (fun u => (𝒫).loadWork ((𝒫).vecField u)) = fun u => -∑ k, u k * l k := by
    funext u
    rw [Problem1.loadWork, hl]
  rw [e]
  fun_prop

theorem shape_smooth {M : Nat} (h : (𝒫).WF) (Lx : ℝ) (hLx : 0 < Lx) {nx ny : Nat} (hM : nx * ny = M + 1)
    (θ0 : Fin (M + 1) → ℝ) (u0 : Fin (totalDofs (𝒫).fes) → ℝ) (hadm : (𝒫).Admissible ((𝒫).vecField u0))
    (hk : ∀ c q i j (k : Fin (M + 1)), i < nx → j < ny → k.1 = i * ny + j → InCell (Lx / nx) i j (position 𝒫 c q) →
      ¬OnDiagonal (angle (θ0 k)) (midCell (Lx / nx) i j) (position 𝒫 c q)) :
    ContDiffAt ℝ 1 (fun up : (Fin (totalDofs (𝒫).fes) → ℝ) × (Fin (M + 1) → ℝ) =>
      (𝒫).flatIv (ivOf numTotalNodes points cells el fc faces Lx nx ny up.2) up.1) (u0, θ0) := by
  refine Hyper.res_smooth 𝒫 h rfl (problem_dead numTotalNodes points cells el fc faces) young _
    (problem_tensor numTotalNodes points cells el fc faces) _ u0 θ0 ?_ ?_
  · intro c q
    have e : (fun θ : Fin (M + 1) → ℝ => young (ivOf numTotalNodes points cells el fc faces Lx nx ny θ c q))
        = fun θ => 1000 + 999000 * rhos (C := (𝒫).cells.length) (position 𝒫) (poreSize Lx nx) nx ny θ c q := by
      funext θ
      rw [ivOf_apply, young_eq]
    rw [e]
    exact contDiffAt_const.add (contDiffAt_const.mul (rhos_smooth (position 𝒫) (poreSize Lx nx)
      (poreSize_pos Lx hLx hM) hM θ0 c q (hk c q)))
  · intro c hc q
    exact (Hyper.C88_smooth _ _ 2).2.1 _ (hadm c hc q)

/-- **C104 (gradient).** Let `u0`, returned by the forward solver for the design `θ0`, solve the equilibrium equations
with no cell turned inside out and a regular tangent, and let no quadrature point lie on a diagonal of its turned square.
Then `compute_compliance` is a function `J` of the displacement that does not depend on the design, exactly one branch
`u(θ)` of equilibria passes through `u0`, and `jax.grad(J)(θ0)` returns the derivative of `θ ↦ J(u(θ))`. -/
theorem C104_gradient {M : Nat} (h : (𝒫).WF) (Lx : ℝ) (hLx : 0 < Lx) {nx ny : Nat} (hM : nx * ny = M + 1)
    (bcs : List (List (BCEntry ℝ))) (hw : WFBC (𝒫).fes bcs)
    (S : Inverse.Setup (Fin (M + 1) → ℝ) (𝒫).fes (totalDofs (𝒫).fes)) (hS : OfProblem 𝒫 Lx nx ny bcs S)
    (hs : ExactAdjointSolver S.adjointSolve)
    (htot : ∀ n (A : Matrix (Fin n) (Fin n) ℝ) b, A.det ≠ 0 → ∃ x, S.adjointSolve n A b = .ok x)
    (θ0 : Fin (M + 1) → ℝ) (u0 : Fin (totalDofs (𝒫).fes) → ℝ) (hadm : (𝒫).Admissible ((𝒫).vecField u0))
    (hk : ∀ c q i j (k : Fin (M + 1)), i < nx → j < ny → k.1 = i * ny + j → InCell (Lx / nx) i j (position 𝒫 c q) →
      ¬OnDiagonal (scaledSigmoid (θ0 k) (-Real.pi / 4) (Real.pi / 4) (1 / 10)) (midCell (Lx / nx) i j) (position 𝒫 c q))
    (hdet : (elimRows (𝒫).fes bcs (S.tan θ0 u0)).det ≠ 0)
    (hz : SolvesBVP (𝒫).fes bcs ((setParams 𝒫 Lx nx ny θ0).flat) u0) (fuel : Nat)
    (hf : S.fwdPred fuel θ0 = some (.ok u0)) :
    ∃ J : (Fin (totalDofs (𝒫).fes) → ℝ) → ℝ,
      (∀ (θ : Fin (M + 1) → ℝ) u, compliance (setParams 𝒫 Lx nx ny θ) ((𝒫).solArray u) = .ok (J u)) ∧
      ∃ u : (Fin (M + 1) → ℝ) → Fin (totalDofs (𝒫).fes) → ℝ, u θ0 = u0 ∧
        (∀ᶠ pw in 𝓝 (θ0, u0), SolvesBVP (𝒫).fes bcs ((setParams 𝒫 Lx nx ny pw.1).flat) pw.2 ↔ u pw.1 = pw.2) ∧
        (∀ᶠ θ in 𝓝 θ0, SolvesBVP (𝒫).fes bcs ((setParams 𝒫 Lx nx ny θ).flat) (u θ)) ∧
        ∃ g, S.grad fuel J θ0 = some (.ok g) ∧ HasFDerivAt (fun θ => J (u θ)) g θ0 := by
  have hres : ∀ θ, S.res θ = (𝒫).flatIv (ivOf numTotalNodes points cells el fc faces Lx nx ny θ) := hS.res
  have hsm := shape_smooth numTotalNodes points cells el fc faces h Lx hLx hM θ0 u0 hadm hk
  have hsm' : ContDiffAt ℝ 1 (fun up : (Fin (totalDofs (𝒫).fes) → ℝ) × (Fin (M + 1) → ℝ) => S.res up.2 up.1) (u0, θ0) := by
    simp only [hres]
    exact hsm
  have hc := CoDesign.constraint_contDiff S bcs hS.bcs hw u0 θ0 hsm'
  have hd : DifferentiableAt ℝ (S.res θ0) u0 := by
    have : ContDiffAt ℝ 1 (fun u => S.res θ0 u) u0 :=
      ContDiffAt.comp (g := fun up : (Fin (totalDofs (𝒫).fes) → ℝ) × (Fin (M + 1) → ℝ) => S.res up.2 up.1)
        (f := fun u => (u, θ0)) u0 hsm' (contDiffAt_id.prodMk contDiffAt_const)
    exact this.differentiableAt one_ne_zero
  refine ⟨fun u => (𝒫).loadWork ((𝒫).vecField u), ?_, ?_⟩
  · intro θ u
    exact computeCompliance_eq 𝒫 (problem_deadLoad numTotalNodes points cells el fc faces) _ u
  · obtain ⟨u, h1, -, h2, h3, h4⟩ := S.grad_exact hs htot θ0 u0 (fun θ => by rw [hS.bcs]; exact hw)
      (hS.tangent θ0 u0 hd) hc (by rw [hS.bcs]; exact hdet) (by rw [hS.bcs, hS.res]; exact hz) fuel hf
    refine ⟨u, h1, ?_, ?_, h4 _ (loadWork_differentiable numTotalNodes points cells el fc faces h u0)⟩
    · filter_upwards [h2] with pw hpw
      rw [hS.bcs, hS.res] at hpw
      exact hpw
    · filter_upwards [h3] with θ hθ
      rw [hS.bcs, hS.res] at hθ
      exact hθ

open Classical in
/-- **C104 (sensitivities).** In the situation of `C104_gradient` there is an adjoint displacement `w`, zero at the
constrained degrees of freedom and in equilibrium with the load in the linearised problem, such that the component of the
gradient for the pore in cell `(i, j)` is minus the sum, over the quadrature points of that cell only, of `999000` times the
derivative of the density times the stress power of the unit-modulus stress on the gradient of `w`. -/
theorem C104_formula {M : Nat} (h : (𝒫).WF) (Lx : ℝ) (hLx : 0 < Lx) {nx ny : Nat} (hM : nx * ny = M + 1)
    (bcs : List (List (BCEntry ℝ))) (hw : WFBC (𝒫).fes bcs)
    (S : Inverse.Setup (Fin (M + 1) → ℝ) (𝒫).fes (totalDofs (𝒫).fes)) (hS : OfProblem 𝒫 Lx nx ny bcs S)
    (hs : ExactAdjointSolver S.adjointSolve)
    (θ0 : Fin (M + 1) → ℝ) (u0 : Fin (totalDofs (𝒫).fes) → ℝ) (hadm : (𝒫).Admissible ((𝒫).vecField u0))
    (hk : ∀ c q i j (k : Fin (M + 1)), i < nx → j < ny → k.1 = i * ny + j → InCell (Lx / nx) i j (position 𝒫 c q) →
      ¬OnDiagonal (scaledSigmoid (θ0 k) (-Real.pi / 4) (Real.pi / 4) (1 / 10)) (midCell (Lx / nx) i j) (position 𝒫 c q))
    (fuel : Nat) (hf : S.fwdPred fuel θ0 = some (.ok u0)) (J : (Fin (totalDofs (𝒫).fes) → ℝ) → ℝ)
    (hJ : ∀ u, compliance (setParams 𝒫 Lx nx ny θ0) ((𝒫).solArray u) = .ok (J u))
    (g : (Fin (M + 1) → ℝ) →L[ℝ] ℝ) (hg : S.grad fuel J θ0 = some (.ok g)) :
    ∃ w : Fin (totalDofs (𝒫).fes) → ℝ,
      (∀ (k : Fin (totalDofs (𝒫).fes)) v, Prescribed (𝒫).fes bcs k (some v) → w k = 0) ∧
      (∀ k : Fin (totalDofs (𝒫).fes), Prescribed (𝒫).fes bcs k none → ∑ r, S.tan θ0 u0 r k * w r = J (Pi.single k 1)) ∧
      ∀ i j (k : Fin (M + 1)), i < nx → j < ny → k.1 = i * ny + j → g (Pi.single k 1)
        = -∑ c : Fin (𝒫).cells.length, ∑ q, if InCell (Lx / nx) i j (position 𝒫 c q) then
            999000 * deriv (poreFn (position 𝒫 c q) (midCell (Lx / nx) i j) (Lx / nx)) (θ0 k)
              * contract (Hyper.firstPK (Hyper.psiPlane (Hyper.muOf 1 (3 / 10)) (Hyper.kappaOf 1 (3 / 10)))
                ((𝒫).gradAt ((𝒫).vecField u0) c q)) ((𝒫).gradAt ((𝒫).vecField w) c q) * (𝒫).measureAt c q
          else 0 := by
  have hres : ∀ θ, S.res θ = (𝒫).flatIv (ivOf numTotalNodes points cells el fc faces Lx nx ny θ) := hS.res
  have hsm := shape_smooth numTotalNodes points cells el fc faces h Lx hLx hM θ0 u0 hadm hk
  have hJ' : J = fun u => (𝒫).loadWork ((𝒫).vecField u) := by
    funext u
    have h1 := computeCompliance_eq 𝒫 (problem_deadLoad numTotalNodes points cells el fc faces)
      (ivOf numTotalNodes points cells el fc faces Lx nx ny θ0) u
    have h2 : compliance (setParams 𝒫 Lx nx ny θ0) ((𝒫).solArray u) = .ok ((𝒫).loadWork ((𝒫).vecField u)) := h1
    rw [hJ u] at h2
    exact Except.ok.inj h2
  have hrd : DifferentiableAt ℝ (fun θ => S.res θ u0) θ0 := by
    have : ContDiffAt ℝ 1 (fun θ => S.res θ u0) θ0 := by
      simp only [hres]
      exact ContDiffAt.comp (g := fun up : (Fin (totalDofs (𝒫).fes) → ℝ) × (Fin (M + 1) → ℝ) =>
        (𝒫).flatIv (ivOf numTotalNodes points cells el fc faces Lx nx ny up.2) up.1)
        (f := fun θ => (u0, θ)) θ0 hsm (contDiffAt_const.prodMk contDiffAt_id)
    exact this.differentiableAt one_ne_zero
  obtain ⟨w, hw1, hw2, hw3⟩ := S.grad_formula bcs hS.bcs hw hs θ0 u0 hrd fuel hf J g hg
  refine ⟨w, hw1, ?_, ?_⟩
  · intro k hk
    rw [hw2 k hk, hJ']
    obtain ⟨l, hl⟩ := Hyper.loads_linear 𝒫 h
    have e : (fun u => (𝒫).loadWork ((𝒫).vecField u)) = fun u => ∑ k, u k * -l k := by
      funext u
      rw [Problem1.loadWork, hl, ← Finset.sum_neg_distrib]
      exact Finset.sum_congr rfl fun k _ => by ring
    rw [e]
    have hd : HasFDerivAt (fun u : Fin (totalDofs (𝒫).fes) → ℝ => ∑ k, u k * -l k)
        (∑ k, (-l k) • ContinuousLinearMap.proj (R := ℝ) (φ := fun _ : Fin (totalDofs (𝒫).fes) => ℝ) k) u0 := by
      refine HasFDerivAt.fun_sum fun k _ => ?_
      exact (hasFDerivAt_apply k u0).mul_const (-l k)
    rw [hd.fderiv]
    simp only [sum_apply, smul_apply, ContinuousLinearMap.proj_apply, smul_eq_mul]
    exact Finset.sum_congr rfl fun k _ => mul_comm _ _
  · intro i j k hi hj hkij
    have hL := poreSize_pos Lx hLx hM
    have hsum : (∑ r, w r * fderiv ℝ (fun θ => S.res θ u0 r) θ0 (Pi.single k 1))
        = fderiv ℝ (fun θ => ∑ r, w r * S.res θ u0 r) θ0 (Pi.single k 1) := by
      have hd : HasFDerivAt (fun θ => ∑ r, w r * S.res θ u0 r) (∑ r, w r • fderiv ℝ (fun θ => S.res θ u0 r) θ0) θ0 :=
        HasFDerivAt.fun_sum fun r _ => ((differentiableAt_pi.1 hrd r).hasFDerivAt).const_mul (w r)
      rw [hd.fderiv]
      simp only [sum_apply, smul_apply, smul_eq_mul]
    set W := Hyper.firstPK (Hyper.psiPlane (Hyper.muOf 1 (3 / 10)) (Hyper.kappaOf 1 (3 / 10))) with hW
    set ρ := fun (θ : Fin (M + 1) → ℝ) c q => rhos (C := (𝒫).cells.length) (position 𝒫) (poreSize Lx nx) nx ny θ c q with hρ
    have hvw : (fun θ => ∑ r, w r * S.res θ u0 r) = fun θ => (∑ c : Fin (𝒫).cells.length, ∑ q,
        (1000 + 999000 * ρ θ c q) * (contract (W ((𝒫).gradAt ((𝒫).vecField u0) c q)) ((𝒫).gradAt ((𝒫).vecField w) c q)
          * (𝒫).measureAt c q)) + (𝒫).surfaceWork 0 ((𝒫).vecField w) := by
      funext θ
      rw [hres]
      refine (flat_virtualWork ((𝒫).atIv (ivOf numTotalNodes points cells el fc faces Lx nx ny θ)) (atIv_WF 𝒫 h _) u0 w).trans ?_
      have hm' : ((𝒫).atIv (ivOf numTotalNodes points cells el fc faces Lx nx ny θ)).massMap = none := rfl
      rw [Problem1.virtualWork, atIv_tensorWork, atIv_surfaceWork, hm',
        Hyper.deadLoads_surfaceWork 𝒫 (problem_dead numTotalNodes points cells el fc faces)]
      show _ + 0 + _ = _
      rw [add_zero]
      congr 1
      refine Finset.sum_congr rfl fun c _ => Finset.sum_congr rfl fun q _ => ?_
      rw [problem_tensor, ivOf_apply, young_eq, ← mul_assoc]
      congr 1
      simp only [contract, Pi.smul_apply, smul_eq_mul, Finset.mul_sum, mul_assoc]
      rfl
    rw [hw3, hsum, hvw]
    congr 1
    have hd : HasFDerivAt (fun θ => (∑ c : Fin (𝒫).cells.length, ∑ q,
        (1000 + 999000 * ρ θ c q) * (contract (W ((𝒫).gradAt ((𝒫).vecField u0) c q)) ((𝒫).gradAt ((𝒫).vecField w) c q)
          * (𝒫).measureAt c q)) + (𝒫).surfaceWork 0 ((𝒫).vecField w))
        (∑ c : Fin (𝒫).cells.length, ∑ q, (contract (W ((𝒫).gradAt ((𝒫).vecField u0) c q)) ((𝒫).gradAt ((𝒫).vecField w) c q)
          * (𝒫).measureAt c q) • (999000 : ℝ) • fderiv ℝ (fun θ => ρ θ c q) θ0) θ0 := by
      refine HasFDerivAt.add_const _ (HasFDerivAt.fun_sum fun c _ => HasFDerivAt.fun_sum fun q _ => ?_)
      refine HasFDerivAt.mul_const ?_ _
      refine HasFDerivAt.const_add _ (HasFDerivAt.const_mul ?_ _)
      exact ((rhos_smooth (position 𝒫) (poreSize Lx nx) hL hM θ0 c q (hk c q)).differentiableAt one_ne_zero).hasFDerivAt
    rw [hd.fderiv]
    simp only [sum_apply, smul_apply, smul_eq_mul]
    refine Finset.sum_congr rfl fun c _ => Finset.sum_congr rfl fun q _ => ?_
    have := rhos_deriv (position 𝒫) (poreSize Lx nx) hL hM θ0 c q (hk c q) k hi hj hkij
    rw [hρ, this]
    show _ * (999000 * if InCell (Lx / nx) i j (position 𝒫 c q) then
      deriv (poreFn (position 𝒫 c q) (midCell (Lx / nx) i j) (Lx / nx)) (θ0 k) else 0) = _
    split
    · ring
    · ring

/-- **C104 (energy).** At states with no cell turned inside out the residual is the gradient of the total energy, stored
energy minus the work of the load. If the measures of the quadrature points are not negative and the total energy of such a
state is not higher than that of the undeformed solid, its compliance is at least its stored energy, which is not negative. -/
theorem C104_energy {M : Nat} (h : (𝒫).WF) (Lx : ℝ) (hLx : 0 < Lx) {nx ny : Nat} (hM : nx * ny = M + 1)
    (θ : Fin (M + 1) → ℝ) (u : Fin (totalDofs (𝒫).fes) → ℝ) (hadm : (𝒫).Admissible ((𝒫).vecField u)) :
    let P := setParams 𝒫 Lx nx ny θ
    HasFDerivAt (fun y : Fin (totalDofs (𝒫).fes) → ℝ => P.potential energy (P.vecField y))
      (∑ k, P.flat u k • ContinuousLinearMap.proj (R := ℝ) (φ := fun _ : Fin (totalDofs (𝒫).fes) => ℝ) k) u ∧
    ((∀ c q, 0 ≤ (𝒫).measureAt c q) → P.potential energy (P.vecField u) ≤ P.potential energy (P.vecField 0) →
      ∃ stored J, P.potential energy (P.vecField u) = stored - J ∧ compliance P ((𝒫).solArray u) = .ok J ∧
        0 ≤ stored ∧ stored ≤ J) := by
  intro P
  have hwf : P.WF := atIv_WF 𝒫 h _
  have hdead : P.DeadLoads := problem_dead numTotalNodes points cells el fc faces
  have hcell : ∀ cell ∈ P.cells, ∃ c : Fin (𝒫).cells.length, cell.nodes = ((𝒫).cells[c]).nodes ∧
      ∀ q, 0 < cell.iv q ∧ cell.iv q ≤ 1 := by
    intro cell hcell
    have hcell' : cell ∈ (𝒫).cells.mapIdx fun c cell => { cell with iv := ivOf numTotalNodes points cells el fc faces Lx nx ny θ c } :=
      hcell
    obtain ⟨i, hi, rfl⟩ := List.mem_mapIdx.1 hcell'
    refine ⟨⟨i, hi⟩, rfl, fun q => ?_⟩
    have e := ivOf_apply numTotalNodes points cells el fc faces Lx nx ny θ ⟨i, hi⟩ q
    show 0 < ivOf numTotalNodes points cells el fc faces Lx nx ny θ i q ∧
      ivOf numTotalNodes points cells el fc faces Lx nx ny θ i q ≤ 1
    rw [e]
    exact C104_density _ _ (poreSize_pos Lx hLx hM) nx ny θ _ q
  have hadm' : P.Admissible (P.vecField u) := by
    intro cell hc q
    obtain ⟨c, e, -⟩ := hcell cell hc
    rw [e]
    exact hadm _ (List.getElem_mem _) q
  constructor
  · refine (Hyper.C88_potential P hwf energy hdead u fun cell hc q => ?_).1
    have e : energy (cell.iv q) = Hyper.psiPlane (Hyper.muOf (young (cell.iv q)) (3 / 10)) (Hyper.kappaOf (young (cell.iv q)) (3 / 10)) := rfl
    rw [e]
    exact (Hyper.C88_smooth _ _ 2).2.1 _ (hadm' cell hc q)
  · intro hpos hle
    have hload : P.surfaceWork 0 (P.vecField u) = -(𝒫).loadWork ((𝒫).vecField u) := by
      rw [Problem1.loadWork, neg_neg]
      exact atIv_surfaceWork 𝒫 _ 0 _
    obtain ⟨stored, h1, h2, h3⟩ := Hyper.stored_bound P hwf energy u
      (fun cell hc q => by
        obtain ⟨c, -, hiv⟩ := hcell cell hc
        exact ((C104_material _ (hiv q).1.le (hiv q).2).2.2.1 _ (hadm' cell hc q)).1)
      (fun cell hc q => by
        obtain ⟨c, -, hiv⟩ := hcell cell hc
        exact ((C104_material (cell.iv q) (hiv q).1.le (hiv q).2).2.2.1 (fun i j => (1 : Matrix (Fin 2) (Fin 2) ℝ) i j)
          (by show 0 < (1 : Matrix (Fin 2) (Fin 2) ℝ).det; simp)).2.2
          ⟨by show (1 : Matrix (Fin 2) (Fin 2) ℝ).transpose * 1 = 1; simp,
            by show (1 : Matrix (Fin 2) (Fin 2) ℝ).det = 1; simp⟩)
      (fun cell hc q => by
        obtain ⟨c, e, -⟩ := hcell cell hc
        rw [e]
        exact hpos c q) hle
    exact ⟨stored, (𝒫).loadWork ((𝒫).vecField u), by rw [h1, hload, sub_eq_add_neg],
      computeCompliance_eq 𝒫 (problem_deadLoad numTotalNodes points cells el fc faces) _ u, h2, by rw [hload] at h3; linarith⟩

end

end JaxFem.Shape
