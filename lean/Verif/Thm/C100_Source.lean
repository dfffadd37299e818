import Mathlib.LinearAlgebra.FiniteDimensional.Lemmas
import Mathlib.LinearAlgebra.FreeModule.Finite.Matrix
import Verif.Thm.C100_Forms

/-!
# C100: source identification
-/

namespace JaxFem.Inverse

open scoped BigOperators

variable {nq nfq nn dim : Nat}

/-- The solver of the tutorial: `set_params` stores the source, the boundary conditions stay, exact arithmetic. -/
structure IsSourceSetup (P : Problem1 ℝ nq nfq nn 1 dim) (bcs : List (List (BCEntry ℝ)))
    (S : Setup (Fin P.cells.length → Fin nq → ℝ) P.fes (totalDofs P.fes)) : Prop where
  problem : ∃ n points cells el fc, P = sourceProblem n points cells el fc
  exact : Exact S
  bcs : ∀ θ, S.bcs θ = bcs
  res : ∀ θ (u : Fin (totalDofs P.fes) → ℝ), S.res θ u = (setParams P θ).flat u

/-- What is assumed of mesh, element and boundary conditions. -/
structure Admissible (P : Problem1 ℝ nq nfq nn 1 dim) (bcs : List (List (BCEntry ℝ))) : Prop where
  wf : P.WF
  positive : P.PositiveMeasure
  determines : P.el.Determines
  bc : WFBC P.fes bcs
  zero : ZeroValues bcs
  anchored : P.Anchored fun n c => FreeDof (bcs.getD 0 []) n c

/-! ### Helper lemmas -/

section
variable {P : Problem1 ℝ nq nfq nn 1 dim}

theorem source_residual (hP : ∃ n points cells el fc, P = sourceProblem n points cells el fc) (h : P.WF) (θ : Fin P.cells.length → Fin nq → ℝ)
    (u : Fin (totalDofs P.fes) → ℝ) (k : Fin (totalDofs P.fes)) :
    (setParams P θ).flat u k = dirichletForm P u (Pi.single k 1) + sourceWork P θ (Pi.single k 1) := by
  have ht : P.tensorMap = fun _ x => x := by obtain ⟨n, points, cells, el, fc, rfl⟩ := hP; rfl
  have hm' : P.massMap = some fun θ _ _ => ![θ] := by obtain ⟨n, points, cells, el, fc, rfl⟩ := hP; rfl
  have hs' : P.surfaces = [] := by obtain ⟨n, points, cells, el, fc, rfl⟩ := hP; rfl
  refine (flat_entry (setParams P θ) (atIv_WF _ h _) u k).trans ?_
  have hs : ∀ u v, (setParams P θ).surfaceWork u v = 0 := fun u v => by
    have : (setParams P θ).surfaces = [] := hs'
    rw [Problem1.surfaceWork, this]
    rfl
  have hm : (setParams P θ).massMap = some fun θ _ _ => ![θ] := hm'
  rw [Problem1.virtualWork, hs, hm, add_zero]
  congr 1
  · refine (atIv_tensorWork P _ _ _).trans ?_
    rw [ht]
    rfl
  · have e2 : ∀ (g : Nat → CellSpec ℝ nq → CellSpec ℝ nq) (f : CellSpec ℝ nq → ℝ),
        ((P.cells.mapIdx g).map f).sum = ∑ c : Fin P.cells.length, f (g c P.cells[c]) := by
      intro g f
      rw [← List.sum_ofFn]
      congr 1
      refine List.ext_getElem (by simp) fun i h1 h2 => ?_
      simp
    refine (e2 _ _).trans (Finset.sum_congr rfl fun c _ => Finset.sum_congr rfl fun q _ => ?_)
    dsimp only
    rw [Fin.sum_univ_one]
    have : (![if h : (c : Nat) < P.cells.length then θ ⟨c, h⟩ q else 0] : Fin 1 → ℝ) 0 = θ c q := by
      rw [dif_pos c.2]; rfl
    exact congrArg (fun t : ℝ => t * _ * _) this

theorem prescribed_zero {fes : List FE} {bcs : List (List (BCEntry ℝ))} (hz : ZeroValues bcs) {k : Nat} {v : ℝ}
    (hp : Prescribed fes bcs k (some v)) : v = 0 := by
  cases hp with
  | fixed i n c fe es v h1 h2 h3 h4 h5 hv =>
    obtain ⟨b, e, a, he, ⟨k, -, -, hk⟩, -⟩ := hv
    exact hz es (List.mem_of_getElem? h2) e (by rw [he]; simp) v (List.mem_of_getElem? hk)

variable {bcs : List (List (BCEntry ℝ))}
  {S : Setup (Fin P.cells.length → Fin nq → ℝ) P.fes (totalDofs P.fes)}

theorem source_linear (hA : Admissible P bcs) (hS : IsSourceSetup P bcs S) :
    LinearModel S (stiffMatrix P) (fun θ k => -sourceWork P θ (Pi.single k 1)) (fun _ _ => 0) where
  res := fun θ u => by
    funext k
    rw [hS.res, source_residual hS.problem hA.wf, Pi.sub_apply, stiffMatrix_mulVec]
    ring
  load_affine := ⟨LinearMap.pi fun k => -(sourceB P).flip (Pi.single k 1), fun θ => by
    funext k
    have h0 : sourceWork P 0 (Pi.single k 1) = 0 := by
      rw [← sourceB_apply, map_zero, LinearMap.zero_apply]
    show -sourceWork P θ (Pi.single k 1) = _ + -sourceWork P 0 (Pi.single k 1)
    rw [h0, LinearMap.pi_apply, LinearMap.neg_apply, LinearMap.flip_apply, sourceB_apply]
    ring⟩
  vals_affine := ⟨0, fun p => by funext k; simp⟩
  free := fun p k => by rw [hS.bcs, hS.bcs]
  fixed := fun p k v hp => by
    rw [hS.bcs] at hp
    exact prescribed_zero hA.zero hp
  regular := by
    rw [hS.bcs]
    exact stiff_regular hA.wf hA.positive hA.determines hA.bc hA.anchored

theorem solves_iff (hA : Admissible P bcs) (hS : IsSourceSetup P bcs S)
    (θ : Fin P.cells.length → Fin nq → ℝ) (w : Fin (totalDofs P.fes) → ℝ) :
    SolvesBVP P.fes (S.bcs θ) (S.res θ) w ↔ IsState P bcs θ w := by
  rw [hS.bcs]
  have hweak := weak_iff hA.bc (dirichletB P w + sourceB P θ)
  constructor
  · rintro ⟨h1, h2⟩
    refine ⟨mem_vanishing _ _ hA.zero w h1, hweak.2 fun k hk => ?_⟩
    have := h2 k hk
    rw [hS.res, source_residual hS.problem hA.wf] at this
    exact this
  · rintro ⟨h1, h2⟩
    refine ⟨fun k v hp => by rw [h1 k v hp, prescribed_zero hA.zero hp], fun k hk => ?_⟩
    rw [hS.res, source_residual hS.problem hA.wf]
    exact hweak.1 h2 k hk

/-- The misfit is a quadratic function of the solution. -/
theorem misfit_quadratic (P : Problem1 ℝ nq nfq nn 1 dim) (ū : Fin (totalDofs P.fes) → ℝ) :
    QuadraticFn (fun x => l2Error P (P.solArray x) (P.solArray ū)) (massB P) ((-2 : ℝ) • massB P ū) (massProduct P ū ū) where
  symm := mass_symm P
  eq := fun x => by
    rw [l2Error_eq, ← massB_apply, ← massB_apply]
    simp only [map_sub, LinearMap.sub_apply, LinearMap.smul_apply, smul_eq_mul, massB_apply, mass_symm P x ū]
    ring

/-! ### Property theorems -/

/-- **C100 (source).** Source identification on any mesh: for every source `θ`, `fwd_pred` returns the only state, which
depends linearly on `θ`; the objective is the squared `L²` distance to the data; `jax.grad` returns the adjoint state at
the quadrature points times their measure; and with this gradient the expansion of the objective to second order is
exact. -/
theorem C100_source (hA : Admissible P bcs) (hS : IsSourceSetup P bcs S)
    (ū : Fin (totalDofs P.fes) → ℝ) :
    ∃ (u : (Fin P.cells.length → Fin nq → ℝ) →ₗ[ℝ] Fin (totalDofs P.fes) → ℝ)
      (adj : (Fin P.cells.length → Fin nq → ℝ) → Fin (totalDofs P.fes) → ℝ)
      (g : (Fin P.cells.length → Fin nq → ℝ) → (Fin P.cells.length → Fin nq → ℝ) →L[ℝ] ℝ),
      (∀ θ w, IsState P bcs θ w ↔ w = u θ) ∧
      (∀ θ w, IsAdjoint P bcs (u θ - ū) w ↔ w = adj θ) ∧
      (∀ θ fuel, S.fwdPred (fuel + 2) θ = some (.ok (u θ))) ∧
      (∀ θ fuel, S.objective (fuel + 2) (fun x => l2Error P (P.solArray x) (P.solArray ū)) θ
        = some (.ok (massProduct P (u θ - ū) (u θ - ū)))) ∧
      (∀ θ fuel, S.grad (fuel + 2) (fun x => l2Error P (P.solArray x) (P.solArray ū)) θ
        = some (.ok (g θ))) ∧
      (∀ θ δ, g θ δ = ∑ c, ∑ q, δ c q * (valueAt P (adj θ) c q * P.measureAt c q)) ∧
      ∀ θ δ, massProduct P (u (θ + δ) - ū) (u (θ + δ) - ū)
        = massProduct P (u θ - ū) (u θ - ū) + g θ δ + massProduct P (u δ) (u δ) := by
  have hquad := misfit_quadratic P ū
  obtain ⟨u0, D, g, h1, h2, h3, h4, h5, h6⟩ := C100_linear S hS.exact (source_linear hA hS) hquad
  have hstate : ∀ θ w, IsState P bcs θ w ↔ w = u0 θ := fun θ w => (solves_iff hA hS θ w).symm.trans (h2 θ w)
  have hu0 : u0 0 = 0 := by
    refine ((hstate 0 0).1 ⟨fun _ _ _ => rfl, fun y _ => ?_⟩).symm
    rw [← dirichletB_apply, ← sourceB_apply]
    simp
  have hD : ∀ θ, u0 θ = D θ := fun θ => by rw [h1, hu0, add_zero]
  have hex : ∀ θ, ∃ w ∈ vanishing P.fes bcs, ∀ y ∈ vanishing P.fes bcs,
      dirichletForm P w y = ((-2 : ℝ) • massB P (D θ - ū)) y := fun θ =>
    weak_exists hA.wf hA.positive hA.determines hA.bc hA.anchored _
  choose adj ha1 ha2 using hex
  have hobj : ∀ x, l2Error P (P.solArray x) (P.solArray ū) = massProduct P (x - ū) (x - ū) :=
    fun x => l2Error_eq x ū
  refine ⟨D, adj, g, fun θ w => by rw [hstate, hD], fun θ w => ⟨fun hw => ?_, ?_⟩, fun θ fuel => by rw [h3, hD],
    fun θ fuel => ?_, h4, fun θ δ => ?_, fun θ δ => ?_⟩
  · have hd : w - adj θ ∈ vanishing P.fes bcs := Submodule.sub_mem _ hw.1 (ha1 θ)
    refine sub_eq_zero.1 (dirichlet_definite hA.wf hA.positive hA.determines hA.bc hA.anchored hd ?_)
    have e1 := hw.2 _ hd
    have e2 := ha2 θ _ hd
    rw [LinearMap.smul_apply, massB_apply, smul_eq_mul] at e2
    rw [← dirichletB_apply, (dirichletB P).map_sub, LinearMap.sub_apply, dirichletB_apply, dirichletB_apply]
    linarith
  · rintro rfl
    refine ⟨ha1 θ, fun y hy => ?_⟩
    rw [ha2 θ y hy, LinearMap.smul_apply, massB_apply, smul_eq_mul]
    ring
  · rw [Setup.objective, h3, hD]
    exact congrArg (fun t : ℝ => some (Except.ok t)) (hobj _)
  · have s1 := (hstate δ (D δ)).2 (hD δ).symm
    have e1 := s1.2 _ (ha1 θ)
    have e2 := ha2 θ _ s1.1
    rw [LinearMap.smul_apply, massB_apply, smul_eq_mul, dirichlet_symm] at e2
    have e3 : sourceWork P δ (adj θ) = 2 * massProduct P (D θ - ū) (D δ) := by linarith
    have e4 : g θ δ = sourceWork P δ (adj θ) := by
      rw [h5, e3, hD, ← massB_apply P (D θ - ū), map_sub, LinearMap.sub_apply, LinearMap.smul_apply, smul_eq_mul]
      ring
    rw [e4]
    simp only [sourceWork, mul_assoc]
  · have := h6 θ δ
    rw [hobj, hobj, hD, hD] at this
    exact this

end
end JaxFem.Inverse
