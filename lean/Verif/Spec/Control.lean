import Verif.Model.Control
import Verif.Spec.Coupled
import Verif.Spec.Inverse

/-!
Independent notions for the thermal mechanical control: constrained degrees of freedom, forms, states and adjoint
states, a plate that is held.
-/

namespace JaxFem.Control

open scoped BigOperators

variable {vu vT : CVar 2}

/-- Vectors of degrees of freedom. -/
abbrev Dofs (vu vT : CVar 2) := Fin (totalDofs (fes vu vT)) → ℝ

/-- Nodal field of variable `i` (0 displacement, 1 temperature). -/
def field (x : Dofs vu vT) (i n c : Nat) : ℝ :=
  if h : dofNum (fes vu vT) i n c < totalDofs (fes vu vT) then x ⟨_, h⟩ else 0

/-- The lists name component `c` of node `n`. -/
def Constrained (b : DirichletLists) (n c : Nat) : Prop :=
  ∃ (j k : Nat) (nodes comps : List Nat), b.1[j]? = some nodes ∧ b.2.1[j]? = some comps ∧ nodes[k]? = some n ∧
    comps[k]? = some c

/-- The lists prescribe `v` for component `c` of node `a`; the last entry that names it counts. -/
def Prescribes (b : DirichletLists) (a c : Nat) (v : ℝ) : Prop :=
  ∃ (j k : Nat) (nodes comps : List Nat) (vals : List ℝ), b.1[j]? = some nodes ∧ b.2.1[j]? = some comps ∧
    b.2.2[j]? = some vals ∧ nodes[k]? = some a ∧ comps[k]? = some c ∧ vals[k]? = some v ∧
    ∀ j' > j, ∀ (k' : Nat) (nodes' comps' : List Nat), b.1[j']? = some nodes' → b.2.1[j']? = some comps' →
      nodes'[k']? = some a → comps'[k']? ≠ some c

/-- The prescribed values are taken, with the parameters as the values of the first list of the temperature. -/
def TakesValues (bu bT : DirichletLists) {n : Nat} (θ : Fin n → ℝ) (w : Dofs vu vT) : Prop :=
  (∀ a < vu.numTotalNodes, ∀ c < 2, ∀ v, Prescribes bu a c v → field w 0 a c = v) ∧
  ∀ a < vT.numTotalNodes, ∀ v, Prescribes (bT.1, bT.2.1, List.ofFn θ :: bT.2.2.tail) a 0 v → field w 1 a 0 = v

/-- The field vanishes where the lists prescribe values. -/
def Vanishes (bu bT : DirichletLists) (x : Dofs vu vT) : Prop :=
  (∀ n < vu.numTotalNodes, ∀ c < 2, Constrained bu n c → field x 0 n c = 0) ∧
  ∀ n < vT.numTotalNodes, Constrained bT n 0 → field x 1 n 0 = 0

/-- Heat conduction: `∫ k ∇T · ∇τ`. -/
noncomputable def heatForm (m : Material) (T τ : Nat → Nat → ℝ) : ℝ :=
  vT.integral fun e q => m.k * ∑ j, vT.gradAt T e q 0 j * vT.gradAt τ e q 0 j

/-- Strain. -/
noncomputable def strain (u : Nat → Nat → ℝ) (e q : Nat) (i j : Fin 2) : ℝ :=
  (vu.gradAt u e q i j + vu.gradAt u e q j i) / 2

/-- Elasticity: `∫ λ div u div v + 2 μ ε(u) : ε(v)`. -/
noncomputable def elasticForm (m : Material) (u v : Nat → Nat → ℝ) : ℝ :=
  vu.integral fun e q => m.lmbda * (vu.divAt u e q * vu.divAt v e q)
    + 2 * m.mu * ∑ i, ∑ j, strain (vu := vu) u e q i j * strain (vu := vu) v e q i j

/-- Thermal load: `∫ κ T div v`. -/
noncomputable def thermalLoad (vu vT : CVar 2) (m : Material) (T v : Nat → Nat → ℝ) : ℝ :=
  vu.integral fun e q => m.kappa * (vT.valueAt T e q 0 * vu.divAt v e q)

/-- The form of the coupled problem; the heat equation does not contain the displacement. -/
noncomputable def form (m : Material) (x y : Dofs vu vT) : ℝ :=
  elasticForm (vu := vu) m (field x 0) (field y 0) - thermalLoad vu vT m (field x 1) (field y 0)
    + heatForm (vT := vT) m (field x 1) (field y 1)

/-- `w` takes the prescribed values, its temperature conducts heat and its displacement balances the thermal stress. -/
structure IsState (m : Material) (bu bT : DirichletLists) {n : Nat} (θ : Fin n → ℝ) (w : Dofs vu vT) : Prop where
  values : TakesValues bu bT θ w
  heat : ∀ y : Dofs vu vT, Vanishes bu bT y → heatForm (vT := vT) m (field w 1) (field y 1) = 0
  balance : ∀ y : Dofs vu vT, Vanishes bu bT y →
    elasticForm (vu := vu) m (field w 0) (field y 0) = thermalLoad vu vT m (field w 1) (field y 0)

/-- The adjoint state for the misfit `d` of the displacement of the corner. -/
def IsAdjoint (m : Material) (bu bT : DirichletLists) (corner : Nat) (d : Fin 2 → ℝ) (w : Dofs vu vT) : Prop :=
  Vanishes bu bT w ∧ ∀ y : Dofs vu vT, Vanishes bu bT y →
    form m y w + 2 * ∑ c : Fin 2, d c * field y 0 corner c = 0

/-- A plate with well-formed lists, the first of which has `n` nodes; stable material; temperatures that are held and a
body that cannot move rigidly. -/
structure Plate (m : Material) (vu vT : CVar 2) (bu bT : DirichletLists) (n : Nat) : Prop where
  wf : WFVars [vu, vT]
  vecU : vu.vec = 2
  vecT : vT.vec = 1
  posU : vu.Positive
  posT : vT.Positive
  mu : 0 < m.mu
  bulk : 0 < m.lmbda + m.mu
  k : 0 < m.k
  first : ∃ (ns : List Nat) (nss : List (List Nat)) (vs : List ℝ) (vss : List (List ℝ)),
    ns.length = n ∧ bT.1 = ns :: nss ∧ bT.2.2 = vs :: vss
  lists : bu.1.length = bu.2.1.length ∧ bu.1.length = bu.2.2.length ∧ bT.1.length = bT.2.1.length ∧
    bT.1.length = bT.2.2.length
  bc : ∀ θ : Fin n → ℝ, WFBC (fes vu vT) (bcs bu bT θ)
  held : ∀ x : Dofs vu vT, Vanishes bu bT x →
    (∀ e < vu.cells.length, ∀ q < vu.nq, ∀ i j, strain (vu := vu) (field x 0) e q i j = 0) →
    ∀ n < vu.numTotalNodes, ∀ c < 2, field x 0 n c = 0
  cooled : ∀ x : Dofs vu vT, Vanishes bu bT x →
    (∀ e < vT.cells.length, ∀ q < vT.nq, ∀ j, vT.gradAt (field x 1) e q 0 j = 0) →
    ∀ n < vT.numTotalNodes, field x 1 n 0 = 0

/-- The differentiable solver for the plate, in exact arithmetic. -/
structure IsControlSetup (m : Material) (vu vT : CVar 2) (bu bT : DirichletLists) {n : Nat}
    (S : Inverse.Setup (Fin n → ℝ) (fes vu vT) (totalDofs (fes vu vT))) : Prop where
  exact : Inverse.Exact S
  bcs : ∀ θ, S.bcs θ = bcs bu bT θ
  res : ∀ θ x, S.res θ x = flatResidual m vu vT x

end JaxFem.Control
