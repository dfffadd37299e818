import Verif.Spec.Coupled
import Verif.Spec.BC
import Verif.Model.Boundary

/-!
# Specification for C85
-/

namespace JaxFem.SplitVars

/-- The vector field whose first component is `a` and whose other components are those of `b`. -/
def joined (a b : Nat → Nat → ℝ) (n c : Nat) : ℝ := if c = 0 then a n 0 else b n (c - 1)

/-- `∫ σ(∇u) : ∇w` with the isotropic law `σ = λ tr ε I + 2 μ ε`,
`λ = E ν / ((1+ν)(1-2ν))`, `2 μ = E / (1+ν)`. -/
noncomputable def work (E nu : ℝ) (v : CVar 3) (u w : Nat → Nat → ℝ) : ℝ :=
  v.integral fun e q => ∑ i : Fin 3, ∑ j : Fin 3,
    ((E * nu / ((1 + nu) * (1 - 2 * nu)) * (∑ k : Fin 3, v.gradAt u e q k k) * (if i = j then 1 else 0))
      + E / (1 + nu) * ((v.gradAt u e q i j + v.gradAt u e q j i) / 2)) * v.gradAt w e q i j

/-- The conditions `es` on a three-component field are `es1` on its first component and `es2` on the
others. -/
def SplitBC (es es1 es2 : List (BCEntry ℝ)) : Prop :=
  (∀ n, (FreeDof es n 0 ↔ FreeDof es1 n 0) ∧ ∀ x, LastPrescribes es n 0 x ↔ LastPrescribes es1 n 0 x) ∧
  ∀ n c, (FreeDof es n (c + 1) ↔ FreeDof es2 n c) ∧
    ∀ x, LastPrescribes es n (c + 1) x ↔ LastPrescribes es2 n c x

/-- The arrays `sols` with residual `R` solve the boundary value problem: zero residual at free, prescribed values
at constrained degrees of freedom. -/
def Solves (vars : List (CVar 3)) (bcs : List (List (BCEntry ℝ))) (sols R : List (List (List ℝ))) : Prop :=
  ∀ i (hi : i < vars.length), ∀ n < vars[i].numTotalNodes, ∀ c < vars[i].vec,
    (FreeDof (bcs.getD i []) n c → at3 R i n c = 0) ∧
    ∀ x, LastPrescribes (bcs.getD i []) n c x → at3 sols i n c = x

/-- The three lists of conditions given as triples. -/
def lists {P : Type} (ts : List (LocFn P × Nat × (P → ℝ))) : List (LocFn P) × List Nat × List (P → ℝ) :=
  (ts.map fun t => t.1, ts.map fun t => t.2.1, ts.map fun t => t.2.2)

end JaxFem.SplitVars
