import Mathlib.Analysis.SpecialFunctions.Sqrt
import Mathlib.LinearAlgebra.Matrix.Trace
import Mathlib.Algebra.BigOperators.Field

/-!
# Specification of J2 plasticity: deviator, inner product, von Mises stress
-/

namespace JaxFem
namespace Plasticity

variable {d : Nat}

/-- Inner product of two tensors. -/
def inner (a b : Matrix (Fin d) (Fin d) ℝ) : ℝ := ∑ i, ∑ j, a i j * b i j

/-- `dev` is the trace-free part of `a`: trace-free and differs from `a` by a multiple of the identity. -/
def IsDev (a dev : Matrix (Fin d) (Fin d) ℝ) : Prop :=
  dev.trace = 0 ∧ ∃ c : ℝ, a = dev + c • (1 : Matrix (Fin d) (Fin d) ℝ)

/-- Yield condition: `3/2 dev:dev ≤ σ0²`. -/
def Admissible (sig0 : ℝ) (a : Matrix (Fin d) (Fin d) ℝ) : Prop :=
  ∀ dev, IsDev a dev → 3 / 2 * inner dev dev ≤ sig0 ^ 2

/-- On the yield surface. -/
def OnYield (sig0 : ℝ) (a : Matrix (Fin d) (Fin d) ℝ) : Prop :=
  ∀ dev, IsDev a dev → 3 / 2 * inner dev dev = sig0 ^ 2

/-- Linear elastic law with Lamé constants. -/
noncomputable def hooke (lam mu : ℝ) (e : Matrix (Fin d) (Fin d) ℝ) : Matrix (Fin d) (Fin d) ℝ :=
  (lam * e.trace) • (1 : Matrix (Fin d) (Fin d) ℝ) + (2 * mu) • e

/-- Symmetric part. -/
noncomputable def symPart (g : Matrix (Fin d) (Fin d) ℝ) : Matrix (Fin d) (Fin d) ℝ := (1 / 2 : ℝ) • (g + g.transpose)

/-- `sig` is the closest admissible stress to `trial` (variational inequality; at most one such `sig`). -/
def IsReturn (sig0 : ℝ) (trial sig : Matrix (Fin d) (Fin d) ℝ) : Prop :=
  Admissible sig0 sig ∧ ∀ tau, Admissible sig0 tau → inner (trial - sig) (tau - sig) ≤ 0

/-- Isotropic elasticity in the compliance form with Young's modulus and Poisson's ratio (three dimensions):
`E ε = (1 + ν) σ - ν tr σ 1`. -/
def IsElastic3 (E nu : ℝ) (sig eps : Matrix (Fin 3) (Fin 3) ℝ) : Prop :=
  E • eps = (1 + nu) • sig - (nu * sig.trace) • (1 : Matrix (Fin 3) (Fin 3) ℝ)

/-- A temperature history in which the melting temperature was exceeded and undershot later. -/
def Solidified (Tl : ℝ) (temps : List ℝ) : Prop :=
  ∃ l1 l2 l3 hot cold, temps = l1 ++ hot :: (l2 ++ cold :: l3) ∧ Tl < hot ∧ cold < Tl

end Plasticity
end JaxFem
