import Verif.Model.ForwardMode
import Mathlib.Analysis.Calculus.Deriv.Basic

/-!
# What the derivative rules of `jax_fem/experimental` are for
-/

namespace JaxFem
namespace ForwardMode

/-- The solver for operators returns solutions whenever it returns. -/
def ExactOperatorSolver {N : Nat}
    (solve : ((Fin N → ℝ) → Fin N → ℝ) → (Fin N → ℝ) → Except Err (Fin N → ℝ)) : Prop :=
  ∀ f b x, solve f b = .ok x → f x = b

/-- Euclidean length. -/
noncomputable def eucl (x : Fin 3 → ℝ) : ℝ := Real.sqrt (x 0 ^ 2 + x 1 ^ 2 + x 2 ^ 2)

/-- `x'` is the argument of the last forward pass of the calls. -/
def LastForward (ops : List FileOp) (x' : ℝ) : Prop :=
  ∃ (a b : List FileOp) (y' : ℝ), ops = a ++ .fwd x' y' :: b ∧ ∀ x y, FileOp.fwd x y ∉ b

/-- The cotangents of a function of two numbers for the cotangent `g` of its value. -/
def Cotangents (f : ℝ → ℝ → ℝ) (x y g : ℝ) (c : ℝ × ℝ) : Prop :=
  HasDerivAt (fun s => g * f s y) c.1 x ∧ HasDerivAt (fun t => g * f x t) c.2 y

/-- The array `a + t b`, for arrays given as lists of rows. -/
def line (t : ℝ) (a b : List (List ℝ)) : List (List ℝ) := List.zipWith (List.zipWith fun x y => x + t * y) a b

end ForwardMode
end JaxFem
