import Mathlib.Algebra.BigOperators.Group.Finset.Basic
import Mathlib.Data.Real.Sqrt
import Mathlib.Analysis.SpecialFunctions.Complex.Arg
import Verif.Model.DendriteFD

/-! Spec for the finite-difference dendrite script: rectangular arrays and their sums. -/

namespace JaxFem

namespace DendriteFD

/-- An array of shape `(nx, ny)`. -/
def Rect (nx ny : Nat) (m : List (List ℝ)) : Prop := m.length = nx ∧ ∀ r ∈ m, r.length = ny

/-- Sum of all entries. -/
def gsum (nx ny : Nat) (m : List (List ℝ)) : ℝ := ∑ i ∈ Finset.range nx, ∑ j ∈ Finset.range ny, at2 m i j

/-- Neighbour with mirrored edge: the entry before, the first one having itself. -/
def before (i : Nat) : Nat := i - 1

/-- Neighbour with mirrored edge: the entry after, the last of `n` having itself. -/
def after (n i : Nat) : Nat := if i + 1 < n then i + 1 else i

/-- Central differences with mirrored edges. -/
noncomputable def cdx (nx : Nat) (hx : ℝ) (f : Nat → Nat → ℝ) (i j : Nat) : ℝ :=
  (f (after nx i) j - f (before i) j) / (2 * hx)

/-- Central differences with mirrored edges. -/
noncomputable def cdy (ny : Nat) (hy : ℝ) (f : Nat → Nat → ℝ) (i j : Nat) : ℝ :=
  (f i (after ny j) - f i (before j)) / (2 * hy)

/-- Five-point Laplacian with mirrored edges. -/
noncomputable def lap5 (nx ny : Nat) (hx hy : ℝ) (f : Nat → Nat → ℝ) (i j : Nat) : ℝ :=
  (f (after nx i) j - 2 * f i j + f (before i) j) / hx ^ 2
    + (f i (after ny j) - 2 * f i j + f i (before j)) / hy ^ 2

/-- Anisotropic interface energy density `½ ε(θ)² |q|²`, `ε(θ) = ε̄ (1 + δ cos J θ)`, of the phase gradient `q` with
angle `θ`. -/
noncomputable def energy (m : Dendrite.Params) (qx qy : ℝ) : ℝ :=
  (m.epsBar * (1 + m.delta * Real.cos (m.J * Complex.arg ⟨qx, qy⟩))) ^ 2 * (qx ^ 2 + qy ^ 2) / 2

end DendriteFD

end JaxFem
