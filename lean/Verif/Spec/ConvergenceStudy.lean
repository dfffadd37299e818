import Mathlib.Analysis.Calculus.FDeriv.Basic
import Verif.Spec.Variational
import Verif.Spec.UserBC

/-!
# Specification of the convergence study

Discrete error norms of a nodal field against a given function, and the consistency functional of a given function.
-/

namespace JaxFem.Convergence

variable {IV : Type} {nq nfq nn vec dim : Nat}

/-- Position of quadrature point `q` of a cell. -/
noncomputable def place (P : Problem1 IV nq nfq nn vec dim) (cell : List Nat) (q : Fin nq) : Fin dim → ℝ :=
  positionIn (P.el.shapeVals q) (coords nn P.points cell)

/-- Value of a nodal field at quadrature point `q` of a cell. -/
noncomputable def valueAt (P : Problem1 IV nq nfq nn vec dim) (v : Nat → Fin vec → ℝ) (cell : List Nat) (q : Fin nq) : Fin vec → ℝ :=
  interp (P.el.shapeVals q) (restrict nn v cell)

/-- Sum over all quadrature points of the mesh. -/
noncomputable def total (P : Problem1 IV nq nfq nn vec dim) (F : List Nat → Fin nq → ℝ) : ℝ :=
  (P.cells.map fun cell => cellIntegral P.el P.points cell.nodes (F cell.nodes)).sum

/-- Discrete L² distance of a nodal field from the function `u`. -/
noncomputable def valueError (P : Problem1 IV nq nfq nn vec dim) (u : (Fin dim → ℝ) → Fin vec → ℝ)
    (v : Nat → Fin vec → ℝ) : ℝ :=
  Real.sqrt (total P fun cell q => ∑ c, (valueAt P v cell q c - u (place P cell q) c) ^ 2)

/-- Discrete L² distance of the gradient of a nodal field from the matrix function `T`. -/
noncomputable def gradError (P : Problem1 IV nq nfq nn vec dim) (T : (Fin dim → ℝ) → Fin vec → Fin dim → ℝ)
    (v : Nat → Fin vec → ℝ) : ℝ :=
  Real.sqrt (total P fun cell q => ∑ c, ∑ j, (P.gradient v cell q c j - T (place P cell q) c j) ^ 2)

/-- What the discrete equations still see of a function with gradient `T` and Laplacian `L` when it is put into them:
the quadrature of `T : ∇v + L · v`. It vanishes for exact integration, by parts, of fields `v` that are zero on the
boundary. -/
noncomputable def consistency (P : Problem1 IV nq nfq nn vec dim) (T : (Fin dim → ℝ) → Fin vec → Fin dim → ℝ)
    (L : (Fin dim → ℝ) → Fin vec → ℝ) (v : Nat → Fin vec → ℝ) : ℝ :=
  total P fun cell q => contract (T (place P cell q)) (P.gradient v cell q)
    + ∑ c, L (place P cell q) c * valueAt P v cell q c

/-- The nodal field vanishes at all degrees of freedom that are not free. -/
def Vanishing (free : Nat → Fin vec → Prop) (v : Nat → Fin vec → ℝ) : Prop := ∀ n c, ¬free n c → v n c = 0

/-- Partial derivatives of `u`, as derivatives along the coordinate lines. -/
def HasGrad (u : (Fin dim → ℝ) → Fin vec → ℝ) (T : (Fin dim → ℝ) → Fin vec → Fin dim → ℝ) : Prop :=
  ∀ x, ∃ D : (Fin dim → ℝ) →L[ℝ] (Fin vec → ℝ), HasFDerivAt u D x ∧ ∀ c j, D (Pi.single j 1) c = T x c j

/-- The divergence of every row of `T` is `L`: partial derivatives along the coordinate lines, summed over the diagonal. -/
def HasDiv (T : (Fin dim → ℝ) → Fin vec → Fin dim → ℝ) (L : (Fin dim → ℝ) → Fin vec → ℝ) : Prop :=
  ∀ x, ∃ S : Fin vec → Fin dim → Fin dim → ℝ,
    (∀ c i, ∃ D : (Fin dim → ℝ) →L[ℝ] ℝ, HasFDerivAt (fun y => T y c i) D x ∧ ∀ j, D (Pi.single j 1) = S c i j) ∧
    ∀ c, L x c = ∑ i, S c i i

/-- The point lies on a face of the unit cube, up to the tolerance the script asks for. -/
def NearFace (p : Fin 3 → ℝ) : Prop := ∃ i, |p i| ≤ 1 / 10 ^ 5 ∨ |p i - 1| ≤ 2 / 10 ^ 5

end JaxFem.Convergence
