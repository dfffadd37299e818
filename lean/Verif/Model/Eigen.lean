import Mathlib.Data.Real.Basic
import Mathlib.Data.Fintype.BigOperators

/-!
# Functions of symmetric matrices

`applications/phase_field_fracture/eigen.py:10-76`: `eigen_f` and its hand-written derivative. `np.linalg.eigh` is
described by `IsEigh`; which eigenvectors it returns for repeated eigenvalues is left open. `jax.grad(fn)` is an
argument.
-/

namespace JaxFem.Eigen

open Classical in
section

variable {n : Nat}

/-- `jax.numpy.linalg.eigh` (with its default `symmetrize_input=True`): orthonormal eigenvectors, in the columns of
`evecs`, of the symmetric part. The ascending order of the eigenvalues is not used. -/
structure IsEigh (x : Fin n → Fin n → ℝ) (evals : Fin n → ℝ) (evecs : Fin n → Fin n → ℝ) : Prop where
  orth : ∀ a b, ∑ i, evecs i a * evecs i b = if a = b then 1 else 0
  eigen : ∀ i a, ∑ j, (x i j + x j i) / 2 * evecs j a = evals a * evecs i a

/-- `M = np.einsum('bi,bj->bij', evecs, evecs)` after `evecs = evecs.T` (`eigen.py:30-31,49-51`). -/
def proj (evecs : Fin n → Fin n → ℝ) (b i j : Fin n) : ℝ :=
  let evT := fun b i => evecs i b
  evT b i * evT b j

/-- `eigen_f` (`eigen.py:28-34`; the same text in `get_eigen_f_jax`, `eigen.py:12-18`). -/
def eigenF (fn : ℝ → ℝ) (e : (Fin n → ℝ) × (Fin n → Fin n → ℝ)) (i j : Fin n) : ℝ :=
  ∑ b, proj e.2 b i j * fn (e.1 b)

/-- `theta` (`eigen.py:61-65`); `/` by zero is not selected. -/
noncomputable def theta (fn grad : ℝ → ℝ) (evals : Fin n → ℝ) (a b : Fin n) : ℝ :=
  if evals a - evals b = 0 then grad (evals a) else (fn (evals a) - fn (evals b)) / (evals a - evals b)

/-- The fourth-order tensor `P` (`eigen.py:55-72`). -/
noncomputable def tensorP (fn grad : ℝ → ℝ) (e : (Fin n → ℝ) × (Fin n → Fin n → ℝ)) (i j k l : Fin n) : ℝ :=
  let M := proj e.2
  let term1 := ∑ b, M b i j * M b k l * grad (e.1 b)
  let G := fun a b => M a i k * M b j l + M a i l * M b j k
  let tmp := fun a b => G a b * theta fn grad e.1 a b
  let tmp1 := ∑ a, ∑ b, tmp a b
  let tmp2 := ∑ a, tmp a a
  term1 + 0.5 * (tmp1 - tmp2)

/-- `jvp_result` (`eigen.py:73`). -/
noncomputable def jvp (fn grad : ℝ → ℝ) (e : (Fin n → ℝ) × (Fin n → Fin n → ℝ)) (v : Fin n → Fin n → ℝ)
    (i j : Fin n) : ℝ :=
  ∑ k, ∑ l, tensorP fn grad e i j k l * v k l

end

end JaxFem.Eigen
