import Verif.Model.Hyper
import Mathlib.Analysis.SpecialFunctions.Exp
import Mathlib.Analysis.SpecialFunctions.Pow.Real

/-!
# Neural networks as constitutive laws

Model of `applications/surrogate_model/train.py`, `applications/surrogate_model/example.py` (two dimensions, the gradient of
the network is the second Piola–Kirchhoff stress) and of the corresponding part of
`applications/outdated/multi_scale/fem_model.py`, `trainer.py`, `utils.py` (three dimensions, the network is the energy).

Simplifications: exact real arithmetic; `jax.grad` is the derivative; the optimiser that determines the weights is not modelled,
all statements hold for all weights. The network of `multi_scale` is any function of six numbers.
-/

namespace JaxFem.Surrogate

open Matrix

/-- `nn.elu` (flax): `where(x > 0, x, expm1(x))` (`train.py:34`). -/
noncomputable def elu (x : ℝ) : ℝ := if x > 0 then x else Real.exp x - 1

/-- `nn.Dense`: `x @ kernel + bias` (`train.py:33`). -/
def dense {m n : Nat} (kernel : Fin m → Fin n → ℝ) (bias : Fin n → ℝ) (x : Fin m → ℝ) : Fin n → ℝ :=
  fun j => ∑ i, x i * kernel i j + bias j

/-- Weights of `Network` with `w` units in each hidden layer (`train.py:33-39`, `w = 128`). -/
structure Params (w : Nat) where
  kernel0 : Fin 3 → Fin w → ℝ
  bias0 : Fin w → ℝ
  kernel1 : Fin w → Fin w → ℝ
  bias1 : Fin w → ℝ
  kernel2 : Fin w → Fin w → ℝ
  bias2 : Fin w → ℝ
  kernel3 : Fin w → Fin 1 → ℝ
  bias3 : Fin 1 → ℝ

/-- `Network.__call__` (`train.py:32-40`). -/
noncomputable def network {w : Nat} (p : Params w) (x : Fin 3 → ℝ) : Fin 1 → ℝ :=
  let x1 := fun j => elu (dense p.kernel0 p.bias0 x j)
  let x2 := fun j => elu (dense p.kernel1 p.bias1 x1 j)
  let x3 := fun j => elu (dense p.kernel2 p.bias2 x2 j)
  dense p.kernel3 p.bias3 x3

/-- `forward`: `self.model.apply(param, x).sum()` (`train.py:72-73`) for a batch of `b` inputs. -/
noncomputable def forward {w b : Nat} (p : Params w) (x : Fin b → Fin 3 → ℝ) : ℝ := ∑ k, ∑ o, network p (x k) o

/-- `compute_input_gradient` (`train.py:71-75`) for a batch, as in training (`train.py:84`). -/
noncomputable def batchGradient {w b : Nat} (p : Params w) (x : Fin b → Fin 3 → ℝ) : Fin b → Fin 3 → ℝ :=
  fun k i => fderiv ℝ (forward p) x (Pi.single k (Pi.single i 1))

/-- `compute_input_gradient` (`train.py:71-75`) for one input, as in `example.py:32,97`. -/
noncomputable def inputGradient {w : Nat} (p : Params w) (x : Fin 3 → ℝ) : Fin 3 → ℝ :=
  fun i => fderiv ℝ (fun x => ∑ o, network p x o) x (Pi.single i 1)

/-- `pk2_variable`: the three numbers of the stress in the data set (`train.py:62`). -/
def label (S : Fin 2 → Fin 2 → ℝ) : Fin 3 → ℝ := ![S 0 0, S 1 0, S 1 1]

/-- `nllloss` (`train.py:83-86`). -/
noncomputable def loss {w b : Nat} (p : Params w) (x y : Fin b → Fin 3 → ℝ) : ℝ :=
  let pred := batchGradient p x
  (∑ k, ∑ i, Real.sqrt ((y k i - pred k i) ^ 2 / (y k i ^ 2 + 1 / 10 ^ 3))) / ((b : ℝ) * 3)

/-- `P_fn` (`example.py:30-34`); `g` is the gradient of the network, `p0` is `p_initial`. -/
def pk2 (g : (Fin 3 → ℝ) → Fin 3 → ℝ) (p0 : Fin 3 → ℝ) (E : Fin 2 → Fin 2 → ℝ) : Fin 2 → Fin 2 → ℝ :=
  let k2 := ![E 0 0, E 0 1, E 1 1]
  let P := fun i => g k2 i - p0 i
  ![![P 0, P 1], ![P 1, P 2]]

/-- `first_PK_stress` (`example.py:36-43`). -/
noncomputable def firstPKStress (g : (Fin 3 → ℝ) → Fin 3 → ℝ) (p0 : Fin 3 → ℝ) (uGrad : Fin 2 → Fin 2 → ℝ) :
    Fin 2 → Fin 2 → ℝ :=
  let F : Matrix (Fin 2) (Fin 2) ℝ := of uGrad + 1
  let C := F.transpose * F
  let E := (1 / 2 : ℝ) • (C - 1)
  F * of (pk2 g p0 E)

/-- The tensor map of the solved problem: `p_initial` is the gradient at zero strain (`example.py:94-97`). -/
noncomputable def stress {w : Nat} (p : Params w) : (Fin 2 → Fin 2 → ℝ) → Fin 2 → Fin 2 → ℝ :=
  firstPKStress (inputGradient p) (inputGradient p ![0, 0, 0])

/-- `flat_to_tensor` (`multi_scale/utils.py:6-9`). -/
def flatToTensor (x : Fin 6 → ℝ) : Matrix (Fin 3) (Fin 3) ℝ :=
  !![x 0, x 3, x 4; x 3, x 1, x 5; x 4, x 5, x 2]

/-- `tensor_to_flat` (`multi_scale/utils.py:12-13`). -/
def tensorToFlat (X : Matrix (Fin 3) (Fin 3) ℝ) : Fin 6 → ℝ :=
  ![X 0 0, X 1 1, X 2 2, X 0 1, X 0 2, X 1 2]

/-- `H_to_C` (`multi_scale/trainer.py:23-28`). -/
def hToC (h : Fin 6 → ℝ) : (Fin 6 → ℝ) × Matrix (Fin 3) (Fin 3) ℝ :=
  let F := flatToTensor h + 1
  let C := F.transpose * F
  (tensorToFlat C, C)

/-- `psi` of `maps_nn` (`multi_scale/fem_model.py:105-109`); `nn` is `nn_batch_forward` for one row. -/
def psiNN (nn : (Fin 6 → ℝ) → ℝ) (F : Fin 3 → Fin 3 → ℝ) : ℝ :=
  let C := (of F).transpose * of F
  nn (tensorToFlat C)

/-- `first_PK_stress` of `maps_nn` (`multi_scale/fem_model.py:110-116`). -/
noncomputable def stressNN (nn : (Fin 6 → ℝ) → ℝ) : (Fin 3 → Fin 3 → ℝ) → Fin 3 → Fin 3 → ℝ := Hyper.firstPK (psiNN nn)

/-- `I1_bar_fn` (`multi_scale/trainer.py:131-141`). -/
noncomputable def i1bar (C : Matrix (Fin 3) (Fin 3) ℝ) : ℝ := C.det ^ (-1 / 3 : ℝ) * C.trace

/-- `I2_bar_fn` (`multi_scale/trainer.py:134-144`). -/
noncomputable def i2bar (C : Matrix (Fin 3) (Fin 3) ℝ) : ℝ :=
  C.det ^ (-2 / 3 : ℝ) * (1 / 2 * (C.trace ^ 2 - (C * C).trace))

/-- `poly_psi` (`multi_scale/trainer.py:146-158`). -/
noncomputable def polyPsi (C : Matrix (Fin 3) (Fin 3) ℝ) : List ℝ :=
  let iso := (List.range 3).flatMap fun i => (List.range 3).map fun j => (i2bar C - 3) ^ i * (i1bar C - 3) ^ j
  let vol := (List.range' 1 2).map fun k => (Real.sqrt C.det - 3) ^ (2 * k)
  (iso ++ vol).tail

end JaxFem.Surrogate
