import Verif.Model.Eigen
import Verif.Model.Hyper
import Verif.Model.Boundary
import Verif.Model.StructMesh
import Mathlib.Analysis.SpecialFunctions.Log.Basic

/-!
# Third medium contact

Model of `applications/third_medium_contact/example.py`. `np.linalg.eigh` is described by `Eigen.IsEigh`, the
matrix of noise (`jax.random.uniform`, lines 49-52) is an argument. `jax.grad` is the derivative: JAX differentiates
through `eigh`, which gives NaN where two eigenvalues coincide; this is not modelled.
-/

namespace JaxFem.Contact

open Matrix

/-- Matrices of order three. -/
abbrev M3 := Matrix (Fin 3) (Fin 3) ℝ

/-- `np.linalg.eigh`. -/
abbrev Eigh := (Fin 3 → Fin 3 → ℝ) → (Fin 3 → ℝ) × (Fin 3 → Fin 3 → ℝ)

/-- `F_3d = np.eye(3).at[:2, :2].set(F_2d)` (`example.py:57-58,76-77`). -/
def setBlock (F : Fin 2 → Fin 2 → ℝ) : M3 := of fun i j =>
  if h : (i : Nat) < 2 ∧ (j : Nat) < 2 then F ⟨i, h.1⟩ ⟨j, h.2⟩ else if i = j then 1 else 0

/-- `noise = np.diag(np.diag(noise))` (`example.py:52`). -/
def diagNoise (noise : Fin 2 → Fin 2 → ℝ) : Fin 2 → Fin 2 → ℝ := fun i j => if i = j then noise i i else 0

/-- `u_grad += noise; F_2d = u_grad + np.eye(2)` (`example.py:55-56,98-99`). -/
def planeGrad (noise uGrad : Fin 2 → Fin 2 → ℝ) : Fin 2 → Fin 2 → ℝ :=
  fun i j => uGrad i j + diagNoise noise i j + if i = j then 1 else 0

/-- `deform_grad` (`example.py:54-59`). -/
def deformGrad (noise uGrad : Fin 2 → Fin 2 → ℝ) : M3 := setBlock (planeGrad noise uGrad)

/-- `U = Q @ Lambda_sqrt @ Q.T` (`example.py:62-67`). -/
noncomputable def stretch (eigh : Eigh) (F : M3) : M3 :=
  let C := F.transpose * F
  let e := eigh C
  of e.2 * diagonal (fun k => Real.sqrt (e.1 k)) * (of e.2).transpose

/-- `rotation` (`example.py:61-69`). -/
noncomputable def rotation (eigh : Eigh) (F : M3) : M3 := F * (stretch eigh F)⁻¹

/-- Constants of `psi` (`example.py:72-75,80,90`). -/
structure Mat where
  E : ℝ
  nu : ℝ
  kR : ℝ
  soft : ℝ

/-- The numbers of the script. -/
noncomputable def script : Mat := ⟨1, 2 / 5, 1 / 100, 1 / 10 ^ 6⟩

/-- `K` (`example.py:74`). -/
noncomputable def Mat.K (m : Mat) : ℝ := m.E / (3 * (1 - 2 * m.nu))

/-- `G` (`example.py:75`). -/
noncomputable def Mat.G (m : Mat) : ℝ := m.E / (2 * (1 + m.nu))

/-- `psi_reg` (`example.py:81`). -/
noncomputable def psiReg (kR : ℝ) (R Rold : M3) : ℝ :=
  1 / 2 * kR * ((1 - R * Rold.transpose) * (1 - R * Rold.transpose).transpose).trace

/-- `psi` (`example.py:71-93`). -/
noncomputable def psi (eigh : Eigh) (m : Mat) (theta : ℝ) (Rold : M3) (F2 : Fin 2 → Fin 2 → ℝ) : ℝ :=
  let F := setBlock F2
  let R := rotation eigh F
  let J := F.det
  let I1 := (F.transpose * F).trace
  let Jinv := J ^ (-2 / 3 : ℝ)
  let I1bar := Jinv * I1
  let logJ := Real.log J
  let psiVol := 1 / 2 * m.K * logJ ^ 2
  let psiIso := 1 / 2 * m.G * (I1bar - 3)
  let gammaK := if theta > 1 / 2 then 1 else 0
  let gammaG := if theta > 1 / 2 then 1 else m.soft
  let gammaR := if theta > 1 / 2 then 0 else 1
  gammaK * psiVol + gammaG * psiIso + gammaR * psiReg m.kR R Rold

/-- `first_PK_stress` (`example.py:95-101`). -/
noncomputable def firstPKStress (eigh : Eigh) (m : Mat) (noise uGrad : Fin 2 → Fin 2 → ℝ) (theta : ℝ) (Rold : M3) :
    Fin 2 → Fin 2 → ℝ :=
  Hyper.grad (psi eigh m theta Rold) (planeGrad noise uGrad)

/-- `mean_Rs` of one cell (`example.py:105-114`): the same matrix for all quadrature points. -/
noncomputable def meanRotation {nq nn : Nat} (eigh : Eigh) (noise : Fin 2 → Fin 2 → ℝ) (el : RefElement ℝ nq nn 2)
    (points : List (Fin 2 → ℝ)) (sol : List (List ℝ)) (cell : List Nat) : Fin nq → M3 :=
  fun _ => (1 / (nq : ℝ)) • ∑ q, rotation eigh (deformGrad noise (solToGrad el 2 points sol cell q))

/-- A problem whose `get_tensor_map` is that of `Contact` (`example.py:43-45,117-119`): the internal variables are `theta` and
`R_old`; mesh, element and surface maps are those of `P`. -/
noncomputable def withContact {nq nfq nn : Nat} (P : Problem1 (ℝ × M3) nq nfq nn 2 2) (eigh : Eigh) (m : Mat)
    (noise : Fin 2 → Fin 2 → ℝ) : Problem1 (ℝ × M3) nq nfq nn 2 2 :=
  { P with tensorMap := fun iv uGrad => firstPKStress eigh m noise uGrad iv.1 iv.2, massMap := none }

/-- `np.isclose(x, b, atol=1e-5)` with the default relative tolerance. -/
def isclose (x b : ℝ) : Prop := |x - b| ≤ 1 / 10 ^ 5 + 1 / 10 ^ 5 * |b|

/-- `length` and `height` (`example.py:28-29`). -/
def specimen : ℝ × ℝ := (1000, 500)

/-- The mesh (`example.py:135-137`) for the mesh size `h = height / n`: then `round(length/h) = 2 n`, `round(height/h) = n`. -/
noncomputable def contactMesh (n : Nat) : List (Fin 2 → ℝ) × List (List Nat) :=
  rectangleMesh (2 * n + 1) n (specimen.1 + specimen.2 / n) specimen.2

open Classical in
/-- `left` (`example.py:139-140`). -/
noncomputable def left : LocFn (Fin 2 → ℝ) := .one fun p => isclose (p 0) 0

open Classical in
/-- `rightmost_node` (`example.py:142-143`). -/
noncomputable def rightmostNode : LocFn (Fin 2 → ℝ) := .one fun p => isclose (p 0) specimen.1 ∧ isclose (p 1) specimen.2

/-- `get_dirichlet_topright` (`example.py:124-128`). -/
def dirichletTopright (scale : ℝ) : (Fin 2 → ℝ) → ℝ := fun _ => -scale * specimen.2

/-- `dirichlet_bc_info` (`example.py:148-152`). -/
noncomputable def contactInfo : List (LocFn (Fin 2 → ℝ)) × List Nat × List ((Fin 2 → ℝ) → ℝ) :=
  ([left, left, rightmostNode], [0, 1, 1], [fun _ => 0, fun _ => 0, dirichletTopright 0])

/-- `set_params`: the last value function is replaced (`example.py:117-121`). -/
noncomputable def setParams (info : List (LocFn (Fin 2 → ℝ)) × List Nat × List ((Fin 2 → ℝ) → ℝ)) (scale : ℝ) :
    List (LocFn (Fin 2 → ℝ)) × List Nat × List ((Fin 2 → ℝ) → ℝ) :=
  (info.1, info.2.1, info.2.2.set (info.2.2.length - 1) (dirichletTopright scale))

/-- `fwd_pred_seq` (`example.py:170-179`): `forward guess scale R_old` is the call of `fwd_pred` with `guess` as
`initial_guess`, `post` is `post_processing`. Both may raise. -/
def fwdPredSeq {S Rs : Type} (forward : S → ℝ → Rs → Except Err S) (post : S → Except Err Rs) :
    List ℝ → S → Except Err S
  | [], sol => .ok sol
  | d :: ds, sol => do
    let old ← post sol
    let sol' ← forward sol d old
    fwdPredSeq forward post ds sol'

end JaxFem.Contact
