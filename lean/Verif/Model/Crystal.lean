import Verif.Model.Kernel
import Verif.Model.Flt
import Mathlib.Analysis.Calculus.FDeriv.Basic
import Mathlib.Analysis.SpecialFunctions.Pow.Real
import Mathlib.LinearAlgebra.Matrix.NonsingularInverse

/-!
# Crystal plasticity

`applications/crystal_plasticity/models.py` and the loop over time steps of `polycrystal_neper.py`. Numbers are real;
`np.linalg.inv` of a singular matrix (infinite or NaN entries in the code) is the zero matrix here, and the theorems that
mention inverses assume nonzero determinants. `ravel_pytree` of matrices is left out: the unknown `y` of the local Newton
iteration is a 3 × 3 matrix. `np.linalg.solve` is an arbitrary function of the matrix and the right-hand side.
-/

namespace JaxFem.Crystal

open scoped BigOperators

/-- 3 × 3 matrices. -/
abbrev M3 := Fin 3 → Fin 3 → ℝ

variable {ns : Nat}

/-- `rotate_tensor_rank_4` (`models.py:21-26`). -/
def rotate4 (R : M3) (T : Fin 3 → Fin 3 → Fin 3 → Fin 3 → ℝ) (i j k l : Fin 3) : ℝ :=
  ∑ a, ∑ b, ∑ c, ∑ d, R i a * R j b * R k c * R l d * T a b c d

/-- `rotate_tensor_rank_2` (`models.py:29-32`). -/
def rotate2 (R T : M3) (i k : Fin 3) : ℝ := ∑ j, ∑ l, R i j * R k l * T j l

/-- `get_rot_mat` (`models.py:37-44`). -/
def getRotMat (q : Fin 4 → ℝ) : M3 :=
  ![![q 0 * q 0 + q 1 * q 1 - q 2 * q 2 - q 3 * q 3, 2 * q 1 * q 2 - 2 * q 0 * q 3, 2 * q 1 * q 3 + 2 * q 0 * q 2],
    ![2 * q 1 * q 2 + 2 * q 0 * q 3, q 0 * q 0 - q 1 * q 1 + q 2 * q 2 - q 3 * q 3, 2 * q 2 * q 3 - 2 * q 0 * q 1],
    ![2 * q 1 * q 3 - 2 * q 0 * q 2, 2 * q 2 * q 3 + 2 * q 0 * q 1, q 0 * q 0 - q 1 * q 1 - q 2 * q 2 + q 3 * q 3]]

/-- `input/slip_systems_fcc.txt`: normals in the first three columns, directions in the others. -/
def slipTable : Fin 12 → Fin 6 → ℤ :=
  ![![1, 1, -1, 0, 1, 1], ![1, 1, -1, 1, 0, 1], ![1, 1, -1, 1, -1, 0],
    ![1, -1, -1, 0, 1, -1], ![1, -1, -1, 1, 0, 1], ![1, -1, -1, 1, 1, 0],
    ![1, -1, 1, 0, 1, 1], ![1, -1, 1, 1, 0, -1], ![1, -1, 1, 1, 1, 0],
    ![1, 1, 1, 0, 1, -1], ![1, 1, 1, 1, 0, -1], ![1, 1, 1, 1, -1, 0]]

/-- `input_slip_sys[:, self.dim:]` before normalisation (`models.py:58`). -/
def rawDirection (t : Fin ns → Fin 6 → ℤ) (a : Fin ns) (i : Fin 3) : ℤ := t a (Fin.natAdd 3 i)

/-- `input_slip_sys[:, :self.dim]` before normalisation (`models.py:60`). -/
def rawNormal (t : Fin ns → Fin 6 → ℤ) (a : Fin ns) (i : Fin 3) : ℤ := t a (Fin.castAdd 3 i)

/-- Row divided by its norm (`models.py:59,61`). -/
noncomputable def normalise (v : Fin 3 → ℤ) (i : Fin 3) : ℝ := v i / Real.sqrt (∑ k, (v k : ℝ) ^ 2)

/-- `self.Schmid_tensors = jax.vmap(np.outer)(slip_directions, slip_normals)` (`models.py:62`). -/
noncomputable def schmid (t : Fin ns → Fin 6 → ℤ) (a : Fin ns) : M3 := fun i j =>
  normalise (rawDirection t a) i * normalise (rawNormal t a) j

/-- `self.q` (`models.py:52,64-69`): `r` everywhere, then 1 for systems with the same normal. -/
noncomputable def hardening (r : ℝ) (ns : Nat) : Nat → Nat → ℝ :=
  (List.range ns).foldl (fun q i => (List.range 3).foldl
    (fun q j => fun a b => if a = i ∧ b = i / 3 * 3 + j then 1 else q a b) q) fun _ _ => r

/-- The assignments to `self.C` (`models.py:89-115`) in the order of the code. -/
def elasticEntries (C11 C12 C44 : ℝ) : List ((Fin 3 × Fin 3 × Fin 3 × Fin 3) × ℝ) :=
  [((0, 0, 0, 0), C11), ((1, 1, 1, 1), C11), ((2, 2, 2, 2), C11),
   ((0, 0, 1, 1), C12), ((1, 1, 0, 0), C12), ((0, 0, 2, 2), C12), ((2, 2, 0, 0), C12), ((1, 1, 2, 2), C12), ((2, 2, 1, 1), C12),
   ((1, 2, 1, 2), C44), ((1, 2, 2, 1), C44), ((2, 1, 1, 2), C44), ((2, 1, 2, 1), C44),
   ((2, 0, 2, 0), C44), ((2, 0, 0, 2), C44), ((0, 2, 2, 0), C44), ((0, 2, 0, 2), C44),
   ((0, 1, 0, 1), C44), ((0, 1, 1, 0), C44), ((1, 0, 0, 1), C44), ((1, 0, 1, 0), C44)]

/-- `self.C` (`models.py:77-115`). -/
def elasticTensor (C11 C12 C44 : ℝ) (i j k l : Fin 3) : ℝ :=
  (elasticEntries C11 C12 C44).foldl (fun v e => if e.1 = (i, j, k, l) then e.2 else v) 0

/-- What the closures of `get_maps` (`models.py:123-128`) refer to. -/
structure Material (ns : Nat) where
  schmid : Fin ns → M3
  q : Fin ns → Fin ns → ℝ
  C : Fin 3 → Fin 3 → Fin 3 → Fin 3 → ℝ
  h : ℝ
  tSat : ℝ
  gssA : ℝ
  ao : ℝ
  xm : ℝ

/-- The material of the scripts (`models.py:51-117,124-128`). -/
noncomputable def fcc : Material 12 where
  schmid := schmid slipTable
  q := fun a b => hardening 1 12 a b
  C := elasticTensor 168400 121400 75400
  h := 541.5
  tSat := 109.8
  gssA := 2.5
  ao := 0.001
  xm := 0.1

/-- `gss_initial` (`models.py:53`). -/
noncomputable def gssInitial : ℝ := 60.8

/-- `np.sign`. -/
noncomputable def sgn (x : ℝ) : ℝ := if 0 < x then 1 else if x < 0 then -1 else 0

/-- Internal variables of a point: `Fp_inv, slip_resistance, slip, rot_mat`. -/
structure Internal (ns : Nat) where
  FpInv : M3
  resistance : Fin ns → ℝ
  slip : Fin ns → ℝ
  rot : M3

/-- `tau` (`models.py:151`). -/
def tau (m : Material ns) (rot S : M3) (a : Fin ns) : ℝ := ∑ i, ∑ j, S i j * rotate2 rot (m.schmid a) i j

/-- `gamma_inc` (`models.py:152`). -/
noncomputable def gammaInc (m : Material ns) (dt : ℝ) (iv : Internal ns) (S : M3) (a : Fin ns) : ℝ :=
  m.ao * dt * |tau m iv.rot S a / iv.resistance a| ^ (1 / m.xm) * sgn (tau m iv.rot S a)

/-- `g_inc` (`models.py:154-155`). -/
noncomputable def gInc (m : Material ns) (dt : ℝ) (iv : Internal ns) (S : M3) (a : Fin ns) : ℝ :=
  ∑ b, m.q a b * (m.h * |gammaInc m dt iv S b| * |1 - iv.resistance b / m.tSat| ^ m.gssA
    * sgn (1 - iv.resistance b / m.tSat))

/-- `L_plastic_inc` (`models.py:163`). -/
noncomputable def plasticInc (m : Material ns) (dt : ℝ) (iv : Internal ns) (S : M3) : M3 := fun i j =>
  ∑ a, gammaInc m dt iv S a * rotate2 iv.rot (m.schmid a) i j

/-- `F = u_grad + np.eye(self.dim)` (`models.py:162`). -/
noncomputable def defGrad (uGrad : M3) : Matrix (Fin 3) (Fin 3) ℝ := Matrix.of uGrad + 1

/-- `Fp_inv_new` (`models.py:164`). -/
noncomputable def fpInvNew (m : Material ns) (dt : ℝ) (iv : Internal ns) (S : M3) : Matrix (Fin 3) (Fin 3) ℝ :=
  Matrix.of iv.FpInv * (1 - Matrix.of (plasticInc m dt iv S))

/-- `Fe` (`models.py:165`). -/
noncomputable def elasticF (m : Material ns) (dt : ℝ) (iv : Internal ns) (uGrad S : M3) : Matrix (Fin 3) (Fin 3) ℝ :=
  defGrad uGrad * fpInvNew m dt iv S

/-- `implicit_residual` (`models.py:168-174`). -/
noncomputable def implicitResidual (m : Material ns) (dt : ℝ) (iv : Internal ns) (uGrad S : M3) : M3 := fun i j =>
  let Fe := elasticF m dt iv uGrad S
  S i j - ∑ k, ∑ l, rotate4 iv.rot m.C i j k l * (1 / 2) * (Fe.transpose * Fe - 1) k l

/-- What the local Newton iteration needs: residual, norm, increment and `y + a*y_inc`. The norm is a floating point
number so that NaN and infinity are possible. -/
structure Ops (Y V : Type) where
  res : Y → V
  norm : V → Flt ℝ
  inc : Y → V → Y
  axpy : Y → ℝ → Y → Y

variable {Y V : Type}

/-- `a >= b` for floating point numbers: false if one of them is NaN. -/
noncomputable def fge (a b : Flt ℝ) : Bool := !a.isNaN && !b.isNaN && !b.gt a

/-- The inner `while_loop` (`models.py:205-214`), at most `left` more passes; `crt` is the residual of the last trial. -/
noncomputable def lineSearch (o : Ops Y V) (y yInc : Y) (res : V) : Nat → ℝ → V → ℝ × V
  | 0, relax, crt => (relax, crt)
  | left + 1, relax, crt =>
    if fge (o.norm crt) (o.norm res) then
      lineSearch o y yInc res left (0.5 * relax) (o.res (o.axpy y relax yInc))
    else (relax, crt)

/-- `body_fun` (`models.py:190-217`). -/
noncomputable def body (o : Ops Y V) (s : Nat × V × Y) : Nat × V × Y :=
  let yInc := o.inc s.2.2 s.2.1
  let r := lineSearch o s.2.2 yInc s.2.1 5 1 s.2.1
  (s.1 + 1, r.2, o.axpy s.2.2 (2 * r.1) yInc)

/-- The outer `while_loop` (`models.py:186-188,219`); `none` if it is still running after `fuel` tests. -/
noncomputable def newtonLoop (o : Ops Y V) (tol : ℝ) : Nat → Nat × V × Y → Option (Nat × V × Y)
  | 0, _ => none
  | fuel + 1, s => if (o.norm s.2.1).gt (.fin tol) then newtonLoop o tol fuel (body o s) else some s

/-- `newton_solver` (`models.py:176-221`). -/
noncomputable def newtonSolver (o : Ops Y V) (y0 : Y) (fuel : Nat) : Option (Nat × V × Y) :=
  newtonLoop o (1 / 10 ^ 8) fuel (0, o.res y0, y0)

/-- Frobenius norm. -/
noncomputable def frob (A : M3) : ℝ := Real.sqrt (∑ i, ∑ j, A i j ^ 2)

/-- The iteration for a residual function; `jax.jacfwd` is the derivative, `np.linalg.solve` is `solve`. -/
noncomputable def ops (solve : (M3 →L[ℝ] M3) → M3 → M3) (res : M3 → M3) : Ops M3 M3 where
  res := res
  norm := fun v => .fin (frob v)
  inc := fun y v => solve (fderiv ℝ res y) (-v)
  axpy := fun y a d => y + a • d

/-- `S` in `first_PK_stress` and `update_int_vars` (`models.py:135-137,144-146`). -/
noncomputable def stressS (solve : (M3 →L[ℝ] M3) → M3 → M3) (fuel : Nat) (m : Material ns) (dt : ℝ) (iv : Internal ns)
    (uGrad : M3) : Option M3 :=
  (newtonSolver (ops solve (implicitResidual m dt iv uGrad)) 0 fuel).map fun s => s.2.2

/-- `sigma` and `P` for given `S` (`models.py:138-140`). -/
noncomputable def piola (m : Material ns) (dt : ℝ) (iv : Internal ns) (uGrad S : M3) : Matrix (Fin 3) (Fin 3) ℝ :=
  let Fe := elasticF m dt iv uGrad S
  let F := defGrad uGrad
  let sigma := (1 / Fe.det) • (Fe * Matrix.of S * Fe.transpose)
  F.det • (sigma * F⁻¹.transpose)

/-- `first_PK_stress` (`models.py:134-141`). -/
noncomputable def firstPK (solve : (M3 →L[ℝ] M3) → M3 → M3) (fuel : Nat) (m : Material ns) (dt : ℝ) (iv : Internal ns)
    (uGrad : M3) : Option (Matrix (Fin 3) (Fin 3) ℝ) :=
  (stressS solve fuel m dt iv uGrad).map (piola m dt iv uGrad)

/-- The new internal variables for given `S` (`models.py:147-148,160-164`). -/
noncomputable def update (m : Material ns) (dt : ℝ) (iv : Internal ns) (S : M3) : Internal ns where
  FpInv := fun i j => fpInvNew m dt iv S i j
  resistance := fun a => iv.resistance a + gInc m dt iv S a
  slip := fun a => iv.slip a + gammaInc m dt iv S a
  rot := iv.rot

/-- `update_int_vars` (`models.py:143-148`). -/
noncomputable def updateIntVars (solve : (M3 →L[ℝ] M3) → M3 → M3) (fuel : Nat) (m : Material ns) (dt : ℝ) (iv : Internal ns)
    (uGrad : M3) : Option (Internal ns) :=
  (stressS solve fuel m dt iv uGrad).map (update m dt iv)

/-- The initial internal variables (`models.py:71-76`). -/
noncomputable def initial (ns : Nat) (rot : M3) : Internal ns where
  FpInv := fun i j => if i = j then 1 else 0
  resistance := fun _ => gssInitial
  slip := fun _ => 0
  rot := rot

/-- `f_jvp` (`models.py:223-231`) for a residual `res x y`, at `y = newton_solver(x)`. -/
noncomputable def jvp {X E : Type} [NormedAddCommGroup X] [NormedSpace ℝ X] [NormedAddCommGroup E] [NormedSpace ℝ E]
    (solve : (E →L[ℝ] E) → E → E) (res : X → E → E) (x : X) (y : E) (v : X) : E :=
  solve (fderiv ℝ (fun y => res x y) y) (-(fderiv ℝ (fun x => res x y) x v))

/-- `P_to_sigma` (`models.py:280-281`). -/
noncomputable def pToSigma (P F : Matrix (Fin 3) (Fin 3) ℝ) : Matrix (Fin 3) (Fin 3) ℝ := (1 / F.det) • (P * F.transpose)

/-- One entry of `sigma_cell_data` (`models.py:287`): average over the quadrature points of a cell. -/
noncomputable def cellAverage {nq : Nat} (JxW : Fin nq → ℝ) (sigma : Fin nq → Matrix (Fin 3) (Fin 3) ℝ) : Matrix (Fin 3) (Fin 3) ℝ :=
  fun i j => (∑ q, sigma q i j * JxW q) / ∑ q, JxW q

/-- The time steps (`polycrystal_neper.py:142-156`) at one quadrature point, for given time increments and displacement gradients:
stress with the internal variables before the step (`compute_avg_stress`), then `update_int_vars_gp`. -/
noncomputable def history (solve : (M3 →L[ℝ] M3) → M3 → M3) (fuel : Nat) (m : Material ns) :
    Internal ns → List (ℝ × M3) → Option (List (Matrix (Fin 3) (Fin 3) ℝ) × Internal ns)
  | iv, [] => some ([], iv)
  | iv, s :: l => do
    let P ← firstPK solve fuel m s.1 iv s.2
    let iv' ← updateIntVars solve fuel m s.1 iv s.2
    let r ← history solve fuel m iv' l
    return (P :: r.1, r.2)

/-- The problem object as far as `dt` is concerned: the attribute, and the constant in the compiled element kernel (`none`
before the first residual is computed). -/
structure DtState where
  dt : ℝ
  compiled : Option ℝ

/-- One time step (`polycrystal_neper.py:142-156`): assign `problem.dt`; `solver` evaluates the kernel that was compiled in
its first call, where `self.dt` was read; `update_int_vars_gp` compiles anew (`models.py:247`) and reads the current `self.dt`.
Returns the time increments used in the residual and in the update. -/
noncomputable def timeStep (s : DtState) (dtNew : ℝ) : DtState × (ℝ × ℝ) :=
  let c := s.compiled.getD dtNew
  (⟨dtNew, some c⟩, (c, dtNew))

/-- All time steps. -/
noncomputable def timeSteps : DtState → List ℝ → List (ℝ × ℝ)
  | _, [] => []
  | s, d :: ds => let r := timeStep s d; r.2 :: timeSteps r.1 ds

end JaxFem.Crystal
