import Verif.Model.Hyper
import Verif.Model.Surrogate
import Verif.Model.Multiplier
import Verif.Model.Flt

/-!
# Homogenisation of a representative volume

`applications/outdated/multi_scale/fem_model.py`, `rve.py` and the preparation of the data in `trainer.py`. The scripts
import an older `jax_fem.models.Mechanics`; the weak form is that of `Problem1` without mass and surface maps, the
periodic conditions are those of `Model/Multiplier`. Powers as in `Model/Hyper`. Plotting, output of meshes, training and
`compute_traction` outside of the integrand are left out.
-/

namespace JaxFem.Rve

open scoped BigOperators

variable {nq nfq nn : Nat}

/-- Arrays of shape `(3, 3)`. -/
abbrev Tensor : Type := Fin 3 → Fin 3 → ℝ

/-- The attributes of `args` that are read by the mechanical problems (`arguments.py:21-28`, `rve.py:22-24`,
`deploy.py:51-53`). -/
structure Args where
  L : ℝ
  ratio : ℝ
  Ein : ℝ
  Eout : ℝ
  nuIn : ℝ
  nuOut : ℝ
  unitsX : Nat
  unitsY : Nat
  unitsZ : Nat

/-- `dns_info`: `None`, `'in'` or `'out'` (`fem_model.py:17`, `149-155`). -/
inductive Info
  | mixed
  | inner
  | outer
  deriving DecidableEq, Repr

open Classical in
/-- The loops over the units in `moduli_map` (`fem_model.py:136-142`). -/
noncomputable def inclusion (a : Args) (point : Fin 3 → ℝ) : Bool :=
  (List.range a.unitsX).foldl (fun s (i : Nat) => (List.range a.unitsY).foldl (fun s (j : Nat) =>
    (List.range a.unitsZ).foldl (fun s (k : Nat) =>
      let center : Fin 3 → ℝ := ![(i + 0.5) * a.L, (j + 0.5) * a.L, (k + 0.5) * a.L]
      let hit := decide (max (max |point 0 - center 0| |point 1 - center 1|) |point 2 - center 2| < a.L * a.ratio)
      s || hit) s) s) false

/-- `moduli_map` (`fem_model.py:135-145`). -/
noncomputable def moduliMap (a : Args) (point : Fin 3 → ℝ) : ℝ × ℝ :=
  (if inclusion a point then a.Ein else a.Eout, if inclusion a point then a.nuIn else a.nuOut)

/-- `compute_moduli` (`fem_model.py:134-157`) at one quadrature point. -/
noncomputable def computeModuli (a : Args) (info : Info) (point : Fin 3 → ℝ) : ℝ × ℝ :=
  let m := moduliMap a point
  let m := if info = .inner then (a.Ein, a.nuIn) else m
  if info = .outer then (a.Eout, a.nuOut) else m

/-- `self.internal_vars` (`fem_model.py:18-26`): the moduli at the physical quadrature points. -/
noncomputable def withModuli (a : Args) (info : Info) (P : Problem1 (ℝ × ℝ) nq nfq nn 3 3) :
    Problem1 (ℝ × ℝ) nq nfq nn 3 3 :=
  { P with cells := P.cells.map fun c =>
      { nodes := c.nodes
        iv := fun q => computeModuli a info (physicalPoint (P.el.shapeVals q) (physicalCoos nn P.points c.nodes)) } }

/-- The three modes (`fem_model.py:15-33`); `H_bar` has been assigned, `nn` is `nn_batch_forward` for one row. -/
inductive Mode
  | rve (H : Tensor)
  | dns
  | nn (net : (Fin 6 → ℝ) → ℝ)

/-- `psi` of `maps_rve` and of `maps_dns` (`fem_model.py:66-73`, `85-92`). -/
noncomputable def psi (iv : ℝ × ℝ) : Tensor → ℝ := Hyper.psi 3 (Hyper.muOf iv.1 iv.2) (Hyper.kappaOf iv.1 iv.2)

/-- `first_PK_stress` of the three modes (`fem_model.py:76-80`, `95-99`, `111-115`). -/
noncomputable def stress : Mode → ℝ × ℝ → Tensor → Tensor
  | .rve H, iv, uGrad => Hyper.grad (psi iv) fun i j => uGrad i j + (if i = j then 1 else 0) + H i j
  | .dns, iv, uGrad => Hyper.grad (psi iv) fun i j => uGrad i j + if i = j then 1 else 0
  | .nn net, _, uGrad => Surrogate.stressNN net uGrad

/-- `vmap_energy` of `stress_strain_fns` at one point (`fem_model.py:49-63`). -/
noncomputable def energy : Mode → ℝ × ℝ → Tensor → ℝ
  | .rve H, iv, F => psi iv fun i j => F i j + H i j
  | .dns, iv, F => psi iv F
  | .nn net, _, F => Surrogate.psiNN net F

/-- The problem in a mode: `get_tensor_map` is the stress (`fem_model.py:35-37`). -/
noncomputable def problem (m : Mode) (P : Problem1 (ℝ × ℝ) nq nfq nn 3 3) : Problem1 (ℝ × ℝ) nq nfq nn 3 3 :=
  { P with tensorMap := stress m, massMap := none, surfaces := [] }

/-- `compute_energy` (`fem_model.py:120-128`). -/
noncomputable def computeEnergy (m : Mode) (P : Problem1 (ℝ × ℝ) nq nfq nn 3 3) (sol : List (List ℝ)) : ℝ :=
  (P.cells.map fun c =>
    let uGrads : Fin nq → Tensor := solToGrad P.el 3 P.points sol c.nodes
    let F : Fin nq → Tensor := fun q i j => uGrads q i j + if i = j then 1 else 0
    ∑ q, energy m (c.iv q) (F q)
      * cellJxW (physicalCoos nn P.points c.nodes) (P.el.shapeGradsRef q) (P.el.quadWeights q)).sum

/-- `fluc_to_disp` (`fem_model.py:130-132`). -/
def flucToDisp (H : Tensor) (points : List (Fin 3 → ℝ)) (sol : List (List ℝ)) : List (List ℝ) :=
  List.zipWith (fun x row => List.ofFn fun i : Fin 3 => (∑ k, H i k * x k) + row.getD i 0) points sol

/-- `traction_fn` at one point of a face (`fem_model.py:162-182`). -/
noncomputable def traction (a : Args) (info : Info) (m : Mode) (uGrad : Tensor) : Except Err (Fin 3 → ℝ) :=
  let sigma : Except Err Tensor := match m with
    | .dns => .ok (if info = .inner then stress .dns (a.Ein, a.nuIn) uGrad else stress .dns (a.Eout, a.nuOut) uGrad)
    | .nn net => .ok (stress (.nn net) (0, 0) uGrad)
    | .rve _ => .error .notImplemented
  let normal : Fin 3 → ℝ := ![0, 0, 1]
  sigma.map fun s i => ∑ j, s i j * normal j

/-- `dirichlet_bc_info` and `periodic_bc_info` of `rve_problem` after the search for nodes (`rve.py:67-77`): `corner` are the
nodes at the origin, each element of `faces` is the pair of node lists of opposite faces (`left`/`right`, `front`/`back`,
`bottom`/`top`). -/
def conditions (fe : FE) (corner : List Nat) (faces : List (List Nat × List Nat)) : LM.Prob ℝ where
  fe := fe
  d := [0, 1, 2].map fun c => ⟨corner, List.replicate corner.length c, List.replicate corner.length 0⟩
  p := faces.flatMap fun f => [0, 1, 2].map fun c => ⟨f.1, f.2, List.replicate f.1.length c⟩

section
variable {Sol : Type}

/-- `solve_rve_problem` (`rve.py:137-151`). The solver starts from the same initial guess in every call, so that its result
is a function of `H_bar`; the energy may be NaN. -/
noncomputable def solveRve (solver : Tensor → Sol) (energyOf : Tensor → Sol → Flt ℝ) (zeros : Sol) (sample : Fin 6 → ℝ) :
    Sol × ((Fin 6 → ℝ) × Flt ℝ) :=
  let base : Tensor := Surrogate.flatToTensor sample
  let sol := solver base
  let e := energyOf base sol
  match e with
  | .nan =>
    let ratios : List ℝ := [0.25, 0.5, 0.75, 0.9, 1]
    let s := ratios.foldl (fun _ ratio => (ratio • base, solver (ratio • base))) (base, zeros)
    (s.2, (sample, energyOf s.1 s.2))
  | _ => (sol, (sample, e))

/-- The folder `root_numpy`: the data of the files `*.npy` and the files `*.txt` (`rve.py:193-198`). -/
structure Folder where
  npy : List (List Char × ((Fin 6 → ℝ) × Flt ℝ))
  txt : List (List Char)

/-- `f"{chosen_ind:05d}"` (`rve.py:195`, `198`). -/
def format05 (i : Nat) : List Char :=
  let s := Nat.toDigits 10 i
  List.replicate (5 - s.length) '0' ++ s

/-- `os.path.join(root_numpy, f"{chosen_ind:05d}.npy")` (`rve.py:198`). -/
def fileName (root : List Char) (i : Nat) : List Char := root ++ '/' :: format05 i ++ ['.', 'n', 'p', 'y']

/-- `int(file[-9:-4])` (`rve.py:185`) for a name whose last characters are digits and `.npy`. -/
def fileIndex (file : List Char) : Nat :=
  Nat.ofDigitChars 10 ((file.drop (file.length - 9)).take 5) 0

/-- `done` (`rve.py:184-185`). -/
def doneOf (f : Folder) : List Nat := f.npy.map fun r => fileIndex r.1

/-- `todo = list(set(complete) - set(done))` (`rve.py:186`). -/
def todoOf (n : Nat) (f : Folder) : List Nat := (List.range n).filter fun i => i ∉ doneOf f

/-- The body of the loop for the chosen index (`rve.py:191-198`). -/
noncomputable def record (root : List Char) (solve : (Fin 6 → ℝ) → (Fin 6 → ℝ) × Flt ℝ) (samples : List (Fin 6 → ℝ))
    (i : Nat) (f : Folder) : Folder :=
  let data := solve (samples.getD i 0)
  match data.2 with
  | .nan => { f with txt := f.txt ++ [root ++ '/' :: format05 i ++ ['.', 't', 'x', 't']] }
  | _ => { f with npy := f.npy ++ [(fileName root i, data)] }

/-- The loop of `collect_data` (`rve.py:183-198`). `choose t todo` is the `t`-th call of `onp.random.choice`; `none` if the
loop is still running after `fuel` rounds. -/
noncomputable def collect (root : List Char) (solve : (Fin 6 → ℝ) → (Fin 6 → ℝ) × Flt ℝ) (samples : List (Fin 6 → ℝ))
    (choose : Nat → List Nat → Nat) : Nat → Nat → Folder → Option Folder
  | 0, _, f => if (todoOf samples.length f).length = 0 then some f else none
  | fuel + 1, t, f =>
    let todo := todoOf samples.length f
    if todo.length = 0 then some f
    else collect root solve samples choose fuel (t + 1) (record root solve samples (choose t todo) f)

end

/-- `energy_density` and `transform_data` (`trainer.py:31-45`): one row of the training data. -/
noncomputable def trainingRow (L : ℝ) (data : (Fin 6 → ℝ) × ℝ) : (Fin 6 → ℝ) × ℝ :=
  ((Surrogate.hToC data.1).1, data.2 / L ^ 3)

/-- The index sets of `shuffle_data` (`trainer.py:82-91`); `perm` is `jax.random.permutation`, `0.8` and `0.9` are exact
here. -/
def splitInds (perm : List Nat) : List Nat × List Nat × List Nat :=
  let n := perm.length
  let a := 8 * n / 10
  let b := 9 * n / 10
  (slice perm 0 a, slice perm a b, slice perm b n)

end JaxFem.Rve
