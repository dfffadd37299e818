import Mathlib.Analysis.SpecialFunctions.Pow.Real
import Mathlib.Data.Matrix.Block
import Mathlib.Algebra.BigOperators.Fin
import Verif.Arr

/-!
# Method of moving asymptotes

Model of `jax_fem/mma.py`. Column vectors `(n, 1)` are functions on `Fin n`; arithmetic is exact (ℝ), so
non-finite floats are not covered. `numpy.linalg.solve` is a parameter (any function, possibly raising).
-/

namespace JaxFem
namespace MMA

open scoped BigOperators

variable {m n : Nat}

/-! ### `mmasub` -/

/-- What `mmasub` reads from the object (`mma.py:115-124`): bounds, previous iterates, asymptotes, the
number of registered iterations, move limit and scaling parameters. -/
structure Obj (m n : Nat) where
  epoch : Nat
  xmin : Fin n → ℝ
  xmax : Fin n → ℝ
  xold1 : Fin n → ℝ
  xold2 : Fin n → ℝ
  low : Fin n → ℝ
  upp : Fin n → ℝ
  move : ℝ
  zconst : ℝ
  zscale : Fin m → ℝ
  ylinscale : Fin m → ℝ
  yquadscale : Fin m → ℝ

/-- `factor` (`mma.py:140-143`). -/
noncomputable def asyFactor (xval xold1 xold2 : ℝ) : ℝ :=
  let zzz := (xval - xold1) * (xold1 - xold2)
  if zzz < 0 then 0.7 else if zzz > 0 then 1.2 else 1

/-- `low` (`mma.py:136-153`), one component. -/
noncomputable def newLow (iter : Nat) (xmin xmax xval xold1 xold2 low : ℝ) : ℝ :=
  if iter ≤ 2 then xval - 0.5 * (xmax - xmin)
  else
    let l := xval - asyFactor xval xold1 xold2 * (xold1 - low)
    min (max l (xval - 10 * (xmax - xmin))) (xval - 0.01 * (xmax - xmin))

/-- `upp` (`mma.py:136-153`), one component. -/
noncomputable def newUpp (iter : Nat) (xmin xmax xval xold1 xold2 upp : ℝ) : ℝ :=
  if iter ≤ 2 then xval + 0.5 * (xmax - xmin)
  else
    let u := xval + asyFactor xval xold1 xold2 * (upp - xold1)
    max (min u (xval + 10 * (xmax - xmin))) (xval + 0.01 * (xmax - xmin))

/-- `alfa` (`mma.py:155-158`), one component. -/
noncomputable def alfaOf (xmin xmax move xval low : ℝ) : ℝ :=
  max (max (low + 0.1 * (xval - low)) (xval - move * (xmax - xmin))) xmin

/-- `beta` (`mma.py:159-162`), one component. -/
noncomputable def betaOf (xmin xmax move xval upp : ℝ) : ℝ :=
  min (min (upp - 0.1 * (upp - xval)) (xval + move * (xmax - xmin))) xmax

/-- Arguments of `subsolv` (`mma.py:207`). -/
structure SubProb (m n : Nat) where
  low : Fin n → ℝ
  upp : Fin n → ℝ
  alfa : Fin n → ℝ
  beta : Fin n → ℝ
  p0 : Fin n → ℝ
  q0 : Fin n → ℝ
  P : Fin m → Fin n → ℝ
  Q : Fin m → Fin n → ℝ
  a0 : ℝ
  a : Fin m → ℝ
  b : Fin m → ℝ
  c : Fin m → ℝ
  d : Fin m → ℝ

/-- `p0`-like coefficient before scaling with the squared distance (`mma.py:175-179`, `184-188`): positive
part of the derivative plus `0.001·|df| + raa0/xmami`. -/
noncomputable def pCoef (df xmamiinv : ℝ) : ℝ :=
  max df 0 + (0.001 * (max df 0 + max (-df) 0) + 0.00001 * xmamiinv)

/-- The subproblem built by `mmasub` (`mma.py:115-196`). -/
noncomputable def mmasubProblem (o : Obj m n) (xval : Fin n → ℝ) (df0dx : Fin n → ℝ) (fval : Fin m → ℝ)
    (dfdx : Fin m → Fin n → ℝ) : SubProb m n :=
  let low := fun j => newLow o.epoch (o.xmin j) (o.xmax j) (xval j) (o.xold1 j) (o.xold2 j) (o.low j)
  let upp := fun j => newUpp o.epoch (o.xmin j) (o.xmax j) (xval j) (o.xold1 j) (o.xold2 j) (o.upp j)
  let xmamiinv := fun j => 1 / max (o.xmax j - o.xmin j) 0.00001
  let ux1 := fun j => upp j - xval j
  let xl1 := fun j => xval j - low j
  let p0 := fun j => pCoef (df0dx j) (xmamiinv j) * (ux1 j * ux1 j)
  let q0 := fun j => pCoef (-df0dx j) (xmamiinv j) * (xl1 j * xl1 j)
  let P := fun i j => ux1 j * ux1 j * pCoef (dfdx i j) (xmamiinv j)
  let Q := fun i j => xl1 j * xl1 j * pCoef (-dfdx i j) (xmamiinv j)
  { low := low
    upp := upp
    alfa := fun j => alfaOf (o.xmin j) (o.xmax j) o.move (xval j) (low j)
    beta := fun j => betaOf (o.xmin j) (o.xmax j) o.move (xval j) (upp j)
    p0 := p0
    q0 := q0
    P := P
    Q := Q
    a0 := o.zconst
    a := o.zscale
    b := fun i => ∑ j, P i j * (1 / ux1 j) + ∑ j, Q i j * (1 / xl1 j) - fval i
    c := o.ylinscale
    d := o.yquadscale }

/-! ### `subsolv` -/

/-- The nine groups of unknowns of `subsolv`; also used for directions and residuals. -/
@[ext] structure SubState (m n : Nat) where
  x : Fin n → ℝ
  y : Fin m → ℝ
  z : ℝ
  lam : Fin m → ℝ
  xsi : Fin n → ℝ
  eta : Fin n → ℝ
  mu : Fin m → ℝ
  zet : ℝ
  s : Fin m → ℝ

/-- Starting point (`mma.py:208-224`). -/
noncomputable def subInit (pb : SubProb m n) : SubState m n :=
  let x := fun j => 0.5 * (pb.alfa j + pb.beta j)
  { x := x
    y := fun _ => 1
    z := 1
    lam := fun _ => 1
    xsi := fun j => max (1 / (x j - pb.alfa j)) 1
    eta := fun j => max (1 / (pb.beta j - x j)) 1
    mu := fun i => max 1 (0.5 * pb.c i)
    zet := 1
    s := fun _ => 1 }

/-- `plam` (`mma.py:235`). -/
noncomputable def plam (pb : SubProb m n) (lam : Fin m → ℝ) (j : Fin n) : ℝ := pb.p0 j + ∑ i, pb.P i j * lam i

/-- `qlam` (`mma.py:236`). -/
noncomputable def qlam (pb : SubProb m n) (lam : Fin m → ℝ) (j : Fin n) : ℝ := pb.q0 j + ∑ i, pb.Q i j * lam i

/-- `gvec` (`mma.py:237`). -/
noncomputable def gvec (pb : SubProb m n) (x : Fin n → ℝ) (i : Fin m) : ℝ :=
  ∑ j, pb.P i j * (1 / (pb.upp j - x j)) + ∑ j, pb.Q i j * (1 / (x j - pb.low j))

/-- `dpsidx` (`mma.py:238`). -/
noncomputable def dpsidx (pb : SubProb m n) (st : SubState m n) (j : Fin n) : ℝ :=
  plam pb st.lam j / ((pb.upp j - st.x j) * (pb.upp j - st.x j)) -
    qlam pb st.lam j / ((st.x j - pb.low j) * (st.x j - pb.low j))

/-- The residual groups (`mma.py:239-247`, and again `374-382`). -/
noncomputable def subResidual (pb : SubProb m n) (epsi : ℝ) (st : SubState m n) : SubState m n where
  x := fun j => dpsidx pb st j - st.xsi j + st.eta j
  y := fun i => pb.c i + pb.d i * st.y i - st.mu i - st.lam i
  z := pb.a0 - st.zet - ∑ i, pb.a i * st.lam i
  lam := fun i => gvec pb st.x i - pb.a i * st.z - st.y i + st.s i - pb.b i
  xsi := fun j => st.xsi j * (st.x j - pb.alfa j) - epsi
  eta := fun j => st.eta j * (pb.beta j - st.x j) - epsi
  mu := fun i => st.mu i * st.y i - epsi
  zet := st.zet * st.z - epsi
  s := fun i => st.lam i * st.s i - epsi

/-- Concatenation of all groups (`mma.py:248-250`). -/
def SubState.toList (st : SubState m n) : List ℝ :=
  List.ofFn st.x ++ List.ofFn st.y ++ [st.z] ++ List.ofFn st.lam ++ List.ofFn st.xsi ++ List.ofFn st.eta ++
    List.ofFn st.mu ++ [st.zet] ++ List.ofFn st.s

/-- `np.max` of a non-empty array. -/
noncomputable def npMax : List ℝ → ℝ
  | [] => 0
  | a :: l => l.foldl max a

/-- `residunorm` (`mma.py:251`). -/
noncomputable def residuNorm (r : SubState m n) : ℝ := Real.sqrt (r.toList.map fun v => v * v).sum

/-- `residumax` (`mma.py:252`, `389`). -/
noncomputable def residuMax (r : SubState m n) : ℝ := npMax (r.toList.map abs)

/-- Derivative of the approximated constraints (`mma.py:274`). -/
noncomputable def GG (pb : SubProb m n) (x : Fin n → ℝ) (i : Fin m) (j : Fin n) : ℝ :=
  1 / ((pb.upp j - x j) * (pb.upp j - x j)) * pb.P i j - 1 / ((x j - pb.low j) * (x j - pb.low j)) * pb.Q i j

/-- `delx` (`mma.py:277`). -/
noncomputable def delx (pb : SubProb m n) (epsi : ℝ) (st : SubState m n) (j : Fin n) : ℝ :=
  dpsidx pb st j - epsi / (st.x j - pb.alfa j) + epsi / (pb.beta j - st.x j)

/-- `dely` (`mma.py:278`). -/
noncomputable def dely (pb : SubProb m n) (epsi : ℝ) (st : SubState m n) (i : Fin m) : ℝ :=
  pb.c i + pb.d i * st.y i - st.lam i - epsi / st.y i

/-- `delz` (`mma.py:279`). -/
noncomputable def delz (pb : SubProb m n) (epsi : ℝ) (st : SubState m n) : ℝ :=
  pb.a0 - ∑ i, pb.a i * st.lam i - epsi / st.z

/-- `dellam` (`mma.py:280`). -/
noncomputable def dellam (pb : SubProb m n) (epsi : ℝ) (st : SubState m n) (i : Fin m) : ℝ :=
  gvec pb st.x i - pb.a i * st.z - st.y i - pb.b i + epsi / st.lam i

/-- `diagx` (`mma.py:281-282`). -/
noncomputable def diagx (pb : SubProb m n) (st : SubState m n) (j : Fin n) : ℝ :=
  let ux1 := pb.upp j - st.x j
  let xl1 := st.x j - pb.low j
  2 * (plam pb st.lam j / (ux1 * (ux1 * ux1)) + qlam pb st.lam j / (xl1 * (xl1 * xl1))) +
    st.xsi j / (st.x j - pb.alfa j) + st.eta j / (pb.beta j - st.x j)

/-- `diagy` (`mma.py:284`). -/
noncomputable def diagy (pb : SubProb m n) (st : SubState m n) (i : Fin m) : ℝ := pb.d i + st.mu i / st.y i

/-- `diaglamyi` (`mma.py:286-287`). -/
noncomputable def diaglamyi (pb : SubProb m n) (st : SubState m n) (i : Fin m) : ℝ :=
  st.s i / st.lam i + 1 / diagy pb st i

/-- `numpy.linalg.solve(A, b)`: any function; it may raise. -/
abbrev LinSolve := (ι : Type) → (ι → ι → ℝ) → (ι → ℝ) → Except Err (ι → ℝ)

/-- The system for `(dlam, dz)` when `m < n` (`mma.py:291-301`). -/
noncomputable def systemLam (pb : SubProb m n) (epsi : ℝ) (st : SubState m n) :
    Matrix (Fin m ⊕ Unit) (Fin m ⊕ Unit) ℝ × (Fin m ⊕ Unit → ℝ) :=
  let blam := fun i => dellam pb epsi st i + dely pb epsi st i / diagy pb st i -
    ∑ j, GG pb st.x i j * (delx pb epsi st j / diagx pb st j)
  let Alam : Matrix (Fin m) (Fin m) ℝ := Matrix.of fun i k =>
    (if i = k then diaglamyi pb st i else 0) + ∑ j, (1 / diagx pb st j * GG pb st.x i j) * GG pb st.x k j
  (Matrix.fromBlocks Alam (Matrix.of fun i _ => pb.a i) (Matrix.of fun _ k => pb.a k)
      (Matrix.of fun _ _ => -st.zet / st.z),
    Sum.elim blam fun _ => delz pb epsi st)

/-- The system for `(dx, dz)` when `m ≥ n` (`mma.py:307-318`). -/
noncomputable def systemX (pb : SubProb m n) (epsi : ℝ) (st : SubState m n) :
    Matrix (Fin n ⊕ Unit) (Fin n ⊕ Unit) ℝ × (Fin n ⊕ Unit → ℝ) :=
  let dellamyi := fun i => dellam pb epsi st i + dely pb epsi st i / diagy pb st i
  let Axx : Matrix (Fin n) (Fin n) ℝ := Matrix.of fun j k =>
    (if j = k then diagx pb st j else 0) + ∑ i, (1 / diaglamyi pb st i * GG pb st.x i j) * GG pb st.x i k
  let azz := st.zet / st.z + ∑ i, pb.a i * (pb.a i / diaglamyi pb st i)
  let axz := fun j => ∑ i, -GG pb st.x i j * (pb.a i / diaglamyi pb st i)
  let bx := fun j => delx pb epsi st j + ∑ i, GG pb st.x i j * (dellamyi i / diaglamyi pb st i)
  let bz := delz pb epsi st - ∑ i, pb.a i * (dellamyi i / diaglamyi pb st i)
  (Matrix.fromBlocks Axx (Matrix.of fun j _ => axz j) (Matrix.of fun _ k => axz k) (Matrix.of fun _ _ => azz),
    Sum.elim (fun j => -bx j) fun _ => -bz)

/-- `dx, dz, dlam` (`mma.py:289-323`). -/
noncomputable def mainDirs (solve : LinSolve) (pb : SubProb m n) (epsi : ℝ) (st : SubState m n) :
    Except Err ((Fin n → ℝ) × ℝ × (Fin m → ℝ)) :=
  if m < n then do
    let sys := systemLam pb epsi st
    let solut ← solve (Fin m ⊕ Unit) sys.1 sys.2
    let dlam := fun i => solut (.inl i)
    let dx := fun j => -delx pb epsi st j / diagx pb st j - (∑ i, GG pb st.x i j * dlam i) / diagx pb st j
    pure (dx, solut (.inr ()), dlam)
  else do
    let sys := systemX pb epsi st
    let solut ← solve (Fin n ⊕ Unit) sys.1 sys.2
    let dx := fun j => solut (.inl j)
    let dz := solut (.inr ())
    let dlam := fun i => (∑ j, GG pb st.x i j * dx j) / diaglamyi pb st i -
      dz * (pb.a i / diaglamyi pb st i) +
      (dellam pb epsi st i + dely pb epsi st i / diagy pb st i) / diaglamyi pb st i
    pure (dx, dz, dlam)

/-- The remaining directions (`mma.py:325-330`). -/
noncomputable def completeDirs (pb : SubProb m n) (epsi : ℝ) (st : SubState m n) (dx : Fin n → ℝ) (dz : ℝ)
    (dlam : Fin m → ℝ) : SubState m n :=
  let dy := fun i => -dely pb epsi st i / diagy pb st i + dlam i / diagy pb st i
  { x := dx
    y := dy
    z := dz
    lam := dlam
    xsi := fun j => -st.xsi j + epsi / (st.x j - pb.alfa j) - st.xsi j * dx j / (st.x j - pb.alfa j)
    eta := fun j => -st.eta j + epsi / (pb.beta j - st.x j) + st.eta j * dx j / (pb.beta j - st.x j)
    mu := fun i => -st.mu i + epsi / st.y i - st.mu i * dy i / st.y i
    zet := -st.zet + epsi / st.z - st.zet * dz / st.z
    s := fun i => -st.s i + epsi / st.lam i - st.s i * dlam i / st.lam i }

/-- The concatenation `y, z, lam, xsi, eta, mu, zet, s` (`mma.py:331-332`). -/
def SubState.posList (st : SubState m n) : List ℝ :=
  List.ofFn st.y ++ [st.z] ++ List.ofFn st.lam ++ List.ofFn st.xsi ++ List.ofFn st.eta ++ List.ofFn st.mu ++
    [st.zet] ++ List.ofFn st.s

/-- `steg` (`mma.py:334-343`). -/
noncomputable def stepLength (pb : SubProb m n) (st d : SubState m n) : ℝ :=
  let stmxx := npMax (List.zipWith (fun dv v => -1.01 * dv / v) d.posList st.posList)
  let stmalfa := npMax (List.ofFn fun j => -1.01 * d.x j / (st.x j - pb.alfa j))
  let stmbeta := npMax (List.ofFn fun j => 1.01 * d.x j / (pb.beta j - st.x j))
  let stmalbe := max stmalfa stmbeta
  let stmalbexx := max stmalbe stmxx
  let stminv := max stmalbexx 1
  1 / stminv

/-- `old + steg * d` in every group (`mma.py:361-369`). -/
noncomputable def SubState.move (old d : SubState m n) (steg : ℝ) : SubState m n where
  x := fun j => old.x j + steg * d.x j
  y := fun i => old.y i + steg * d.y i
  z := old.z + steg * d.z
  lam := fun i => old.lam i + steg * d.lam i
  xsi := fun j => old.xsi j + steg * d.xsi j
  eta := fun j => old.eta j + steg * d.eta j
  mu := fun i => old.mu i + steg * d.mu i
  zet := old.zet + steg * d.zet
  s := fun i => old.s i + steg * d.s i

/-- The step-halving loop (`mma.py:355-392`); the first argument is the number of iterations left
(`50 - itto`). Returns the iterate and `resinew`. -/
noncomputable def lineSearch (pb : SubProb m n) (epsi : ℝ) (old d : SubState m n) (residunorm : ℝ) :
    Nat → ℝ → SubState m n → ℝ → SubState m n × ℝ
  | 0, _, cur, resinew => (cur, resinew)
  | k + 1, steg, cur, resinew =>
    if resinew > residunorm then
      let new := old.move d steg
      lineSearch pb epsi old d residunorm k (steg / 2) new (residuNorm (subResidual pb epsi new))
    else (cur, resinew)

/-- One pass of the inner loop (`mma.py:256-392`). -/
noncomputable def innerStep (solve : LinSolve) (pb : SubProb m n) (epsi : ℝ) (st : SubState m n)
    (residunorm : ℝ) : Except Err (SubState m n × ℝ) := do
  let (dx, dz, dlam) ← mainDirs solve pb epsi st
  let d := completeDirs pb epsi st dx dz dlam
  pure (lineSearch pb epsi st d residunorm 50 (stepLength pb st d) st (2 * residunorm))

/-- The inner loop (`mma.py:255-395`); the first argument is `200 - ittt`. -/
noncomputable def innerLoop (solve : LinSolve) (pb : SubProb m n) (epsi : ℝ) :
    Nat → SubState m n → ℝ → ℝ → Except Err (SubState m n)
  | 0, st, _, _ => .ok st
  | k + 1, st, residunorm, residumax =>
    if residumax > 0.9 * epsi then do
      let (st', rn) ← innerStep solve pb epsi st residunorm
      innerLoop solve pb epsi k st' rn (residuMax (subResidual pb epsi st'))
    else .ok st

/-- One pass of the outer loop for a given `epsi` (`mma.py:227-395`). -/
noncomputable def outerStep (solve : LinSolve) (pb : SubProb m n) (epsi : ℝ) (st : SubState m n) :
    Except Err (SubState m n) :=
  let r := subResidual pb epsi st
  innerLoop solve pb epsi 200 st (residuNorm r) (residuMax r)

/-- The outer loop (`mma.py:226-397`) with an explicit bound on the number of passes (`C46_terminates`
shows that eight are enough). -/
noncomputable def outerLoop (solve : LinSolve) (pb : SubProb m n) (epsimin : ℝ) :
    Nat → ℝ → SubState m n → Except Err (SubState m n)
  | 0, epsi, st => if epsi > epsimin then .error .runtime else .ok st
  | k + 1, epsi, st =>
    if epsi > epsimin then do
      let st' ← outerStep solve pb epsi st
      outerLoop solve pb epsimin k (0.1 * epsi) st'
    else .ok st

/-- `subsolv` (`mma.py:207-412`), called with `epsimin = 1e-7` (`mma.py:126,198`). -/
noncomputable def subsolv (solve : LinSolve) (pb : SubProb m n) : Except Err (SubState m n) :=
  outerLoop solve pb 0.0000001 8 1 (subInit pb)

/-! ### Filters -/

/-- `applyDensityFilter` (`mma.py:64-65`). -/
noncomputable def applyDensityFilter (H : Fin n → Fin n → ℝ) (Hs : Fin n → ℝ) (rho : Fin n → ℝ) : Fin n → ℝ :=
  fun i => (∑ j, H i j * rho j) / Hs i

/-- `applySensitivityFilter` (`mma.py:59-62`) on one gradient. -/
noncomputable def applySensitivityFilter (H : Fin n → Fin n → ℝ) (Hs : Fin n → ℝ) (rho dJ : Fin n → ℝ) :
    Fin n → ℝ :=
  fun i => ∑ j, H i j * (rho j * dJ j / max 0.001 (rho j) / Hs j)

/-! ### `optimize` -/

/-- What the caller supplies to `optimize`: number of calls already made, filtered density (and, for the
constraints, the iteration number) to value and gradient. The call number allows any stateful handle. -/
structure Handles (m n : Nat) where
  objective : Nat → (Fin n → ℝ) → ℝ × (Fin n → ℝ)
  constraint : Nat → (Fin n → ℝ) → Nat → (Fin m → ℝ) × (Fin m → Fin n → ℝ)

/-- One entry of the log of `optimize`: the arguments passed to the handles, the data used by
`mmasub` and the asymptotes of its subproblem. -/
structure LogEntry (n : Nat) where
  rhoPhysical : Fin n → ℝ
  consIter : Nat
  xval : Fin n → ℝ
  xold1 : Fin n → ℝ
  xold2 : Fin n → ℝ
  epoch : Nat
  low : Fin n → ℝ
  upp : Fin n → ℝ

/-- State of the loop of `optimize`. -/
structure OptState (m n : Nat) where
  loop : Nat
  xval : Fin n → ℝ
  obj : Obj m n

/-- Before the loop (`mma.py:459-482`). -/
noncomputable def optInit (m : Nat) (rhoIni : Fin n → ℝ) (movelimit : ℝ) : OptState m n where
  loop := 0
  xval := rhoIni
  obj := {
    epoch := 1
    xmin := fun _ => 0
    xmax := fun _ => 1
    xold1 := rhoIni
    xold2 := rhoIni
    low := fun _ => 1
    upp := fun _ => 1
    move := movelimit
    zconst := 1
    zscale := fun _ => 0
    ylinscale := fun _ => 10000
    yquadscale := fun _ => 0 }

/-- One pass of the loop (`mma.py:484-524`). The module constants `density_filtering`,
`sensitivity_filtering` (`mma.py:24-25`) are parameters. -/
noncomputable def optStep (densityFiltering sensitivityFiltering : Bool) (solve : LinSolve)
    (H : Fin n → Fin n → ℝ) (Hs : Fin n → ℝ) (hd : Handles m n) (st : OptState m n) :
    Except Err (OptState m n × LogEntry n) := do
  let loop := st.loop + 1
  let rho := st.xval
  let rhoPhysical := if densityFiltering then applyDensityFilter H Hs rho else rho
  let dJ0 := (hd.objective st.loop rhoPhysical).2
  let vcdvc := hd.constraint st.loop rhoPhysical loop
  let dJ := if sensitivityFiltering then applySensitivityFilter H Hs rho dJ0 else dJ0
  let dvc := if sensitivityFiltering then fun i => applySensitivityFilter H Hs rho (vcdvc.2 i) else vcdvc.2
  let pb := mmasubProblem st.obj st.xval dJ vcdvc.1 dvc
  let sol ← subsolv solve pb
  let entry : LogEntry n := ⟨rhoPhysical, loop, st.xval, st.obj.xold1, st.obj.xold2,
    st.obj.epoch, pb.low, pb.upp⟩
  let obj := { st.obj with
    epoch := st.obj.epoch + 1
    xold2 := st.obj.xold1
    xold1 := st.xval
    low := pb.low
    upp := pb.upp }
  pure (⟨loop, sol.x, obj⟩, entry)

/-- `while loop < maxIters` (`mma.py:484`); the first argument is `maxIters - loop`. -/
noncomputable def optLoop (densityFiltering sensitivityFiltering : Bool) (solve : LinSolve)
    (H : Fin n → Fin n → ℝ) (Hs : Fin n → ℝ) (hd : Handles m n) :
    Nat → OptState m n → Except Err (OptState m n × List (LogEntry n))
  | 0, st => .ok (st, [])
  | k + 1, st => do
    let (st', e) ← optStep densityFiltering sensitivityFiltering solve H Hs hd st
    let (st'', es) ← optLoop densityFiltering sensitivityFiltering solve H Hs hd k st'
    pure (st'', e :: es)

/-- `optimize` (`mma.py:415-528`) after the filter has been built; returns the densities and the log. -/
noncomputable def optimize (densityFiltering sensitivityFiltering : Bool) (solve : LinSolve)
    (H : Fin n → Fin n → ℝ) (Hs : Fin n → ℝ) (hd : Handles m n) (rhoIni : Fin n → ℝ) (movelimit : ℝ)
    (maxIters : Nat) : Except Err ((Fin n → ℝ) × List (LogEntry n)) := do
  let (st, log) ← optLoop densityFiltering sensitivityFiltering solve H Hs hd maxIters
    (optInit m rhoIni movelimit)
  pure (st.xval, log)

end MMA
end JaxFem
