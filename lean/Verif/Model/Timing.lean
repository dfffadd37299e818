import Verif.Model.Newton

/-!
# Timing and logging of the Newton solver, logger set-up and timing decorators

`jax_fem/solver.py:22-57` (`_timing_record`, `_log_newton_iter_start`, `_log_newton_iter_summary`,
`_log_timing_table`) and their calls in `newton_step` (`solver.py:411-414`) and in the Newton branch of
`solver` (`solver.py:1280-1356`); `jax_fem/logger_setup.py`; `timeit` and `walltime` in
`jax_fem/utils.py:141-206`.

The clock (`time.perf_counter`, `time.time`) is a parameter: the value returned by its `i`-th call. Log
lines are kept as data, not as formatted strings (`%7.3f` and `%5.1f%%` round for display), the empty
lines of `print()` and the debug messages are left out. What is computed between two readings of the clock
is split in the three parts which the code times: `assemble` (`problem.newton_update`), `getA` (flatten,
boundary conditions, `get_A`; the code starts the second watch after flattening, which cannot raise here)
and `solve` (`linear_solver`); `advance` is the line search or full step after the linear solve.
-/

namespace JaxFem.Timing

open JaxFem

universe u
variable {K : Type u} {D B R I : Type u}

/-- The keys of the dictionary `timing` (`solver.py:1282`). -/
inductive Part where
  | localAssembly
  | globalMatrix
  | linear
  deriving DecidableEq, Repr

/-- The dictionary `timing` (`solver.py:1282`). -/
structure Parts (K : Type u) where
  localAssembly : K
  globalMatrix : K
  linear : K

/-- What `logger.info` is called with (`solver.py:28,32-39,49,53,57`). -/
inductive LogLine (K : Type u) where
  | start (iter : Nat)
  | summary (iter : Nat) (localS globalS : K) (resVal relResVal : Flt K) (linearS : Option K)
  | table (nIters : Nat) (wallS : K)
  | row (part : Part) (dt pct : K)
  | other (dt pct : K)

/-- Number of readings of the clock so far, accumulated times and log. -/
structure Meter (K : Type u) where
  tick : Nat
  timing : Parts K
  log : List (LogLine K)

section
variable [Field K] [LinearOrder K]

/-- `timing[key]`. -/
def Parts.get (t : Parts K) : Part → K
  | .localAssembly => t.localAssembly
  | .globalMatrix => t.globalMatrix
  | .linear => t.linear

/-- `_timing_record(timing, name, dt)` (`solver.py:22-23`). -/
def timingRecord (t : Parts K) (name : Part) (dt : K) : Parts K :=
  match name with
  | .localAssembly => { t with localAssembly := t.localAssembly + dt }
  | .globalMatrix => { t with globalMatrix := t.globalMatrix + dt }
  | .linear => { t with linear := t.linear + dt }

/-- The clock is read once and the value not used any more, because the timed call raises. -/
def Meter.lost (m : Meter K) : Meter K := { m with tick := m.tick + 1 }

/-- `t0 = time.perf_counter()`, the timed call, `dt = time.perf_counter() - t0` and
`_timing_record(timing, name, dt)` (`solver.py:411-414,1303-1306,1313-1316`). -/
def Meter.lap (clock : Nat → K) (m : Meter K) (name : Part) : K × Meter K :=
  let dt := clock (m.tick + 1) - clock m.tick
  (dt, { m with tick := m.tick + 2, timing := timingRecord m.timing name dt })

/-- `logger.info`. -/
def Meter.info (m : Meter K) (l : LogLine K) : Meter K := { m with log := m.log ++ [l] }

/-- `newton_update_helper` with its two watches (`solver.py:1297-1317`). -/
def timedUpdate (clock : Nat → K) (assemble : D → Except Err B) (getA : D → B → Except Err R) (dofs : D)
    (m : Meter K) : Except Err (R × K × K) × Meter K :=
  match assemble dofs with
  | .error e => (.error e, m.lost)
  | .ok b =>
    let (localS, m) := m.lap clock .localAssembly
    match getA dofs b with
    | .error e => (.error e, m.lost)
    | .ok r =>
      let (globalS, m) := m.lap clock .globalMatrix
      (.ok (r, localS, globalS), m)

/-- `newton_step` with its watch (`solver.py:411-421`). -/
def timedStep (clock : Nat → K) (solve : R → D → Except Err I) (advance : D → I → D) (res : R) (dofs : D)
    (m : Meter K) : Except Err (D × K) × Meter K :=
  match solve res dofs with
  | .error e => (.error e, m.lost)
  | .ok inc =>
    let (linearS, m) := m.lap clock .linear
    (.ok (advance dofs inc, linearS), m)

/-- The `while` loop with its log (`solver.py:1326-1333`); `fuel` as in `newtonLoop`. -/
def timedLoop (clock : Nat → K) (assemble : D → Except Err B) (getA : D → B → Except Err R) (norm : R → Flt K)
    (solve : R → D → Except Err I) (advance : D → I → D) (tol relTol : K) (resInitial : Flt K) :
    Nat → D → R → Nat → Meter K → Option (Except Err (D × R × Nat)) × Meter K
  | 0, _, _, _, m => (none, m)
  | fuel + 1, dofs, res, n, m =>
    if ((norm res).div resInitial).gt (.fin relTol) && (norm res).gt (.fin tol) then
      let m := m.info (.start (n + 1))
      match timedStep clock solve advance res dofs m with
      | (.error e, m) => (some (.error e), m)
      | (.ok (dofs', linearS), m) =>
        match timedUpdate clock assemble getA dofs' m with
        | (.error e, m) => (some (.error e), m)
        | (.ok (res', localS, globalS), m) =>
          timedLoop clock assemble getA norm solve advance tol relTol resInitial fuel dofs' res' (n + 1)
            (m.info (.summary (n + 1) localS globalS (norm res') ((norm res').div resInitial) (some linearS)))
    else (some (.ok (dofs, res, n)), m)

/-- `pct = 100. * dt / wall_s if wall_s > 0 else 0.` (`solver.py:52,56`). -/
def percent (dt wallS : K) : K := if 0 < wallS then 100 * dt / wallS else 0

/-- `_log_timing_table(n_iters, parts, wall_s)` (`solver.py:42-57`). -/
def timingTable (nIters : Nat) (parts : Parts K) (wallS : K) : List (LogLine K) :=
  let rows := [Part.localAssembly, Part.globalMatrix, Part.linear].map fun key =>
    LogLine.row key (parts.get key) (percent (parts.get key) wallS)
  let other := wallS - (parts.localAssembly + parts.globalMatrix + parts.linear)
  LogLine.table nIters wallS :: rows ++ if 1 / 100 ≤ other then [LogLine.other other (percent other wallS)] else []

/-- The Newton branch of `solver` with the watches and the log (`solver.py:1280-1350`). -/
def timedSolve (clock : Nat → K) (assemble : D → Except Err B) (getA : D → B → Except Err R) (norm : R → Flt K)
    (solve : R → D → Except Err I) (advance : D → I → D) (finite : D → Bool) (tol relTol : K) (dofs : D)
    (fuel : Nat) : Option (Except Err (D × Nat)) × Meter K :=
  let wallStart := clock 0
  let m : Meter K := ⟨1, ⟨0, 0, 0⟩, []⟩
  let m := m.info (.start 0)
  match timedUpdate clock assemble getA dofs m with
  | (.error e, m) => (some (.error e), m)
  | (.ok (res, localS, globalS), m) =>
    let m := m.info (.summary 0 localS globalS (norm res) ((norm res).div (norm res)) none)
    match timedLoop clock assemble getA norm solve advance tol relTol (norm res) fuel dofs res 0 m with
    | (none, m) => (none, m)
    | (some (.error e), m) => (some (.error e), m)
    | (some (.ok (d, r, n)), m) =>
      if (norm r).isFinite then
        if finite d then
          let wallS := clock m.tick - wallStart
          (some (.ok (d, n)), { m with tick := m.tick + 1, log := m.log ++ timingTable n m.timing wallS })
        else (some (.error .assertion), m)
      else (some (.error .assertion), m)

end

/-! ## Logger set-up -/

/-- The part of a Python logger which matters for delivering messages. -/
structure Logger where
  handlers : List Nat
  propagate : Bool
  level : Nat
  deriving DecidableEq, Repr

/-- The registry of `logging`: loggers by their dotted name, as list of its parts (the root is `[]`);
`next` numbers the handlers created so far. -/
structure Registry where
  logger : List String → Logger
  next : Nat

/-- `logging.DEBUG`, `logging.ERROR`. -/
def debugLevel : Nat := 10
def errorLevel : Nat := 40

/-- The logger `k` after `setup_logger(name)` has set the levels (`logger_setup.py:6-11`). -/
def withLevels (reg : Registry) (name k : List String) : Logger :=
  let l := reg.logger k
  { l with level := if k = ["tensorflow"] ∨ k = ["jax"] then errorLevel else if k = name then debugLevel else l.level }

/-- `setup_logger(name)` (`logger_setup.py:5-30`): sets the levels, creates a handler and adds it if the logger
has none. -/
def setupLogger (reg : Registry) (name : List String) : Registry :=
  let handler := reg.next
  { logger := fun k =>
      let l := withLevels reg name k
      if k = name ∧ l.handlers = [] then { l with handlers := [handler], propagate := false } else l
    next := reg.next + 1 }

/-- The handlers which get a message given to the logger with this (reversed) name: its own, and if it
propagates those of its parent and so on up to the root (documented behaviour of
`logging.Logger.callHandlers`). -/
def deliver (reg : Registry) : List String → List Nat
  | [] => (reg.logger []).handlers
  | s :: rest =>
    let l := reg.logger (s :: rest).reverse
    l.handlers ++ if l.propagate then deliver reg rest else []

/-! ## Decorators -/

section
variable [Field K]

/-- `timeit(func)(args)` (`utils.py:154-161`) with the two readings of the clock: the result of `func` and the
time for the debug message, if it was reached. -/
def timeit (func : I → Except Err B) (t0 t1 : K) (args : I) : Except Err B × Option K :=
  match func args with
  | .error e => (.error e, none)
  | .ok result => (.ok result, some (t1 - t0))

/-- The name of the file written by `walltime` (`utils.py:195-198`). -/
def walltimeFile (txtDir : String) (filename : Option String) (platform : String) : String :=
  txtDir ++ "/" ++ filename.getD "walltime" ++ "_" ++ platform ++ ".txt"

/-- `walltime(txt_dir, filename)(func)(args)` (`utils.py:182-203`): the result of `func` and the files
afterwards (`start_time, end_time, time_elapsed`). Opening with `'w'` replaces the file. -/
def walltime (txtDir filename : Option String) (platform : String) (func : I → Except Err B) (t0 t1 : K)
    (args : I) (files : String → Option (K × K × K)) : Except Err B × (String → Option (K × K × K)) :=
  match func args with
  | .error e => (.error e, files)
  | .ok result =>
    match txtDir with
    | none => (.ok result, files)
    | some dir =>
      (.ok result, fun f => if f = walltimeFile dir filename platform then some (t0, t1, t1 - t0) else files f)

end

end JaxFem.Timing
