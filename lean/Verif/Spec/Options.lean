import Verif.Model.Options

/-!
# Specification of options and of the linear-solver choice
-/

namespace JaxFem

/-- All present sub-options of the backends are dictionaries. -/
def WFLinear (d : Dict) : Prop :=
  ∀ k ∈ ["jax_solver", "amgx_solver", "petsc_solver"], ∀ v, d.lookup k = some v → ∃ s, v = .dict s

/-- Two dictionaries with the same entries. -/
def SameDict (d e : Dict) : Prop := ∀ k, d.lookup k = e.lookup k

/-- The documented value of parameter `k` in the option block `v`. -/
inductive Param (v : Option PyVal) (k : String) (default : PyVal) : PyVal → Prop
  | given (s : Dict) (x : PyVal) : v = some (.dict s) → s.lookup k = some x → Param v k default x
  | default (s : Dict) : v = some (.dict s) → s.lookup k = none → Param v k default default

/-- The documented choice of backend (docstring of `solver`, `solver.py:1162-1222`): the first key
present in the order jax, amgx, spsolve, petsc, custom; jax with preconditioner when there is none. -/
inductive Documented (d : Dict) : Backend → Prop
  | dflt : (∀ k ∈ ["jax_solver", "amgx_solver", "spsolve_solver", "petsc_solver", "custom_solver"],
      d.lookup k = none) → Documented d (.jax (.bool true))
  | jax (p : PyVal) : Param (d.lookup "jax_solver") "precond" (.bool true) p → Documented d (.jax p)
  | amgx (c : PyVal) : d.lookup "jax_solver" = none →
      Param (d.lookup "amgx_solver") "cfg_path" .none c → Documented d (.amgx c)
  | spsolve (v : PyVal) : d.lookup "jax_solver" = none → d.lookup "amgx_solver" = none →
      d.lookup "spsolve_solver" = some v → Documented d .spsolve
  | petsc (k p : PyVal) : d.lookup "jax_solver" = none → d.lookup "amgx_solver" = none →
      d.lookup "spsolve_solver" = none →
      Param (d.lookup "petsc_solver") "ksp_type" (.str "bcgsl") k →
      Param (d.lookup "petsc_solver") "pc_type" (.str "ilu") p → Documented d (.petsc k p)
  | custom (f : PyVal) : d.lookup "jax_solver" = none → d.lookup "amgx_solver" = none →
      d.lookup "spsolve_solver" = none → d.lookup "petsc_solver" = none →
      d.lookup "custom_solver" = some f → Documented d (.custom f)

/-- `flat` (no method key) says the same as the configuration block `nested`: equal Newton keys, and
the linear keys of `flat` are those of the `linear` block (absent block = no linear keys). -/
def SameConfig (flat nested : Dict) : Prop :=
  (∀ k ∈ ["tol", "rel_tol", "line_search_flag", "initial_guess"], flat.lookup k = nested.lookup k) ∧
  ∃ l : Dict, (nested.lookup "linear" = some (.dict l) ∨ nested.lookup "linear" = none ∧ l = []) ∧
    ∀ k ∈ ["jax_solver", "amgx_solver", "spsolve_solver", "petsc_solver", "custom_solver"],
      flat.lookup k = l.lookup k

end JaxFem
