import Verif.Spec.Options
import Mathlib.Tactic.NormNum

/-!
# C24-C28: options and linear solvers
-/

namespace JaxFem

universe u

/-! ### Helper lemmas -/

theorem Dict.has_false {d : Dict} {k : String} : d.has k = false ↔ d.lookup k = none := by
  rw [Dict.has, ← Option.not_isSome_iff_eq_none]; simp

theorem Dict.has_true {d : Dict} {k : String} : d.has k = true ↔ ∃ v, d.lookup k = some v := by
  rw [Dict.has, Option.isSome_iff_exists]

theorem Dict.lookup_set (d : Dict) (k k' : String) (v : PyVal) :
    (d.set k v).lookup k' = if k = k' then some v else d.lookup k' := by
  induction d with
  | nil => simp only [Dict.set, Dict.lookup]
  | cons p d ih =>
    obtain ⟨q, w⟩ := p
    rw [Dict.set]
    split
    · rename_i h
      subst h
      simp only [Dict.lookup]
      split <;> rfl
    · rename_i h
      simp only [Dict.lookup, ih]
      by_cases h1 : q = k'
      · have : k ≠ k' := fun hc => h (h1.trans hc.symm)
        rw [if_pos h1, if_neg this, if_pos h1]
      · rw [if_neg h1, if_neg h1]

theorem Dict.lookup_restrict (d : Dict) (keys : List String) (k : String) :
    (d.restrict keys).lookup k = if k ∈ keys then d.lookup k else none := by
  induction keys with
  | nil => rfl
  | cons q keys ih =>
    rw [Dict.restrict, List.filterMap_cons]
    rw [Dict.restrict] at ih
    cases hq : d.lookup q with
    | none =>
      simp only [Option.map_none, ih, List.mem_cons]
      by_cases h1 : k = q
      · subst h1; simp [hq]
      · simp [h1]
    | some v =>
      simp only [Option.map_some, Dict.lookup, ih, List.mem_cons]
      by_cases h1 : q = k
      · subst h1; simp [hq]
      · have : k ≠ q := fun h => h1 h.symm
        simp [h1, this]

theorem Dict.restrict_isEmpty (d : Dict) (keys : List String) :
    (d.restrict keys).isEmpty = true ↔ ∀ k ∈ keys, d.lookup k = none := by
  rw [List.isEmpty_iff, Dict.restrict, List.filterMap_eq_nil_iff]
  simp

theorem linear_isEmpty (d : Dict) : (linearKeys.filter d.has).isEmpty = true ↔
    ∀ k ∈ linearKeys, d.lookup k = none := by
  rw [List.isEmpty_iff, List.filter_eq_nil_iff]
  constructor
  · intro h k hk
    exact Dict.has_false.1 (Bool.not_eq_true _ ▸ h k hk)
  · intro h k hk
    rw [Dict.has_false.2 (h k hk)]; simp

theorem subOption_spec {v : Option PyVal} {k : String} {dflt : PyVal} {s : Dict}
    (h : v = some (.dict s)) : ∃ x, subOption v k dflt = .ok x ∧ Param v k dflt x := by
  subst h
  refine ⟨_, rfl, ?_⟩
  cases hx : s.lookup k with
  | none => rw [Dict.getD, hx]; exact .default s rfl hx
  | some x => rw [Dict.getD, hx]; exact .given s x rfl hx

theorem Param.unique {v : Option PyVal} {k : String} {dflt x y : PyVal}
    (h1 : Param v k dflt x) (h2 : Param v k dflt y) : x = y := by
  cases h1 with
  | given s _ a b =>
    cases h2 with
    | given s' _ a' b' => rw [a] at a'; cases a'; rw [b] at b'; exact Option.some.inj b'
    | default s' a' b' => rw [a] at a'; cases a'; rw [b] at b'; cases b'
  | default s a b =>
    cases h2 with
    | given s' _ a' b' => rw [a] at a'; cases a'; rw [b] at b'; cases b'
    | default s' a' b' => rfl

theorem Param.sub {v : Option PyVal} {k : String} {dflt x : PyVal} (h : Param v k dflt x) :
    subOption v k dflt = .ok x ∧ ∃ s, v = some (.dict s) := by
  cases h with
  | given s _ a b => subst a; exact ⟨by simp [subOption, Dict.getD, b], s, rfl⟩
  | default s a b => subst a; exact ⟨by simp [subOption, Dict.getD, b], s, rfl⟩

/-- The dictionary after the call. -/
def afterSelect (d : Dict) : Dict :=
  if (linearKeys.filter d.has).isEmpty then d.set "jax_solver" (.dict []) else d

theorem afterSelect_of_mem {d : Dict} {k : String} (hk : k ∈ linearKeys) (h : d.lookup k ≠ none) :
    afterSelect d = d := by
  rw [afterSelect, if_neg]
  rw [linear_isEmpty]
  intro hc
  exact h (hc k hk)

theorem select_of_documented {d : Dict} {b : Backend} (h : Documented d b) :
    selectLinear d = .ok (b, afterSelect d) := by
  have hbody : selectLinear d = (do
    let opts := afterSelect d
    if opts.has "jax_solver" then
      let precond ← subOption (opts.lookup "jax_solver") "precond" (.bool true)
      return (.jax precond, opts)
    else if opts.has "amgx_solver" then
      let cfgPath ← subOption (opts.lookup "amgx_solver") "cfg_path" .none
      return (.amgx cfgPath, opts)
    else if opts.has "spsolve_solver" then
      return (.spsolve, opts)
    else if opts.has "petsc_solver" then
      let kspType ← subOption (opts.lookup "petsc_solver") "ksp_type" (.str "bcgsl")
      let pcType ← subOption (opts.lookup "petsc_solver") "pc_type" (.str "ilu")
      return (.petsc kspType pcType, opts)
    else if opts.has "custom_solver" then
      return (.custom ((opts.lookup "custom_solver").getD .none), opts)
    else throw .notImplemented) := rfl
  rw [hbody]
  cases h with
  | dflt h =>
    have : afterSelect d = d.set "jax_solver" (.dict []) := by
      rw [afterSelect, if_pos]; rw [linear_isEmpty]; exact h
    simp [this, Dict.has, Dict.lookup_set, subOption, Dict.getD, Dict.lookup]
  | jax p h =>
    obtain ⟨h1, s, h2⟩ := h.sub
    have : afterSelect d = d := afterSelect_of_mem (k := "jax_solver") (by decide) (by simp [h2])
    rw [h2] at h1
    simp [this, Dict.has, h2, h1]
  | amgx c a h =>
    obtain ⟨h1, s, h2⟩ := h.sub
    have : afterSelect d = d := afterSelect_of_mem (k := "amgx_solver") (by decide) (by simp [h2])
    rw [h2] at h1
    simp [this, Dict.has, a, h2, h1]
  | spsolve v a b c =>
    have : afterSelect d = d := afterSelect_of_mem (k := "spsolve_solver") (by decide) (by simp [c])
    simp [this, Dict.has, a, b, c]
    rfl
  | petsc k p a b c h h' =>
    obtain ⟨h1, s, h2⟩ := h.sub
    have h3 := h'.sub.1
    have : afterSelect d = d := afterSelect_of_mem (k := "petsc_solver") (by decide) (by simp [h2])
    rw [h2] at h1 h3
    simp [this, Dict.has, a, b, c, h2, h1, h3]
    rfl
  | custom f a b c e g =>
    have : afterSelect d = d := afterSelect_of_mem (k := "custom_solver") (by decide) (by simp [g])
    simp [this, Dict.has, a, b, c, e, g]
    rfl

theorem documented_exists (d : Dict) (hd : WFLinear d) : ∃ b, Documented d b := by
  cases h1 : d.lookup "jax_solver" with
  | some v =>
    obtain ⟨s, rfl⟩ := hd "jax_solver" (by simp) v h1
    obtain ⟨x, -, hx⟩ := subOption_spec (k := "precond") (dflt := .bool true) h1
    exact ⟨_, .jax x hx⟩
  | none =>
  cases h2 : d.lookup "amgx_solver" with
  | some v =>
    obtain ⟨s, rfl⟩ := hd "amgx_solver" (by simp) v h2
    obtain ⟨x, -, hx⟩ := subOption_spec (k := "cfg_path") (dflt := .none) h2
    exact ⟨_, .amgx x h1 hx⟩
  | none =>
  cases h3 : d.lookup "spsolve_solver" with
  | some v => exact ⟨_, .spsolve v h1 h2 h3⟩
  | none =>
  cases h4 : d.lookup "petsc_solver" with
  | some v =>
    obtain ⟨s, rfl⟩ := hd "petsc_solver" (by simp) v h4
    obtain ⟨x, -, hx⟩ := subOption_spec (k := "ksp_type") (dflt := .str "bcgsl") h4
    obtain ⟨y, -, hy⟩ := subOption_spec (k := "pc_type") (dflt := .str "ilu") h4
    exact ⟨_, .petsc x y h1 h2 h3 hx hy⟩
  | none =>
  cases h5 : d.lookup "custom_solver" with
  | some v => exact ⟨_, .custom v h1 h2 h3 h4 h5⟩
  | none => exact ⟨_, .dflt (by simp [h1, h2, h3, h4, h5])⟩

theorem documented_after {d : Dict} {b : Backend} (h : Documented d b) :
    Documented (afterSelect d) b ∧ afterSelect (afterSelect d) = afterSelect d := by
  by_cases he : (linearKeys.filter d.has).isEmpty = true
  · have e : afterSelect d = d.set "jax_solver" (.dict []) := by rw [afterSelect, if_pos he]
    have hb : b = .jax (.bool true) := by
      have h1 := select_of_documented h
      rw [select_of_documented (.dflt ((linear_isEmpty d).1 he))] at h1
      exact ((Prod.mk.inj (Except.ok.inj h1)).1).symm
    subst hb
    have hl : (afterSelect d).lookup "jax_solver" = some (.dict []) := by
      rw [e, Dict.lookup_set, if_pos rfl]
    refine ⟨.jax _ ?_, afterSelect_of_mem (k := "jax_solver") (by decide) (by simp [hl])⟩
    rw [hl]
    exact .default [] rfl rfl
  · have e : afterSelect d = d := by rw [afterSelect, if_neg he]
    rw [e, e]
    exact ⟨h, rfl⟩

/-! ### C24 -/

/-- **C24 (total, documented).** For every options dictionary whose option blocks are dictionaries,
`linear_solver` calls the documented backend with the documented parameters, and that backend is
unique. -/
theorem C24_documented (d : Dict) (hd : WFLinear d) : ∃ b d', selectLinear d = .ok (b, d') ∧
    Documented d b ∧ ∀ c, Documented d c → c = b := by
  obtain ⟨b, hb⟩ := documented_exists d hd
  have h1 := select_of_documented hb
  refine ⟨b, _, h1, hb, fun c hc => ?_⟩
  rw [select_of_documented hc] at h1
  exact (Prod.mk.inj (Except.ok.inj h1)).1

/-- **C24 (stable).** Any number of calls with one and the same options object selects the documented
backend of the original options every time. -/
theorem C24_stable (d : Dict) (b : Backend) (hb : Documented d b) (n : Nat) :
    ∃ d', selectMany n d = .ok (List.replicate n b, d') := by
  induction n generalizing d with
  | zero => exact ⟨d, rfl⟩
  | succ n ih =>
    obtain ⟨d', hd'⟩ := ih (afterSelect d) (documented_after hb).1
    refine ⟨d', ?_⟩
    rw [selectMany, select_of_documented hb]
    simp only [bind, Except.bind, hd', pure, Except.pure, List.replicate_succ]

/-- **C24 (defaults).** The five spellings documented as equivalent (`solver.py:1211-1217`) all use jax
with preconditioner. -/
theorem C24_defaults : ∀ d ∈ ([[], [("newton", .dict [])], [("newton", .dict [("linear", .dict [])])],
    [("newton", .dict [("linear", .dict [("jax_solver", .dict [])])])],
    [("newton", .dict [("linear", .dict [("jax_solver", .dict [("precond", .bool true)])])])]] :
      List Dict), ∃ d', solverLinear d = .ok (.jax (.bool true), d') := by
  intro d hd
  simp only [List.mem_cons, List.not_mem_nil, or_false] at hd
  rcases hd with rfl | rfl | rfl | rfl | rfl <;> exact ⟨_, rfl⟩

/-- **C24 (errors).** An option block of the selected backend that is not a dictionary is a
`TypeError`. -/
theorem C24_bad_block (d : Dict) (v : PyVal) (h : d.lookup "jax_solver" = some v)
    (hv : ∀ s, v ≠ .dict s) : selectLinear d = .error .type := by
  have e : afterSelect d = d := afterSelect_of_mem (k := "jax_solver") (by decide) (by simp [h])
  rw [afterSelect] at e
  rw [selectLinear, e]
  cases v with
  | dict s => exact absurd rfl (hv s)
  | _ => simp [Dict.has, h, subOption]

/-! ### C25 -/

/-- **C25 (violated).** `solver` with `{'newton': {'linear': {}}}` changes the caller's options: after
the first linear solve they contain `'jax_solver'`. If the caller then adds `'petsc_solver'`, which
on the original options selects PETSc, JAX is used. -/
theorem C25_violated :
    ∃ d d' : Dict, solverLinear d = .ok (.jax (.bool true), d') ∧
      d = [("newton", .dict [("linear", .dict [])])] ∧
      d' = [("newton", .dict [("linear", .dict [("jax_solver", .dict [])])])] ∧
      -- the same edit before and after the call
      (∃ e, selectLinear (Dict.set [] "petsc_solver" (.dict [])) =
        .ok (.petsc (.str "bcgsl") (.str "ilu"), e)) ∧
      ∃ e, selectLinear (Dict.set [("jax_solver", .dict [])] "petsc_solver" (.dict [])) =
        .ok (.jax (.bool true), e) :=
  ⟨_, _, rfl, rfl, rfl, ⟨_, rfl⟩, ⟨_, rfl⟩⟩

/-- **C25 (violated, adjoint options).** The options object given to `linear_solver` by `implicit_vjp`
(`solver.py:1405`; the default argument `{}` of `ad_wrapper` is one shared object) is changed whenever
it has no solver key. -/
theorem C25_violated_adjoint (d : Dict) (hd : ∀ k ∈ linearKeys, d.lookup k = none) :
    ∃ d', selectLinear d = .ok (.jax (.bool true), d') ∧ d.lookup "jax_solver" = none ∧
      d'.lookup "jax_solver" = some (.dict []) := by
  refine ⟨_, select_of_documented (.dflt hd), hd _ (by decide), ?_⟩
  rw [afterSelect, if_pos ((linear_isEmpty d).2 hd), Dict.lookup_set, if_pos rfl]

/-- **C25 (partial: a solver key is present).** An options object that names a linear solver is not
changed by `linear_solver`. Missing: objects without solver key, where it is false. -/
theorem C25_unchanged_partial (d : Dict) (k : String) (hk : k ∈ linearKeys) (h : d.lookup k ≠ none)
    (b : Backend) (d' : Dict) (hs : selectLinear d = .ok (b, d')) : d' = d := by
  have e := afterSelect_of_mem hk h
  rw [afterSelect] at e
  rw [selectLinear, e] at hs
  simp only [bind, Except.bind, pure, Except.pure] at hs
  split at hs
  · split at hs
    · cases hs
    · exact ((Prod.mk.inj (Except.ok.inj hs)).2).symm
  split at hs
  · split at hs
    · cases hs
    · exact ((Prod.mk.inj (Except.ok.inj hs)).2).symm
  split at hs
  · exact ((Prod.mk.inj (Except.ok.inj hs)).2).symm
  split at hs
  · split at hs
    · cases hs
    · split at hs
      · cases hs
      · exact ((Prod.mk.inj (Except.ok.inj hs)).2).symm
  split at hs
  · exact ((Prod.mk.inj (Except.ok.inj hs)).2).symm
  · cases hs

/-- **C25 (partial: flat form).** A flat options object (no method key) is never changed by
`solver`, whether or not it names a linear solver. -/
theorem C25_flat_partial (d : Dict) (hd : ∀ k ∈ methodKeys, d.lookup k = none) (b : Backend) (d' : Dict)
    (hs : solverLinear d = .ok (b, d')) : d' = d := by
  have hm : methodKeys.filter d.has = [] := by
    rw [List.filter_eq_nil_iff]
    intro k hk
    rw [Dict.has_false.2 (hd k hk)]; simp
  rw [solverLinear, resolveOptions] at hs
  simp only [Option.getD_some, hm, bind, Except.bind, pure, Except.pure] at hs
  split at hs
  · cases hs
  · rw [Dict.has_false.2 (hd "newton" (by decide))] at hs
    exact ((Prod.mk.inj (Except.ok.inj hs)).2).symm

/-! ### C26 -/

section
variable {V K : Type u} [LinearOrder K]

/-- **C26 (checked backends).** Whatever the iterative method returned, a vector returned by the jax
or the PETSc backend has a residual norm that is a number (or `-inf`) below the bound; in particular
neither NaN nor `+inf`. -/
theorem C26_checked (bound : K) (resid : V → V) (norm : V → Flt K)
    (iter : Option (V → Option V) → V) (mulInvDiag : V → V) (precond : Bool) (ksp x : V)
    (h : jaxSolve bound resid norm iter mulInvDiag precond = .ok x ∨
      petscSolve bound resid norm ksp = .ok x) (hnorm : ∀ y, norm y ≠ .inf true) :
    ∃ e, norm (resid x) = .fin e ∧ e < bound := by
  have key : ∀ y, norm y |>.lt (.fin bound) → ∃ e, norm y = .fin e ∧ e < bound := by
    intro y hy
    cases hn : norm y with
    | nan => rw [hn] at hy; simp [Flt.lt, Flt.gt] at hy
    | inf b =>
      cases b with
      | true => exact absurd hn (hnorm y)
      | false => rw [hn] at hy; simp [Flt.lt, Flt.gt] at hy
    | fin e =>
      rw [hn] at hy
      exact ⟨e, rfl, by simpa [Flt.lt, Flt.gt] using hy⟩
  rcases h with h | h
  · simp only [jaxSolve] at h
    split at h
    · rename_i hc
      rw [← Except.ok.inj h]
      exact key _ hc
    · cases h
  · simp only [petscSolve] at h
    split at h
    · rename_i hc
      rw [← Except.ok.inj h]
      exact key _ hc
    · cases h

/-- **C26 (NaN).** A NaN residual norm is an assertion error in both checked backends. -/
theorem C26_nan (bound : K) (resid : V → V) (norm : V → Flt K)
    (iter : Option (V → Option V) → V) (mulInvDiag : V → V) (precond : Bool) (ksp : V) :
    (norm (resid (iter (jaxPc mulInvDiag precond))) = .nan →
      jaxSolve bound resid norm iter mulInvDiag precond = .error .assertion) ∧
    (norm (resid ksp) = .nan → petscSolve bound resid norm ksp = .error .assertion) := by
  constructor <;> intro h
  · simp [jaxSolve, h, Flt.lt, Flt.gt]
  · simp [petscSolve, h, Flt.lt, Flt.gt]

omit [LinearOrder K] in
/-- **C26 (unchecked backends).** The spsolve, AMGX and custom backends hand on any vector, whatever
its residual. -/
theorem C26_unchecked (x : V) : spsolveSolve x = .ok x ∧ amgxSolve true x = .ok x ∧
    customSolve (.ok x) = .ok x ∧ amgxSolve false x = .error .runtime := ⟨rfl, rfl, rfl, rfl⟩

end

/-! ### C27 -/

/-- **C27 (violated).** With `precond = False` the argument `M` is still a function, and it returns
`None` for every vector. -/
theorem C27_violated {V : Type u} (mulInvDiag : V → V) :
    ∃ pc, jaxPc mulInvDiag false = some pc ∧ ∀ x, pc x = none := ⟨_, rfl, fun _ => rfl⟩

/-- **C27 (partial: `precond = True`).** With `precond = True` the Jacobi preconditioner is passed.
The case `False`, which the property is about, is violated. -/
theorem C27_precond_true_partial {V : Type u} (mulInvDiag : V → V) :
    ∃ pc, jaxPc mulInvDiag true = some pc ∧ ∀ x, pc x = some (mulInvDiag x) := ⟨_, rfl, fun _ => rfl⟩

/-! ### C28 -/

/-- **C28 (None and {}).** -/
theorem C28_empty : resolveOptions none = .ok ("newton", []) ∧
    resolveOptions (some []) = .ok ("newton", []) ∧
    (newtonCfg []).tol = .str "1e-6" ∧ (newtonCfg []).relTol = .str "1e-8" ∧
    (newtonCfg []).lineSearch = .bool false ∧ (newtonCfg []).initialGuess = none ∧
    (newtonCfg []).linear = .dict [] := ⟨rfl, rfl, rfl, rfl, rfl, rfl, rfl⟩

/-- **C28 (flat form).** Without a method key the result is Newton with exactly the Newton keys at top
level and exactly the linear keys under `'linear'`; `'linear'` is absent iff there is no linear key. -/
theorem C28_flat (d : Dict) (hd : ∀ k ∈ methodKeys, d.lookup k = none) :
    ∃ cfg, resolveOptions (some d) = .ok ("newton", cfg) ∧
      (∀ k ∈ newtonKeys, cfg.lookup k = d.lookup k) ∧
      (∀ k, k ∉ newtonKeys → k ≠ "linear" → cfg.lookup k = none) ∧
      (cfg.lookup "linear" = none ∧ (∀ k ∈ linearKeys, d.lookup k = none) ∨
        ∃ l, cfg.lookup "linear" = some (.dict l) ∧ (∃ k ∈ linearKeys, d.lookup k ≠ none) ∧
          (∀ k ∈ linearKeys, Dict.lookup l k = d.lookup k) ∧
          ∀ k, k ∉ linearKeys → Dict.lookup l k = none) := by
  have hm : methodKeys.filter d.has = [] := by
    rw [List.filter_eq_nil_iff]
    intro k hk
    rw [Dict.has_false.2 (hd k hk)]; simp
  rw [resolveOptions]
  simp only [Option.getD_some, hm]
  refine ⟨_, rfl, ?_⟩
  by_cases he : (d.restrict linearKeys).isEmpty = true
  · rw [if_pos he]
    refine ⟨?_, ?_, Or.inl ⟨?_, (Dict.restrict_isEmpty d linearKeys).1 he⟩⟩
    · intro k hk; rw [Dict.lookup_restrict, if_pos hk]
    · intro k hk _; rw [Dict.lookup_restrict, if_neg hk]
    · rw [Dict.lookup_restrict, if_neg (by decide)]
  · rw [if_neg he]
    refine ⟨?_, ?_, Or.inr ⟨d.restrict linearKeys, ?_, ?_, ?_, ?_⟩⟩
    · intro k hk
      have : "linear" ≠ k := by
        rintro rfl
        exact absurd hk (by decide)
      rw [Dict.lookup_set, if_neg this, Dict.lookup_restrict, if_pos hk]
    · intro k hk hl
      rw [Dict.lookup_set, if_neg (Ne.symm hl), Dict.lookup_restrict, if_neg hk]
    · rw [Dict.lookup_set, if_pos rfl]
    · rw [Dict.restrict_isEmpty] at he
      push Not at he
      exact he
    · intro k hk; rw [Dict.lookup_restrict, if_pos hk]
    · intro k hk; rw [Dict.lookup_restrict, if_neg hk]

theorem method_filter (d : Dict) (m : String) (hm : m ∈ methodKeys) (hv : d.lookup m ≠ none)
    (ho : ∀ k ∈ methodKeys, k ≠ m → d.lookup k = none) : methodKeys.filter d.has = [m] := by
  have h1 : d.has m = true := Dict.has_true.2 (Option.ne_none_iff_exists'.1 hv)
  have h2 : ∀ k ∈ methodKeys, k ≠ m → d.has k = false := fun k hk hne => Dict.has_false.2 (ho k hk hne)
  simp only [methodKeys, List.mem_cons, List.not_mem_nil, or_false] at hm
  rcases hm with rfl | rfl | rfl
  · simp [methodKeys, h1, h2 "arc_length" (by decide) (by decide),
      h2 "dynamic_relax" (by decide) (by decide)]
  · simp [methodKeys, h1, h2 "newton" (by decide) (by decide),
      h2 "dynamic_relax" (by decide) (by decide)]
  · simp [methodKeys, h1, h2 "newton" (by decide) (by decide),
      h2 "arc_length" (by decide) (by decide)]

/-- **C28 (one method key).** Exactly one method key selects that method with its own dictionary; a
block that is not a dictionary raises `ValueError`. -/
theorem C28_one (d : Dict) (m : String) (hm : m ∈ methodKeys) (v : PyVal) (hv : d.lookup m = some v)
    (ho : ∀ k ∈ methodKeys, k ≠ m → d.lookup k = none) :
    (∀ s, v = .dict s → resolveOptions (some d) = .ok (m, s)) ∧
    ((∀ s, v ≠ .dict s) → resolveOptions (some d) = .error .value) := by
  have hf := method_filter d m hm (by simp [hv]) ho
  rw [resolveOptions]
  simp only [Option.getD_some, hf, hv]
  constructor
  · rintro s rfl; rfl
  · intro h
    cases v with
    | dict s => exact absurd rfl (h s)
    | _ => rfl

/-- **C28 (several method keys).** Two or more method keys raise `ValueError`. -/
theorem C28_several (d : Dict) (m m' : String) (hm : m ∈ methodKeys) (hm' : m' ∈ methodKeys)
    (hne : m ≠ m') (h : d.lookup m ≠ none) (h' : d.lookup m' ≠ none) :
    resolveOptions (some d) = .error .value := by
  have hl : ∀ x ∈ [m, m'], x ∈ methodKeys.filter d.has := by
    intro x hx
    rw [List.mem_filter]
    simp only [List.mem_cons, List.not_mem_nil, or_false] at hx
    rcases hx with rfl | rfl
    · exact ⟨hm, Dict.has_true.2 (Option.ne_none_iff_exists'.1 h)⟩
    · exact ⟨hm', Dict.has_true.2 (Option.ne_none_iff_exists'.1 h')⟩
  rw [resolveOptions]
  simp only [Option.getD_some]
  cases hf : methodKeys.filter d.has with
  | nil => rw [hf] at hl; exact absurd (hl m (by simp)) (by simp)
  | cons a t =>
    cases t with
    | nil =>
      rw [hf] at hl
      have e1 := hl m (by simp)
      have e2 := hl m' (by simp)
      simp only [List.mem_cons, List.not_mem_nil, or_false] at e1 e2
      exact absurd (e1.trans e2.symm) hne
    | cons b t => rfl

/-- **C28 (legacy equivalence).** A flat dictionary and the nested form that says the same are
resolved to configurations that give the same Newton parameters and the same linear backend. -/
theorem C28_legacy (flat nested : Dict) (hf : ∀ k ∈ methodKeys, flat.lookup k = none)
    (h : SameConfig flat nested) (hw : WFLinear flat) :
    ∃ c1 c2, resolveOptions (some flat) = .ok ("newton", c1) ∧
      resolveOptions (some [("newton", .dict nested)]) = .ok ("newton", c2) ∧
      (newtonCfg c1).tol = (newtonCfg c2).tol ∧ (newtonCfg c1).relTol = (newtonCfg c2).relTol ∧
      (newtonCfg c1).lineSearch = (newtonCfg c2).lineSearch ∧
      (newtonCfg c1).initialGuess = (newtonCfg c2).initialGuess ∧
      ∃ b d1 d2, newtonLinear c1 = .ok (b, d1) ∧ newtonLinear c2 = .ok (b, d2) := by
  obtain ⟨c1, h1, h2, -, h4⟩ := C28_flat flat hf
  obtain ⟨hn, l, hl, hk⟩ := h
  have hwl : ∀ l' : Dict, (∀ k ∈ linearKeys, flat.lookup k = Dict.lookup l' k) → WFLinear l' := by
    intro l' hl' k hk' v hv
    refine hw k hk' v ?_
    rw [hl' k ?_]; exact hv
    simp only [List.mem_cons, List.not_mem_nil, or_false] at hk'
    rcases hk' with rfl | rfl | rfl <;> decide
  have htr : ∀ (l1 l2 : Dict), (∀ k ∈ linearKeys, flat.lookup k = Dict.lookup l1 k) →
      (∀ k ∈ linearKeys, flat.lookup k = Dict.lookup l2 k) → ∀ b, Documented l1 b → Documented l2 b := by
    intro l1 l2 e1 e2 b hb
    have e : ∀ k ∈ linearKeys, Dict.lookup l1 k = Dict.lookup l2 k := fun k hk =>
      (e1 k hk).symm.trans (e2 k hk)
    have ej := e "jax_solver" (by decide)
    have ea := e "amgx_solver" (by decide)
    have es := e "spsolve_solver" (by decide)
    have ep := e "petsc_solver" (by decide)
    have ec := e "custom_solver" (by decide)
    cases hb with
    | dflt h => exact .dflt fun k hk => (e k hk) ▸ h k hk
    | jax p h => exact .jax p (ej ▸ h)
    | amgx c a h => exact .amgx c (ej ▸ a) (ea ▸ h)
    | spsolve v a b c => exact .spsolve v (ej ▸ a) (ea ▸ b) (es ▸ c)
    | petsc k p a b c h h' => exact .petsc k p (ej ▸ a) (ea ▸ b) (es ▸ c) (ep ▸ h) (ep ▸ h')
    | custom f a b c d g => exact .custom f (ej ▸ a) (ea ▸ b) (es ▸ c) (ep ▸ d) (ec ▸ g)
  have e : ∀ k ∈ newtonKeys, c1.lookup k = nested.lookup k := fun k hk => (h2 k hk).trans (hn k hk)
  refine ⟨c1, nested, h1, rfl, ?_, ?_, ?_, ?_, ?_⟩
  · simp only [newtonCfg, Dict.getD]; rw [e "tol" (by decide)]
  · simp only [newtonCfg, Dict.getD]; rw [e "rel_tol" (by decide)]
  · simp only [newtonCfg, Dict.getD]; rw [e "line_search_flag" (by decide)]
  · simp only [newtonCfg]; rw [e "initial_guess" (by decide)]
  -- the linear dictionaries passed on both sides
  have s1 : ∃ l1 : Dict, (∀ k ∈ linearKeys, flat.lookup k = Dict.lookup l1 k) ∧
      ∀ b, Documented l1 b → ∃ d1, newtonLinear c1 = .ok (b, d1) := by
    rcases h4 with ⟨g1, g2⟩ | ⟨l1, g1, -, g3, -⟩
    · refine ⟨[], fun k hk => g2 k hk, fun b hb => ⟨c1, ?_⟩⟩
      rw [newtonLinear, g1, select_of_documented hb]; rfl
    · refine ⟨l1, fun k hk => (g3 k hk).symm,
        fun b hb => ⟨c1.set "linear" (.dict (afterSelect l1)), ?_⟩⟩
      rw [newtonLinear, g1]
      simp only [select_of_documented hb]; rfl
  have s2 : ∀ b, Documented l b → ∃ d2, newtonLinear nested = .ok (b, d2) := by
    intro b hb
    rcases hl with hl | ⟨hl, rfl⟩
    · refine ⟨nested.set "linear" (.dict (afterSelect l)), ?_⟩
      rw [newtonLinear, hl]
      simp only [select_of_documented hb]; rfl
    · refine ⟨nested, ?_⟩
      rw [newtonLinear, hl, select_of_documented hb]; rfl
  obtain ⟨l1, k1, k2⟩ := s1
  obtain ⟨b, hb⟩ := documented_exists l1 (hwl l1 k1)
  obtain ⟨d1, e1⟩ := k2 b hb
  obtain ⟨d2, e2⟩ := s2 b (htr l1 l k1 hk b hb)
  exact ⟨b, d1, d2, e1, e2⟩

/-- **C28 (dropped key).** In the flat form a top-level key `'linear'` (and any unknown key) is not
looked at: `{'linear': {'petsc_solver': {}}}` uses JAX. Recorded as a trap; `'linear'` is not a
recognised flat key. -/
theorem C28_flat_linear_ignored : ∃ d',
    solverLinear [("linear", .dict [("petsc_solver", .dict [])])] = .ok (.jax (.bool true), d') :=
  ⟨_, rfl⟩

/-! ### Concrete cases for the hypotheses -/

/-- `{'petsc_solver': {'ksp_type': 'gmres'}, 'tol': 5}` is a well-formed flat dictionary. -/
def exFlat : Dict := [("petsc_solver", .dict [("ksp_type", .str "gmres")]), ("tol", .num 5)]

/-- The nested form of `exFlat`. -/
def exNested : Dict :=
  [("linear", .dict [("petsc_solver", .dict [("ksp_type", .str "gmres")])]), ("tol", .num 5)]

example : WFLinear exFlat ∧ (∀ k ∈ methodKeys, exFlat.lookup k = none) ∧ SameConfig exFlat exNested := by
  refine ⟨?_, ?_, ?_, _, Or.inl rfl, ?_⟩
  · intro k hk v hv
    simp only [List.mem_cons, List.not_mem_nil, or_false] at hk
    rcases hk with rfl | rfl | rfl
    · cases hv
    · cases hv
    · exact ⟨_, (Option.some.inj hv).symm⟩
  · intro k hk
    simp only [methodKeys, List.mem_cons, List.not_mem_nil, or_false] at hk
    rcases hk with rfl | rfl | rfl <;> rfl
  · intro k hk
    simp only [List.mem_cons, List.not_mem_nil, or_false] at hk
    rcases hk with rfl | rfl | rfl | rfl <;> rfl
  · intro k hk
    simp only [List.mem_cons, List.not_mem_nil, or_false] at hk
    rcases hk with rfl | rfl | rfl | rfl | rfl <;> rfl

example : ∃ d', solverLinear exFlat = .ok (.petsc (.str "gmres") (.str "ilu"), d') := ⟨_, rfl⟩

example : jaxSolve (V := Int) (1 / 10 : ℚ) (fun x => x - 3) (fun r => .fin |(r : ℚ)|) (fun _ => 3) id true
    = .ok 3 := by decide +kernel

end JaxFem
