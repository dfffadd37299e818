import Verif.Spec.Jit
import Verif.Thm.C02_Batch

/-!
# C60: compiled kernels see current internal variables; C61: surface definitions
-/

namespace JaxFem
namespace Jit

variable {A C S Y Z V Sol : Type} [DecidableEq S]

theorem lookup_cons' (x y : Nat × S) (a : A) (c : Cache A S) :
    List.lookup x ((y, a) :: c) = if x = y then some a else c.lookup x := by
  rw [List.lookup_cons]
  by_cases h : x = y
  · simp [h]
  · rw [if_neg h, beq_eq_false_iff_ne.mpr h]

theorem callJit_res (kern : A → Nat → C → Y) (key : List C → S) (attr : A) (cache : Cache A S) (fn : Nat)
    (b : List C) :
    (callJit kern key attr cache fn b).1 = b.map (kern ((cache.lookup (fn, key b)).getD attr) fn) := by
  unfold callJit
  cases cache.lookup (fn, key b) <;> rfl

theorem callJit_lookup (kern : A → Nat → C → Y) (key : List C → S) (attr : A) (cache : Cache A S) (fn : Nat)
    (b : List C) (x : Nat × S) :
    (callJit kern key attr cache fn b).2.lookup x =
      match cache.lookup x with
      | some a => some a
      | none => if x = (fn, key b) then some attr else none := by
  unfold callJit
  cases h : cache.lookup (fn, key b) with
  | some a =>
    dsimp only
    cases h' : cache.lookup x with
    | some a' => rfl
    | none =>
      dsimp only
      rw [if_neg]
      intro e
      rw [e, h] at h'
      cases h'
  | none =>
    dsimp only
    rw [lookup_cons']
    by_cases e : x = (fn, key b)
    · rw [if_pos e, e, h]
      simp
    · rw [if_neg e]
      cases cache.lookup x <;> simp [e]

theorem callAll_lookup (kern : A → Nat → C → Y) (key : List C → S) (attr : A) (cache : Cache A S)
    (calls : List (Nat × List C)) (x : Nat × S) :
    (callAll kern key attr cache calls).2.lookup x =
      match cache.lookup x with
      | some a => some a
      | none => if x ∈ calls.map fun c => (c.1, key c.2) then some attr else none := by
  induction calls generalizing cache with
  | nil => cases h : cache.lookup x <;> simp [callAll, h]
  | cons c rest ih =>
    obtain ⟨fn, b⟩ := c
    have e : (callAll kern key attr cache ((fn, b) :: rest)).2 =
        (callAll kern key attr (callJit kern key attr cache fn b).2 rest).2 := rfl
    rw [e, ih, callJit_lookup]
    cases h : cache.lookup x with
    | some a => rfl
    | none =>
      dsimp only
      by_cases hx : x = (fn, key b)
      · rw [if_pos hx, if_pos (show x ∈ ((fn, b) :: rest).map fun c => (c.1, key c.2) from
          List.mem_cons.mpr (Or.inl hx))]
      · rw [if_neg hx]
        dsimp only
        simp only [List.map_cons, List.mem_cons, hx, false_or]

theorem callAll_res (kern : A → Nat → C → Y) (key : List C → S) (attr : A) (cache : Cache A S)
    (calls : List (Nat × List C)) :
    (callAll kern key attr cache calls).1 =
      calls.map fun c => c.2.map (kern ((cache.lookup (c.1, key c.2)).getD attr) c.1) := by
  induction calls generalizing cache with
  | nil => rfl
  | cons c rest ih =>
    obtain ⟨fn, b⟩ := c
    have e : (callAll kern key attr cache ((fn, b) :: rest)).1 = (callJit kern key attr cache fn b).1 ::
        (callAll kern key attr (callJit kern key attr cache fn b).2 rest).1 := rfl
    rw [e, ih, callJit_res, List.map_cons]
    congr 1
    refine List.map_congr_left fun c _ => ?_
    rw [callJit_lookup]
    cases h : cache.lookup (c.1, key c.2) with
    | some a => rfl
    | none =>
      dsimp only
      split <;> rfl

theorem attrAfter_append (a0 : A) (h h' : List (Op A V Sol)) :
    attrAfter a0 (h ++ h') = attrAfter (attrAfter a0 h) h' := by
  induction h generalizing a0 with
  | nil => rfl
  | cons op h ih => cases op <;> exact ih _

theorem varsAfter_append (v0 : V) (h h' : List (Op A V Sol)) :
    varsAfter v0 (h ++ h') = varsAfter (varsAfter v0 h) h' := by
  induction h generalizing v0 with
  | nil => rfl
  | cons op h ih => cases op <;> exact ih _

theorem run_append (cd : Code A C S Y Z V Sol) (a0 : A) (v0 : V) (h : List (Op A V Sol)) (op : Op A V Sol) :
    run cd a0 v0 (h ++ [op]) = step cd (run cd a0 v0 h) op := by
  unfold run
  rw [List.foldl_append]
  rfl

theorem run_state (cd : Code A C S Y Z V Sol) (a0 : A) (v0 : V) (h : List (Op A V Sol)) :
    (run cd a0 v0 h).attr = attrAfter a0 h ∧ (run cd a0 v0 h).vars = varsAfter v0 h := by
  induction h using List.reverseRecOn with
  | nil => exact ⟨rfl, rfl⟩
  | append_singleton h op ih =>
    rw [run_append, attrAfter_append, varsAfter_append, ← ih.1, ← ih.2]
    cases op <;> exact ⟨rfl, rfl⟩

theorem InEffectSince.now (a0 : A) (h : List (Op A V Sol)) : InEffectSince a0 h (attrAfter a0 h) :=
  ⟨h, [], by rw [List.append_nil], fun _ h => (by cases h), rfl⟩

theorem InEffectSince.append {a0 : A} {h : List (Op A V Sol)} {a : A} (hi : InEffectSince a0 h a)
    (op : Op A V Sol) (hop : op ≠ .preJit) : InEffectSince a0 (h ++ [op]) a := by
  obtain ⟨h1, h2, rfl, hn, ha⟩ := hi
  refine ⟨h1, h2 ++ [op], by rw [List.append_assoc], ?_, ha⟩
  intro o ho
  rcases List.mem_append.mp ho with ho | ho
  · exact hn o ho
  · rw [List.mem_singleton.mp ho]; exact hop

/-- Everything in the caches was traced since the kernels were created. -/
theorem cache_inv (cd : Code A C S Y Z V Sol) (a0 : A) (v0 : V) (h : List (Op A V Sol)) :
    (∀ x a, (run cd a0 v0 h).cacheRes.lookup x = some a → InEffectSince a0 h a) ∧
    ∀ x a, (run cd a0 v0 h).cacheJac.lookup x = some a → InEffectSince a0 h a := by
  induction h using List.reverseRecOn with
  | nil => exact ⟨fun x a h => (by cases h), fun x a h => (by cases h)⟩
  | append_singleton h op ih =>
    have hs := run_state cd a0 v0 h
    rw [run_append]
    cases op with
    | setParams v => exact ⟨fun x a hx => (ih.1 x a hx).append _ (by simp),
        fun x a hx => (ih.2 x a hx).append _ (by simp)⟩
    | setAttr b => exact ⟨fun x a hx => (ih.1 x a hx).append _ (by simp),
        fun x a hx => (ih.2 x a hx).append _ (by simp)⟩
    | residual s =>
      refine ⟨fun x a hx => InEffectSince.append ?_ _ (by simp), fun x a hx => (ih.2 x a hx).append _ (by simp)⟩
      have hx' := (callAll_lookup cd.kern cd.key (run cd a0 v0 h).attr (run cd a0 v0 h).cacheRes _ x).symm.trans hx
      cases hl : (run cd a0 v0 h).cacheRes.lookup x with
      | some a' =>
        rw [hl] at hx'
        cases hx'
        exact ih.1 x _ hl
      | none =>
        rw [hl] at hx'
        dsimp only at hx'
        split at hx'
        · cases hx'
          rw [hs.1]
          exact InEffectSince.now a0 h
        · cases hx'
    | newton s =>
      refine ⟨fun x a hx => (ih.1 x a hx).append _ (by simp), fun x a hx => InEffectSince.append ?_ _ (by simp)⟩
      have hx' := (callAll_lookup cd.kernJac cd.key (run cd a0 v0 h).attr (run cd a0 v0 h).cacheJac _ x).symm.trans hx
      cases hl : (run cd a0 v0 h).cacheJac.lookup x with
      | some a' =>
        rw [hl] at hx'
        cases hx'
        exact ih.2 x _ hl
      | none =>
        rw [hl] at hx'
        dsimp only at hx'
        split at hx'
        · cases hx'
          rw [hs.1]
          exact InEffectSince.now a0 h
        · cases hx'
    | preJit => exact ⟨fun x a h => (by cases h), fun x a h => (by cases h)⟩

theorem eval_direct (kern : A → Nat → C → Y) (key : List C → S) (attr : A) (cache : Cache A S)
    (cells : List C) (faces : List (List C))
    (hk : ∀ x a, cache.lookup x = some a → kern a = kern attr) :
    splitResult (numCuts cells.length) (callAll kern key attr cache (evalCalls cells faces)).1 =
      (cells.map (kern attr 0), faces.mapIdx fun i b => b.map (kern attr (i + 1))) := by
  have hk' : ∀ x, kern ((cache.lookup x).getD attr) = kern attr := by
    intro x
    cases h : cache.lookup x with
    | some a => exact hk x a h
    | none => rfl
  rw [callAll_res]
  simp only [hk']
  unfold evalCalls splitResult
  dsimp only
  have hlen : numCuts cells.length = ((List.range (numCuts cells.length)).map fun i =>
      ((batchSlice (numCuts cells.length) (cells.length / numCuts cells.length) i cells).map (kern attr 0))).length :=
    by rw [List.length_map, List.length_range]
  rw [List.map_append, List.map_map]
  congr 1
  · conv_lhs => rw [List.take_left' (by rw [List.length_map, List.length_range])]
    rcases Nat.eq_zero_or_pos cells.length with h0 | hpos
    · rw [List.length_eq_zero_iff.mp h0]
      rfl
    · have hc : 0 < numCuts cells.length := by
        unfold numCuts; split <;> omega
      have := batches_eq cells (cells.length / numCuts cells.length) (numCuts cells.length) hc
      conv_rhs => rw [← this, List.map_flatMap, List.flatMap_def]
      rfl
  · rw [List.drop_left' (by rw [List.length_map, List.length_range])]
    exact List.ext_getElem? fun i => by simp [Function.comp_def]

/-- **C60.** After any history the residual is the one of the current solution, the current internal variables
and the current attributes, provided the kernel does not distinguish the attribute values in effect since the
kernels were created (in particular if it reads no attributes, or only constant ones). -/
theorem C60_residual (cd : Code A C S Y Z V Sol) (a0 : A) (v0 : V) (h : List (Op A V Sol)) (s : Sol)
    (hk : ∀ a, InEffectSince a0 h a → cd.kern a = cd.kern (attrAfter a0 h)) :
    residualVals cd (run cd a0 v0 h) s =
      ((cd.cellArgs s (varsAfter v0 h)).map (cd.kern (attrAfter a0 h) 0),
       (cd.faceArgs s (varsAfter v0 h)).mapIdx fun i b => b.map (cd.kern (attrAfter a0 h) (i + 1))) := by
  unfold residualVals
  rw [← (run_state cd a0 v0 h).1, ← (run_state cd a0 v0 h).2]
  refine eval_direct _ _ _ _ _ _ fun x a hx => ?_
  rw [(run_state cd a0 v0 h).1]
  exact hk a ((cache_inv cd a0 v0 h).1 x a hx)

/-- **C60.** The same for `newton_update`. -/
theorem C60_newton (cd : Code A C S Y Z V Sol) (a0 : A) (v0 : V) (h : List (Op A V Sol)) (s : Sol)
    (hk : ∀ a, InEffectSince a0 h a → cd.kernJac a = cd.kernJac (attrAfter a0 h)) :
    newtonVals cd (run cd a0 v0 h) s =
      ((cd.cellArgs s (varsAfter v0 h)).map (cd.kernJac (attrAfter a0 h) 0),
       (cd.faceArgs s (varsAfter v0 h)).mapIdx fun i b => b.map (cd.kernJac (attrAfter a0 h) (i + 1))) := by
  unfold newtonVals
  rw [← (run_state cd a0 v0 h).1, ← (run_state cd a0 v0 h).2]
  refine eval_direct _ _ _ _ _ _ fun x a hx => ?_
  rw [(run_state cd a0 v0 h).1]
  exact hk a ((cache_inv cd a0 v0 h).2 x a hx)

/-- No residual evaluation of `h` since the kernels were created called function `x.1` with shapes `x.2`. -/
def Fresh (cd : Code A C S Y Z V Sol) (v0 : V) (h : List (Op A V Sol)) (x : Nat × S) : Prop :=
  ∀ h' s' h'', h = h' ++ .residual s' :: h'' → NoPreJit h'' →
    ∀ c ∈ evalCalls (cd.cellArgs s' (varsAfter v0 h')) (cd.faceArgs s' (varsAfter v0 h')), (c.1, cd.key c.2) ≠ x

theorem fresh_lookup (cd : Code A C S Y Z V Sol) (a0 : A) (v0 : V) (h : List (Op A V Sol)) (x : Nat × S)
    (hf : Fresh cd v0 h x) : (run cd a0 v0 h).cacheRes.lookup x = none := by
  induction h using List.reverseRecOn with
  | nil => rfl
  | append_singleton h op ih =>
    have hs := run_state cd a0 v0 h
    have hprev : op ≠ .preJit → (run cd a0 v0 h).cacheRes.lookup x = none := by
      intro hop
      refine ih fun h' s' h'' e hn => ?_
      refine hf h' s' (h'' ++ [op]) (by rw [e, List.append_assoc]; rfl) ?_
      intro o ho
      rcases List.mem_append.mp ho with ho | ho
      · exact hn o ho
      · rw [List.mem_singleton.mp ho]; exact hop
    rw [run_append]
    cases op with
    | setParams v => exact hprev (by simp)
    | setAttr b => exact hprev (by simp)
    | newton s => exact hprev (by simp)
    | preJit => rfl
    | residual s =>
      refine (callAll_lookup cd.kern cd.key (run cd a0 v0 h).attr (run cd a0 v0 h).cacheRes _ x).trans ?_
      rw [hprev (by simp)]
      dsimp only
      rw [if_neg]
      intro hm
      obtain ⟨c, hc, he⟩ := List.mem_map.mp hm
      rw [hs.2] at hc
      exact hf h s [] rfl (fun _ h => by cases h) c hc he

theorem lookup_persists (cd : Code A C S Y Z V Sol) (a0 : A) (v0 : V) (h h2 : List (Op A V Sol)) (x : Nat × S)
    (a : A) (hx : (run cd a0 v0 h).cacheRes.lookup x = some a) (hn : NoPreJit h2) :
    (run cd a0 v0 (h ++ h2)).cacheRes.lookup x = some a := by
  induction h2 using List.reverseRecOn with
  | nil => rw [List.append_nil]; exact hx
  | append_singleton h2 op ih =>
    have hp := ih fun o ho => hn o (List.mem_append_left _ ho)
    rw [← List.append_assoc, run_append]
    cases op with
    | setParams v => exact hp
    | setAttr b => exact hp
    | newton s => exact hp
    | preJit => exact absurd rfl (hn _ (List.mem_append_right _ (List.mem_singleton_self _)))
    | residual s =>
      refine (callAll_lookup cd.kern cd.key (run cd a0 v0 (h ++ h2)).attr (run cd a0 v0 (h ++ h2)).cacheRes _
        x).trans ?_
      rw [hp]

/-- **C60.** Attribute values are frozen: if the evaluation of `s1` was the first one to call function `fn` with
the shapes of `b`, then until `pre_jit_fns` is run again every call of `fn` with these shapes uses the attributes
as they were then, whatever has been assigned since. -/
theorem C60_frozen (cd : Code A C S Y Z V Sol) (a0 : A) (v0 : V) (h1 h2 : List (Op A V Sol)) (s1 s2 : Sol)
    (fn : Nat) (b : List C) (hf : Fresh cd v0 h1 (fn, cd.key b))
    (hs1 : ∃ b', (fn, b') ∈ evalCalls (cd.cellArgs s1 (varsAfter v0 h1)) (cd.faceArgs s1 (varsAfter v0 h1)) ∧
      cd.key b' = cd.key b)
    (hn : NoPreJit h2) (i : Nat)
    (hi : (evalCalls (cd.cellArgs s2 (varsAfter v0 (h1 ++ .residual s1 :: h2)))
      (cd.faceArgs s2 (varsAfter v0 (h1 ++ .residual s1 :: h2))))[i]? = some (fn, b)) :
    let p := run cd a0 v0 (h1 ++ .residual s1 :: h2)
    (callAll cd.kern cd.key p.attr p.cacheRes (evalCalls (cd.cellArgs s2 p.vars) (cd.faceArgs s2 p.vars))).1[i]? =
      some (b.map (cd.kern (attrAfter a0 h1) fn)) := by
  intro p
  have hvars : p.vars = varsAfter v0 (h1 ++ .residual s1 :: h2) := (run_state cd a0 v0 _).2
  have h0 := run_state cd a0 v0 h1
  have hl1 : (run cd a0 v0 (h1 ++ [.residual s1])).cacheRes.lookup (fn, cd.key b) = some (attrAfter a0 h1) := by
    rw [run_append]
    refine (callAll_lookup cd.kern cd.key (run cd a0 v0 h1).attr (run cd a0 v0 h1).cacheRes _ _).trans ?_
    rw [fresh_lookup cd a0 v0 h1 _ hf]
    dsimp only
    obtain ⟨b', hb', he⟩ := hs1
    rw [if_pos, h0.1]
    rw [h0.2]
    exact List.mem_map.mpr ⟨_, hb', by rw [he]⟩
  have hl : p.cacheRes.lookup (fn, cd.key b) = some (attrAfter a0 h1) := by
    have := lookup_persists cd a0 v0 (h1 ++ [.residual s1]) h2 _ _ hl1 hn
    rwa [List.append_assoc] at this
  rw [callAll_res, List.getElem?_map, hvars, hi, Option.map_some, hl]
  rfl

/-! ### The consequence for Newton's method, as a concrete run -/

/-- One cell, no faces, residual `a * u`, tangent `a`. -/
def exCode : Code Int Int Nat Int (Int × Int) Unit Int where
  kern a _ u := a * u
  kernJac a _ u := (a * u, a)
  key := List.length
  cellArgs s _ := [s]
  faceArgs _ _ := []

/-- **C60 (finding).** `compute_residual` and `newton_update` are compiled separately: an attribute changed
between their first calls leaves residuals and tangents of two different problems. -/
theorem C60_inconsistent :
    let p := run exCode 1 () [.residual 5, .setAttr 2, .newton 5, .setAttr 1]
    residualVals exCode p 7 = ([7], []) ∧ newtonVals exCode p 7 = ([(14, 2)], []) := by
  decide

/-- The hypotheses of `C60_residual` hold for a kernel reading an attribute when `pre_jit_fns` follows the
assignment. -/
example : residualVals exCode (run exCode 1 () [.residual 5, .setAttr 2, .preJit, .newton 3]) 7 = ([14], []) := by
  decide

/-! ### C61 -/

variable {F : Type}

/-- **C61 (partial).** If the constructor succeeds and not both kinds of surface definitions exist, then for
every boundary subset the surface kernel exists and is the one with its number. Missing: classes defining both
`get_surface_maps` and `get_universal_kernels_surface`, see `C61_gap`. -/
theorem C61_kernels_partial (d : SurfaceDefs F) (n : Nat) (h : checkSurfaces d n = .ok ())
    (hone : d.surfaceMaps = none ∨ d.universal = none) (i : Nat) (hi : i < n) :
    ∃ k, faceKernel d i = .ok [k] ∧ (d.surfaceMaps.getD (d.universal.getD []))[i]? = some k := by
  obtain ⟨sm, un⟩ := d
  unfold checkSurfaces at h
  cases sm with
  | some l =>
    dsimp only at h
    split at h
    · rename_i hl
      rcases hone with hone | hone
      · cases hone
      · dsimp only at hone
        subst hone
        have : i < l.length := by omega
        refine ⟨l[i], ?_, List.getElem?_eq_getElem this⟩
        simp [faceKernel, pyGet, List.getElem?_eq_getElem this, Except.map, bind, Except.bind]
    · cases h
  | none =>
    cases un with
    | some l =>
      dsimp only at h
      split at h
      · rename_i hl
        have : i < l.length := by omega
        refine ⟨l[i], ?_, List.getElem?_eq_getElem this⟩
        simp [faceKernel, pyGet, List.getElem?_eq_getElem this, Except.map, bind, Except.bind]
      · cases h
    | none =>
      dsimp only at h
      split at h
      · omega
      · cases h

/-- **C61.** With both kinds of definitions the constructor compares only the first one; the evaluation works
for all boundary subsets exactly if the second list is long enough. -/
theorem C61_both (l m : List F) (n : Nat) :
    (checkSurfaces ⟨some l, some m⟩ n = .ok () ↔ n = l.length) ∧
    (checkSurfaces ⟨some l, some m⟩ n = .ok () →
      ((∀ i < n, ∃ k, faceKernel ⟨some l, some m⟩ i = .ok k) ↔ n ≤ m.length)) := by
  have h1 : checkSurfaces ⟨some l, some m⟩ n = .ok () ↔ n = l.length := by
    unfold checkSurfaces
    dsimp only
    split <;> simp_all
  refine ⟨h1, fun h => ⟨fun hk => ?_, fun hm i hi => ?_⟩⟩
  · by_contra hc
    obtain ⟨k, hk⟩ := hk m.length (by omega)
    have hl : m.length < l.length := by rw [← h1.mp h]; omega
    simp [faceKernel, pyGet, List.getElem?_eq_getElem hl, Except.map, bind, Except.bind] at hk
  · have hl : i < l.length := by rw [← h1.mp h]; exact hi
    have hm' : i < m.length := by omega
    exact ⟨[l[i], m[i]], by
      simp [faceKernel, pyGet, List.getElem?_eq_getElem hl, List.getElem?_eq_getElem hm', Except.map, bind,
        Except.bind]⟩

/-- **C61.** A missing or mismatching definition of the first kind is always detected. -/
theorem C61_detected (d : SurfaceDefs F) (n : Nat) :
    checkSurfaces d n = .error .assertion ↔
      n ≠ (match d.surfaceMaps, d.universal with
        | some l, _ => l.length
        | none, some l => l.length
        | none, none => 0) := by
  obtain ⟨sm, un⟩ := d
  cases sm <;> cases un <;> unfold checkSurfaces <;> dsimp only <;> split <;> simp_all

/-- **C61 is false in general:** one boundary subset, one surface map and an empty list of universal surface
kernels: the object is constructed, the first evaluation raises `IndexError`. -/
theorem C61_gap : ∃ d : SurfaceDefs Nat, checkSurfaces d 1 = .ok () ∧ faceKernel d 0 = .error .index :=
  ⟨⟨some [0], some []⟩, rfl, rfl⟩

example : checkSurfaces (⟨none, some [3, 4]⟩ : SurfaceDefs Nat) 2 = .ok () ∧
    faceKernel (⟨none, some [3, 4]⟩ : SurfaceDefs Nat) 1 = .ok [4] := ⟨rfl, rfl⟩

end Jit
end JaxFem
