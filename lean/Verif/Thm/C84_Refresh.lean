import Verif.Spec.Refresh
import Verif.Thm.C75_Packing

/-!
# C84: recomputing the geometry of an existing problem
-/

namespace JaxFem.Refresh

variable {dim : Nat}

/-! ### Helper lemmas -/

/-- The variables of the elements at the given points. -/
def moved (fs : List (FEObj dim)) (xs : List (Points dim)) : List (CVar dim) :=
  List.zipWith (fun f x => withPoints f.var x) fs xs

theorem feLoop_ok (fs : List (FEObj dim)) (xs : List (Points dim)) (h : fs.length ≤ xs.length) :
    feLoop fs xs = (List.zipWith (fun f x => feStep x f) fs xs, .ok ()) := by
  induction fs generalizing xs with
  | nil => simp [feLoop]
  | cons f fs ih =>
    cases xs with
    | nil => simp at h
    | cons x xs =>
      rw [feLoop, ih xs (by simpa using h)]
      rfl

theorem feLoop_short (fs : List (FEObj dim)) (xs : List (Points dim)) (h : xs.length < fs.length) :
    feLoop fs xs = (List.zipWith (fun f x => feStep x f) fs xs ++ fs.drop xs.length, .error .index) := by
  induction fs generalizing xs with
  | nil => simp at h
  | cons f fs ih =>
    cases xs with
    | nil => simp [feLoop]
    | cons x xs =>
      rw [feLoop, ih xs (by simpa using h)]
      simp

theorem map_step {α : Type} (fs : List (FEObj dim)) (xs : List (Points dim)) (φ : FEObj dim → α)
    (ψ : CVar dim → α) (h : ∀ f x, φ (feStep x f) = ψ (withPoints f.var x)) :
    (List.zipWith (fun f x => feStep x f) fs xs).map φ = (moved fs xs).map ψ := by
  rw [moved, List.map_zipWith, List.map_zipWith]
  simp only [h]

theorem flatMap_step {α : Type} (fs : List (FEObj dim)) (xs : List (Points dim)) (φ : FEObj dim → List α)
    (ψ : CVar dim → List α) (h : ∀ f x, φ (feStep x f) = ψ (withPoints f.var x)) :
    (List.zipWith (fun f x => feStep x f) fs xs).flatMap φ = (moved fs xs).flatMap ψ := by
  rw [List.flatMap_def, List.flatMap_def, map_step fs xs φ ψ h]

theorem all_step (fs : List (FEObj dim)) (xs : List (Points dim)) (p : FEObj dim → Bool)
    (r : CVar dim → Bool) (h : ∀ f x, p (feStep x f) = r (withPoints f.var x)) :
    (List.zipWith (fun f x => feStep x f) fs xs).all p = (moved fs xs).all r := by
  have := map_step fs xs p r h
  have e1 := List.all_map (f := p) (p := id) (l := List.zipWith (fun f x => feStep x f) fs xs)
  have e2 := List.all_map (f := r) (p := id) (l := moved fs xs)
  simp only [Function.id_comp] at e1 e2
  rw [← e1, ← e2, this]

theorem faceFold (fp : List (Points dim)) (bs : List BoundaryInds) (o : Obj dim) :
    bs.foldl (faceStep fp) o = { o with
      faceShapeGrads := o.faceShapeGrads ++ bs.map fun b => b.map fun p q =>
        (moved o.fes fp).flatMap fun v => v.faceShapeGrads p q
      nanson := o.nanson ++ bs.map fun b => b.map fun p => (moved o.fes fp).map fun v => v.nanson p
      faceShapeVals := o.faceShapeVals ++ bs.map fun b => b.map fun p q =>
        o.fes.flatMap fun f => f.var.faceVals p q
      surfQuadPoints := o.surfQuadPoints ++ bs.map fun b => firstSurfPoints (moved o.fes fp) b } := by
  induction bs generalizing o with
  | nil => simp
  | cons b bs ih =>
    rw [List.foldl_cons, ih]
    simp [faceStep, moved]

theorem range_map_getD {α β : Type} (n : Nat) (f : Nat → α) (d : α) (F : Nat → α → β) :
    ((List.range n).map fun e => F e (((List.range n).map f).getD e d)) = (List.range n).map fun e => F e (f e) := by
  refine List.map_congr_left fun e he => ?_
  rw [List.getD_eq_getElem _ _ (by simpa using he)]
  simp

/-- One refresh with points for all variables: success, and every attribute is that of the moved
variables. -/
theorem initGeom_ok (o : Obj dim) (xs : List (Points dim)) (hl : o.fes.length ≤ xs.length)
    (pk : Packed dim) (hp : pack (moved o.fes xs) o.bs = .ok pk) :
    (initGeom o (some xs)).2 = .ok () ∧
    (initGeom o (some xs)).1.fes = List.zipWith (fun f x => feStep x f) o.fes xs ∧
    (initGeom o (some xs)).1.bs = o.bs ∧
    (initGeom o (some xs)).1.cellInputs = pk.cells ∧ (initGeom o (some xs)).1.faceInputs = pk.faces := by
  have hne : ∃ f0 fs x0 xt, o.fes = f0 :: fs ∧ xs = x0 :: xt := by
    cases hf : o.fes with
    | nil => rw [hf] at hp; simp [moved, pack] at hp
    | cons f0 fs =>
      cases xs with
      | nil => rw [hf] at hl; simp at hl
      | cons x0 xt => exact ⟨f0, fs, x0, xt, rfl, rfl⟩
  obtain ⟨f0, fs, x0, xt, hf, rfl⟩ := hne
  have hm : moved o.fes (x0 :: xt) = withPoints f0.var x0 :: moved fs xt := by rw [hf]; rfl
  have hz : List.zipWith (fun f x => feStep x f) o.fes (x0 :: xt)
      = feStep x0 f0 :: List.zipWith (fun f x => feStep x f) fs xt := by rw [hf]; rfl
  have c1 : (List.zipWith (fun f x => feStep x f) o.fes (x0 :: xt)).all (fun f =>
      f.var.cells.length == (feStep x0 f0).var.cells.length && f.var.nq == (feStep x0 f0).var.nq)
      = (moved o.fes (x0 :: xt)).all (fun v => v.cells.length == (withPoints f0.var x0).cells.length
        && v.nq == (withPoints f0.var x0).nq) := all_step _ _ _ _ fun f x => rfl
  have c2 : (List.zipWith (fun f x => feStep x f) o.fes (x0 :: xt)).all (fun f =>
      f.var.nfq == (feStep x0 f0).var.nfq)
      = (moved o.fes (x0 :: xt)).all (fun v => v.nfq == (withPoints f0.var x0).nfq) :=
    all_step _ _ _ _ fun f x => rfl
  have hm2 : moved (List.zipWith (fun f x => feStep x f) o.fes (x0 :: xt)) (x0 :: xt)
      = moved o.fes (x0 :: xt) := by
    refine List.ext_getElem? fun i => ?_
    simp only [moved, List.getElem?_zipWith]
    cases o.fes[i]? <;> cases (x0 :: xt)[i]? <;> rfl
  rw [hm, pack] at hp
  rw [← hm, ← c1, ← c2] at hp
  split at hp
  case isFalse => cases hp
  case isTrue h1 =>
  split at hp
  case isFalse => cases hp
  case isTrue h2 =>
  have hp := Except.ok.inj hp
  have key : initGeom o (some (x0 :: xt)) = (o.bs.foldl (faceStep (x0 :: xt)) { o with
      fes := List.zipWith (fun f x => feStep x f) o.fes (x0 :: xt)
      JxW := (List.range f0.var.cells.length).map fun e =>
        (List.zipWith (fun f x => feStep x f) o.fes (x0 :: xt)).map fun f => f.JxW e
      shapeGrads := (List.range f0.var.cells.length).map fun e q =>
        (List.zipWith (fun f x => feStep x f) o.fes (x0 :: xt)).flatMap fun f => f.shapeGrads e q
      vGradsJxW := (List.range f0.var.cells.length).map fun e q =>
        (List.zipWith (fun f x => feStep x f) o.fes (x0 :: xt)).flatMap fun f => f.vGradsJxW e q
      quadPoints := (List.range f0.var.cells.length).map fun e => (withPoints f0.var x0).quadPoint e
      faceShapeGrads := [], nanson := [], faceShapeVals := [], surfQuadPoints := [] }, .ok ()) := by
    rw [initGeom, Option.getD_some, feLoop_ok _ _ hl]
    rw [hz] at h1 h2 ⊢
    simp only
    rw [if_pos h1, if_pos h2]
    rfl
  rw [key, faceFold]
  refine ⟨rfl, rfl, rfl, ?_, ?_⟩
  · rw [← hp, Obj.cellInputs]
    simp only [hz, List.length_map, List.length_range]
    rw [← hz]
    refine List.map_congr_left fun e he => ?_
    have hn : e < f0.var.cells.length := by simpa [withPoints] using he
    simp only [List.getD_eq_getElem?_getD, List.getElem?_map, List.getElem?_range hn, Option.map_some,
      Option.getD_some]
    congr 1
    · funext q
      exact flatMap_step _ _ _ _ fun f x => rfl
    · exact map_step _ _ _ _ fun f x => rfl
    · funext q
      exact flatMap_step _ _ _ _ fun f x => rfl
  · rw [← hp, Obj.faceInputs]
    simp only [hz, List.nil_append, List.length_map]
    rw [← hz, hm2]
    have hs : ∀ b, firstSurfPoints (moved o.fes (x0 :: xt)) b
        = b.map fun p => (withPoints f0.var x0).faceQuadPoint p := fun b => by rw [hm]; rfl
    simp only [hs]
    refine List.ext_getElem (by simp) fun i i1 i2 => ?_
    have hi : i < o.bs.length := by simpa using i2
    simp only [List.getElem_map, List.getElem_range, List.getD_eq_getElem?_getD, List.getElem?_map,
      List.getElem?_eq_getElem hi, Option.map_some, Option.getD_some, List.length_map]
    refine List.ext_getElem (by simp) fun k k1 k2 => ?_
    have hk : k < o.bs[i].length := by simpa using k2
    simp only [List.getElem_map, List.getElem_range, List.getElem?_eq_getElem hk, Option.map_some,
      Option.getD_some]
    congr 1
    funext q
    exact flatMap_step _ _ _ _ fun f x => rfl

/-- A refresh that returns had shapes that can be packed. -/
theorem initGeom_pack (o : Obj dim) (xs : List (Points dim)) (hl : o.fes.length ≤ xs.length)
    (h : (initGeom o (some xs)).2 = .ok ()) : ∃ pk, pack (moved o.fes xs) o.bs = .ok pk := by
  rw [initGeom, Option.getD_some, feLoop_ok _ _ hl] at h
  cases hf : o.fes with
  | nil => rw [hf] at h; simp at h
  | cons f0 fs =>
    cases xs with
    | nil => rw [hf] at hl; simp at hl
    | cons x0 xt =>
      have hz : List.zipWith (fun f x => feStep x f) o.fes (x0 :: xt)
          = feStep x0 f0 :: List.zipWith (fun f x => feStep x f) fs xt := by rw [hf]; rfl
      have hm : moved (f0 :: fs) (x0 :: xt) = withPoints f0.var x0 :: moved fs xt := rfl
      have c1 : (List.zipWith (fun f x => feStep x f) (f0 :: fs) (x0 :: xt)).all (fun f =>
          f.var.cells.length == (feStep x0 f0).var.cells.length && f.var.nq == (feStep x0 f0).var.nq)
          = (moved (f0 :: fs) (x0 :: xt)).all (fun v => v.cells.length == (withPoints f0.var x0).cells.length
            && v.nq == (withPoints f0.var x0).nq) := all_step _ _ _ _ fun f x => rfl
      have c2 : (List.zipWith (fun f x => feStep x f) (f0 :: fs) (x0 :: xt)).all (fun f =>
          f.var.nfq == (feStep x0 f0).var.nfq)
          = (moved (f0 :: fs) (x0 :: xt)).all (fun v => v.nfq == (withPoints f0.var x0).nfq) :=
        all_step _ _ _ _ fun f x => rfl
      rw [hz] at h
      simp only at h
      rw [hm] at c1 c2 ⊢
      rw [pack, ← c1]
      change (if (feStep x0 f0 :: List.zipWith (fun f x => feStep x f) fs xt).all _ = true then _ else _ : Obj dim × Except Err Unit).2 = _ at h
      split at h
      case isFalse => cases h
      case isTrue h1 =>
      split at h
      case isFalse => cases h
      case isTrue h2 =>
      rw [← c2]
      have h1' : (List.zipWith (fun f x => feStep x f) (f0 :: fs) (x0 :: xt)).all (fun f =>
          f.var.cells.length == (feStep x0 f0).var.cells.length && f.var.nq == (feStep x0 f0).var.nq) = true := h1
      have h2' : (o.bs.isEmpty || (List.zipWith (fun f x => feStep x f) (f0 :: fs) (x0 :: xt)).all (fun f =>
          f.var.nfq == (feStep x0 f0).var.nfq)) = true := h2
      exact ⟨_, by rw [if_pos h1', if_pos h2']⟩

theorem initGeom_none (o : Obj dim) :
    initGeom o none = initGeom o (some (o.fes.map fun f => f.var.points)) := rfl

/-- The object agrees with the bookkeeping. -/
structure Agrees (vars : List (CVar dim)) (bs : List BoundaryInds) (o : Obj dim) (k : Book dim) : Prop where
  sel : o.bs = bs
  len : o.fes.length = vars.length
  el : ∀ (i : Nat) (v : CVar dim) (f : FEObj dim), vars[i]? = some v → o.fes[i]? = some f →
    f.var = { v with points := k.held i } ∧ f.bc = k.bc i
  geo : GeometryOf o (placed vars k.geo) bs

/-- The shapes allow packing, whatever the points. -/
def Packs (vars : List (CVar dim)) (bs : List BoundaryInds) : Prop :=
  ∀ x : Nat → Points dim, ∃ pk, pack (placed vars x) bs = .ok pk

theorem placed_getElem? (vars : List (CVar dim)) (x : Nat → Points dim) (i : Nat) :
    (placed vars x)[i]? = vars[i]?.map fun v => { v with points := x i } := by
  rw [placed, List.getElem?_mapIdx]

theorem packs_of (vars : List (CVar dim)) (bs : List BoundaryInds) (pk : Packed dim)
    (h : pack vars bs = .ok pk) : Packs vars bs := by
  intro x
  obtain ⟨h0, h1, h2⟩ := (C75_pack_iff vars bs).1 ⟨pk, h⟩
  have mem : ∀ v ∈ placed vars x, ∃ w ∈ vars, v.cells = w.cells ∧ v.nq = w.nq ∧ v.nfq = w.nfq := by
    intro v hv
    obtain ⟨i, hi⟩ := List.getElem?_of_mem hv
    rw [placed_getElem?, Option.map_eq_some_iff] at hi
    obtain ⟨w, hw, rfl⟩ := hi
    exact ⟨w, List.mem_of_getElem? hw, rfl, rfl, rfl⟩
  refine (C75_pack_iff _ bs).2 ⟨?_, ?_, ?_⟩
  · intro h
    apply h0
    have := congrArg List.length h
    simpa [placed] using this
  · intro v hv w hw
    obtain ⟨v', hv', a1, a2, -⟩ := mem v hv
    obtain ⟨w', hw', b1, b2, -⟩ := mem w hw
    rw [a1, a2, b1, b2]
    exact h1 v' hv' w' hw'
  · refine h2.imp id fun h2 v hv w hw => ?_
    obtain ⟨v', hv', -, -, a⟩ := mem v hv
    obtain ⟨w', hw', -, -, b⟩ := mem w hw
    rw [a, b]
    exact h2 v' hv' w' hw'

/-- A refresh at the points `x` makes the object agree with the bookkeeping at `x`. -/
theorem refresh_agrees (vars : List (CVar dim)) (bs : List BoundaryInds) (hp : Packs vars bs) (o : Obj dim)
    (held : Nat → Points dim) (bc : Nat → BCLists) (hb : o.bs = bs) (hl : o.fes.length = vars.length)
    (he : ∀ (i : Nat) (v : CVar dim) (f : FEObj dim), vars[i]? = some v → o.fes[i]? = some f →
      f.var = { v with points := held i } ∧ f.bc = bc i)
    (xs : List (Points dim)) (hx : vars.length ≤ xs.length) (geo : Nat → Points dim)
    (hg : ∀ i < vars.length, xs[i]? = some (geo i)) :
    (initGeom o (some xs)).2 = .ok () ∧ Agrees vars bs (initGeom o (some xs)).1 ⟨held, geo, bc⟩ := by
  have hm : moved o.fes xs = placed vars geo := by
    refine List.ext_getElem? fun i => ?_
    rw [placed_getElem?, moved, List.getElem?_zipWith]
    by_cases hi : i < vars.length
    · rw [hg i hi, List.getElem?_eq_getElem (hl ▸ hi : i < o.fes.length), List.getElem?_eq_getElem hi]
      have := (he i _ _ (List.getElem?_eq_getElem hi) (List.getElem?_eq_getElem (hl ▸ hi : i < o.fes.length))).1
      simp [withPoints, this]
    · rw [List.getElem?_eq_none (hl ▸ Nat.le_of_not_lt hi : o.fes.length ≤ i),
        List.getElem?_eq_none (Nat.le_of_not_lt hi)]
      rfl
  obtain ⟨pk, hpk⟩ := hp geo
  obtain ⟨r1, r2, r3, r4, r5⟩ := initGeom_ok o xs (hl ▸ hx) pk (by rw [hm, hb]; exact hpk)
  have elem : ∀ (i : Nat) (v : CVar dim) (f : FEObj dim), vars[i]? = some v →
      (initGeom o (some xs)).1.fes[i]? = some f → ∃ f', o.fes[i]? = some f' ∧ f = feStep (geo i) f' := by
    intro i v f hv hf
    have hi : i < vars.length := (List.getElem?_eq_some_iff.1 hv).1
    rw [r2, List.getElem?_zipWith, hg i hi, List.getElem?_eq_getElem (hl ▸ hi : i < o.fes.length)] at hf
    exact ⟨_, List.getElem?_eq_getElem (hl ▸ hi : i < o.fes.length), (Option.some.inj hf).symm⟩
  refine ⟨r1, ⟨r3.trans hb, ?_, ?_, pk, hpk, r4, r5, ?_, ?_⟩⟩
  · rw [r2, List.length_zipWith, hl]; omega
  · intro i v f hv hf
    obtain ⟨f', hf', rfl⟩ := elem i v f hv hf
    exact he i v f' hv hf'
  · rw [r2, List.length_zipWith, hl, placed, List.length_mapIdx]; omega
  · intro i v f hv hf
    rw [placed_getElem?, Option.map_eq_some_iff] at hv
    obtain ⟨w, hw, rfl⟩ := hv
    obtain ⟨f', hf', rfl⟩ := elem i w f hw hf
    have e := (he i w f' hw hf').1
    simp only [feStep, withPoints, e]
    exact ⟨trivial, trivial, rfl⟩

/-- Changing boundary conditions or points of one element leaves the packed arrays alone. -/
theorem set_agrees (vars : List (CVar dim)) (bs : List BoundaryInds) (o : Obj dim) (k : Book dim)
    (h : Agrees vars bs o k) (i : Nat) (f f' : FEObj dim) (hf : o.fes[i]? = some f)
    (hx : ∃ x, f'.var = { f.var with points := x }) (h1 : f'.shapeGrads = f.shapeGrads)
    (h2 : f'.JxW = f.JxW) (h3 : f'.vGradsJxW = f.vGradsJxW) :
    GeometryOf { o with fes := o.fes.set i f' } (placed vars k.geo) bs := by
  obtain ⟨pk, p1, p2, p3, p4, p5⟩ := h.geo
  obtain ⟨x, hx⟩ := hx
  have hi : i < o.fes.length := (List.getElem?_eq_some_iff.1 hf).1
  have head : ∀ g gs, o.fes = g :: gs → ∃ g' gs', o.fes.set i f' = g' :: gs' ∧
      g'.var.nq = g.var.nq ∧ g'.var.nfq = g.var.nfq := by
    intro g gs hg
    rw [hg] at hf ⊢
    cases i with
    | zero =>
      have : g = f := by simpa using hf
      exact ⟨f', gs, rfl, by rw [hx, this], by rw [hx, this]⟩
    | succ i => exact ⟨g, gs.set i f', rfl, rfl, rfl⟩
  refine ⟨pk, p1, ?_, ?_, ?_, ?_⟩
  · rw [← p2]
    cases hg : o.fes with
    | nil => rw [hg] at hi; simp at hi
    | cons g gs =>
      obtain ⟨g', gs', e1, e2, e3⟩ := head g gs hg
      rw [hg] at e1
      simp only [Obj.cellInputs, hg, e1, e2]
  · rw [← p3]
    cases hg : o.fes with
    | nil => rw [hg] at hi; simp at hi
    | cons g gs =>
      obtain ⟨g', gs', e1, e2, e3⟩ := head g gs hg
      rw [hg] at e1
      simp only [Obj.faceInputs, hg, e1, e3]
  · simpa using p4
  · intro l v g hv hg
    by_cases hl : i = l
    · subst hl
      have : g = f' := by simpa [List.getElem?_set_self hi] using hg.symm
      rw [this, h1, h2, h3]
      exact p5 i v f hv hf
    · rw [List.getElem?_set_ne hl] at hg
      exact p5 l v g hv hg

theorem step_agrees (vars : List (CVar dim)) (bs : List BoundaryInds) (hp : Packs vars bs) (o : Obj dim)
    (k : Book dim) (h : Agrees vars bs o k) (op : Op dim)
    (hc : ∀ l, op = .refresh (some l) → vars.length ≤ l.length) :
    Agrees vars bs (step o op).1 (k.next vars.length op) := by
  cases op with
  | refresh pts =>
    cases pts with
    | none =>
      show Agrees vars bs (initGeom o none).1 _
      rw [initGeom_none]
      refine (refresh_agrees vars bs hp o k.held k.bc h.sel h.len h.el _ (by simp [h.len]) k.held ?_).2
      intro i hi
      rw [List.getElem?_map, List.getElem?_eq_getElem (h.len ▸ hi : i < o.fes.length)]
      have := (h.el i _ _ (List.getElem?_eq_getElem hi) (List.getElem?_eq_getElem (h.len ▸ hi : i < o.fes.length))).1
      simp [this]
    | some l =>
      refine (refresh_agrees vars bs hp o k.held k.bc h.sel h.len h.el l (hc l rfl) (fun i => l.getD i []) ?_).2
      intro i hi
      have := hc l rfl
      rw [List.getElem?_eq_getElem (by omega), List.getD_eq_getElem _ _ (by omega)]
  | updateBC i info =>
    show Agrees vars bs (updateBC o i info).1 _
    rw [updateBC, Book.next]
    by_cases hi : i < vars.length
    · have hi' : i < o.fes.length := h.len ▸ hi
      have ef := List.getElem?_eq_getElem hi'
      have ev := (h.el i _ _ (List.getElem?_eq_getElem hi) ef).1
      have ep : o.fes[i].var.points = k.held i := by rw [ev]
      rw [ef]
      simp only [ep]
      cases hd : dirichletBC (k.held i) info with
      | error e => exact h
      | ok b =>
        simp only [if_pos hi]
        refine ⟨h.sel, by simpa using h.len, ?_, set_agrees vars bs o k h i _ _ ef ⟨_, rfl⟩ rfl rfl rfl⟩
        intro l v f hv hf
        by_cases hl : i = l
        · subst hl
          simp only [List.getElem?_set_self hi', Option.some.injEq] at hf
          rw [← hf]
          exact ⟨(h.el i v _ hv ef).1, by simp⟩
        · simp only [List.getElem?_set_ne hl] at hf
          simp only
          rw [Function.update_of_ne (Ne.symm hl)]
          exact h.el l v f hv hf
    · rw [List.getElem?_eq_none (by rw [h.len]; omega)]
      cases hd : dirichletBC (k.held i) info with
      | error e => exact h
      | ok b => simpa only [if_neg hi] using h
  | assignPoints i x =>
    show Agrees vars bs (assignPoints o i x).1 _
    rw [assignPoints, Book.next]
    by_cases hi : i < vars.length
    · have hi' : i < o.fes.length := h.len ▸ hi
      have ef := List.getElem?_eq_getElem hi'
      rw [ef]
      simp only [if_pos hi]
      refine ⟨h.sel, by simpa using h.len, ?_, set_agrees vars bs o k h i _ { o.fes[i] with var := withPoints o.fes[i].var x } ef
        ⟨x, rfl⟩ rfl rfl rfl⟩
      intro l v f hv hf
      by_cases hl : i = l
      · subst hl
        simp only [List.getElem?_set_self hi', Option.some.injEq] at hf
        rw [← hf]
        have := h.el i v _ hv ef
        refine ⟨?_, this.2⟩
        simp [withPoints, this.1]
      · simp only [List.getElem?_set_ne hl] at hf
        simp only
        rw [Function.update_of_ne (Ne.symm hl)]
        exact h.el l v f hv hf
    · rw [List.getElem?_eq_none (by rw [h.len]; omega)]
      simpa only [if_neg hi] using h

theorem mapM_except {α β : Type} (f : α → Except Err β) (l : List α) (r : List β)
    (h : l.mapM f = .ok r) : r.length = l.length ∧ ∀ (i : Nat) a, l[i]? = some a → ∃ b, r[i]? = some b ∧ f a = .ok b := by
  induction l generalizing r with
  | nil =>
    have : r = [] := by simpa [List.mapM_nil, pure, Except.pure] using h.symm
    simp [this]
  | cons a l ih =>
    rw [List.mapM_cons, bind_ok] at h
    obtain ⟨b, hb, h⟩ := h
    rw [bind_ok] at h
    obtain ⟨bs, hbs, h⟩ := h
    have : r = b :: bs := by simpa [pure, Except.pure] using h.symm
    obtain ⟨i1, i2⟩ := ih bs hbs
    rw [this]
    refine ⟨by simp [i1], fun i a' ha => ?_⟩
    cases i with
    | zero =>
      have : a = a' := by simpa using ha
      exact ⟨b, rfl, this ▸ hb⟩
    | succ i =>
      have ha : l[i]? = some a' := by simpa using ha
      simpa using i2 i a' ha

/-- Points the elements are constructed with. -/
def startPoints (vars : List (CVar dim)) (i : Nat) : Points dim := (vars[i]?.map CVar.points).getD []

theorem placed_start (vars : List (CVar dim)) : placed vars (startPoints vars) = vars := by
  refine List.ext_getElem? fun i => ?_
  rw [placed_getElem?]
  cases h : vars[i]? with
  | none => rfl
  | some v => simp [startPoints, h]

/-- Construction: the object agrees with the bookkeeping in which nothing has happened yet. -/
theorem construct_agrees (vars : List (CVar dim)) (infos : List (Info dim)) (faceInds : List (List Nat))
    (locs : Option (List (LocFn (Fin dim → ℝ)))) (o : Obj dim) (hn : infos.length = vars.length)
    (h : construct vars infos faceInds locs = .ok o) :
    ∃ bs bc, (∀ v0, vars[0]? = some v0 → boundaryInds v0.points v0.cells faceInds locs = .ok bs) ∧
      (∀ (i : Nat) v info, vars[i]? = some v → infos[i]? = some info →
        dirichletBC v.points info = .ok (bc i)) ∧
      Packs vars bs ∧ Agrees vars bs o ⟨startPoints vars, startPoints vars, bc⟩ := by
  rw [construct, bind_ok] at h
  obtain ⟨fes, hf, h⟩ := h
  obtain ⟨f1, f2⟩ := mapM_except _ _ _ hf
  cases hfes : fes with
  | nil => rw [hfes] at h; cases h
  | cons f0 ft =>
    have hlen : fes.length = vars.length := by rw [f1, List.length_zip, hn, Nat.min_self]
    rw [hfes] at h
    simp only at h
    rw [bind_ok] at h
    obtain ⟨bs, hb, h⟩ := h
    rw [bind_ok] at h
    obtain ⟨u, hu, h⟩ := h
    have hoo : (initGeom (Obj.bare (f0 :: ft) bs) none).1 = o := Except.ok.inj h
    rw [← hfes] at hoo hu
    have el : ∀ (i : Nat) v f, vars[i]? = some v → fes[i]? = some f →
        ∃ info, infos[i]? = some info ∧ ∃ b, dirichletBC v.points info = .ok b ∧ f = FEObj.bare v b := by
      intro i v f hv hfi
      have hi : i < vars.length := (List.getElem?_eq_some_iff.1 hv).1
      have hinfo := List.getElem?_eq_getElem (hn ▸ hi : i < infos.length)
      obtain ⟨f', g1, g2⟩ := f2 i (v, infos[i]'(hn ▸ hi)) (List.getElem?_zip_eq_some.2 ⟨hv, hinfo⟩)
      rw [bind_ok] at g2
      obtain ⟨b, g3, g4⟩ := g2
      refine ⟨_, hinfo, b, g3, ?_⟩
      rw [hfi] at g1
      rw [Option.some.inj g1]
      exact (Except.ok.inj g4).symm
    have var : ∀ (i : Nat) v f, vars[i]? = some v → fes[i]? = some f → f.var = v := by
      intro i v f hv hfi
      obtain ⟨_, -, b, -, rfl⟩ := el i v f hv hfi
      rfl
    have h0 : 0 < vars.length := by rw [← hlen, hfes]; simp
    have hbs : ∀ v0, vars[0]? = some v0 → boundaryInds v0.points v0.cells faceInds locs = .ok bs := by
      intro v0 hv0
      have := var 0 v0 f0 hv0 (by rw [hfes]; rfl)
      rw [← this]
      exact hb
    -- the shapes pack, since the constructor returned
    have hmv : moved fes (fes.map fun f => f.var.points) = vars := by
      refine List.ext_getElem? fun i => ?_
      rw [moved, List.getElem?_zipWith, List.getElem?_map]
      by_cases hi : i < vars.length
      · have e1 := List.getElem?_eq_getElem (hlen ▸ hi : i < fes.length)
        have e2 := List.getElem?_eq_getElem hi
        rw [e1, e2]
        simp [withPoints, var i _ _ e2 e1]
      · rw [List.getElem?_eq_none (hlen ▸ Nat.le_of_not_lt hi : fes.length ≤ i),
          List.getElem?_eq_none (Nat.le_of_not_lt hi)]
    have hpk : ∃ pk, pack vars bs = .ok pk := by
      have := initGeom_pack (Obj.bare fes bs) (fes.map fun f => f.var.points) (by simp [Obj.bare]) (by
        have : u = () := rfl
        rw [this] at hu
        exact hu)
      rw [show moved (Obj.bare fes bs).fes (fes.map fun f => f.var.points) = vars from hmv] at this
      exact this
    obtain ⟨pk, hpk⟩ := hpk
    have hP := packs_of vars bs pk hpk
    have sp : ∀ (i : Nat) v, vars[i]? = some v → startPoints vars i = v.points := by
      intro i v hv
      rw [startPoints, hv]
      rfl
    refine ⟨bs, fun i => (fes[i]?.map FEObj.bc).getD ([], [], []), hbs, ?_, hP, ?_⟩
    · intro i v info hv hi
      have hil : i < vars.length := (List.getElem?_eq_some_iff.1 hv).1
      have ef := List.getElem?_eq_getElem (hlen ▸ hil : i < fes.length)
      obtain ⟨info', hi', b, hb', e⟩ := el i v _ hv ef
      rw [hi'] at hi
      rw [← Option.some.inj hi, hb']
      simp only
      rw [ef, Option.map_some, Option.getD_some, e]
      rfl
    · rw [← hoo, initGeom_none]
      refine (refresh_agrees vars bs hP (Obj.bare fes bs) _ _ rfl hlen ?_ _ (by simp [Obj.bare, hlen]) _ ?_).2
      · intro i v f hv hfi
        have hfi : fes[i]? = some f := hfi
        obtain ⟨info, -, b, -, rfl⟩ := el i v f hv hfi
        refine ⟨?_, ?_⟩
        · rw [sp i v hv]
          rfl
        · rw [hfi]
          rfl
      · intro i hi
        have ef := List.getElem?_eq_getElem (hlen ▸ hi : i < fes.length)
        have ev := List.getElem?_eq_getElem hi
        show (fes.map fun f => f.var.points)[i]? = _
        rw [List.getElem?_map, ef, Option.map_some, var i _ _ ev ef, sp i _ ev]

theorem run_agrees (vars : List (CVar dim)) (bs : List BoundaryInds) (hp : Packs vars bs) (ops : List (Op dim))
    (hc : Complete vars.length ops) (o : Obj dim) (k : Book dim) (h : Agrees vars bs o k) :
    Agrees vars bs (run o ops) (k.after vars.length ops) := by
  induction ops generalizing o k with
  | nil => exact h
  | cons op ops ih =>
    refine ih (fun p hp' => hc p (by simp [hp'])) _ _ ?_
    exact step_agrees vars bs hp o k h op fun l hl => hc op (by simp) l hl

theorem geometryOf_unique (o o' : Obj dim) (vars : List (CVar dim)) (bs : List BoundaryInds)
    (h : GeometryOf o vars bs) (h' : GeometryOf o' vars bs) :
    o.cellInputs = o'.cellInputs ∧ o.faceInputs = o'.faceInputs ∧
    ∀ (i : Nat) (f f' : FEObj dim), o.fes[i]? = some f → o'.fes[i]? = some f' →
      f.shapeGrads = f'.shapeGrads ∧ f.JxW = f'.JxW ∧ f.vGradsJxW = f'.vGradsJxW := by
  obtain ⟨pk, p1, p2, p3, p4, p5⟩ := h
  obtain ⟨pk', q1, q2, q3, q4, q5⟩ := h'
  have : pk = pk' := by rw [p1] at q1; exact Except.ok.inj q1
  subst this
  refine ⟨p2.trans q2.symm, p3.trans q3.symm, fun i f f' hf hf' => ?_⟩
  have hi : i < vars.length := by rw [← p4]; exact (List.getElem?_eq_some_iff.1 hf).1
  have ev := List.getElem?_eq_getElem hi
  obtain ⟨a1, a2, a3⟩ := p5 i _ f ev hf
  obtain ⟨b1, b2, b3⟩ := q5 i _ f' ev hf'
  exact ⟨a1.trans b1.symm, a2.trans b2.symm, a3.trans b3.symm⟩

/-! ### Property theorems -/

/-- **C84.** After the construction of a problem and any history of refreshes (each with points for all
variables, or without argument), updates of boundary conditions and assignments to `fe.points`: all
arrays the kernels are mapped over, and the arrays of the finite elements, are those computed from the
points of the last refresh; the boundary faces are those selected at construction; the boundary values
are those of the last update, evaluated at the points the element held at that time. -/
theorem C84_history (vars : List (CVar dim)) (infos : List (Info dim)) (faceInds : List (List Nat))
    (locs : Option (List (LocFn (Fin dim → ℝ)))) (o : Obj dim) (hn : infos.length = vars.length)
    (h : construct vars infos faceInds locs = .ok o) :
    ∃ bs bc, (∀ v0, vars[0]? = some v0 → boundaryInds v0.points v0.cells faceInds locs = .ok bs) ∧
      (∀ (i : Nat) v info, vars[i]? = some v → infos[i]? = some info →
        dirichletBC v.points info = .ok (bc i)) ∧
      ∀ ops, Complete vars.length ops →
        let x := fun i => (vars[i]?.map CVar.points).getD []
        let k := Book.after vars.length ⟨x, x, bc⟩ ops
        GeometryOf (run o ops) (placed vars k.geo) bs ∧ (run o ops).bs = bs ∧
        ∀ (i : Nat) (f : FEObj dim), (run o ops).fes[i]? = some f →
          f.var.points = k.held i ∧ f.bc = k.bc i := by
  obtain ⟨bs, bc, h1, h2, hP, h3⟩ := construct_agrees vars infos faceInds locs o hn h
  refine ⟨bs, bc, h1, h2, fun ops hc => ?_⟩
  have := run_agrees vars bs hP ops hc o _ h3
  refine ⟨this.geo, this.sel, fun i f hf => ?_⟩
  have hi : i < vars.length := by rw [← this.len]; exact (List.getElem?_eq_some_iff.1 hf).1
  have e := this.el i _ f (List.getElem?_eq_getElem hi) hf
  exact ⟨by rw [e.1]; rfl, e.2⟩

/-- **C84 (comparison with a new problem).** The residual after any such history is the residual of a
problem newly constructed at the points of the last refresh, for every kernel, provided the location
functions select the same boundary faces at those points; the gradients of `sol_to_grad` agree as
well. -/
theorem C84_rebuilt (vars : List (CVar dim)) (infos infos' : List (Info dim)) (faceInds : List (List Nat))
    (locs : Option (List (LocFn (Fin dim → ℝ)))) (o o' : Obj dim) (hn : infos.length = vars.length)
    (hn' : infos'.length = vars.length) (h : construct vars infos faceInds locs = .ok o)
    (ops : List (Op dim)) (hc : Complete vars.length ops) (bc0 : Nat → BCLists) :
    let x := fun i => (vars[i]?.map CVar.points).getD []
    let geo := (Book.after vars.length ⟨x, x, bc0⟩ ops).geo
    construct (placed vars geo) infos' faceInds locs = .ok o' → o'.bs = o.bs →
    (∀ {IV : Type} kernel (ivs : List IV) ks fivs sols,
      (run o ops).residual kernel ivs ks fivs sols = o'.residual kernel ivs ks fivs sols) ∧
    ∀ (i : Nat) f f', (run o ops).fes[i]? = some f → o'.fes[i]? = some f' →
      f.solToGrad = f'.solToGrad := by
  intro x geo h' hb
  obtain ⟨bs, bc, -, -, hP, h3⟩ := construct_agrees vars infos faceInds locs o hn h
  have hplen : (placed vars geo).length = vars.length := by rw [placed, List.length_mapIdx]
  obtain ⟨bs', bc', -, -, hP', h3'⟩ := construct_agrees _ infos' faceInds locs o' (hn'.trans hplen.symm) h'
  have hbb : bs' = bs := by rw [← h3'.sel, ← h3.sel, hb]
  subst hbb
  have hr := run_agrees vars bs' hP ops hc o _ h3
  -- the geometry part of the bookkeeping does not depend on the boundary conditions
  have hgeo : ∀ (ops : List (Op dim)) (k k' : Book dim), k.held = k'.held → k.geo = k'.geo →
      (k.after vars.length ops).geo = (k'.after vars.length ops).geo := by
    intro ops
    induction ops with
    | nil => intro k k' _ hg; exact hg
    | cons op ops ih =>
      intro k k' hh hg
      refine ih _ _ ?_ ?_
      · cases op with
        | refresh pts => cases pts <;> exact hh
        | updateBC i info =>
          simp only [Book.next, hh]
          split
          · split <;> simp [hh]
          · exact hh
        | assignPoints i y =>
          simp only [Book.next, hh]
          split <;> simp [hh]
      · cases op with
        | refresh pts => cases pts <;> simp [Book.next, hh]
        | updateBC i info =>
          simp only [Book.next, hh]
          split
          · split <;> simp [hg]
          · exact hg
        | assignPoints i y =>
          simp only [Book.next]
          split <;> simp [hg]
  have g1 : GeometryOf (run o ops) (placed vars geo) bs' := by
    have := hr.geo
    rwa [hgeo ops ⟨startPoints vars, startPoints vars, bc⟩ ⟨x, x, bc0⟩ rfl rfl] at this
  have g2 : GeometryOf o' (placed vars geo) bs' := by
    have := h3'.geo
    rwa [placed_start] at this
  obtain ⟨u1, u2, u3⟩ := geometryOf_unique _ _ _ _ g1 g2
  have pts : ∀ (i : Nat) f f', (run o ops).fes[i]? = some f → o'.fes[i]? = some f' →
      ∃ v : CVar dim, f.var = { v with points := f.var.points } ∧ f'.var = { v with points := f'.var.points } := by
    intro i f f' hf hf'
    have hi : i < vars.length := by rw [← hr.len]; exact (List.getElem?_eq_some_iff.1 hf).1
    have ev := List.getElem?_eq_getElem hi
    refine ⟨vars[i], ?_, ?_⟩
    · rw [(hr.el i _ f ev hf).1]
    · rw [(h3'.el i _ f' (by rw [placed_getElem?, ev]; rfl) hf').1]
  have hfe : (run o ops).fes.map (fun f => f.var.fe) = o'.fes.map fun f => f.var.fe := by
    refine List.ext_getElem (by simp [hr.len, h3'.len, hplen]) fun i i1 i2 => ?_
    simp only [List.getElem_map]
    simp only [List.length_map] at i1 i2
    obtain ⟨v, e1, e2⟩ := pts i _ _ (List.getElem?_eq_getElem i1) (List.getElem?_eq_getElem i2)
    rw [e1, e2]
    rfl
  refine ⟨?_, ?_⟩
  · intro IV kernel ivs ks fivs sols
    rw [Obj.residual, Obj.residual, u1, u2, hfe, hr.sel, h3'.sel]
  · intro i f f' hf hf'
    obtain ⟨v, e1, e2⟩ := pts i f f' hf hf'
    funext sol e q c j
    simp only [FEObj.solToGrad, (u3 i f f' hf hf').1]
    rw [e1, e2]

/-- **C84 (too few points).** A refresh with points for fewer variables than there are raises
`IndexError` and leaves the object inconsistent: the first elements carry the new geometry, everything
else, in particular all arrays the kernels use, is unchanged. -/
theorem C84_short (o : Obj dim) (xs : List (Points dim)) (hx : xs.length < o.fes.length) :
    (initGeom o (some xs)).2 = .error .index ∧
    (initGeom o (some xs)).1.cellInputs = o.cellInputs ∧
    (initGeom o (some xs)).1.faceInputs = o.faceInputs ∧
    (∀ (i : Nat) x f, xs[i]? = some x → o.fes[i]? = some f → ∃ f', (initGeom o (some xs)).1.fes[i]? = some f' ∧
      f'.var = f.var ∧ f'.bc = f.bc ∧ f'.shapeGrads = ({ f.var with points := x } : CVar dim).shapeGrads ∧
      f'.JxW = ({ f.var with points := x } : CVar dim).jxw ∧
      f'.vGradsJxW = ({ f.var with points := x } : CVar dim).vGradsJxW) ∧
    ∀ i, xs.length ≤ i → (initGeom o (some xs)).1.fes[i]? = o.fes[i]? := by
  have key : initGeom o (some xs) = ({ o with
      fes := List.zipWith (fun f x => feStep x f) o.fes xs ++ o.fes.drop xs.length }, .error .index) := by
    rw [initGeom, Option.getD_some, feLoop_short _ _ hx]
  have hlen : (List.zipWith (fun f x => feStep x f) o.fes xs).length = xs.length := by
    rw [List.length_zipWith]; omega
  rw [key]
  have head : ∀ g gs, o.fes = g :: gs → ∃ g' gs',
      List.zipWith (fun f x => feStep x f) o.fes xs ++ o.fes.drop xs.length = g' :: gs' ∧ g'.var = g.var := by
    intro g gs hg
    rw [hg]
    cases xs with
    | nil => exact ⟨g, gs, rfl, rfl⟩
    | cons x xs => exact ⟨feStep x g, _, rfl, rfl⟩
  refine ⟨rfl, ?_, ?_, ?_, ?_⟩
  · cases hg : o.fes with
    | nil => rw [hg] at hx; simp at hx
    | cons g gs =>
      obtain ⟨g', gs', e1, e2⟩ := head g gs hg
      rw [hg] at e1
      simp only [Obj.cellInputs, hg, e1, e2]
  · cases hg : o.fes with
    | nil => rw [hg] at hx; simp at hx
    | cons g gs =>
      obtain ⟨g', gs', e1, e2⟩ := head g gs hg
      rw [hg] at e1
      simp only [Obj.faceInputs, hg, e1, e2]
  · intro i x f hxi hf
    have hi : i < xs.length := (List.getElem?_eq_some_iff.1 hxi).1
    refine ⟨feStep x f, ?_, rfl, rfl, rfl, rfl, rfl⟩
    simp only
    rw [List.getElem?_append_left (by rw [hlen]; exact hi), List.getElem?_zipWith, hxi, hf]
  · intro i hi
    simp only
    rw [List.getElem?_append_right (by rw [hlen]; exact hi), hlen, List.getElem?_drop]
    congr 1
    omega

/-! ### Non-vacuity -/

/-- A linear triangle with one quadrature point and three one-point faces. -/
noncomputable def exVar (vec : Nat) : CVar 2 where
  numTotalNodes := 3
  vec := vec
  nn := 3
  nq := 1
  nfq := 1
  points := [![0, 0], ![1, 0], ![0, 1]]
  cells := [[0, 1, 2]]
  shapeVals _ _ := 1 / 3
  shapeGradsRef _ a := [![-1, -1], ![1, 0], ![0, 1]].getD a 0
  quadWeights _ := 1 / 2
  faceShapeVals f _ a := ([[0, 1 / 2, 1 / 2], [1 / 2, 0, 1 / 2], [1 / 2, 1 / 2, 0]].getD f []).getD a 0
  faceShapeGradsRef _ _ a := [![-1, -1], ![1, 0], ![0, 1]].getD a 0
  faceQuadWeights _ _ := 1
  faceNormals f := [![1, 1], ![-1, 0], ![0, -1]].getD f 0

/-- Two variables on the triangle, one boundary subset (face 2, nodes 0 and 1) and a boundary condition
for the first variable: the constructor succeeds, and there is a history with explicit points, moved
held points and a refresh without argument. -/
example : ∃ o, construct [exVar 2, exVar 1]
      [some ([.two fun _ n => n == 2], [1], [fun p => p 1]), none] [[1, 2], [0, 2], [0, 1]]
      (some [.two fun _ n => n == 0 || n == 1]) = .ok o ∧ o.bs = [[(0, 2)]] ∧
    Complete 2 [Op.refresh (some [[![0, 0], ![2, 0], ![0, 2]], [![0, 0], ![2, 0], ![0, 2]]]),
      Op.assignPoints 0 [![0, 0], ![3, 0], ![0, 3]], Op.updateBC 0 none, Op.refresh none] := by
  refine ⟨_, rfl, rfl, ?_⟩
  intro op hop l hl
  subst hl
  simp only [List.mem_cons, Op.refresh.injEq, Option.some.injEq, reduceCtorEq, List.not_mem_nil, or_false] at hop
  subst hop
  decide

/-- The selection is not repeated: with the lower right node of the triangle raised, a location function
for the lower side selects nothing, while a refreshed problem keeps the face selected at construction. -/
example : boundaryInds [![0, 0], ![1, 0], ![0, 1]] [[0, 1, 2]] [[1, 2], [0, 2], [0, 1]]
      (some [.one fun p : Fin 2 → ℝ => decide (p 1 = 0)]) = .ok [[(0, 2)]] ∧
    boundaryInds [![0, 0], ![1, 1 / 2], ![0, 1]] [[0, 1, 2]] [[1, 2], [0, 2], [0, 1]]
      (some [.one fun p : Fin 2 → ℝ => decide (p 1 = 0)]) = .ok [[]] := by
  constructor <;>
  simp [boundaryInds, boundaryLoop, LocFn.resolve, boundaryFlags, facePoints, argwhere2, argwhere, bind, pure,
    Except.bind, Except.pure] <;>
  decide

end JaxFem.Refresh
