import Verif.Thm.C50_Files
import Verif.Spec.Elements
import Verif.Thm.C40_Elements
import Mathlib.Data.List.TakeWhile

/-!
# C51: `save_sol`
-/

namespace JaxFem
namespace Files

variable {K : Type}

/-! ### Helper lemmas -/

/-- Value stored under a name. -/
def dictGet {V : Type} (d : List (String × V)) (name : String) : Option V := (d.find? (·.1 == name)).map Prod.snd

theorem dictGet_set {V : Type} (d : List (String × V)) (name : String) (v : V) (x : String) :
    dictGet (dictSet d name v) x = if x = name then some v else dictGet d x := by
  unfold dictGet dictSet
  split_ifs with h1 h2 h2
  · subst h2
    induction d with
    | nil => simp at h1
    | cons p d ih =>
      rw [List.map_cons]
      by_cases hp : p.1 = x
      · simp [hp]
      · have hb : (p.1 == x) = false := by simpa using hp
        rw [List.any_cons, hb, Bool.false_or] at h1
        rw [if_neg (by rw [hb]; exact Bool.false_ne_true), List.find?_cons, hb]
        exact ih h1
  · clear h1
    induction d with
    | nil => rfl
    | cons p d ih =>
      rw [List.map_cons]
      by_cases hp : p.1 = name
      · have hb : (p.1 == name) = true := by simpa using hp
        have hx : (name == x) = false := by simpa using fun e => h2 e.symm
        have hx' : (p.1 == x) = false := by rw [hp]; exact hx
        rw [if_pos hb, List.find?_cons, List.find?_cons]
        dsimp only
        rw [hx, hx']
        exact ih
      · have hb : (p.1 == name) = false := by simpa using hp
        rw [if_neg (by rw [hb]; exact Bool.false_ne_true), List.find?_cons, List.find?_cons]
        cases hx : p.1 == x
        · exact ih
        · rfl
  · subst h2
    have hn : d.find? (·.1 == x) = none := by
      rw [List.find?_eq_none]
      intro p hp hpx
      exact h1 (List.any_eq_true.2 ⟨p, hp, hpx⟩)
    rw [List.find?_append, hn]
    simp
  · rw [List.find?_append]
    have hx : (name == x) = false := by simpa using fun e => h2 e.symm
    cases hf : d.find? (·.1 == x) with
    | some p => rfl
    | none => simp [hx]

/-- The last value given for a name. -/
def lastGiven {V : Type} (l : List (String × V)) (name : String) : Option V := dictGet l.reverse name

theorem lastGiven_cons {V : Type} (p : String × V) (l : List (String × V)) (x : String) :
    lastGiven (p :: l) x = (lastGiven l x).or (if p.1 = x then some p.2 else none) := by
  unfold lastGiven dictGet
  rw [List.reverse_cons, List.find?_append]
  cases List.find? (fun q => q.1 == x) l.reverse with
  | some q => rfl
  | none =>
    by_cases h : p.1 = x
    · simp [h]
    · have hb : (p.1 == x) = false := by simpa using h
      simp [h, hb]

/-- Single-precision copy of an array. -/
def NArr.f32 (f : K → K) (a : NArr K) : NArr K := ⟨a.shape, a.data.map f⟩

theorem addCellInfos_spec (f : K → K) (nc : Nat) (infos : List (String × NArr K)) (m m' : OutMesh K) :
    (addCellInfos f nc infos m = .ok m' →
      (∀ p ∈ infos, p.2.shape = [nc]) ∧ m'.points = m.points ∧ m'.cells = m.cells ∧ m'.cellType = m.cellType ∧
      m'.pointData = m.pointData ∧
      ∀ x, dictGet m'.cellData x = ((lastGiven infos x).map (NArr.f32 f)).or (dictGet m.cellData x)) ∧
    ((∀ p ∈ infos, p.2.shape = [nc]) → ∃ m'', addCellInfos f nc infos m = .ok m'') ∧
    ((∃ p ∈ infos, p.2.shape ≠ [nc]) → addCellInfos f nc infos m = .error .assertion) := by
  induction infos generalizing m with
  | nil =>
    refine ⟨fun h => ?_, fun _ => ⟨m, rfl⟩, fun ⟨p, hp, _⟩ => (by cases hp)⟩
    cases h
    exact ⟨fun p hp => (by cases hp), rfl, rfl, rfl, rfl, fun x => rfl⟩
  | cons p infos ih =>
    obtain ⟨name, a⟩ := p
    obtain ⟨i1, i2, i3⟩ := ih { m with cellData := dictSet m.cellData name ⟨a.shape, a.data.map f⟩ }
    unfold addCellInfos
    by_cases ha : a.shape = [nc]
    · rw [if_pos ha]
      refine ⟨fun h => ?_, fun h => i2 fun p hp => h p (List.mem_cons_of_mem _ hp), fun h => i3 ?_⟩
      · obtain ⟨j1, j2, j3, j4, j5, j6⟩ := i1 h
        refine ⟨?_, j2, j3, j4, j5, fun x => ?_⟩
        · intro p hp
          rcases List.mem_cons.1 hp with rfl | hp
          · exact ha
          · exact j1 p hp
        · rw [j6, dictGet_set, lastGiven_cons]
          cases lastGiven infos x with
          | some v => rfl
          | none =>
            by_cases hx : name = x
            · subst hx; simp [NArr.f32]
            · have hx' : ¬x = name := fun e => hx e.symm
              simp [hx, hx']
      · obtain ⟨p, hp, hs⟩ := h
        rcases List.mem_cons.1 hp with rfl | hp
        · exact absurd ha hs
        · exact ⟨p, hp, hs⟩
    · rw [if_neg ha]
      refine ⟨fun h => (by cases h), fun h => absurd (h _ (List.mem_cons_self ..)) ha, fun _ => rfl⟩

theorem addPointInfos_spec (f : K → K) (ns : Nat) (infos : List (String × NArr K)) (m m' : OutMesh K) :
    (addPointInfos f ns infos m = .ok m' →
      (∀ p ∈ infos, p.2.shape.head? = some ns) ∧ m'.points = m.points ∧ m'.cells = m.cells ∧
      m'.cellType = m.cellType ∧ m'.cellData = m.cellData ∧
      ∀ x, dictGet m'.pointData x = ((lastGiven infos x).map (NArr.f32 f)).or (dictGet m.pointData x)) ∧
    ((∀ p ∈ infos, p.2.shape.head? = some ns) → ∃ m'', addPointInfos f ns infos m = .ok m'') ∧
    ((∃ p ∈ infos, p.2.shape.head? ≠ some ns) → ∃ e, addPointInfos f ns infos m = .error e) := by
  induction infos generalizing m with
  | nil =>
    refine ⟨fun h => ?_, fun _ => ⟨m, rfl⟩, fun ⟨p, hp, _⟩ => (by cases hp)⟩
    cases h
    exact ⟨fun p hp => (by cases hp), rfl, rfl, rfl, rfl, fun x => rfl⟩
  | cons p infos ih =>
    obtain ⟨name, ⟨sh, da⟩⟩ := p
    cases sh with
    | nil =>
      refine ⟨fun h => ?_, fun h => ?_, fun _ => ⟨_, rfl⟩⟩
      · cases h
      · have := h _ (List.mem_cons_self ..)
        cases this
    | cons len sh =>
      obtain ⟨i1, i2, i3⟩ := ih { m with pointData := dictSet m.pointData name ⟨len :: sh, da.map f⟩ }
      unfold addPointInfos
      dsimp only
      by_cases ha : len = ns
      · rw [if_pos ha]
        refine ⟨fun h => ?_, fun h => i2 fun p hp => h p (List.mem_cons_of_mem _ hp), fun h => i3 ?_⟩
        · obtain ⟨j1, j2, j3, j4, j5, j6⟩ := i1 h
          refine ⟨?_, j2, j3, j4, j5, fun x => ?_⟩
          · intro p hp
            rcases List.mem_cons.1 hp with rfl | hp
            · rw [ha]; rfl
            · exact j1 p hp
          · rw [j6, dictGet_set, lastGiven_cons]
            cases lastGiven infos x with
            | some v => rfl
            | none =>
              by_cases hx : name = x
              · subst hx; simp [NArr.f32]
              · have hx' : ¬x = name := fun e => hx e.symm
                simp [hx, hx']
        · obtain ⟨p, hp, hs⟩ := h
          rcases List.mem_cons.1 hp with rfl | hp
          · exact absurd (by rw [ha]; rfl) hs
          · exact ⟨p, hp, hs⟩
      · rw [if_neg ha]
        refine ⟨fun h => (by cases h), fun h => ?_, fun _ => ⟨_, rfl⟩⟩
        have := h _ (List.mem_cons_self ..)
        exact absurd (Option.some.inj this) ha

/-! ### Property theorems -/

/-- **C51 (bare file name).** The directory part is empty exactly when the path has no slash. -/
theorem C51_dirname (p : List Char) : dirname p = [] ↔ '/' ∉ p := by
  unfold dirname
  extract_lets head
  have h0 : head = [] ↔ '/' ∉ p := by
    rw [List.reverse_eq_nil_iff, List.dropWhile_eq_nil_iff]
    constructor
    · intro h hp
      have := h '/' (List.mem_reverse.2 hp)
      simp at this
    · intro h x hx
      have hx' := List.mem_reverse.1 hx
      simpa using fun e : x = '/' => h (e ▸ hx')
  split_ifs with h
  · exact h0
  · rw [List.reverse_eq_nil_iff, List.dropWhile_eq_nil_iff]
    constructor
    · intro h'
      exact absurd (List.all_eq_true.2 fun x hx => h' x (List.mem_reverse.2 hx)) h
    · intro hp
      rw [h0.2 hp] at h
      exact absurd rfl h

/-- What a successful call must leave in the file. -/
structure FileHolds (f : K → K) (m : OutMesh K) (cellType : String) (points : List (List K)) (cells : List (List Nat))
    (sol : NArr K) (cellInfos pointInfos : List (String × NArr K)) : Prop where
  points : m.points = points
  cells : m.cells = cells
  cellType : m.cellType = cellType
  /-- a point field: the last one given under the name, else the solution under `sol`, else nothing -/
  pointData : ∀ x, dictGet m.pointData x = ((lastGiven pointInfos x).or (if x = "sol" then some sol else none)).map
    (NArr.f32 f)
  cellData : ∀ x, dictGet m.cellData x = (lastGiven cellInfos x).map (NArr.f32 f)

/-- **C51.** For every call: either an exception is raised and no file is changed, or there is no exception,
the file holds exactly the mesh, the solution and the named fields (in single precision), the element type
is a supported one, the path has a directory part, every cell field has shape `(num_cells,)`, every point
field has the length of the solution, and no other file is changed. -/
theorem C51_save (f : K → K) (mkdirOk : List Char → Bool) (writerOk : OutMesh K → Bool) (w : World K)
    (eleType : String) (points : List (List K)) (cells : List (List Nat)) (numCells : Nat) (sol : NArr K)
    (solFile : List Char) (cellInfos pointInfos : List (String × NArr K)) :
    let r := saveSol f mkdirOk writerOk w eleType points cells numCells sol solFile cellInfos pointInfos
    ((∃ e, r.2 = .error e) ∧ r.1.files = w.files) ∨
    (r.2 = .ok () ∧ (∃ m cellType, r.1.files solFile = some m ∧
        (eleType, cellType) ∈ meshNodes.map (fun e => (e.1, e.2.1)) ∧
        FileHolds f m cellType points cells sol cellInfos pointInfos) ∧
      '/' ∈ solFile ∧ (∀ p ∈ cellInfos, p.2.shape = [numCells]) ∧
      (∀ p ∈ pointInfos, p.2.shape.head? = some (sol.shape.headD 0)) ∧
      ∀ q, q ≠ solFile → r.1.files q = w.files q) := by
  intro r
  have hr : r = saveSol f mkdirOk writerOk w eleType points cells numCells sol solFile cellInfos pointInfos := rfl
  unfold saveSol at hr
  rcases ht : getMeshioCellType eleType with e | ct
  · rw [ht] at hr
    rw [hr]
    exact Or.inl ⟨⟨e, rfl⟩, rfl⟩
  rw [ht] at hr
  extract_lets dir w1 at hr
  dsimp only at hr
  generalize hm0 : (OutMesh.mk points ct cells [("sol", ⟨sol.shape, sol.data.map f⟩)] [] : OutMesh K) = m0 at hr
  by_cases hdir : dir = [] ∨ mkdirOk dir = false
  · rw [if_pos hdir] at hr
    rw [hr]
    exact Or.inl ⟨⟨_, rfl⟩, rfl⟩
  rw [if_neg hdir] at hr
  rcases hc : addCellInfos f numCells cellInfos m0 with e | m1
  · rw [hc] at hr
    rw [hr]
    exact Or.inl ⟨⟨e, rfl⟩, rfl⟩
  rw [hc] at hr
  rcases hp : addPointInfos f (sol.shape.headD 0) pointInfos m1 with e | m2
  · simp only [bind, Except.bind] at hr
    rw [hp] at hr
    rw [hr]
    exact Or.inl ⟨⟨e, rfl⟩, rfl⟩
  simp only [bind, Except.bind] at hr
  rw [hp] at hr
  dsimp only at hr
  by_cases hw : writerOk m2 = true
  · rw [if_pos hw] at hr
    right
    obtain ⟨c1, c2, c3, c4, c5, c6⟩ := (addCellInfos_spec f numCells cellInfos m0 m1).1 hc
    obtain ⟨p1, p2, p3, p4, p5, p6⟩ := (addPointInfos_spec f _ pointInfos m1 m2).1 hp
    rw [hr]
    refine ⟨rfl, ⟨m2, ct, Function.update_self .., ((C40_supported eleType).2.2 ct).1 ht, ?_⟩, ?_, c1, p1, ?_⟩
    · refine ⟨p2.trans (c2.trans (hm0 ▸ rfl)), p3.trans (c3.trans (hm0 ▸ rfl)), p4.trans (c4.trans (hm0 ▸ rfl)), fun x => ?_, fun x => ?_⟩
      · rw [p6, c5]
        have h0 : dictGet m0.pointData x = (if x = "sol" then some sol else none).map (NArr.f32 f) := by
          by_cases hx : x = "sol"
          · subst hm0; subst hx; rfl
          · subst hm0
            have hb : ("sol" == x) = false := by simpa using fun e : "sol" = x => hx e.symm
            rw [if_neg hx]
            simp only [dictGet, List.find?_cons, hb]
            rfl
        rw [h0]
        cases lastGiven pointInfos x <;> rfl
      · rw [p5, c6]
        have h0 : dictGet m0.cellData x = none := by subst hm0; rfl
        rw [h0]
        cases lastGiven cellInfos x <;> rfl
    · by_contra hs
      exact hdir (Or.inl ((C51_dirname solFile).2 hs))
    · intro q hq
      exact Function.update_of_ne hq _ _
  · rw [if_neg hw] at hr
    rw [hr]
    exact Or.inl ⟨⟨_, rfl⟩, rfl⟩

/-- **C51 (success).** The call succeeds when the type is supported, the directory can be created, all shapes
are right and the writer accepts every mesh. -/
theorem C51_succeeds (f : K → K) (mkdirOk : List Char → Bool) (writerOk : OutMesh K → Bool) (w : World K)
    (eleType : String) (points : List (List K)) (cells : List (List Nat)) (numCells : Nat) (sol : NArr K)
    (solFile : List Char) (cellInfos pointInfos : List (String × NArr K))
    (ht : eleType ∈ meshNodes.map Prod.fst) (hd : '/' ∈ solFile) (hm : mkdirOk (dirname solFile) = true)
    (hc : ∀ p ∈ cellInfos, p.2.shape = [numCells])
    (hp : ∀ p ∈ pointInfos, p.2.shape.head? = some (sol.shape.headD 0)) (hw : ∀ m, writerOk m = true) :
    (saveSol f mkdirOk writerOk w eleType points cells numCells sol solFile cellInfos pointInfos).2 = .ok () := by
  obtain ⟨e, he, rfl⟩ := List.mem_map.1 ht
  have hct : getMeshioCellType e.1 = .ok e.2.1 := ((C40_supported e.1).2.2 e.2.1).2 (List.mem_map.2 ⟨e, he, rfl⟩)
  unfold saveSol
  rw [hct]
  extract_lets dir w1
  dsimp only
  generalize (OutMesh.mk points e.2.1 cells [("sol", ⟨sol.shape, sol.data.map f⟩)] [] : OutMesh K) = m0
  have hdir : ¬(dir = [] ∨ mkdirOk dir = false) := by
    rintro (h | h)
    · exact (C51_dirname solFile).1 h hd
    · rw [hm] at h; cases h
  rw [if_neg hdir]
  obtain ⟨m1, h1⟩ := (addCellInfos_spec f numCells cellInfos m0 m0).2.1 hc
  obtain ⟨m2, h2⟩ := (addPointInfos_spec f (sol.shape.headD 0) pointInfos m1 m1).2.1 hp
  rw [h1]
  simp only [bind, Except.bind]
  rw [h2]
  dsimp only
  rw [if_pos (hw m2)]

/-- **C51 (name clash).** A point field named `sol` replaces the solution in the file. -/
theorem C51_clash (f : K → K) (m : OutMesh K) (ct : String) (points : List (List K)) (cells : List (List Nat))
    (sol other : NArr K) (cellInfos : List (String × NArr K))
    (h : FileHolds f m ct points cells sol cellInfos [("sol", other)]) :
    dictGet m.pointData "sol" = some (other.f32 f) := h.pointData "sol"

/-- Vector-valued cell data (accepted according to the documentation) and a bare file name are rejected; a
correct call writes the file. -/
example : let a : NArr Int := ⟨[2, 3], [0, 0, 0, 0, 0, 0]⟩
    let w : World Int := ⟨[], fun _ => none⟩
    let call := fun file infos => saveSol id (fun _ => true) (fun _ => true) w "TRI3" [[0], [0], [0], [0]]
      [[0, 1, 2], [1, 2, 3]] 2 ⟨[4, 1], [1, 2, 3, 4]⟩ file infos [("T", ⟨[4], [5, 6, 7, 8]⟩)]
    (call "out/u.vtu".toList [("p", a)]).2 = .error .assertion ∧
    (call "u.vtu".toList []).2 = .error .fileNotFound ∧
    (call "out/u.vtu".toList [("p", ⟨[2], [9, 9]⟩)]).2 = .ok () ∧
    ((call "out/u.vtu".toList [("p", ⟨[2], [9, 9]⟩)]).1.files "out/u.vtu".toList).map (fun m => (m.pointData, m.cellData)) =
      some ([("sol", ⟨[4, 1], [1, 2, 3, 4]⟩), ("T", ⟨[4], [5, 6, 7, 8]⟩)], [("p", ⟨[2], [9, 9]⟩)]) := by
  decide +kernel

end Files
end JaxFem
