import Verif.Spec.Multiplier
import Verif.Thm.Lists
import Mathlib.Tactic.Ring
import Mathlib.Algebra.BigOperators.Group.List.Basic

/-!
# C97: the list manipulations of the multiplier solver
-/

namespace JaxFem
namespace LM

universe u
variable {K : Type u}

/-! ### Splitting -/

/-- Pieces of given lengths. -/
def pieces {α : Type u} : List Nat → List α → List (List α)
  | [], _ => []
  | l :: ls, xs => xs.take l :: pieces ls (xs.drop l)

theorem cumsum_shift (a : Nat) (ls : List Nat) : cumsum a ls = (cumsum 0 ls).map (a + ·) := by
  induction ls generalizing a with
  | nil => rfl
  | cons l ls ih =>
    rw [cumsum, cumsum, ih (a + l), List.map_cons, ih (0 + l), List.map_map]
    simp [Function.comp_def, Nat.add_assoc]

theorem cumsum_last (a : Nat) (ls : List Nat) (h : ls ≠ []) : (cumsum a ls).getLast? = some (a + ls.sum) := by
  induction ls generalizing a with
  | nil => exact absurd rfl h
  | cons l ls ih =>
    cases ls with
    | nil => simp [cumsum]
    | cons l' ls' =>
      have := ih (a + l) (by simp)
      rw [cumsum, cumsum] at *
      rw [List.getLast?_cons_cons, this]
      simp [Nat.add_assoc]

theorem cumsum_last0 (ls : List Nat) : (cumsum 0 ls).getLast?.getD 0 = ls.sum := by
  by_cases h : ls = []
  · subst h; rfl
  · rw [cumsum_last 0 ls h]; simp

theorem npSplit_cumsum {α : Type u} (ls : List Nat) (xs : List α) :
    npSplit xs (cumsum 0 ls) = pieces ls xs ++ [xs.drop ls.sum] := by
  have key : ∀ (ls : List Nat) (a : Nat), ((a :: cumsum a ls).zip (cumsum a ls ++ [xs.length])).map
      (fun p => slice xs p.1 p.2) = pieces ls (xs.drop a) ++ [xs.drop (a + ls.sum)] := by
    intro ls
    induction ls with
    | nil =>
      intro a
      simp [cumsum, pieces, slice]
    | cons l ls ih =>
      intro a
      rw [cumsum, List.cons_append, List.zip_cons_cons, List.map_cons, ih (a + l), pieces, List.drop_drop]
      simp only [slice, List.cons_append, List.sum_cons, Nat.add_assoc]
      rw [List.take_drop, Nat.add_comm a l]
  have := key ls 0
  rw [List.drop_zero, Nat.zero_add] at this
  exact this

theorem zipWith_append_long [CommRing K] (a b c : List K) (h : a.length ≤ b.length) :
    List.zipWith (fun l x => l * x) a (b ++ c) = List.zipWith (fun l x => l * x) a b := by
  induction a generalizing b with
  | nil => simp
  | cons x a iha =>
    cases b with
    | nil => simp at h
    | cons y b => simp only [List.cons_append, List.zipWith_cons_cons]; rw [iha b (by simpa using h)]

/-- Products of pieces with groups add up to the product with the flattened groups. -/
theorem sum_pieces [CommRing K] {ι : Type*} (gs : List ι) (f : ι → List K) (len : ι → Nat)
    (h : ∀ g ∈ gs, (f g).length = len g) (xs : List K) (tl : List (List K)) (s : K) :
    (gs.zip (pieces (gs.map len) xs ++ tl)).foldl
      (fun lag gl => lag + (List.zipWith (fun l x => l * x) gl.2 (f gl.1)).sum) s =
    s + (List.zipWith (fun l x => l * x) xs (gs.flatMap f)).sum := by
  induction gs generalizing xs s with
  | nil => simp
  | cons g gs ih =>
    rw [List.map_cons, pieces, List.cons_append, List.zip_cons_cons, List.foldl_cons,
      ih (fun g' hg' => h g' (List.mem_cons_of_mem _ hg')), List.flatMap_cons, add_assoc]
    congr 1
    have hl := h g List.mem_cons_self
    conv_rhs => rw [← List.take_append_drop (len g) xs]
    by_cases hx : len g ≤ xs.length
    · rw [List.zipWith_append (by rw [List.length_take, hl]; omega), List.sum_append]
    · have h1 : xs.drop (len g) = [] := List.drop_eq_nil_of_le (by omega)
      have h2 : xs.take (len g) = xs := List.take_of_length_le (by omega)
      rw [h1, h2, List.append_nil, List.zipWith_nil_left, List.sum_nil, add_zero]
      rw [zipWith_append_long _ _ _ (by omega)]

/-! ### Values of the constraints -/

/-- Value of a constraint at a flat vector. -/
def Row.eval [Ring K] (dofs : List K) : Row K → K
  | .fixed k v => dofs.getD k 0 - v
  | .tie a b => dofs.getD a 0 - dofs.getD b 0

theorem getD_chunks [Zero K] (v n : Nat) (xs : List K) (i c : Nat) (hi : i < n) (hc : c < v) :
    ((chunks v n xs).getD i []).getD c 0 = xs.getD (i * v + c) 0 := by
  induction n generalizing i xs with
  | zero => omega
  | succ n ih =>
    cases i with
    | zero =>
      simp only [chunks, List.getD_cons_zero, Nat.zero_mul, Nat.zero_add]
      rw [List.getD_eq_getElem?_getD, List.getD_eq_getElem?_getD, List.getElem?_take_of_lt hc]
    | succ i =>
      simp only [chunks, List.getD_cons_succ]
      rw [ih _ _ (by omega), List.getD_eq_getElem?_getD, List.getD_eq_getElem?_getD, List.getElem?_drop]
      congr 2
      rw [Nat.succ_mul]; omega

theorem rows_length (P : Prob K) (h : WF P) : (rows P).length = augSize P := by
  have h1 : ∀ (l : List (BCEntry K)) (s : Nat), (∀ e ∈ l, e.comps.length = e.nodes.length ∧
      e.vals.length = e.nodes.length) → l.foldl (fun s e => s + e.nodes.length) s =
      s + (l.flatMap fun e => ((e.nodes.zip e.comps).zip e.vals).map fun q =>
        Row.fixed (q.1.1 * P.fe.vec + q.1.2) q.2).length := by
    intro l
    induction l with
    | nil => simp
    | cons e l ih =>
      intro s hl
      rw [List.foldl_cons, ih _ fun e' he' => hl e' (List.mem_cons_of_mem _ he')]
      have := hl e List.mem_cons_self
      simp [this.1, this.2, Nat.add_assoc]
  have h2 : ∀ (l : List PEntry) (s : Nat), (∀ g ∈ l, g.nodesB.length = g.nodesA.length ∧
      g.comps.length = g.nodesA.length) → l.foldl (fun s g => s + g.nodesA.length) s =
      s + (l.flatMap fun g => ((g.nodesA.zip g.nodesB).zip g.comps).map fun q =>
        (Row.tie (q.1.1 * P.fe.vec + q.2) (q.1.2 * P.fe.vec + q.2) : Row K)).length := by
    intro l
    induction l with
    | nil => simp
    | cons e l ih =>
      intro s hl
      rw [List.foldl_cons, ih _ fun e' he' => hl e' (List.mem_cons_of_mem _ he')]
      have := hl e List.mem_cons_self
      simp [this.1, this.2, Nat.add_assoc]
  rw [augSize, h2 _ _ fun g hg => ⟨h.pB g hg, h.pcomps g hg⟩, h1 _ _ fun e he => ⟨h.comps e he, h.vals e he⟩,
    rows, List.length_append, Nat.zero_add]

theorem augBc_eq [CommRing K] (P : Prob K) (h : WF P) (dofs : List K) (eps : K) :
    augBc P dofs eps = dofs ++ (rows P).map fun r => eps * r.rhs := by
  have h1 : ∀ (l : List (BCEntry K)) (a : List K), (∀ e ∈ l, e.comps.length = e.nodes.length ∧
      e.vals.length = e.nodes.length) → l.foldl (fun a e => a ++ e.vals.map fun v => eps * v) a =
      a ++ (l.flatMap fun e => ((e.nodes.zip e.comps).zip e.vals).map fun q =>
        Row.fixed (q.1.1 * P.fe.vec + q.1.2) q.2).map fun r => eps * r.rhs := by
    intro l
    induction l with
    | nil => simp
    | cons e l ih =>
      intro a hl
      rw [List.foldl_cons, ih _ fun e' he' => hl e' (List.mem_cons_of_mem _ he')]
      have := hl e List.mem_cons_self
      rw [List.flatMap_cons, List.map_append, List.append_assoc, List.map_map]
      congr 2
      have e1 : e.vals = ((e.nodes.zip e.comps).zip e.vals).map Prod.snd := by
        rw [List.map_snd_zip]; simp [this.1, this.2]
      conv_lhs => rw [e1, List.map_map]
      rfl
  have h2 : ∀ (l : List PEntry) (a : List K), (∀ g ∈ l, g.nodesB.length = g.nodesA.length ∧
      g.comps.length = g.nodesA.length) → l.foldl (fun a g => a ++ List.replicate g.nodesA.length 0) a =
      a ++ (l.flatMap fun g => ((g.nodesA.zip g.nodesB).zip g.comps).map fun q =>
        (Row.tie (q.1.1 * P.fe.vec + q.2) (q.1.2 * P.fe.vec + q.2) : Row K)).map fun r => eps * r.rhs := by
    intro l
    induction l with
    | nil => simp
    | cons e l ih =>
      intro a hl
      rw [List.foldl_cons, ih _ fun e' he' => hl e' (List.mem_cons_of_mem _ he')]
      have := hl e List.mem_cons_self
      rw [List.flatMap_cons, List.map_append, List.append_assoc, List.map_map]
      congr 2
      symm
      rw [List.eq_replicate_iff]
      refine ⟨by simp [this.1, this.2], fun b hb => ?_⟩
      obtain ⟨q, -, rfl⟩ := List.mem_map.1 hb
      simp [Row.rhs]
  rw [augBc, h2 _ _ fun g hg => ⟨h.pB g hg, h.pcomps g hg⟩, h1 _ _ fun e he => ⟨h.comps e he, h.vals e he⟩,
    rows, List.map_append, List.nil_append]

theorem dEval [CommRing K] (P : Prob K) (h : WF P) (dofs : List K) (e : BCEntry K) (he : e ∈ P.d) :
    List.zipWith (fun x v => x - v) (at2Get (chunks P.fe.vec P.fe.numTotalNodes dofs) e.nodes e.comps) e.vals =
    (((e.nodes.zip e.comps).zip e.vals).map fun q =>
      Row.fixed (q.1.1 * P.fe.vec + q.1.2) q.2).map (Row.eval dofs) := by
  have hv := h.valid e he
  rw [at2Get, List.zipWith_map_left, List.map_map, ← List.map_uncurry_zip_eq_zipWith]
  refine List.map_congr_left fun q hq => ?_
  obtain ⟨⟨n, c⟩, v⟩ := q
  have h1 := List.of_mem_zip hq
  have h2 := List.of_mem_zip h1.1
  simp only [Function.uncurry, Function.comp, Row.eval]
  rw [getD_chunks _ _ _ _ _ (hv.1 n h2.1) (hv.2 c h2.2)]

theorem pEval [CommRing K] (P : Prob K) (h : WF P) (dofs : List K) (g : PEntry) (hg : g ∈ P.p) :
    List.zipWith (fun x y => x - y) (at2Get (chunks P.fe.vec P.fe.numTotalNodes dofs) g.nodesA g.comps)
      (at2Get (chunks P.fe.vec P.fe.numTotalNodes dofs) g.nodesB g.comps) =
    (((g.nodesA.zip g.nodesB).zip g.comps).map fun q =>
      (Row.tie (q.1.1 * P.fe.vec + q.2) (q.1.2 * P.fe.vec + q.2) : Row K)).map (Row.eval dofs) := by
  have hv := h.pvalid g hg
  have l1 := h.pB g hg
  have l2 := h.pcomps g hg
  refine List.ext_getElem ?_ fun i h1 h2 => ?_
  · simp [at2Get, l1, l2]
  · have hi : i < g.nodesA.length := by simp [at2Get, l1, l2] at h1; exact h1
    simp only [at2Get, List.getElem_zipWith, List.getElem_map, List.getElem_zip, Row.eval]
    rw [getD_chunks _ _ _ _ _ (hv.1 _ (List.getElem_mem _)) (hv.2.2 _ (List.getElem_mem _)),
      getD_chunks _ _ _ _ _ (hv.2.1 _ (List.getElem_mem _)) (hv.2.2 _ (List.getElem_mem _))]

/-- The Lagrangian is the product of the multipliers with the values of the constraints. -/
theorem lagrangian_eq [CommRing K] (P : Prob K) (h : WF P) (eps : K) (x : List K) :
    lagrangian P eps x = eps * (List.zipWith (fun l x => l * x) (x.drop (nDofs P))
      ((rows P).map (Row.eval (x.take (nDofs P))))).sum := by
  unfold lagrangian
  extract_lets dS pS dL dofs lam sol dLam pLam lag lag'
  have hd : (P.d.flatMap fun e => List.zipWith (fun x v => x - v) (at2Get sol e.nodes e.comps) e.vals) =
      (P.d.flatMap fun e => ((e.nodes.zip e.comps).zip e.vals).map fun q =>
        Row.fixed (q.1.1 * P.fe.vec + q.1.2) q.2).map (Row.eval dofs) := by
    rw [List.map_flatMap]
    refine List.flatMap_congr fun e he => dEval P h dofs e he
  have hp : (P.p.flatMap fun g => List.zipWith (fun x y => x - y) (at2Get sol g.nodesA g.comps)
      (at2Get sol g.nodesB g.comps)) =
      (P.p.flatMap fun g => ((g.nodesA.zip g.nodesB).zip g.comps).map fun q =>
        (Row.tie (q.1.1 * P.fe.vec + q.2) (q.1.2 * P.fe.vec + q.2) : Row K)).map (Row.eval dofs) := by
    rw [List.map_flatMap]
    refine List.flatMap_congr fun g hg => pEval P h dofs g hg
  have hdl : dL = (P.d.map fun e => e.nodes.length).sum := cumsum_last0 _
  have e1 : lag = 0 + (List.zipWith (fun l x => l * x) (lam.take dL) (P.d.flatMap fun e =>
      List.zipWith (fun x v => x - v) (at2Get sol e.nodes e.comps) e.vals)).sum := by
    simp only [lag, dLam, dS]
    rw [npSplit_cumsum]
    refine sum_pieces P.d (fun e => List.zipWith (fun x v => x - v) (at2Get sol e.nodes e.comps) e.vals)
      (fun e => e.nodes.length) (fun e he => ?_) _ _ _
    simp [at2Get, h.comps e he, h.vals e he]
  have e2 : lag' = lag + (List.zipWith (fun l x => l * x) (lam.drop dL) (P.p.flatMap fun g =>
      List.zipWith (fun x y => x - y) (at2Get sol g.nodesA g.comps) (at2Get sol g.nodesB g.comps))).sum := by
    simp only [lag', pLam, pS]
    rw [npSplit_cumsum]
    refine sum_pieces P.p (fun g => List.zipWith (fun x y => x - y) (at2Get sol g.nodesA g.comps)
      (at2Get sol g.nodesB g.comps)) (fun g => g.nodesA.length) (fun g hg => ?_) _ _ _
    simp [at2Get, h.pcomps g hg, h.pB g hg]
  rw [e2, e1, hd, hp, zero_add, rows, List.map_append]
  congr 1
  have hlen : ((P.d.flatMap fun e => ((e.nodes.zip e.comps).zip e.vals).map fun q =>
        Row.fixed (q.1.1 * P.fe.vec + q.1.2) q.2).map (Row.eval dofs)).length = dL := by
    rw [hdl, List.length_map, List.length_flatMap]
    congr 1
    refine List.map_congr_left fun e he => ?_
    simp [h.comps e he, h.vals e he]
  show _ = (List.zipWith (fun l x => l * x) lam _).sum
  conv_rhs => rw [← List.take_append_drop dL lam]
  by_cases hx : dL ≤ lam.length
  · rw [List.zipWith_append (by rw [List.length_take, hlen]; omega), List.sum_append]
  · have h1 : lam.drop dL = [] := List.drop_eq_nil_of_le (by omega)
    have h2 : lam.take dL = lam := List.take_of_length_le (by omega)
    rw [h1, h2, List.append_nil, List.zipWith_nil_left, List.sum_nil, add_zero]
    exact congrArg List.sum (zipWith_append_long lam _ _ (by rw [hlen]; omega)).symm

/-! ### Triplets -/

theorem cooEntry_app [CommRing K] (I₁ I₂ J₁ J₂ : List Nat) (V₁ V₂ : List K) (hJ : J₁.length = I₁.length)
    (hV : V₁.length = I₁.length) (r c : Nat) :
    cooEntry (I₁ ++ I₂) (J₁ ++ J₂) (V₁ ++ V₂) r c = cooEntry I₁ J₁ V₁ r c + cooEntry I₂ J₂ V₂ r c := by
  unfold cooEntry
  rw [List.zip_append hJ.symm, List.zip_append (by simp [hJ, hV]), List.map_append, List.sum_append]

theorem cooEntry_swap [CommRing K] (I J : List Nat) (V : List K) (r c : Nat) :
    cooEntry J I V r c = cooEntry I J V c r := by
  unfold cooEntry
  congr 1
  induction I generalizing J V with
  | nil => simp
  | cons i I ih =>
    cases J with
    | nil => simp
    | cons j J =>
      cases V with
      | nil => simp
      | cons v V =>
        simp only [List.zip_cons_cons, List.map_cons]
        rw [ih J V]
        simp only [and_comm]

theorem cooEntry_zero [CommRing K] (I J : List Nat) (V : List K) (r c : Nat)
    (h : (∀ i ∈ I, i ≠ r) ∨ ∀ j ∈ J, j ≠ c) : cooEntry I J V r c = 0 := by
  unfold cooEntry
  refine List.sum_eq_zero fun y hy => ?_
  obtain ⟨⟨⟨i, j⟩, v⟩, hq, rfl⟩ := List.mem_map.1 hy
  have h2 := List.of_mem_zip (List.of_mem_zip hq).1
  refine if_neg fun hc => ?_
  rcases h with h | h
  · exact h i h2.1 hc.1
  · exact h j h2.2 hc.2

theorem cooEntry_group [CommRing K] (ks : List Nat) (s : Nat) (w : K) (r c : Nat) :
    cooEntry ks ((List.range ks.length).map fun i => s + i) (List.replicate ks.length w) r c =
      if s ≤ c ∧ ks[c - s]? = some r then w else 0 := by
  induction ks generalizing s with
  | nil => simp [cooEntry]
  | cons k ks ih =>
    rw [List.length_cons, List.range_succ_eq_map, List.map_cons, List.map_map, List.replicate_succ]
    have e : ((List.range ks.length).map ((fun i => s + i) ∘ Nat.succ)) =
        (List.range ks.length).map fun i => s + 1 + i := by
      refine List.map_congr_left fun i _ => ?_
      simp only [Function.comp]; omega
    have := cooEntry_app [k] ks [s + 0] ((List.range ks.length).map fun i => s + 1 + i) [w]
      (List.replicate ks.length w) rfl rfl r c
    rw [e]
    refine this.trans ?_
    rw [ih (s + 1)]
    simp only [cooEntry, List.zip_cons_cons, List.zip_nil_left, List.map_cons, List.map_nil, List.sum_cons,
      List.sum_nil, add_zero]
    rcases Nat.lt_trichotomy s c with hc | hc | hc
    · obtain ⟨m, rfl⟩ := Nat.exists_eq_add_of_lt hc
      rw [if_neg (by omega), zero_add, show s + m + 1 - s = m + 1 by omega,
        show s + m + 1 - (s + 1) = m by omega, List.getElem?_cons_succ]
      simp only [show s + 1 ≤ s + m + 1 by omega, show s ≤ s + m + 1 by omega, true_and]
    · subst hc
      rw [Nat.sub_self, List.getElem?_cons_zero]
      rw [if_neg (show ¬(s + 1 ≤ s ∧ _) by omega), add_zero]
      simp
    · rw [if_neg (by omega), if_neg (by omega), if_neg (by omega), add_zero]

/-- Column `c` of a list of constraints numbered from `s`: its coefficient of `r`. -/
def rc [CommRing K] (rs : List (Row K)) (s r c : Nat) : K :=
  if s ≤ c then ((rs[c - s]?).map fun row => row.coeff r).getD 0 else 0

theorem rc_append [CommRing K] (rs rs' : List (Row K)) (s r c : Nat) :
    rc (rs ++ rs') s r c = rc rs s r c + rc rs' (s + rs.length) r c := by
  unfold rc
  by_cases h1 : s ≤ c
  · by_cases h2 : c - s < rs.length
    · rw [if_pos h1, if_pos h1, if_neg (show ¬s + rs.length ≤ c by omega), List.getElem?_append_left h2, add_zero]
    · rw [if_pos h1, if_pos h1, if_pos (show s + rs.length ≤ c by omega),
        List.getElem?_append_right (by omega), List.getElem?_eq_none (l := rs) (by omega), Nat.sub_sub]
      simp
  · rw [if_neg h1, if_neg h1, if_neg (by omega), add_zero]

theorem dRows_rc [CommRing K] (P : Prob K) (h : WF P) (e : BCEntry K) (he : e ∈ P.d) (eps : K) (s r c : Nat) :
    cooEntry ((e.nodes.zip e.comps).map fun nc => P.fe.vec * nc.1 + nc.2)
      ((List.range e.nodes.length).map fun i => s + i) (List.replicate e.nodes.length (eps * 1)) r c =
    eps * rc (((e.nodes.zip e.comps).zip e.vals).map fun q =>
      Row.fixed (q.1.1 * P.fe.vec + q.1.2) q.2) s r c := by
  have l1 := h.comps e he
  have l2 := h.vals e he
  have hl : ((e.nodes.zip e.comps).map fun nc => P.fe.vec * nc.1 + nc.2).length = e.nodes.length := by
    simp [l1]
  have := cooEntry_group ((e.nodes.zip e.comps).map fun nc => P.fe.vec * nc.1 + nc.2) s (eps * 1) r c
  rw [hl] at this
  rw [this, rc]
  by_cases h1 : s ≤ c
  · rw [if_pos h1]
    by_cases h2 : c - s < e.nodes.length
    · rw [List.getElem?_eq_getElem (by simp [l1, h2]), List.getElem?_eq_getElem (by simp [l1, l2, h2])]
      simp only [List.getElem_map, List.getElem_zip, Option.map_some, Option.getD_some, Row.coeff, h1, true_and,
        Option.some.injEq, Nat.mul_comm P.fe.vec]
      simp only [eq_comm (b := r), mul_ite, mul_one, mul_zero]
    · rw [List.getElem?_eq_none (by simp [l1]; omega), List.getElem?_eq_none (by simp [l1, l2]; omega)]
      simp
  · rw [if_neg h1, if_neg (by tauto), mul_zero]

theorem pRows_rc [CommRing K] (P : Prob K) (h : WF P) (g : PEntry) (hg : g ∈ P.p) (eps : K) (s r c : Nat) :
    cooEntry ((g.nodesA.zip g.comps).map fun nc => P.fe.vec * nc.1 + nc.2)
      ((List.range g.nodesA.length).map fun i => s + i) (List.replicate g.nodesA.length (eps * 1)) r c +
    cooEntry ((g.nodesB.zip g.comps).map fun nc => P.fe.vec * nc.1 + nc.2)
      ((List.range g.nodesA.length).map fun i => s + i) (List.replicate g.nodesA.length (-eps * 1)) r c =
    eps * rc (((g.nodesA.zip g.nodesB).zip g.comps).map fun q =>
      (Row.tie (q.1.1 * P.fe.vec + q.2) (q.1.2 * P.fe.vec + q.2) : Row K)) s r c := by
  have l1 := h.pB g hg
  have l2 := h.pcomps g hg
  have hA : ((g.nodesA.zip g.comps).map fun nc => P.fe.vec * nc.1 + nc.2).length = g.nodesA.length := by
    simp [l2]
  have hB : ((g.nodesB.zip g.comps).map fun nc => P.fe.vec * nc.1 + nc.2).length = g.nodesA.length := by
    simp [l2, l1]
  have tA := cooEntry_group ((g.nodesA.zip g.comps).map fun nc => P.fe.vec * nc.1 + nc.2) s (eps * 1) r c
  have tB := cooEntry_group ((g.nodesB.zip g.comps).map fun nc => P.fe.vec * nc.1 + nc.2) s (-eps * 1) r c
  rw [hA] at tA
  rw [hB] at tB
  rw [tA, tB, rc]
  by_cases h1 : s ≤ c
  · rw [if_pos h1]
    by_cases h2 : c - s < g.nodesA.length
    · rw [List.getElem?_eq_getElem (by simp [l2, h2]), List.getElem?_eq_getElem (by simp [l1, l2, h2]),
        List.getElem?_eq_getElem (by simp [l1, l2, h2])]
      simp only [List.getElem_map, List.getElem_zip, Option.map_some, Option.getD_some, Row.coeff, h1, true_and,
        Option.some.injEq, Nat.mul_comm P.fe.vec]
      simp only [eq_comm (b := r), mul_sub, mul_ite, mul_one, mul_zero]
      split_ifs <;> ring
    · rw [List.getElem?_eq_none (by simp [l2]; omega), List.getElem?_eq_none (by simp [l1, l2]; omega),
        List.getElem?_eq_none (by simp [l1, l2]; omega)]
      simp
  · rw [if_neg h1, if_neg (by tauto), if_neg (by tauto), mul_zero, add_zero]

/-- What the loops over the entries maintain. -/
structure TripOk [CommRing K] (eps : K) (N g0 : Nat) (rs : List (Row K)) (s : (List Nat × List Nat × List K) × Nat) :
    Prop where
  lenJ : s.1.2.1.length = s.1.1.length
  lenV : s.1.2.2.length = s.1.1.length
  ltI : ∀ i ∈ s.1.1, i < N
  geJ : ∀ j ∈ s.1.2.1, g0 ≤ j
  size : s.2 = g0 + rs.length
  entry : ∀ r c, cooEntry s.1.1 s.1.2.1 s.1.2.2 r c = eps * rc rs g0 r c

theorem index_lt (fe : FE) (n c : Nat) (hn : n < fe.numTotalNodes) (hc : c < fe.vec) :
    fe.vec * n + c < fe.numTotalDofs := by
  unfold FE.numTotalDofs
  calc fe.vec * n + c < fe.vec * n + fe.vec := by omega
    _ = fe.vec * (n + 1) := by ring
    _ ≤ fe.vec * fe.numTotalNodes := Nat.mul_le_mul_left _ hn
    _ = _ := by ring

theorem dTriplets_ok [CommRing K] (P : Prob K) (h : WF P) (eps : K) :
    TripOk eps (nDofs P) (nDofs P) (P.d.flatMap fun e => ((e.nodes.zip e.comps).zip e.vals).map fun q =>
      Row.fixed (q.1.1 * P.fe.vec + q.1.2) q.2) (dTriplets P eps) := by
  have key : ∀ (l : List (BCEntry K)) (rs : List (Row K)) (s : (List Nat × List Nat × List K) × Nat),
      (∀ e ∈ l, e ∈ P.d) → TripOk eps (nDofs P) (nDofs P) rs s →
      TripOk eps (nDofs P) (nDofs P) (rs ++ l.flatMap fun e => ((e.nodes.zip e.comps).zip e.vals).map fun q =>
        Row.fixed (q.1.1 * P.fe.vec + q.1.2) q.2) (l.foldl (fun s e =>
      let size := e.nodes.length
      ((s.1.1 ++ (e.nodes.zip e.comps).map fun nc => P.fe.vec * nc.1 + nc.2,
        s.1.2.1 ++ (List.range size).map fun i => s.2 + i,
        s.1.2.2 ++ List.replicate size (eps * 1)), s.2 + size)) s) := by
    intro l
    induction l with
    | nil => intro rs s _ hs; simpa using hs
    | cons e l ih =>
      intro rs s hl hs
      have he := hl e List.mem_cons_self
      have l1 := h.comps e he
      have l2 := h.vals e he
      rw [List.foldl_cons, List.flatMap_cons, ← List.append_assoc]
      refine ih _ _ (fun e' he' => hl e' (List.mem_cons_of_mem _ he')) ⟨?_, ?_, ?_, ?_, ?_, ?_⟩
      · simp [hs.lenJ, l1]
      · simp [hs.lenV, l1]
      · intro i hi
        rcases List.mem_append.1 hi with hi | hi
        · exact hs.ltI i hi
        · obtain ⟨⟨n, c⟩, hq, rfl⟩ := List.mem_map.1 hi
          have := List.of_mem_zip hq
          exact index_lt _ _ _ ((h.valid e he).1 n this.1) ((h.valid e he).2 c this.2)
      · intro j hj
        rcases List.mem_append.1 hj with hj | hj
        · exact hs.geJ j hj
        · obtain ⟨i, -, rfl⟩ := List.mem_map.1 hj
          have := hs.size
          omega
      · have := hs.size
        simp [l1, l2, this, Nat.add_assoc]
      · intro r c
        rw [cooEntry_app _ _ _ _ _ _ hs.lenJ hs.lenV, hs.entry, dRows_rc P h e he, rc_append, hs.size, mul_add]
  have := key P.d [] (([], [], []), P.fe.numTotalDofs) (fun e he => he)
    ⟨rfl, rfl, by simp, by simp, rfl, fun r c => by simp [cooEntry, rc]⟩
  rw [List.nil_append] at this
  exact this

theorem pTriplets_ok [CommRing K] (P : Prob K) (h : WF P) (eps : K) (g0 : Nat) :
    TripOk eps (nDofs P) g0 (P.p.flatMap fun g => ((g.nodesA.zip g.nodesB).zip g.comps).map fun q =>
      (Row.tie (q.1.1 * P.fe.vec + q.2) (q.1.2 * P.fe.vec + q.2) : Row K)) (pTriplets P eps g0) := by
  have key : ∀ (l : List PEntry) (rs : List (Row K)) (s : (List Nat × List Nat × List K) × Nat),
      (∀ g ∈ l, g ∈ P.p) → TripOk eps (nDofs P) g0 rs s →
      TripOk eps (nDofs P) g0 (rs ++ l.flatMap fun g => ((g.nodesA.zip g.nodesB).zip g.comps).map fun q =>
        (Row.tie (q.1.1 * P.fe.vec + q.2) (q.1.2 * P.fe.vec + q.2) : Row K)) (l.foldl (fun s g =>
    let size := g.nodesA.length
    let I := s.1.1 ++ (g.nodesA.zip g.comps).map fun nc => P.fe.vec * nc.1 + nc.2
    let J := s.1.2.1 ++ (List.range size).map fun i => s.2 + i
    let V := s.1.2.2 ++ List.replicate size (eps * 1)
    let I := I ++ (g.nodesB.zip g.comps).map fun nc => P.fe.vec * nc.1 + nc.2
    let J := J ++ (List.range size).map fun i => s.2 + i
    let V := V ++ List.replicate size (-eps * 1)
    ((I, J, V), s.2 + size)) s) := by
    intro l
    induction l with
    | nil => intro rs s _ hs; simpa using hs
    | cons e l ih =>
      intro rs s hl hs
      have he := hl e List.mem_cons_self
      have l1 := h.pcomps e he
      have l2 := h.pB e he
      rw [List.foldl_cons, List.flatMap_cons, ← List.append_assoc]
      refine ih _ _ (fun e' he' => hl e' (List.mem_cons_of_mem _ he')) ⟨?_, ?_, ?_, ?_, ?_, ?_⟩
      · simp [hs.lenJ, l1, l2]
      · simp [hs.lenV, l1, l2]
      · intro i hi
        rcases List.mem_append.1 hi with hi | hi
        · rcases List.mem_append.1 hi with hi | hi
          · exact hs.ltI i hi
          · obtain ⟨⟨n, c⟩, hq, rfl⟩ := List.mem_map.1 hi
            have := List.of_mem_zip hq
            exact index_lt _ _ _ ((h.pvalid e he).1 n this.1) ((h.pvalid e he).2.2 c this.2)
        · obtain ⟨⟨n, c⟩, hq, rfl⟩ := List.mem_map.1 hi
          have := List.of_mem_zip hq
          exact index_lt _ _ _ ((h.pvalid e he).2.1 n this.1) ((h.pvalid e he).2.2 c this.2)
      · intro j hj
        have := hs.size
        rcases List.mem_append.1 hj with hj | hj
        · rcases List.mem_append.1 hj with hj | hj
          · exact hs.geJ j hj
          · obtain ⟨i, -, rfl⟩ := List.mem_map.1 hj
            omega
        · obtain ⟨i, -, rfl⟩ := List.mem_map.1 hj
          omega
      · have := hs.size
        simp [l1, l2, this, Nat.add_assoc]
      · intro r c
        dsimp only
        rw [cooEntry_app _ _ _ _ _ _ (by simp [hs.lenJ, l1]) (by simp [hs.lenV, l1]),
          cooEntry_app _ _ _ _ _ _ hs.lenJ hs.lenV, hs.entry, add_assoc, pRows_rc P h e he, rc_append, hs.size, mul_add]
  have := key P.p [] (([], [], []), g0) (fun e he => he)
    ⟨rfl, rfl, by simp, by simp, rfl, fun r c => by simp [cooEntry, rc]⟩
  rw [List.nil_append] at this
  exact this

theorem augTriplets_size [CommRing K] (P : Prob K) (h : WF P) (eps : K) (T : List Nat × List Nat × List K) :
    (augTriplets P eps T).2 = nDofs P + augSize P := by
  have h1 := (dTriplets_ok P h eps).size
  have h2 := (pTriplets_ok P h eps (dTriplets P eps).2).size
  rw [← rows_length P h, rows, List.length_append]
  show (pTriplets P eps (dTriplets P eps).2).2 = _
  rw [h2, h1, Nat.add_assoc]

/-- The entries of the augmented matrix. -/
theorem augTriplets_entry [CommRing K] (P : Prob K) (h : WF P) (eps : K) (T : List Nat × List Nat × List K)
    (hT : WFT P T.1 T.2.1 T.2.2) (r c : Nat) :
    cooEntry (augTriplets P eps T).1.1 (augTriplets P eps T).1.2.1 (augTriplets P eps T).1.2.2 r c =
      cooEntry T.1 T.2.1 T.2.2 r c + eps * rc (rows P) (nDofs P) r c + eps * rc (rows P) (nDofs P) c r := by
  have h1 := dTriplets_ok P h eps
  have h2 := pTriplets_ok P h eps (dTriplets P eps).2
  simp only [augTriplets, symmetry]
  rw [cooEntry_app _ _ _ _ _ _ (by simp [hT.lenJ, h1.lenJ]) (by simp [hT.lenV, h1.lenV, h1.lenJ]),
    cooEntry_app _ _ _ _ _ _ hT.lenJ hT.lenV, cooEntry_app _ _ _ _ _ _ h1.lenJ h1.lenV,
    cooEntry_app _ _ _ _ _ _ h2.lenJ h2.lenV, cooEntry_swap (dTriplets P eps).1.1,
    cooEntry_swap (pTriplets P eps _).1.1, h1.entry, h1.entry, h2.entry,
    h2.entry, rows, rc_append, rc_append, h1.size]
  ring

end LM
end JaxFem
