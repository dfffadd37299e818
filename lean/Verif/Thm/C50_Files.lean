import Verif.Model.Files
import Verif.Thm.Lists
import Mathlib.Data.List.Basic
import Mathlib.Data.List.Infix
import Mathlib.Tactic.Common

/-!
# C50, C51: file output
-/

namespace JaxFem
namespace Files

/-! ## C50 -/

/-- `t` is `s` with every occurrence of `old` (left to right, not overlapping) replaced by `new`. -/
inductive Replaced (old new : List Char) : List Char → List Char → Prop
  | nil : Replaced old new [] []
  | hit {s t : List Char} (h : Replaced old new s t) : Replaced old new (old ++ s) (new ++ t)
  | skip {c : Char} {s t : List Char} (hn : ¬old <+: c :: s) (h : Replaced old new s t) :
      Replaced old new (c :: s) (c :: t)

theorem replaceAux_spec (old new : List Char) (hne : old ≠ []) :
    ∀ (k : Nat) (s : List Char), s.length ≤ k → Replaced old new s (replaceAux old new k s)
  | k, [], _ => by cases k <;> exact .nil
  | 0, c :: s, h => by simp at h
  | k + 1, c :: s, h => by
    rw [List.length_cons] at h
    unfold replaceAux
    split_ifs with hp
    · have hp' : old <+: c :: s := List.isPrefixOf_iff_prefix.1 hp
      obtain ⟨r, hr⟩ := hp'
      have hd : (c :: s).drop old.length = r := by rw [← hr, List.drop_left' rfl]
      rw [hd, ← hr]
      refine .hit (replaceAux_spec old new hne k r ?_)
      have h1 := congrArg List.length hr
      rw [List.length_append, List.length_cons] at h1
      have h2 : 0 < old.length := List.length_pos_of_ne_nil hne
      omega
    · refine .skip (fun h' => hp (List.isPrefixOf_iff_prefix.2 h')) (replaceAux_spec old new hne k s (by omega))

theorem strReplace_spec (old new s : List Char) (hne : old ≠ []) : Replaced old new s (strReplace old new s) :=
  replaceAux_spec old new hne _ s le_rfl

/-- The replaced text is determined by the relation. -/
theorem Replaced.unique {old new : List Char} (hne : old ≠ []) {s t t' : List Char} (h : Replaced old new s t)
    (h' : Replaced old new s t') : t = t' := by
  induction h generalizing t' with
  | nil =>
    generalize hs : ([] : List Char) = s at h'
    cases h' with
    | nil => rfl
    | hit h => exact absurd (List.append_eq_nil_iff.1 hs.symm).1 hne
    | skip _ _ => cases hs
  | @hit s t h ih =>
    generalize hs : old ++ s = x at h'
    cases h' with
    | nil => exact absurd (List.append_eq_nil_iff.1 hs).1 hne
    | hit h2 => rw [ih (List.append_cancel_left hs ▸ h2)]
    | skip hn h2 => exact absurd (hs ▸ List.prefix_append _ _) hn
  | @skip c s t hn h ih =>
    generalize hs : c :: s = x at h'
    cases h' with
    | nil => cases hs
    | hit h2 => exact absurd (hs ▸ List.prefix_append _ _) hn
    | skip hn2 h2 => cases hs; rw [ih h2]

theorem lines_flatten (s : List Char) : (lines s).flatten = s := by
  induction s with
  | nil => rfl
  | cons c s ih =>
    unfold lines
    split_ifs with h
    · rw [List.flatten_cons, ih, h]; rfl
    · cases hl : lines s with
      | nil => rw [hl] at ih; rw [← ih]; rfl
      | cons l ls => rw [hl] at ih; rw [← ih]; rfl

theorem lines_newline (s : List Char) : lines ('\n' :: s) = ['\n'] :: lines s := by
  rw [lines, if_pos rfl]

theorem lines_nil (c : Char) (s : List Char) (hc : c ≠ '\n') (h : lines s = []) : lines (c :: s) = [[c]] := by
  rw [lines, if_neg hc, h]

theorem lines_cons (c : Char) (s l : List Char) (ls : List (List Char)) (hc : c ≠ '\n') (h : lines s = l :: ls) :
    lines (c :: s) = (c :: l) :: ls := by
  rw [lines, if_neg hc, h]

theorem lines_cases (s : List Char) :
    (lines s = [] ∧ s = []) ∨ (∃ l, lines s = [l] ∧ '\n' ∉ l ∧ l = s) ∨
    ∃ l r, lines s = (l ++ ['\n']) :: lines r ∧ '\n' ∉ l ∧ s = l ++ '\n' :: r := by
  induction s with
  | nil => exact Or.inl ⟨rfl, rfl⟩
  | cons c s ih =>
    by_cases h : c = '\n'
    · rw [h]
      exact Or.inr (Or.inr ⟨[], s, lines_newline s, by simp, rfl⟩)
    · rcases ih with ⟨h1, h2⟩ | ⟨l, h1, h2, h3⟩ | ⟨l, r, h1, h2, h3⟩
      · rw [lines_nil c s h h1, h2]
        exact Or.inr (Or.inl ⟨[c], rfl, by simpa using fun e => h e.symm, rfl⟩)
      · rw [lines_cons c s _ _ h h1]
        exact Or.inr (Or.inl ⟨c :: l, rfl, by
          rw [List.mem_cons]; rintro (e | e)
          · exact h e.symm
          · exact h2 e, by rw [h3]⟩)
      · rw [lines_cons c s _ _ h h1]
        exact Or.inr (Or.inr ⟨c :: l, r, rfl, by
          rw [List.mem_cons]; rintro (e | e)
          · exact h e.symm
          · exact h2 e, by rw [h3]; rfl⟩)

/-- If the pattern has no newline, replacing the first line and the rest separately is replacing the
whole. -/
theorem Replaced.append_newline {old new : List Char} (hnl : '\n' ∉ old) {l t r t' : List Char}
    (hne : old ≠ []) (hl : '\n' ∉ l) (h : Replaced old new (l ++ ['\n']) t) (hr : Replaced old new r t') :
    Replaced old new (l ++ '\n' :: r) (t ++ t') := by
  generalize hs : l ++ ['\n'] = s at h
  induction h generalizing l with
  | nil => simp at hs
  | @hit s t h ih =>
    -- the match lies inside the line
    have hlen : old.length ≤ l.length := by
      by_contra hc
      have h1 : (l ++ ['\n'])[l.length]? = some '\n' := by simp
      rw [hs, List.getElem?_append_left (by omega)] at h1
      exact hnl (List.mem_of_getElem? h1)
    have hpre : old <+: l := by
      have h1 : old <+: l ++ ['\n'] := hs ▸ List.prefix_append _ _
      exact List.prefix_of_prefix_length_le h1 (List.prefix_append _ _) hlen
    obtain ⟨l', rfl⟩ := hpre
    rw [List.append_assoc, List.append_assoc]
    refine .hit (ih ?_ ?_)
    · exact fun h => hl (List.mem_append_right _ h)
    · rw [List.append_assoc] at hs
      exact List.append_cancel_left hs
  | @skip c s t hn h ih =>
    cases l with
    | nil =>
      simp only [List.nil_append, List.cons.injEq] at hs
      obtain ⟨rfl, rfl⟩ := hs
      have ht : t = [] := h.unique hne .nil
      rw [ht]
      refine .skip ?_ hr
      intro hp
      cases old with
      | nil => exact hne rfl
      | cons o os =>
        rw [List.cons_prefix_cons] at hp
        exact hnl (hp.1 ▸ List.mem_cons_self ..)
    | cons a l =>
      simp only [List.cons_append, List.cons.injEq] at hs
      obtain ⟨rfl, rfl⟩ := hs
      refine .skip ?_ (ih (fun h => hl (List.mem_cons_of_mem _ h)) rfl)
      intro hp
      replace hp : old <+: a :: (l ++ '\n' :: r) := hp
      apply hn
      -- the pattern has no newline, so a match inside the longer text is inside the line
      have hlen : old.length ≤ (a :: l).length := by
        by_contra hc
        obtain ⟨q, hq⟩ := hp
        have h1 : (a :: (l ++ '\n' :: r))[(a :: l).length]? = some '\n' := by simp
        rw [← hq, List.getElem?_append_left (by omega)] at h1
        exact hnl (List.mem_of_getElem? h1)
      have h1 : old <+: a :: l :=
        List.prefix_of_prefix_length_le hp (by rw [← List.cons_append]; exact List.prefix_append _ _) hlen
      rw [← List.cons_append]
      exact h1.trans (List.prefix_append _ _)

theorem replace_lines (old new : List Char) (hne : old ≠ []) (hnl : '\n' ∉ old) :
    ∀ (k : Nat) (s : List Char), s.length ≤ k →
      Replaced old new s ((lines s).map (strReplace old new)).flatten
  | 0, s, h => by
    have : s = [] := List.length_eq_zero_iff.1 (by omega)
    subst this
    exact .nil
  | k + 1, s, h => by
    rcases lines_cases s with ⟨h1, h2⟩ | ⟨l, h1, h2, h3⟩ | ⟨l, r, h1, h2, h3⟩
    · rw [h1, h2]; exact .nil
    · rw [h1, ← h3]
      simp only [List.map_cons, List.map_nil, List.flatten_cons, List.flatten_nil, List.append_nil]
      exact strReplace_spec _ _ _ hne
    · rw [h1, List.map_cons, List.flatten_cons, h3]
      refine Replaced.append_newline hnl hne h2 (strReplace_spec _ _ _ hne) (replace_lines old new hne hnl k r ?_)
      rw [h3] at h
      simp at h
      omega

/-- Text mode reading in terms of pieces: carriage returns (with a following newline, if any) become
newlines, everything else is kept. -/
theorem universalNewlines_id (s : List Char) (h : '\r' ∉ s) : universalNewlines s = s := by
  induction s with
  | nil => rfl
  | cons c s ih =>
    rw [List.mem_cons, not_or] at h
    have hc : c ≠ '\r' := fun e => h.1 e.symm
    rw [universalNewlines.eq_4 _ _ (fun s' e _ => hc e) (fun e => hc e), ih h.2]

theorem header_facts : header22 ≠ [] ∧ '\n' ∉ header22 := by decide +kernel

theorem openW_other (fs fs1 : FS) (out : List Char) (o : Nat) (h : fs.openW out = .ok (fs1, o))
    (hn : ∀ p i, fs.resolve p = some i → i < fs.next) :
    fs1.resolve out = some o ∧ (∀ p i, fs.resolve p = some i → fs1.resolve p = some i) ∧
    (∀ i, i ≠ o → fs1.content i = fs.content i) ∧ fs1.content o = [] ∧
    (∀ p i, fs.resolve p = some i → i ≠ o → fs1.content i = fs.content i) ∧
    (∀ i, fs.resolve out = some i → i = o) ∧ (fs.resolve out = none → o = fs.next) := by
  unfold FS.openW at h
  cases hr : fs.resolve out with
  | some i =>
    rw [hr] at h
    obtain ⟨rfl, rfl⟩ := Prod.mk.inj (Except.ok.inj h)
    exact ⟨hr, fun p j hp => hp, fun j hj => Function.update_of_ne hj _ _, Function.update_self ..,
      fun p j _ hj => Function.update_of_ne hj _ _, fun j hj => (Option.some.inj hj).symm, fun h => by cases h⟩
  | none =>
    rw [hr] at h
    dsimp only at h
    split_ifs at h
    obtain ⟨rfl, rfl⟩ := Prod.mk.inj (Except.ok.inj h)
    refine ⟨Function.update_self .., fun p j hp => ?_, fun j hj => Function.update_of_ne hj _ _,
      Function.update_self .., fun p j _ hj => Function.update_of_ne hj _ _, fun j hj => (by cases hj), fun _ => rfl⟩
    have : p ≠ out := by rintro rfl; rw [hr] at hp; cases hp
    show Function.update _ _ _ _ = _
    rw [Function.update_of_ne this, hp]

/-- **C50.** If the two paths name different files, the output file holds the text of the input (as read in
text mode) with every version-2.2 header replaced and nothing else changed; the input file and every other
file are unchanged. -/
theorem C50_convert (fs fs' : FS) (inp out : List Char) (i : Nat) (hn : ∀ p i, fs.resolve p = some i → i < fs.next)
    (hi : fs.resolve inp = some i) (hio : fs.resolve out ≠ some i) (h : modifyVtuFile fs inp out = .ok fs') :
    ∃ o, fs'.resolve out = some o ∧ Replaced "<VTKFile type=\"UnstructuredGrid\" version=\"2.2\">".toList
        "<VTKFile type=\"UnstructuredGrid\" version=\"1.0\">".toList (universalNewlines (fs.content i)) (fs'.content o) ∧
      fs'.resolve inp = some i ∧ fs'.content i = fs.content i ∧
      ∀ p k, fs.resolve p = some k → fs.resolve out ≠ some k → fs'.resolve p = some k ∧ fs'.content k = fs.content k := by
  unfold modifyVtuFile at h
  rw [hi] at h
  dsimp only at h
  rcases ho : fs.openW out with e | ⟨fs1, o⟩
  · rw [ho] at h; cases h
  rw [ho] at h
  have h := Except.ok.inj h
  obtain ⟨g1, g2, g3, g4, g5, g6, g7⟩ := openW_other fs fs1 out o ho hn
  have hne : ∀ p k, fs.resolve p = some k → fs.resolve out ≠ some k → k ≠ o := by
    intro p k hp hk e
    subst e
    cases hr : fs.resolve out with
    | some j => exact hk (by rw [hr, g6 j hr])
    | none => have := g7 hr; have := hn p k hp; omega
  have hoi := hne inp i hi hio
  subst h
  refine ⟨o, g1, ?_, g2 _ _ hi, ?_, fun p k hp hk => ⟨g2 p k hp, ?_⟩⟩
  · dsimp only
    rw [Function.update_self, g3 i hoi]
    exact replace_lines _ _ header_facts.1 header_facts.2 _ _ le_rfl
  · show Function.update _ _ _ i = _
    rw [Function.update_of_ne hoi, g3 i hoi]
  · show Function.update _ _ _ k = _
    rw [Function.update_of_ne (hne p k hp hk), g3 k (hne p k hp hk)]

/-- **C50 (newlines).** A text without carriage returns is read as it is; a text with Windows line ends comes
out with Unix line ends. -/
theorem C50_newlines :
    (∀ s : List Char, '\r' ∉ s → universalNewlines s = s) ∧
    (∀ s : List Char, '\r' ∉ universalNewlines s) ∧ universalNewlines "a\r\nb\rc\n".toList = "a\nb\nc\n".toList := by
  refine ⟨universalNewlines_id, ?_, by decide +kernel⟩
  intro s
  induction s using universalNewlines.induct with
  | case1 => simp [universalNewlines]
  | case2 s ih => rw [universalNewlines]; simpa using ih
  | case3 s h ih => rw [universalNewlines.eq_3 _ h]; simpa using ih
  | case4 c s h1 h2 ih =>
    rw [universalNewlines.eq_4 _ _ h1 h2, List.mem_cons, not_or]
    exact ⟨fun e => h2 e.symm, ih⟩

/-- **C50 (destructive in place).** If both paths name the same file (equal paths, or a link), the call
succeeds and leaves the file empty. -/
theorem C50_in_place (fs : FS) (inp out : List Char) (i : Nat) (hi : fs.resolve inp = some i)
    (ho : fs.resolve out = some i) : ∃ fs', modifyVtuFile fs inp out = .ok fs' ∧ fs'.resolve inp = some i ∧
      fs'.content i = [] := by
  unfold modifyVtuFile
  rw [hi]
  dsimp only
  unfold FS.openW
  rw [ho]
  refine ⟨_, rfl, hi, ?_⟩
  simp only [Function.update_self]
  rfl

/-- **C50 (missing input).** A missing input raises and leaves all files as they are (there is no new file
system). -/
theorem C50_missing (fs : FS) (inp out : List Char) (hi : fs.resolve inp = none) :
    modifyVtuFile fs inp out = .error .fileNotFound := by
  unfold modifyVtuFile
  rw [hi]

/-! No version-2.2 header is left. -/

theorem Replaced.prefix_back {old new : List Char} (hnew : new.head? = some '<') {s t : List Char}
    (h : Replaced old new s t) : ∀ q : List Char, '<' ∉ q → q <+: t → q <+: s := by
  induction h with
  | nil => intro q _ hp; exact hp
  | @hit s t h ih =>
    intro q hq hp
    cases q with
    | nil => exact List.nil_prefix
    | cons a q =>
      exfalso
      cases new with
      | nil => cases hnew
      | cons b new =>
        rw [List.cons_append, List.cons_prefix_cons] at hp
        have hb : b = '<' := by simpa using hnew
        exact hq (by rw [← hb, ← hp.1]; exact List.mem_cons_self ..)
  | @skip c s t hn h ih =>
    intro q hq hp
    cases q with
    | nil => exact List.nil_prefix
    | cons a q =>
      rw [List.cons_prefix_cons] at hp ⊢
      exact ⟨hp.1, ih q (fun h => hq (List.mem_cons_of_mem _ h)) hp.2⟩

theorem not_infix_append (old r t : List Char) (h : ∀ k < r.length, ¬old <+: r.drop k ++ t) (ht : ¬old <:+: t) :
    ¬old <:+: r ++ t := by
  induction r with
  | nil => exact ht
  | cons a r ih =>
    rw [List.cons_append, List.infix_cons_iff]
    rintro (hp | hi)
    · exact h 0 (by simp) hp
    · exact ih (fun k hk => by simpa using h (k + 1) (by simpa using hk)) hi

/-- **C50 (no old header left).** Whatever the input, the output text contains no version-2.2 header. -/
theorem C50_no_old_header (s t : List Char) (h : Replaced header22 header10 s t) : ¬header22 <:+: t := by
  have hsplit : header22 = '<' :: header22.tail := by decide +kernel
  have hlt : '<' ∉ header22.tail := by decide +kernel
  induction h with
  | nil =>
    intro h
    exact header_facts.1 (List.infix_nil.1 h)
  | @hit s t h ih =>
    apply not_infix_append _ _ _ _ ih
    intro k hk hp
    have hkey : ∀ k < header10.length, k ≠ 0 → (header10.drop k).head? ≠ some '<' := by decide +kernel
    by_cases hk0 : k = 0
    · subst hk0
      rw [List.drop_zero] at hp
      have hlen : header22.length = header10.length := by decide +kernel
      obtain ⟨q, hq⟩ := hp
      have : header22 = header10 := (List.append_inj hq hlen).1
      exact absurd this (by decide +kernel)
    · have h1 := hkey k hk hk0
      cases hd : header10.drop k with
      | nil =>
        have := congrArg List.length hd
        rw [List.length_drop, List.length_nil] at this
        omega
      | cons a r =>
        rw [hd] at hp h1
        rw [hsplit, List.cons_append, List.cons_prefix_cons] at hp
        exact h1 (by rw [List.head?_cons, hp.1])
  | @skip c s t hn h ih =>
    rw [List.infix_cons_iff]
    rintro (hp | hi)
    · rw [hsplit, List.cons_prefix_cons] at hp
      apply hn
      rw [hsplit, List.cons_prefix_cons]
      exact ⟨hp.1, h.prefix_back (by decide +kernel) _ hlt hp.2⟩
    · exact ih hi

/-- A file with two lines. -/
example : ((lines (universalNewlines ("<?xml?>\n<VTKFile type=\"UnstructuredGrid\" version=\"2.2\"> x\n".toList))).map
    (strReplace header22 header10)).flatten = "<?xml?>\n<VTKFile type=\"UnstructuredGrid\" version=\"1.0\"> x\n".toList := by
  decide +kernel

end Files
end JaxFem
