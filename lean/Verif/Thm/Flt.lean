import Verif.Model.Flt
import Mathlib.Tactic.Linarith
import Mathlib.Algebra.BigOperators.Fin
import Mathlib.Tactic.FieldSimp

/-! # Arithmetic of `Flt` on finite values -/

namespace JaxFem
namespace Flt

universe u
variable {K : Type u}

theorem zero_def [Zero K] : (0 : Flt K) = fin 0 := rfl
theorem one_def [One K] : (1 : Flt K) = fin 1 := rfl
theorem fin_add [Add K] (x y : K) : (fin x + fin y : Flt K) = fin (x + y) := rfl
theorem fin_neg [Neg K] (x : K) : (-fin x : Flt K) = fin (-x) := rfl

section
variable [Field K] [LinearOrder K]

theorem fin_sub (x y : K) : (fin x - fin y : Flt K) = fin (x - y) := by
  rw [sub_eq_add_neg]; rfl

theorem fin_mul (x y : K) : (fin x * fin y : Flt K) = fin (x * y) := rfl

theorem fin_div (x : K) {y : K} (h : y ≠ 0) : (fin x / fin y : Flt K) = fin (x / y) := by
  show (if y = 0 then _ else _) = _
  rw [if_neg h]

theorem nan_div (a : Flt K) : (nan / a : Flt K) = nan := by cases a <;> rfl

theorem gt_fin (x y : K) : (fin x : Flt K).gt (fin y) = decide (y < x) := rfl
theorem lt_fin (x y : K) : (fin x : Flt K).lt (fin y) = decide (x < y) := rfl

end

/-- A sum of finite numbers is finite. -/
theorem sum_fin [AddCommMonoid K] {N : Nat} (f : Fin N → K) :
    Flt.sum (fun i => (fin (f i) : Flt K)) = fin (∑ i, f i) := by
  have key : ∀ (l : List K) (a : K), (l.map fin).foldl (fun a x => a + x) (fin a : Flt K) =
      fin (a + l.sum) := by
    intro l
    induction l with
    | nil => intro a; simp
    | cons x l ih => intro a; rw [List.map_cons, List.foldl_cons, fin_add, ih, List.sum_cons, add_assoc]
  rw [Flt.sum, List.ofFn_comp' f fin, zero_def,
    key, zero_add, List.sum_ofFn]

/-- `maxAbs` either meets a NaN or bounds every entry. -/
theorem maxAbs_spec [Field K] [LinearOrder K] [IsStrictOrderedRing K] {N : Nat} (f : Fin N → Flt K) :
    ((maxAbs f).isNaN = true ↔ ∃ i, (f i).isNaN = true) ∧
    ((maxAbs f).isNaN = false → ∀ i, (f i).abs.gt (maxAbs f) = false) := by
  have gt_self : ∀ a : Flt K, a.gt a = false := by
    intro a; cases a with
    | nan => rfl
    | inf n => cases n <;> rfl
    | fin x => simp [gt]
  have abs_nan : ∀ a : Flt K, a.abs.isNaN = a.isNaN := by
    intro a
    cases a with
    | nan => rfl
    | inf n => rfl
    | fin x => simp only [abs]; split <;> rfl
  have not_gt_trans : ∀ a b c : Flt K, a.isNaN = false → b.isNaN = false → c.isNaN = false →
      a.gt b = false → b.gt c = false → a.gt c = false := by
    intro a b c ha hb hc h1 h2
    cases a with
    | nan => cases ha
    | inf n =>
      cases b with
      | nan => cases hb
      | inf m => cases c with
        | nan => cases hc
        | inf l => cases n <;> cases m <;> cases l <;> simp_all [gt]
        | fin z => cases n <;> cases m <;> simp_all [gt]
      | fin y => cases c with
        | nan => cases hc
        | inf l => cases n <;> cases l <;> simp_all [gt]
        | fin z => cases n <;> simp_all [gt]
    | fin x =>
      cases b with
      | nan => cases hb
      | inf m => cases c with
        | nan => cases hc
        | inf l => cases m <;> cases l <;> simp_all [gt]
        | fin z => cases m <;> simp_all [gt]
      | fin y => cases c with
        | nan => cases hc
        | inf l => cases l <;> simp_all [gt]
        | fin z =>
          simp only [gt, decide_eq_false_iff_not, not_lt] at h1 h2 ⊢
          exact h1.trans h2
  have key : ∀ (l : List (Flt K)) (a : Flt K),
      ((l.foldl (fun a x => a.max x.abs) a).isNaN = true ↔ a.isNaN = true ∨ ∃ x ∈ l, x.isNaN = true) ∧
      ((l.foldl (fun a x => a.max x.abs) a).isNaN = false →
        a.gt (l.foldl (fun a x => a.max x.abs) a) = false ∧
        ∀ x ∈ l, x.abs.gt (l.foldl (fun a x => a.max x.abs) a) = false) := by
    intro l
    induction l with
    | nil => intro a; simp [gt_self]
    | cons x l ih =>
      intro a
      rw [List.foldl_cons]
      obtain ⟨h1, h2⟩ := ih (a.max x.abs)
      have hm : (a.max x.abs).isNaN = true ↔ a.isNaN = true ∨ x.isNaN = true := by
        rw [max]
        by_cases ha : a.isNaN = true
        · rw [if_pos ha]; simp [ha]
        · rw [if_neg ha]
          by_cases hx : x.isNaN = true
          · rw [if_pos (by rw [abs_nan]; exact hx)]; simp [hx, abs_nan]
          · rw [if_neg (by rw [abs_nan]; exact hx)]
            split <;> simp [ha, hx, abs_nan]
      refine ⟨?_, fun hn => ?_⟩
      · rw [h1, hm]
        simp [or_assoc]
      · obtain ⟨h3, h4⟩ := h2 hn
        have hmn : (a.max x.abs).isNaN = false := by
          rw [Bool.eq_false_iff]
          intro hc
          rw [Bool.eq_false_iff] at hn
          exact hn (h1.2 (Or.inl hc))
        have han : a.isNaN = false := by
          rw [Bool.eq_false_iff] at hmn ⊢
          exact fun hc => hmn (hm.2 (Or.inl hc))
        have hxn : x.abs.isNaN = false := by
          rw [abs_nan, Bool.eq_false_iff]
          rw [Bool.eq_false_iff] at hmn
          exact fun hc => hmn (hm.2 (Or.inr hc))
        have hmax : a.max x.abs = if x.abs.gt a then x.abs else a := by
          rw [max, if_neg (by rw [han]; simp), if_neg (by rw [hxn]; simp)]
        have e1 : a.gt (a.max x.abs) = false := by
          rw [hmax]
          split
          · rename_i hg
            generalize x.abs = b at hg hxn
            cases a with
            | nan => cases han
            | inf n => cases b with
              | nan => cases hxn
              | inf m => cases n <;> cases m <;> simp_all [gt]
              | fin y => cases n <;> simp_all [gt]
            | fin z => cases b with
              | nan => cases hxn
              | inf m => cases m <;> simp_all [gt]
              | fin y =>
                simp only [gt, decide_eq_true_eq] at hg
                simp only [gt, decide_eq_false_iff_not, not_lt]
                exact hg.le
          · exact gt_self a
        have e2 : x.abs.gt (a.max x.abs) = false := by
          rw [hmax]
          split
          · exact gt_self _
          · rename_i hg
            exact Bool.eq_false_iff.2 hg
        refine ⟨not_gt_trans _ _ _ han hmn hn e1 h3, fun y hy => ?_⟩
        rcases List.mem_cons.1 hy with rfl | hy
        · exact not_gt_trans _ _ _ hxn hmn hn e2 h3
        · exact h4 y hy
  obtain ⟨h1, h2⟩ := key (List.ofFn f) (fin 0)
  refine ⟨?_, fun hn i => ?_⟩
  · rw [maxAbs, h1]
    simp [isNaN]
  · exact (h2 hn).2 _ (by simp)

/-- An entry not above a number that is not above a finite bound is finite and bounded. -/
theorem bounded_of_not_gt [Field K] [LinearOrder K] [IsStrictOrderedRing K] (x e : Flt K) (tol : K)
    (hx : x.isNaN = false) (he : e.isNaN = false) (h1 : x.abs.gt e = false)
    (h2 : e.gt (fin tol) = false) : ∃ y, x = fin y ∧ |y| ≤ tol := by
  cases e with
  | nan => cases he
  | inf b =>
    cases b with
    | false => cases h2
    | true =>
      cases x with
      | nan => cases hx
      | inf c => cases h1
      | fin y =>
        simp only [abs] at h1
        split at h1 <;> cases h1
  | fin z =>
    cases x with
    | nan => cases hx
    | inf c => cases h1
    | fin y =>
      have hz : z ≤ tol := by simpa [gt] using h2
      refine ⟨y, rfl, le_trans ?_ hz⟩
      simp only [abs] at h1
      split at h1
      · rename_i hn
        rw [abs_of_neg hn]
        simpa [gt] using h1
      · rename_i hn
        rw [abs_of_nonneg (not_lt.1 hn)]
        simpa [gt] using h1

end Flt
end JaxFem
