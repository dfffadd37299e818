import Mathlib.Algebra.Order.Field.Basic

/-!
# Floating-point values as far as guards and asserts can tell

Finite values are exact (no rounding); NaN and the infinities are extra values. Comparisons follow
IEEE 754: every comparison with NaN is false. Signed zeros are not distinguished (the modelled code
divides norms, which are never negative zero).
-/

namespace JaxFem

universe u

/-- NaN, `±inf` or a finite number. -/
inductive Flt (K : Type u) where
  | nan
  | inf (neg : Bool)
  | fin (x : K)
  deriving DecidableEq, Repr

namespace Flt
variable {K : Type u}

/-- `np.isfinite`. -/
def isFinite : Flt K → Bool
  | fin _ => true
  | _ => false

/-- `np.isnan`. -/
def isNaN : Flt K → Bool
  | nan => true
  | _ => false

/-- `a > b`. -/
def gt [LT K] [DecidableLT K] : Flt K → Flt K → Bool
  | nan, _ => false
  | _, nan => false
  | inf n, inf m => !n && m
  | inf n, fin _ => !n
  | fin _, inf m => m
  | fin x, fin y => decide (y < x)

/-- `a < b`. -/
def lt [LT K] [DecidableLT K] (a b : Flt K) : Bool := b.gt a

/-- `a / b`. -/
def div [Field K] [LinearOrder K] : Flt K → Flt K → Flt K
  | nan, _ => nan
  | _, nan => nan
  | inf _, inf _ => nan
  | inf n, fin y => inf (n != decide (y < 0))
  | fin _, inf _ => fin 0
  | fin x, fin y => if y = 0 then (if x = 0 then nan else inf (decide (x < 0))) else fin (x / y)

/-! Arithmetic (`solver.py:990-1033` needs it): `inf - inf`, `0 * inf` are NaN. -/

/-- The sign bit of a number that is not NaN (zero counts as positive). -/
def isNeg [Zero K] [LT K] [DecidableLT K] : Flt K → Bool
  | nan => false
  | inf n => n
  | fin x => decide (x < 0)

/-- `a + b`. -/
def add [Add K] : Flt K → Flt K → Flt K
  | nan, _ => nan
  | _, nan => nan
  | inf n, inf m => if n = m then inf n else nan
  | inf n, fin _ => inf n
  | fin _, inf m => inf m
  | fin x, fin y => fin (x + y)

/-- `-a`. -/
def neg [Neg K] : Flt K → Flt K
  | nan => nan
  | inf n => inf (!n)
  | fin x => fin (-x)

/-- `a * b`. -/
def mul [Field K] [LinearOrder K] : Flt K → Flt K → Flt K
  | nan, _ => nan
  | _, nan => nan
  | inf n, inf m => inf (n != m)
  | inf n, fin y => if y = 0 then nan else inf (n != decide (y < 0))
  | fin x, inf m => if x = 0 then nan else inf (decide (x < 0) != m)
  | fin x, fin y => fin (x * y)

/-- `np.absolute`. -/
def abs [Zero K] [Neg K] [LT K] [DecidableLT K] : Flt K → Flt K
  | nan => nan
  | inf _ => inf false
  | fin x => if x < 0 then fin (-x) else fin x

/-- `np.sqrt` for a square root on the finite non-negative numbers. -/
def sqrt [Zero K] [LT K] [DecidableLT K] (root : K → K) : Flt K → Flt K
  | nan => nan
  | inf n => if n then nan else inf false
  | fin x => if x < 0 then nan else fin (root x)

instance [Zero K] : Zero (Flt K) := ⟨fin 0⟩
instance [One K] : One (Flt K) := ⟨fin 1⟩
instance [Add K] : Add (Flt K) := ⟨add⟩
instance [Neg K] : Neg (Flt K) := ⟨neg⟩
instance [Add K] [Neg K] : Sub (Flt K) := ⟨fun a b => add a (neg b)⟩
instance [Field K] [LinearOrder K] : Mul (Flt K) := ⟨mul⟩
instance [Field K] [LinearOrder K] : Div (Flt K) := ⟨div⟩

/-- `np.sum` of an array. -/
def sum [Add K] [Zero K] {N : Nat} (f : Fin N → Flt K) : Flt K :=
  (List.ofFn f).foldl (fun a x => a + x) 0

/-- `np.max` of two numbers: NaN wins. -/
def max [LT K] [DecidableLT K] (a b : Flt K) : Flt K :=
  if a.isNaN then a else if b.isNaN then b else if b.gt a then b else a

/-- `np.max(np.absolute(f))` (for a non-empty array). -/
def maxAbs [Zero K] [Neg K] [LT K] [DecidableLT K] {N : Nat} (f : Fin N → Flt K) : Flt K :=
  (List.ofFn f).foldl (fun a x => a.max x.abs) (fin 0)

end Flt

end JaxFem
