import Verif.Model.Jit

/-!
# Specification: what was set when
-/

namespace JaxFem
namespace Jit

variable {A V Sol : Type}

/-- The attribute value after the operations `h`: the last one assigned. -/
def attrAfter (a0 : A) : List (Op A V Sol) → A
  | [] => a0
  | .setAttr a :: h => attrAfter a h
  | .setParams _ :: h => attrAfter a0 h
  | .residual _ :: h => attrAfter a0 h
  | .newton _ :: h => attrAfter a0 h
  | .preJit :: h => attrAfter a0 h

/-- The internal variables after the operations `h`: the last ones set. -/
def varsAfter (v0 : V) : List (Op A V Sol) → V
  | [] => v0
  | .setParams v :: h => varsAfter v h
  | .setAttr _ :: h => varsAfter v0 h
  | .residual _ :: h => varsAfter v0 h
  | .newton _ :: h => varsAfter v0 h
  | .preJit :: h => varsAfter v0 h

/-- `pre_jit_fns` does not occur in `h`. -/
def NoPreJit (h : List (Op A V Sol)) : Prop := ∀ op ∈ h, op ≠ .preJit

/-- `a` was the attribute value at some time since the kernels were created. -/
def InEffectSince (a0 : A) (h : List (Op A V Sol)) (a : A) : Prop :=
  ∃ h1 h2, h = h1 ++ h2 ∧ NoPreJit h2 ∧ attrAfter a0 h1 = a

end Jit
end JaxFem
