import Verif.Spec.CSafety

/-!
# Specification: C programs that write into the buffers they were given (C127)

The functions that return strings, bytes and lists hand over memory that the program may read and, since nothing in `gphrx.h` says
otherwise (the pointers are not `const`), also write.  A string must keep its length and stay free of zeros, because
`free_gphrx_string_buffer` finds out its length from the zero at the end.
-/

namespace Verif.Spec
open Verif

/-- `y` is what is found at the address of the buffer `x` after the program has written into it. -/
def Rewritten : Obj → Obj → Prop
  | .cstring s, .cstring s' => (s'.map Char.utf8Size).sum = (s.map Char.utf8Size).sum ∧ Char.ofNat 0 ∉ s'
  | .bytes b, .bytes b' => b'.length = b.length
  | .edges l, .edges l' => l'.length = l.length
  | .vertices l, .vertices l' => l'.length = l.length
  | .entries l, .entries l' => l'.length = l.length
  | _, _ => False

/-- Executions of C programs that also write into buffers of the library. -/
inductive WRun : Heap → List Event → Heap → Prop
  | nil {h} : WRun h [] h
  | call {h h' h'' E c v t} : c.exec E h = .ok v h' → WRun h' t h'' → WRun h (.call E c h.get? v :: t) h''
  | write {h h'' p x t} : p ≠ 0 → (∀ y, h.get? p = some y → y.isCaller = true) → x.isCaller = true →
      WRun (h.insert p x) t h'' → WRun h (.own p :: t) h''
  | drop {h h'' p t} : (∀ y, h.get? p = some y → y.isCaller = true) →
      WRun (h.remove p) t h'' → WRun h (.own p :: t) h''
  | rewrite {h h'' p x y t} : h.get? p = some x → Rewritten x y → WRun (h.insert p y) t h'' → WRun h (.own p :: t) h''

/-- The two memories differ at most in the contents of buffers of the library. -/
def UpTo (h h' : Heap) : Prop :=
  ∀ p, h'.get? p = h.get? p ∨ ∃ x y, h.get? p = some x ∧ h'.get? p = some y ∧ Rewritten x y

/-- The same outcome: the same value and memories that differ at most in the contents of buffers, or the same failure. -/
def SameOutcome : CRes Val → CRes Val → Prop
  | .ok v h, .ok v' h' => v' = v ∧ UpTo h h'
  | .ub, .ub => True
  | .abort, .abort => True
  | _, _ => False

/-- The memory the call reads bytes or vertices from (null if none). -/
def _root_.Verif.Call.input : Call → Ptr
  | .fromBytes p _ _ => p
  | .cFromBytes p _ _ => p
  | .addVertex _ _ p _ => p
  | _ => 0

/-- The allocator does not look at the contents of buffers. -/
def Blind (E : Ctx) : Prop := ∀ h h', UpTo h h' → E.fresh h' = E.fresh h

/-- The call and its result, without the state of the memory. -/
def Event.visible : Event → Option (Call × Val)
  | .call _ c _ v => some (c, v)
  | .own _ => none

/-- The call reads only memory of the program. -/
def Event.ReadsOwn : Event → Prop
  | .call _ c M _ => c.input ≠ 0 → ∀ x, M c.input = some x → x.isCaller = true
  | .own _ => True

/-- The step uses an allocator that does not look at the contents of buffers. -/
def Event.Blind : Event → Prop
  | .call E _ _ _ => Spec.Blind E
  | .own _ => True

end Verif.Spec
