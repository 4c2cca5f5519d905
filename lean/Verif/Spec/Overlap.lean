import Verif.Spec.Threads
import Verif.Model.CSteps

/-!
# Specification: calls that overlap in time

The steps of the calls of several threads in the order in which they happen.  A step is one access to memory.
-/

namespace Verif.Spec

/-- One access to memory. -/
inductive Micro where
  | load (p : Ptr) (x : Option Obj)
  | store (p : Ptr) (x : Obj)
  | free (p : Ptr)
  | alloc (p : Ptr) (x : Obj)

/-- The address accessed. -/
def Micro.at : Micro → Ptr
  | .load p _ | .store p _ | .free p | .alloc p _ => p

/-- Is it more than a read? -/
def Micro.changes : Micro → Prop
  | .load _ _ => False
  | _ => True

/-- What the access does; the allocator hands out an address that is not in use. -/
inductive Micro.Step : Mem → Micro → Mem → Prop
  | load {M p} : Micro.Step M (.load p (M p)) M
  | store {M p x} : Micro.Step M (.store p x) (M.put p (some x))
  | free {M p} : Micro.Step M (.free p) (M.put p none)
  | alloc {M p x} : p ≠ 0 → M p = none → Micro.Step M (.alloc p x) (M.put p (some x))

/-- Several accesses, one after another. -/
inductive Micro.Steps : Mem → List Micro → Mem → Prop
  | nil {M} : Micro.Steps M [] M
  | cons {M a M' t M''} : Micro.Step M a M' → Micro.Steps M' t M'' → Micro.Steps M (a :: t) M''

/-- Two accesses that do not race: different addresses, or both are reads. -/
def Micro.Independent (a b : Micro) : Prop := a.at = b.at → ¬ a.changes ∧ ¬ b.changes

/-- The accesses by which a program gets from one point to another one.  What the model does in one step may take many: what was
read is read again (`again`; `R` are the addresses read before), an object goes through any number of intermediate contents before
it gets its new one (`storing`), before it is freed (`freeing`), and after its memory was allocated (`alloc`). -/
inductive Reaches {α : Type} : List Ptr → Prog α → List Micro → Prog α → Prop
  | done {R a} : Reaches R a [] a
  | load {R p x k s b} : Reaches (p :: R) (k x) s b → Reaches R (.load p k) (.load p x :: s) b
  | again {R p x a s b} : p ∈ R → Reaches R a s b → Reaches R a (.load p x :: s) b
  | store {R p x k s b} : Reaches R k s b → Reaches R (.store p x k) (.store p x :: s) b
  | storing {R p x y k s b} : Reaches R (.store p x k) s b → Reaches R (.store p x k) (.store p y :: s) b
  | free {R p k s b} : Reaches (R.filter (· != p)) k s b → Reaches R (.free p k) (.free p :: s) b
  | freeing {R p y k s b} : Reaches R (.free p k) s b → Reaches R (.free p k) (.store p y :: s) b
  | alloc {R q x y k s b} : q ≠ 0 → Reaches (q :: R) (.store q x (k q)) s b → Reaches R (.alloc x k) (.alloc q y :: s) b

/-- The accesses of an action: those of the call, or those of the calling program to its own memory (whose first one stands for
the requirement that it is its own). -/
inductive Act.Path : Act → List Micro → Prop
  | call {E c v s} : Reaches [] (c.prog E) s (.ret v) → Act.Path (.call E c v) s
  | read {p x} : p ≠ 0 → Act.Path (.read p x) [.load p (some x)]
  | write {p x y} : p ≠ 0 → (∀ z, y = some z → z.isCaller = true) → x.isCaller = true →
      Act.Path (.write p x) [.load p y, .store p x]
  | drop {p y} : p ≠ 0 → (∀ z, y = some z → z.isCaller = true) → Act.Path (.drop p) [.load p y, .free p]

/-- The accesses that belong to the `k`-th action. -/
def stepsOf (k : Nat) (t : List (Nat × Micro)) : List Micro := (t.filter (fun a => a.1 == k)).map Prod.snd

/-- An execution in which the actions `l` overlap: `t` are the accesses in the order in which they happen, each with the number of the
action to which it belongs (numbers from `l.length` on are actions that are not finished).  If an access happens before one of an action with
a smaller number, they do not race. -/
structure Overlap (l : List Act) (t : List (Nat × Micro)) : Prop where
  path : ∀ k (h : k < l.length), l[k].Path (stepsOf k t)
  order : t.Pairwise fun a b => b.1 < a.1 → a.2.Independent b.2

end Verif.Spec
