import Verif.Spec.CApi

/-!
# Specification: programs with several threads

A program is a list of actions, each of one of its threads: calls of the library and accesses to memory.  The order of
the list is the schedule.  Which addresses an action uses and which it changes is said by tables over the arguments, not by
what the code does.
-/

namespace Verif.Spec

/-- The addresses that a call is given. -/
def _root_.Verif.Call.pointers : Call → List Ptr
  | .newUndirected | .newDirected => []
  | .fromBytes b _ e | .cFromBytes b _ e => [b, e]
  | .addVertex p _ l _ => [p, l]
  | .toBytes p s | .cToBytes p s => [p, s]
  | .getEdgeList p s | .mGetEntryList p s => [p, s]
  | .getInEdgesList p _ s | .getOutEdgesList p _ s => [p, s]
  | .freeString p | .freeBytes p _ | .freeGraph p | .freeEdgeList p _ | .freeVertexList p _ | .freeCGraph p
  | .freeMatrix p | .freeEntryList p _ => [p]
  | .duplicate p | .matrixString p | .isUndirected p | .vertexCount p | .edgeCount p | .doesEdgeExist p _ _
  | .findAvgPoolMatrix p _ | .approximate p _ _ | .compress p _ | .addEdge p _ _ | .deleteEdge p _ _
  | .getInDegree p _ | .getOutDegree p _ => [p]
  | .cDuplicate p | .cCompressionLevel p | .cIsUndirected p | .cVertexCount p | .cEdgeCount p | .cDoesEdgeExist p _ _
  | .cGetEntry p _ _ | .cMatrixString p | .decompress p => [p]
  | .mDuplicate p | .mDimension p | .mEntryCount p | .mGetEntry p _ _ | .mToString p | .mToStringWithPrecision p _ => [p]

/-- The address that a call returns. -/
def returned : Val → List Ptr
  | .ptr q => [q]
  | _ => []

/-- What a thread does next: a call that returns `v`, reading `x` at an address, or changing memory of its own. -/
inductive Act where
  | call (E : Ctx) (c : Call) (v : Val)
  | read (p : Ptr) (x : Obj)
  | write (p : Ptr) (x : Obj)
  | drop (p : Ptr)

/-- The addresses that an action depends on. -/
def Act.uses : Act → List Ptr
  | .call _ c v => c.pointers ++ returned v
  | .read p _ | .write p _ | .drop p => [p]

/-- The addresses whose content an action may change. -/
def Act.changes : Act → List Ptr
  | .call _ c v => c.writes ++ returned v
  | .read _ _ => []
  | .write p _ | .drop p => [p]

/-- One action. The call is made on the platform and with the hash orders of `E`; the allocator may choose any
unused address, so `v` is what the call returned in this schedule. -/
inductive Act.Step : Heap → Act → Heap → Prop
  | call {E F : Ctx} {c v h h'} : F.P = E.P → F.o₁ = E.o₁ → F.o₂ = E.o₂ → c.exec F h = .ok v h' →
      Act.Step h (.call E c v) h'
  | read {h p x} : p ≠ 0 → h.get? p = some x → Act.Step h (.read p x) h
  | write {h p x} : p ≠ 0 → (∀ y, h.get? p = some y → y.isCaller = true) → x.isCaller = true →
      Act.Step h (.write p x) (h.insert p x)
  | drop {h p} : p ≠ 0 → (∀ y, h.get? p = some y → y.isCaller = true) → Act.Step h (.drop p) (h.remove p)

/-- A schedule. -/
inductive Act.Steps : Heap → List Act → Heap → Prop
  | nil {h} : Act.Steps h [] h
  | cons {h a h' t h''} : Act.Step h a h' → Act.Steps h' t h'' → Act.Steps h (a :: t) h''

/-- Neither action changes what the other one uses. -/
def Act.Independent (a b : Act) : Prop :=
  ∀ p, p ≠ 0 → (p ∈ a.changes → p ∉ b.uses) ∧ (p ∈ b.changes → p ∉ a.uses)

/-- Actions of different threads are independent. -/
def RaceFree (t : List (Nat × Act)) : Prop := t.Pairwise fun a b => a.1 ≠ b.1 → a.2.Independent b.2

/-- Two schedules of the same threads: every thread does the same actions in the same order. -/
def SameThreads (t t' : List (Nat × Act)) : Prop := ∀ i, t.filter (fun a => a.1 == i) = t'.filter (fun a => a.1 == i)

end Verif.Spec
