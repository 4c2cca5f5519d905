import Verif.Spec.Gc
import Verif.Spec.Format

/-!
# What Python programs can see of the order of hash tables
-/

namespace Verif.Spec
open Verif

/-- Two files with the same header and the same records, perhaps in another order: graph files with records of 16 bytes, or files of
compressed graphs with records of 24 bytes, no two for the same block. -/
def Reordered (b b' : Bytes) : Prop :=
  ∃ (header : Bytes) (l l' : List Bytes), l.Perm l' ∧ b = header ++ l.flatten ∧ b' = header ++ l'.flatten ∧
    ((field header 0 4 = 0x7ae71ffd ∧ header.length = 26 ∧ ∀ r ∈ l, r.length = 16) ∨
      (field header 0 4 = 0x71ff7aed ∧ header.length = 42 ∧ (∀ r ∈ l, r.length = 24) ∧
        (l.map fun r => (field r 8 8, field r 16 8)).Nodup))

/-- Elements of lists: edges, vertices, entries of matrices. -/
def IsElement : PyVal → Prop
  | .int _ | .edge _ _ | .entry _ _ _ => True
  | _ => False

/-- The same is seen of a call, except that a file may have its records in another order, and that another element may be found at a place of
a list. -/
def SeenAlike (c : PyCall) (s s' : Seen) : Prop :=
  s = s' ∨
    match c with
    | .call _ .bytes => ∃ b b', s = .value (.bytes b) ∧ s' = .value (.bytes b') ∧ Reordered b b'
    | .call _ (.getitem _) | .call _ .next => ∃ v v', s = .value v ∧ s' = .value v' ∧ IsElement v ∧ IsElement v'
    | _ => False

/-- The same calls on the same platforms; hash orders and allocators may be different. -/
def SamePlatforms {α : Type} (s s' : List (Ctx × α)) : Prop := List.Forall₂ (fun x y => y.1.P = x.1.P ∧ y.2 = x.2) s s'

/-- What a program does next: a call with given arguments, or reading a file that it wrote in step `j`. -/
inductive Next where
  | call (c : PyCall)
  | load (j : Nat)
  | loadCompressed (j : Nat)

/-- The file written in step `j`. -/
def fileOf (seen : List Seen) (j : Nat) : Bytes :=
  match seen[j]? with
  | some (.value (.bytes b)) => b
  | _ => []

/-- The call that is made when `seen` is what has been seen before. -/
def Next.toCall (seen : List Seen) : Next → PyCall
  | .call c => c
  | .load j => .graphFromBytes (fileOf seen j)
  | .loadCompressed j => .cgraphFromBytes (fileOf seen j)

/-- The execution does what the program says; `seen` is what has been seen before. -/
def Obeys : List Seen → List (Ctx × Next) → List (Ctx × PyCall × Seen) → Prop
  | _, [], [] => True
  | seen, x :: p, s :: t => s.1 = x.1 ∧ s.2.1 = x.2.toCall seen ∧ Obeys (seen ++ [s.2.2]) p t
  | _, _, _ => False

end Verif.Spec
