import Verif.Spec.Addresses
import Verif.Spec.PyOrders

/-!
# What C programs can see of the order of hash tables
-/

namespace Verif.Spec
open Verif

/-- Commands with arguments of a reasonable size: buffer lengths of type `size_t`, blocks below `2^32`, no more decimals than the platform has
room for. -/
def Cmd.Reasonable (P : Platform) : Cmd → Prop
  | .call (.fromBytes _ n _) | .call (.cFromBytes _ n _) => n ≤ P.usizeMax
  | .call (.findAvgPoolMatrix _ b) => b < 2 ^ 32
  | .call (.mToStringWithPrecision _ d) => d + 40 ≤ P.fmtMax ∧ d + 42 ≤ P.usizeMax
  | _ => True

/-- A platform with `usize` of 16 to 64 bits that can format 42 characters. -/
def Ordinary (P : Platform) : Prop := 65535 ≤ P.usizeMax ∧ P.usizeMax ≤ U64_MAX ∧ 42 ≤ P.fmtMax

/-- If the command passes a list of vertices that the library returned to `gphrx_add_vertex`, it passes all of it. -/
def Cmd.Whole (ν : List Ptr) (h : Heap) : Cmd → Prop
  | .call (.addVertex _ _ tos n) => n ≠ 0 → addr ν tos ≠ 0 → ∀ l, h.get? (addr ν tos) = some (.vertices l) → l.length ≤ n
  | _ => True

/-- All commands of the run do so. -/
def WholeLists (E : Nat → Ctx) (ν : List Ptr) (h : Heap) : List Cmd → Prop
  | [] => True
  | c :: t => c.Whole ν h ∧
    match c.step (E ν.length) ν h with
    | (_, some (q, h')) => WholeLists E (ν ++ [q]) h' t
    | (_, none) => True

end Verif.Spec
