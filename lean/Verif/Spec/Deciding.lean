import Verif.Spec.Addresses

/-!
# Specification: C programs that decide by what they see

Loops and branches: what a program does next may depend on all that it has seen so far.
-/

namespace Verif.Spec
open Verif

/-- A program that decides by what it has seen what to do next; it may stop. -/
abbrev Decider := List Obs → Option Cmd

/-- The first `n` commands of the program and what it sees of each of them. -/
def Decider.run (s : Decider) (E : Nat → Ctx) (ν : List Ptr) (h : Heap) (seen : List Obs) : Nat → List (Cmd × Obs)
  | 0 => []
  | n + 1 =>
    match s seen with
    | none => []
    | some c =>
      match c.step (E ν.length) ν h with
      | (o, some (q, h')) => (c, o) :: s.run E (ν ++ [q]) h' (seen ++ [o]) n
      | (o, none) => [(c, o)]

/-- The first `n` commands from the start of the program. -/
def Decider.play (s : Decider) (E : Nat → Ctx) (n : Nat) : List (Cmd × Obs) := s.run E [] HMap.empty [] n

/-- The commands among them. -/
def Decider.commands (s : Decider) (E : Nat → Ctx) (n : Nat) : List Cmd := (s.play E n).map Prod.fst

end Verif.Spec
