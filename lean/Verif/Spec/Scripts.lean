import Verif.Model.Scripts
import Verif.Spec.Py
import Mathlib.Data.Finset.Card

/-!
# Specification of the scripts
-/

namespace Verif.Spec
open Script

/-- The line consists of two words: two strings without white space, with white space between them and perhaps around them. -/
def TwoWords (isSpace : Char → Bool) (line a b : List Char) : Prop :=
  ∃ s₀ s₁ s₂, line = s₀ ++ a ++ s₁ ++ b ++ s₂ ∧ (∀ c ∈ s₀ ++ s₁ ++ s₂, isSpace c = true) ∧ (∀ c ∈ a ++ b, isSpace c = false) ∧
    s₁ ≠ [] ∧ a ≠ [] ∧ b ≠ []

/-- The text lists the edge from `x` to `y`: on a line of its own that does not begin with `#`. -/
def Lists (V : Env) (lines : List (List Char)) (x y : Int) : Prop :=
  ∃ line ∈ lines, line.head? ≠ some '#' ∧ ∃ a b, TwoWords V.isSpace line a b ∧ V.int a = some x ∧ V.int b = some y

/-- No line has a number followed by a word that is not a number. -/
def NoHalfLines (V : Env) (lines : List (List Char)) : Prop :=
  ∀ line ∈ lines, line.head? ≠ some '#' → ∀ a b, TwoWords V.isSpace line a b → V.int a ≠ none → V.int b ≠ none

/-- The edge from `x` to `y` is the last one that the text lists. -/
def LastListed (V : Env) (lines : List (List Char)) (x y : Int) : Prop :=
  ∃ pre line post, lines = pre ++ line :: post ∧ Lists V [line] x y ∧ ∀ u v, ¬ Lists V post u v

/-- The last line of two words that begins with a number begins with `x`; the other word need not be a number. -/
def LastFirst (V : Env) (lines : List (List Char)) (x : Int) : Prop :=
  ∃ pre line post, lines = pre ++ line :: post ∧ (line.head? ≠ some '#' ∧ ∃ a b, TwoWords V.isSpace line a b ∧ V.int a = some x) ∧
    ∀ l ∈ post, l.head? ≠ some '#' → ∀ a b, TwoWords V.isSpace l a b → V.int a = none

/-- The new number of `x`: how many of the ids are smaller. -/
def rank (ids : Finset Int) (x : Int) : Nat := (ids.filter (· < x)).card

/-- `ids` are the vertices of the text. -/
def IdsOf (V : Env) (lines : List (List Char)) (ids : Finset Int) : Prop := ∀ x, x ∈ ids ↔ ∃ y, Lists V lines x y ∨ Lists V lines y x

/-- `S` are the vertices with which an edge of the text begins. -/
def Starts (V : Env) (lines : List (List Char)) (S : Finset Int) : Prop := ∀ x, x ∈ S ↔ ∃ y, Lists V lines x y

/-- The ids of `S` that come before every other id of `S` with the same remainder modulo `n`. -/
def firsts (n : Int) (S : Finset Int) : Finset Int := S.filter fun x => ∀ y ∈ S, y < x → y % n ≠ x % n

/-- `g` is the undirected graph of the text, with its vertices numbered in order. -/
structure GraphOfText (V : Env) (lines : List (List Char)) (ids : Finset Int) (g : Graph) : Prop where
  undirected : g.isUndirected = true
  vertexCount : g.vertexCount = ids.card
  edge : ∀ x ∈ ids, ∀ y ∈ ids, (g.doesEdgeExist (rank ids x) (rank ids y) = true ↔ Lists V lines x y ∨ Lists V lines y x)
  numbers : ∀ u < g.vertexCount, ∃ x ∈ ids, u = rank ids x

/-- A script that is started by a program that may have used the module before. -/
def Started (s : State) : Prop := ∃ t a, Reached t s.world a

/-- Memory for files of up to `n` edges. -/
def RoomFor (V : Env) (n : Nat) : Prop :=
  ∀ k, (V.E k).P.usizeMax ≤ U64_MAX ∧ ∀ m ≤ 26 + 16 * n, m ≤ (V.E k).P.usizeMax ∧ (V.E k).P.alloc m = true

end Verif.Spec
