import Verif.Model.Packaging
import Mathlib.Data.List.Forall2

/-!
# Specification: libraries and the place of the header
-/

namespace Verif.Spec

/-- Systems that there are libraries for. -/
inductive Os where
  | linux | windows | mac
  deriving DecidableEq

/-- Processors that there are libraries for. -/
inductive Arch where
  | x64 | arm64
  deriving DecidableEq

/-- What `platform.system()` says. -/
def Os.system : Os → List Char
  | .linux => "Linux".toList
  | .windows => "Windows".toList
  | .mac => "Darwin".toList

/-- The middle part of the file name: the system. -/
def Os.target : Os → List Char
  | .linux => "unknown-linux-gnu".toList
  | .windows => "w64".toList
  | .mac => "apple-darwin".toList

/-- The ending of the file name. -/
def Os.ending : Os → List Char
  | .linux => ".so".toList
  | .windows => ".dll".toList
  | .mac => ".dylib".toList

/-- The processor in the file name. -/
def Arch.target : Arch → List Char
  | .x64 => "x86_64".toList
  | .arm64 => "aarch64".toList

/-- The file for a system and a processor. -/
def libraryFile (o : Os) (a : Arch) : List Char :=
  "graphrox-".toList ++ a.target ++ "-".toList ++ o.target ++ o.ending

/-- The names that systems use for 64-bit Intel and ARM processors, in lower case. -/
def Arch.names : Arch → List (List Char)
  | .x64 => ["x86_64".toList, "amd64".toList]
  | .arm64 => ["aarch64".toList, "arm64".toList]

/-- Two characters are the same letter, or the same character. -/
def SameLetter (c d : Char) : Prop := c = d ∨ ∃ i < 26, c.toNat = 65 + i ∧ d.toNat = 97 + i

/-- `s` is `t` up to writing letters in upper case; `t` has no letters in upper case. -/
def LowerOf (s t : List Char) : Prop := List.Forall₂ SameLetter s t ∧ ∀ d ∈ t, ¬ (65 ≤ d.toNat ∧ d.toNat < 91)

/-- Text `x` occurs in `s`. -/
def Occurs (x s : List Char) : Prop := ∃ l r, s = l ++ x ++ r

/-- A path below a directory. -/
def below (p : RPath) (names : List (List Char)) : RPath := { p with comps := p.comps ++ names.map .normal }

end Verif.Spec
