import Verif.Model.Std

/-!
# Model of loading the library and of the build script

* `/repo/graphrox-py/graphrox/__init__.py:5-34` – which shared library the Python module loads.
* `/repo/graphrox-c/build.rs` – where the C header is copied.

Simplifications: `str.lower` is modelled for ASCII letters, other characters stay as they are (none of them becomes one of the
letters that matter); a path is a root flag and a list of components, without the prefixes that Windows has; the names of
environment variables, directories and files are texts; copying the file and `LoadLibrary` themselves are not modelled.
-/

namespace Verif

/-- `str.lower()` for ASCII. -/
def Char.pyLower (c : Char) : Char := if 'A' ≤ c ∧ c ≤ 'Z' then Char.ofNat (c.toNat + 32) else c

/-- `x in s` for texts: a substring. -/
def pyIn (x : List Char) : List Char → Bool
  | [] => x.isPrefixOf []
  | c :: s => x.isPrefixOf (c :: s) || pyIn x s

/-- `_load_gphrx_lib`: `dll_name` for `platform.system()` and `platform.uname().machine`; `none` is the `ImportError`.
`__init__.py:10-31`. -/
def dllName (osName machine : List Char) : Option (List Char) :=
  let machine := machine.map Char.pyLower
  if osName = "Linux".toList then
    if machine = "x86_64".toList ∨ machine = "amd64".toList then some "graphrox-x86_64-unknown-linux-gnu.so".toList
    else if pyIn "arm".toList machine ∨ pyIn "aarch64".toList machine then some "graphrox-aarch64-unknown-linux-gnu.so".toList
    else none
  else if osName = "Windows".toList then
    if machine = "x86_64".toList ∨ machine = "amd64".toList then some "graphrox-x86_64-w64.dll".toList
    else if pyIn "arm".toList machine ∨ pyIn "aarch64".toList machine then some "graphrox-aarch64-w64.dll".toList
    else none
  else if osName = "Darwin".toList then
    if machine = "x86_64".toList ∨ machine = "amd64".toList then some "graphrox-x86_64-apple-darwin.dylib".toList
    else if pyIn "arm".toList machine ∨ pyIn "aarch64".toList machine then some "graphrox-aarch64-apple-darwin.dylib".toList
    else none
  else none

/-- A component of a path: a name or `..`. -/
inductive PathComp where
  | normal (name : List Char)
  | up
  deriving DecidableEq

/-- `std::path::PathBuf`: absolute or not, and the components. -/
structure RPath where
  absolute : Bool
  comps : List PathComp
  deriving DecidableEq

namespace RPath

/-- `PathBuf::pop`: removes the last component; a path without components stays as it is. -/
def pop (p : RPath) : RPath := { p with comps := p.comps.dropLast }

/-- `Path::file_name`: the last component if it is a name. -/
def fileName (p : RPath) : Option (List Char) :=
  match p.comps.getLast? with
  | some (.normal n) => some n
  | _ => none

/-- `Path::join` with a file name. -/
def join (p : RPath) (n : List Char) : RPath := { p with comps := p.comps ++ [.normal n] }

end RPath

/-- The two checks that the directory is named `target`. `build.rs:27-40`. -/
def checkTarget (dir : RPath) : Res RPath :=
  let top := dir.pop
  match top.fileName with
  | some n =>
    if n = "target".toList then .ok dir
    else
      match top.pop.fileName with
      | some n => if n = "target".toList then .ok dir else .panic
      | none => .panic
  | none =>
    match top.pop.fileName with
    | some n => if n = "target".toList then .ok dir else .panic
    | none => .panic

/-- `build.rs:13-45`: the directory that the header is copied to, from the values of `CARGO_TARGET_DIR` and `OUT_DIR`;
a panic makes the build fail. -/
def targetDir (cargoTargetDir outDir : Option RPath) : Res RPath :=
  match cargoTargetDir with
  | some d => .ok d
  | none =>
    match outDir with
    | none => .panic
    | some d => checkTarget d.pop.pop.pop

/-- `build.rs:6-52`: source and destination of the copy, from the values of `CARGO_MANIFEST_DIR` and the two above. -/
def headerCopy (manifestDir cargoTargetDir outDir : Option RPath) : Res (RPath × RPath) :=
  match manifestDir with
  | none => .panic
  | some crateDir =>
    match targetDir cargoTargetDir outDir with
    | .ok dir => .ok (crateDir.join "gphrx.h".toList, dir.join "gphrx.h".toList)
    | .err e => .err e
    | .panic => .panic

end Verif
