import Verif.Spec.Packaging

/-!
# Loading the library and copying the header: C118, C119
-/

namespace Verif.Props
open Verif Spec

/-! ## C118 -/

theorem pyIn_iff (x : List Char) : ∀ s, pyIn x s = true ↔ Occurs x s
  | [] => by
    unfold pyIn Occurs
    constructor
    · intro h
      obtain ⟨t, ht⟩ := List.isPrefixOf_iff_prefix.1 h
      exact ⟨[], t, by simpa using ht.symm⟩
    · rintro ⟨l, r, h⟩
      have h1 := congrArg List.length h
      simp only [List.length_append, List.length_nil] at h1
      have : x = [] := List.length_eq_zero_iff.1 (by omega)
      subst this
      rfl
  | c :: s => by
    unfold pyIn
    rw [Bool.or_eq_true, pyIn_iff x s]
    constructor
    · rintro (h | ⟨l, r, h⟩)
      · obtain ⟨t, ht⟩ := List.isPrefixOf_iff_prefix.1 h
        exact ⟨[], t, by simpa using ht.symm⟩
      · exact ⟨c :: l, r, by rw [h]; rfl⟩
    · rintro ⟨l, r, h⟩
      cases l with
      | nil => exact .inl (List.isPrefixOf_iff_prefix.2 ⟨r, by simpa using h.symm⟩)
      | cons d l =>
        rw [List.cons_append, List.cons_append] at h
        exact .inr ⟨l, r, (List.cons.inj h).2⟩

theorem toNat_ofNat_small {n : Nat} (h : n < 0xd800) : (Char.ofNat n).toNat = n := by
  unfold Char.ofNat
  rw [dif_pos (Or.inl h)]
  rfl

theorem pyLower_same (c : Char) : SameLetter c c.pyLower := by
  unfold Char.pyLower SameLetter
  split
  · next h =>
    right
    have h1 : 65 ≤ c.toNat := h.1
    have h2 : c.toNat ≤ 90 := h.2
    refine ⟨c.toNat - 65, by omega, by omega, ?_⟩
    rw [toNat_ofNat_small (by omega)]
    omega
  · exact .inl rfl

theorem pyLower_not_upper (c : Char) : ¬ (65 ≤ c.pyLower.toNat ∧ c.pyLower.toNat < 91) := by
  unfold Char.pyLower
  split
  · next h =>
    have h1 : 65 ≤ c.toNat := h.1
    have h2 : c.toNat ≤ 90 := h.2
    rw [toNat_ofNat_small (by omega)]
    omega
  · next h =>
    rintro ⟨h1, h2⟩
    refine h ⟨h1, ?_⟩
    change c.toNat ≤ 90
    omega

theorem lowerOf_iff (s t : List Char) : LowerOf s t ↔ t = s.map Char.pyLower := by
  constructor
  · rintro ⟨h, hu⟩
    induction h with
    | nil => rfl
    | @cons c d s t hcd _ ih =>
      rw [List.map_cons, ← ih fun d hd => hu d (List.mem_cons_of_mem _ hd)]
      have hd := hu d (List.mem_cons_self ..)
      congr 1
      unfold Char.pyLower
      rcases hcd with rfl | ⟨i, hi, h1, h2⟩
      · rw [if_neg]
        rintro ⟨h1, h2⟩
        have h1 : 65 ≤ c.toNat := h1
        have h2 : c.toNat ≤ 90 := h2
        exact hd ⟨h1, by omega⟩
      · have h3 : 'A' ≤ c ∧ c ≤ 'Z' := by
          constructor
          · change 65 ≤ c.toNat; omega
          · change c.toNat ≤ 90; omega
        rw [if_pos h3, ← Char.ofNat_toNat d]
        congr 1
        omega
  · rintro rfl
    refine ⟨?_, ?_⟩
    · induction s with
      | nil => exact .nil
      | cons c s ih => exact .cons (pyLower_same c) ih
    · intro d hd
      obtain ⟨c, _, rfl⟩ := List.mem_map.1 hd
      exact pyLower_not_upper c

theorem dllName_os (o : Os) (m : List Char) : dllName o.system m =
    if m.map Char.pyLower = "x86_64".toList ∨ m.map Char.pyLower = "amd64".toList then some (libraryFile o .x64)
    else if pyIn "arm".toList (m.map Char.pyLower) ∨ pyIn "aarch64".toList (m.map Char.pyLower) then some (libraryFile o .arm64)
    else none := by
  cases o <;> rfl

theorem dllName_other {os m : List Char} (h : ∀ o : Os, os ≠ o.system) : dllName os m = none := by
  unfold dllName
  simp only
  exact (if_neg (h .linux)).trans ((if_neg (h .windows)).trans (if_neg (h .mac)))

/-- **C118.** Which library the module loads: on Linux, Windows and macOS the one for 64-bit Intel processors if the machine is called
`x86_64` or `amd64`, else the one for 64-bit ARM processors if `arm` or `aarch64` occurs in its name, in upper or lower case; in all other cases
importing the module raises `ImportError`. -/
theorem C118_exact (os m m' f : List Char) (hm : LowerOf m m') : dllName os m = some f ↔
    ∃ o : Os, os = o.system ∧
      ((m' ∈ Arch.x64.names ∧ f = libraryFile o .x64) ∨
        (m' ∉ Arch.x64.names ∧ (Occurs "arm".toList m' ∨ Occurs "aarch64".toList m') ∧ f = libraryFile o .arm64)) := by
  rw [lowerOf_iff] at hm
  have hn : ∀ s, s ∈ Arch.x64.names ↔ s = "x86_64".toList ∨ s = "amd64".toList := by
    intro s; simp only [Arch.names, List.mem_cons, List.not_mem_nil, or_false]
  by_cases h : ∃ o : Os, os = o.system
  · obtain ⟨o, rfl⟩ := h
    have inj : ∀ o' : Os, o.system = o'.system → o' = o := by
      intro o' h
      cases o <;> cases o' <;> first | rfl | exact absurd h (by decide)
    rw [dllName_os, ← hm]
    simp only [hn, ← pyIn_iff]
    constructor
    · intro h
      refine ⟨o, rfl, ?_⟩
      split at h
      · next h1 => cases h; exact .inl ⟨h1, rfl⟩
      · next h1 =>
        split at h
        · next h2 => cases h; exact .inr ⟨h1, h2, rfl⟩
        · cases h
    · rintro ⟨o', ho, h⟩
      cases inj o' ho
      rcases h with ⟨h1, rfl⟩ | ⟨h1, h2, rfl⟩
      · rw [if_pos h1]
      · rw [if_neg h1, if_pos h2]
  · rw [dllName_other fun o ho => h ⟨o, ho⟩]
    constructor
    · intro h; cases h
    · rintro ⟨o, ho, _⟩; exact absurd ⟨o, ho⟩ h

/-- **C118.** The file that is loaded tells the system it is loaded on, and 64-bit Intel from the rest. -/
theorem C118_file {os os' m m' f : List Char} (h : dllName os m = some f) (h' : dllName os' m' = some f) :
    os = os' ∧ ∀ n n', LowerOf m n → LowerOf m' n' → (n ∈ Arch.x64.names ↔ n' ∈ Arch.x64.names) := by
  have inj : ∀ (o o' : Os) (a a' : Arch), libraryFile o a = libraryFile o' a' → o = o' ∧ a = a' := by
    intro o o' a a' h
    cases o <;> cases o' <;> cases a <;> cases a' <;> first | exact ⟨rfl, rfl⟩ | exact absurd h (by decide)
  have e := (C118_exact os m _ f ((lowerOf_iff ..).2 rfl)).1 h
  have e' := (C118_exact os' m' _ f ((lowerOf_iff ..).2 rfl)).1 h'
  obtain ⟨o, rfl, ho⟩ := e
  obtain ⟨o', rfl, ho'⟩ := e'
  have : ∃ a a', f = libraryFile o a ∧ f = libraryFile o' a' := by
    rcases ho with ⟨_, h1⟩ | ⟨_, _, h1⟩ <;> rcases ho' with ⟨_, h2⟩ | ⟨_, _, h2⟩ <;> exact ⟨_, _, h1, h2⟩
  obtain ⟨a, a', h1, h2⟩ := this
  obtain ⟨rfl, rfl⟩ := inj _ _ _ _ (h1.symm.trans h2)
  refine ⟨rfl, ?_⟩
  intro n n' hn hn'
  rw [lowerOf_iff] at hn hn'
  rw [hn, hn']
  rcases ho with ⟨k1, h1⟩ | ⟨k1, _, h1⟩ <;> rcases ho' with ⟨k2, h2⟩ | ⟨k2, _, h2⟩
  · exact ⟨fun _ => k2, fun _ => k1⟩
  · exact absurd (inj _ _ _ _ (h1.symm.trans h2)).2 (by decide)
  · exact absurd (inj _ _ _ _ (h1.symm.trans h2)).2 (by decide)
  · exact ⟨fun h => absurd h k1, fun h => absurd h k2⟩

/-- The full statement of C118: a library is loaded exactly on the systems and processors that it is built for, and otherwise
`ImportError` is raised. False: see `C118_full_false`. -/
def C118_full : Prop :=
  ∀ os m m' f : List Char, LowerOf m m' →
    (dllName os m = some f ↔ ∃ (o : Os) (a : Arch), os = o.system ∧ m' ∈ a.names ∧ f = libraryFile o a)

/-- On a 32-bit ARM machine (`armv7l`) the library for 64-bit ARM processors is loaded. -/
theorem C118_full_false : ¬ C118_full := by
  intro h
  have hd : dllName "Linux".toList "armv7l".toList = some (libraryFile .linux .arm64) := by decide +kernel
  obtain ⟨o, a, _, h2, _⟩ := (h _ _ _ _ ((lowerOf_iff ..).2 rfl)).1 hd
  cases a <;> revert h2 <;> decide +kernel

/-- **C118** (partial). On the processors that the libraries are built for, under all their names, the right library is loaded; on machines
that are neither these nor have `arm` or `aarch64` in their names `ImportError` is raised. Missing: other machines with such a name
(32-bit or big-endian ARM), where the library for 64-bit ARM is loaded (`C118_exact`). -/
theorem C118_partial (os m m' f : List Char) (hm : LowerOf m m')
    (hk : Occurs "arm".toList m' ∨ Occurs "aarch64".toList m' → m' ∈ Arch.arm64.names) :
    dllName os m = some f ↔ ∃ (o : Os) (a : Arch), os = o.system ∧ m' ∈ a.names ∧ f = libraryFile o a := by
  rw [C118_exact os m m' f hm]
  have hx : m' ∈ Arch.arm64.names → m' ∉ Arch.x64.names ∧ (Occurs "arm".toList m' ∨ Occurs "aarch64".toList m') := by
    intro h
    simp only [Arch.names, List.mem_cons, List.not_mem_nil, or_false] at h
    rcases h with rfl | rfl
    · exact ⟨by decide, .inr ⟨[], [], by decide⟩⟩
    · exact ⟨by decide, .inl ⟨[], "64".toList, by decide⟩⟩
  constructor
  · rintro ⟨o, ho, ⟨h1, h2⟩ | ⟨_, h1, h2⟩⟩
    · exact ⟨o, .x64, ho, h1, h2⟩
    · exact ⟨o, .arm64, ho, hk h1, h2⟩
  · rintro ⟨o, a, ho, h1, h2⟩
    cases a with
    | x64 => exact ⟨o, ho, .inl ⟨h1, h2⟩⟩
    | arm64 => exact ⟨o, ho, .inr ⟨(hx h1).1, (hx h1).2, h2⟩⟩

example : LowerOf "AMD64".toList "amd64".toList ∧ dllName "Windows".toList "AMD64".toList = some "graphrox-x86_64-w64.dll".toList :=
  ⟨(lowerOf_iff ..).2 (by decide +kernel), by decide +kernel⟩

example : dllName "Darwin".toList "arm64".toList = some (libraryFile .mac .arm64) ∧
    dllName "Darwin".toList "x86_64".toList = some (libraryFile .mac .x64) ∧ dllName "FreeBSD".toList "amd64".toList = none ∧
    dllName "Linux".toList "riscv64".toList = none := by decide +kernel

/-! ## C119 -/

/-- The full statement of C119: Cargo builds below a target directory (`CARGO_TARGET_DIR` if that is set), and the header ends up in the
directory that the library is in. False: see `C119_full_false`. -/
def C119_full : Prop :=
  ∀ (manifest target : RPath) (triple : List (List Char)) (profile pkg : List Char) (set : Bool), triple.length ≤ 1 →
    headerCopy (some manifest) (if set then some target else none)
        (some (below target (triple ++ [profile, "build".toList, pkg, "out".toList]))) =
      .ok (below manifest ["gphrx.h".toList], below target (triple ++ [profile, "gphrx.h".toList]))

/-- A target directory set with `CARGO_TARGET_DIR`: the header ends up there and not next to the library. -/
theorem C119_full_false : ¬ C119_full := by
  intro h
  have := h ⟨true, []⟩ ⟨true, []⟩ [] "debug".toList "x".toList true (by decide)
  revert this
  decide +kernel

theorem below_pop (p : RPath) (l : List (List Char)) (n : List Char) : (below p (l ++ [n])).pop = below p l := by
  unfold below RPath.pop
  simp

theorem below_fileName (p : RPath) (l : List (List Char)) (n : List Char) : (below p (l ++ [n])).fileName = some n := by
  unfold below RPath.fileName
  simp

theorem below_join (p : RPath) (l : List (List Char)) (n : List Char) : (below p l).join n = below p (l ++ [n]) := by
  unfold below RPath.join
  simp

theorem checkTarget_ok {d e : RPath} (h : checkTarget d = .ok e) : e = d ∧
    (d.pop.fileName = some "target".toList ∨ d.pop.pop.fileName = some "target".toList) := by
  unfold checkTarget at h
  simp only at h
  cases h1 : d.pop.fileName with
  | none =>
    rw [h1] at h
    cases h2 : d.pop.pop.fileName with
    | none => rw [h2] at h; cases h
    | some n =>
      rw [h2] at h
      simp only at h
      split at h
      · next h3 => cases h; exact ⟨rfl, .inr (by rw [h3])⟩
      · cases h
  | some m =>
    rw [h1] at h
    simp only at h
    split at h
    · next h3 => cases h; exact ⟨rfl, .inl (by rw [h3])⟩
    · cases h2 : d.pop.pop.fileName with
      | none => rw [h2] at h; cases h
      | some n =>
        rw [h2] at h
        simp only at h
        split at h
        · next h3 => cases h; exact ⟨rfl, .inr (by rw [h3])⟩
        · cases h

theorem checkTarget_of {d : RPath} (h : d.pop.fileName = some "target".toList ∨ d.pop.pop.fileName = some "target".toList) :
    checkTarget d = .ok d := by
  unfold checkTarget
  simp only
  rcases h with h | h
  · rw [h]; simp only; rw [if_pos trivial]
  · rw [h]
    cases h1 : d.pop.fileName with
    | none => simp only; rw [if_pos trivial]
    | some m =>
      simp only
      split
      · rfl
      · rw [if_pos trivial]

/-- **C119.** The build script, exactly: with `CARGO_TARGET_DIR` the header is copied there; without it, it is copied to the directory three
levels above `OUT_DIR` if the directory one or two levels above that is called `target`, and otherwise (or if a variable that Cargo sets is
missing) the build fails. -/
theorem C119_exact (manifest target out : Option RPath) (src dst : RPath) :
    headerCopy manifest target out = .ok (src, dst) ↔
    (∃ c, manifest = some c ∧ src = below c ["gphrx.h".toList]) ∧
      ((∃ d, target = some d ∧ dst = below d ["gphrx.h".toList]) ∨
        ∃ d, target = none ∧ out = some d ∧ dst = below d.pop.pop.pop ["gphrx.h".toList] ∧
          (d.pop.pop.pop.pop.fileName = some "target".toList ∨ d.pop.pop.pop.pop.pop.fileName = some "target".toList)) := by
  have hj : ∀ p : RPath, p.join "gphrx.h".toList = below p ["gphrx.h".toList] := fun p => rfl
  cases manifest with
  | none => constructor
            · intro h; cases h
            · rintro ⟨⟨c, h, _⟩, _⟩; cases h
  | some c =>
    cases target with
    | some d =>
      constructor
      · intro h; cases h; exact ⟨⟨c, rfl, rfl⟩, .inl ⟨d, rfl, rfl⟩⟩
      · rintro ⟨⟨_, h1, h2⟩, ⟨_, h3, h4⟩ | ⟨_, h3, _⟩⟩
        · cases h1; cases h3; rw [h2, h4]; rfl
        · cases h3
    | none =>
      cases out with
      | none => constructor
                · intro h; cases h
                · rintro ⟨_, ⟨_, h3, _⟩ | ⟨_, _, h3, _⟩⟩ <;> cases h3
      | some d =>
        have e : headerCopy (some c) none (some d) =
          match checkTarget d.pop.pop.pop with
          | .ok dir => .ok (c.join "gphrx.h".toList, dir.join "gphrx.h".toList)
          | .err e => .err e
          | .panic => .panic := rfl
        rw [e]
        constructor
        · intro h
          cases hc : checkTarget d.pop.pop.pop with
          | err _ => rw [hc] at h; cases h
          | panic => rw [hc] at h; cases h
          | ok k =>
            rw [hc] at h
            cases h
            obtain ⟨rfl, h1⟩ := checkTarget_ok hc
            exact ⟨⟨c, rfl, rfl⟩, .inr ⟨d, rfl, rfl, rfl, h1⟩⟩
        · rintro ⟨⟨_, h1, h2⟩, ⟨_, h3, _⟩ | ⟨_, _, h3, h4, h5⟩⟩
          · cases h3
          · cases h1; cases h3
            rw [checkTarget_of h5, h2, h4]
            rfl

/-- **C119** (partial). Without `CARGO_TARGET_DIR`, and with a target directory called `target`, the header ends up next to the library, for
every profile, with and without cross-compiling. Missing: other target directories, where the build fails unless the directory above it is called `target`,
and `CARGO_TARGET_DIR` (`C119_exact`). -/
theorem C119_partial (manifest dir : RPath) (triple : List (List Char)) (profile pkg : List Char) (ht : triple.length ≤ 1) :
    headerCopy (some manifest) none
        (some (below dir ("target".toList :: triple ++ [profile, "build".toList, pkg, "out".toList]))) =
      .ok (below manifest ["gphrx.h".toList], below dir ("target".toList :: triple ++ [profile, "gphrx.h".toList])) := by
  rw [C119_exact]
  refine ⟨⟨_, rfl, rfl⟩, .inr ⟨_, rfl, rfl, ?_, ?_⟩⟩
  · have e : "target".toList :: triple ++ [profile, "build".toList, pkg, "out".toList] =
        ((("target".toList :: triple ++ [profile]) ++ ["build".toList]) ++ [pkg]) ++ ["out".toList] := by simp
    rw [e, below_pop, below_pop, below_pop]
    unfold below
    simp
  · have e : "target".toList :: triple ++ [profile, "build".toList, pkg, "out".toList] =
        (((("target".toList :: triple) ++ [profile]) ++ ["build".toList]) ++ [pkg]) ++ ["out".toList] := by simp
    rw [e, below_pop, below_pop, below_pop, below_pop]
    rcases triple with _ | ⟨t, _ | ⟨u, l⟩⟩
    · exact .inl (below_fileName dir [] _)
    · right
      rw [show "target".toList :: [t] = ["target".toList] ++ [t] from rfl, below_pop]
      exact below_fileName dir [] _
    · simp at ht

example : headerCopy (some ⟨true, [.normal "w".toList, .normal "graphrox-c".toList]⟩) none
    (some (below ⟨true, [.normal "w".toList]⟩ ["target".toList, "x86_64-apple-darwin".toList, "release".toList, "build".toList, "graphrox-c-1f".toList, "out".toList])) =
    .ok (below ⟨true, []⟩ ["w".toList, "graphrox-c".toList, "gphrx.h".toList],
      below ⟨true, []⟩ ["w".toList, "target".toList, "x86_64-apple-darwin".toList, "release".toList, "gphrx.h".toList]) := by decide +kernel

/-- A target directory with another name: the build fails. -/
example : headerCopy (some ⟨true, []⟩) none
    (some (below ⟨true, []⟩ ["out-dir".toList, "release".toList, "build".toList, "graphrox-c-1f".toList, "out".toList])) = .panic := by
  decide +kernel

end Verif.Props
