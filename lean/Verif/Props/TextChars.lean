import Verif.Lemmas.TextChars
import Verif.Model.F32

/-!
# C110: which characters texts consist of

No assumption on the matrix (not even that it was built by the library), the platform or the decimals.
-/

namespace Verif.Props
open Verif Spec

/-- The characters of integer matrices without negative entries. -/
def layoutChars : List Char := ['[', ']', ' ', ',', '\r', '\n', '.', '0', '1', '2', '3', '4', '5', '6', '7', '8', '9']

theorem digit_layout (c : Char) (h : c.isDigit = true) : c ∈ layoutChars := by
  have h1 : 48 ≤ c.val.toNat ∧ c.val.toNat ≤ 57 := by
    simp only [Char.isDigit, Bool.and_eq_true, decide_eq_true_eq, ge_iff_le, UInt32.le_iff_toNat_le] at h
    exact h
  have h2 : c = Char.ofNat c.val.toNat := (Char.ofNat_toNat c).symm
  rw [h2]
  obtain ⟨h3, h4⟩ := h1
  generalize c.val.toNat = n at *
  interval_cases n <;> decide

/-- **C110.** The text of a matrix of unsigned integers of any size (compressed graphs included) consists of brackets, commas,
spaces, line ends, points and digits. -/
theorem C110_unsigned {max : Nat} {m : SqMatrix Nat} {P : Platform} {o₁ o₂ : HashOrder} {d : Nat} {s : List Char}
    (h : m.toStringWithPrecision P (uintFmt max) o₁ o₂ d = .ok s) : ∀ c ∈ s, c ∈ layoutChars :=
  SqMatrix.toString_all (fun x _ _ => padLeft_all (by decide) (digits_all digit_layout x))
    (fun x _ => padLeft_all (by decide) (digits_all digit_layout x)) (by decide) h

/-- **C110.** For signed integers there are minus signs as well. -/
theorem C110_signed {max : Nat} {b : Bool} {m : SqMatrix Int} {P : Platform} {o₁ o₂ : HashOrder} {d : Nat} {s : List Char}
    (h : m.toStringWithPrecision P (sintFmt max b) o₁ o₂ d = .ok s) : ∀ c ∈ s, c ∈ '-' :: layoutChars :=
  have hd : ∀ c : Char, c.isDigit = true → c ∈ '-' :: layoutChars := fun c hc => List.mem_cons_of_mem _ (digit_layout c hc)
  SqMatrix.toString_all (fun x _ _ => padLeft_all (by decide) (intChars_all hd (by decide) x))
    (fun x _ => padLeft_all (by decide) (intChars_all hd (by decide) x)) (by decide) h

/-- The characters of floating point matrices. -/
def floatChars : List Char := ['-', 'i', 'n', 'f', 'N', 'a'] ++ layoutChars

/-- **C110.** For `f64` and `f32` the letters of `inf` and `NaN` are possible, nothing else. -/
theorem C110_float {m : SqMatrix F64} {P : Platform} {o₁ o₂ : HashOrder} {d : Nat} {s : List Char}
    (h : m.toStringWithPrecision P f64Fmt o₁ o₂ d = .ok s ∨ m.toStringWithPrecision P f32Fmt o₁ o₂ d = .ok s) :
    ∀ c ∈ s, c ∈ floatChars := by
  have hd : ∀ c : Char, c.isDigit = true → c ∈ floatChars := fun c hc => List.mem_append_right _ (digit_layout c hc)
  rcases h with h | h
  · exact SqMatrix.toString_all (fun x _ d => padLeft_all (by decide) (f64Chars_all hd (by decide) x d))
      (fun x _ => padLeft_all (by decide) (f64Chars_all hd (by decide) x 0)) (by decide) h
  · exact SqMatrix.toString_all (fun x _ d => padLeft_all (by decide) (f64Chars_all hd (by decide) x d))
      (fun x _ => padLeft_all (by decide) (f64Chars_all hd (by decide) x 0)) (by decide) h

theorem grid_all {p : Char → Prop} (hp : ∀ c ∈ layoutChars, p c) {n : Nat} {cell : Nat → Nat → List Char}
    (h : ∀ c r, ∀ x ∈ cell c r, p x) : ∀ x ∈ grid n cell, p x := by
  intro x hx
  unfold grid at hx
  rcases mem_intercalate hx with hx | ⟨y, hy, hx⟩
  · exact hp x ((by decide : ∀ x ∈ ['\r', '\n'], x ∈ layoutChars) x hx)
  · obtain ⟨r, _, rfl⟩ := List.mem_map.1 hy
    simp only [List.mem_append] at hx
    rcases hx with (hx | hx) | hx
    · exact hp x ((by decide : ∀ x ∈ "[ ".toList, x ∈ layoutChars) x hx)
    · rcases mem_intercalate hx with hx | ⟨z, hz, hx⟩
      · exact hp x ((by decide : ∀ x ∈ ", ".toList, x ∈ layoutChars) x hx)
      · obtain ⟨c, _, rfl⟩ := List.mem_map.1 hz
        exact h c r x hx
    · exact hp x ((by decide : ∀ x ∈ " ]".toList, x ∈ layoutChars) x hx)

/-- **C110.** The text of a graph has the same characters as that of an integer matrix. -/
theorem C110_graph {g : Graph} {P : Platform} {s : List Char} (h : g.matrixString P = .ok s) : ∀ c ∈ s, c ∈ layoutChars := by
  by_cases hn : g.vertexCount = 0
  · rw [(C49_matrix_string g P).1 hn] at h; cases h; simp
  · have h2 := (C49_matrix_string g P).2 hn
    simp only at h2
    by_cases hs : 4 * g.vertexCount + 3 * (g.vertexCount * g.vertexCount) - 2 + 2 ≤ P.usizeMax ∧
        P.alloc (4 * g.vertexCount + 3 * (g.vertexCount * g.vertexCount) - 2) = true
    · rw [h2.1 hs.1 hs.2] at h; cases h
      exact grid_all (fun _ h => h) fun c r => by split <;> decide
    · obtain ⟨msg, hmsg⟩ := h2.2.1 (by
        rcases Nat.lt_or_ge P.usizeMax (4 * g.vertexCount + 3 * (g.vertexCount * g.vertexCount) - 2 + 2) with h3 | h3
        · exact .inl h3
        · exact .inr (by simpa using fun h4 => hs ⟨h3, h4⟩))
      rw [hmsg] at h; cases h

/-- **C110.** Hence every text is ASCII without a zero byte: `String::from_utf8` cannot refuse it, nor can `CString::new`. -/
theorem C110_ascii : ∀ c ∈ floatChars, 0 < c.toNat ∧ c.toNat < 128 := by decide

/-- Even texts that are wrong (`-0.5` without the space before the bracket, a negative entry with decimals of an integer type)
consist of these characters. -/
example : (∃ m s, runNum f64Numeric exP [.set (.fin (-1 / 2)) 0 0] = .ok m ∧
      m.toStringWithPrecision exP f64Fmt .id .id 2 = .ok s ∧ s = "[ -0.50]".toList) ∧
    (∃ m s, runNum (sintFmt (2 ^ 63 - 1) false).toNumeric exP [.set (-100) 0 0, .set 5 1 1] = .ok m ∧
      m.toStringWithPrecision exP (sintFmt (2 ^ 63 - 1) false) .id .id 1 = .ok s ∧
      s = "[ -100.0,    0.0 ]\r\n[    0.0,  5.0.0 ]".toList) := by
  refine ⟨?_, ?_⟩
  · obtain ⟨m, hm, h⟩ := okAnd_elim (show okAnd (runNum f64Numeric exP [.set (.fin (-1 / 2)) 0 0]) (fun m =>
      okAnd (m.toStringWithPrecision exP f64Fmt .id .id 2) (fun s => s == "[ -0.50]".toList)) = true by decide +kernel)
    obtain ⟨s, hs, h⟩ := okAnd_elim h
    exact ⟨m, s, hm, hs, eq_of_beq h⟩
  · obtain ⟨m, hm, h⟩ := okAnd_elim (show okAnd
      (runNum (sintFmt (2 ^ 63 - 1) false).toNumeric exP [.set (-100) 0 0, .set 5 1 1]) (fun m =>
      okAnd (m.toStringWithPrecision exP (sintFmt (2 ^ 63 - 1) false) .id .id 1) (fun s =>
        s == "[ -100.0,    0.0 ]\r\n[    0.0,  5.0.0 ]".toList)) = true by decide +kernel)
    obtain ⟨s, hs, h⟩ := okAnd_elim h
    exact ⟨m, s, hm, hs, eq_of_beq h⟩

/-- So does the text of a graph with seven vertices. -/
example : okAnd (k7.matrixString exP) (fun s => s.length == 173 && s.all fun c => decide (c ∈ layoutChars)) = true := by
  decide +kernel

end Verif.Props
