import Verif.Lemmas.F64Text
import Verif.Props.Strings

/-! # No text of the library contains the character 0 -/

namespace Verif
open Spec

theorem mem_intercalate {α : Type} {sep : List α} {c : α} : ∀ {l : List (List α)}, c ∈ sep.intercalate l →
    c ∈ sep ∨ ∃ x ∈ l, c ∈ x := by
  intro l
  induction l with
  | nil => intro h; cases h
  | cons a l ih =>
    intro h
    cases l with
    | nil =>
      right
      exact ⟨a, by simp, by simpa [List.intercalate] using h⟩
    | cons b l =>
      rw [List.intercalate, List.intersperse_cons_cons, List.flatten_cons, List.flatten_cons] at h
      rcases List.mem_append.1 h with h | h
      · exact .inr ⟨a, by simp, h⟩
      · rcases List.mem_append.1 h with h | h
        · exact .inl h
        · rcases ih h with h | ⟨x, hx, h⟩
          · exact .inl h
          · exact .inr ⟨x, List.mem_cons_of_mem _ hx, h⟩

/-- The character 0 is not in the text. -/
def NoNul (s : List Char) : Prop := Char.ofNat 0 ∉ s

theorem noNul_append {s t : List Char} (hs : NoNul s) (ht : NoNul t) : NoNul (s ++ t) := by
  intro h
  rcases List.mem_append.1 h with h | h
  · exact hs h
  · exact ht h

theorem noNul_replicate {n : Nat} {c : Char} (h : c ≠ Char.ofNat 0) : NoNul (List.replicate n c) := by
  intro hc
  exact h (List.eq_of_mem_replicate hc).symm

theorem noNul_grid {n : Nat} {cell : Nat → Nat → List Char} (h : ∀ c r, NoNul (cell c r)) : NoNul (grid n cell) := by
  intro hm
  unfold grid at hm
  rcases mem_intercalate hm with hm | ⟨x, hx, hm⟩
  · revert hm; decide
  · obtain ⟨r, _, rfl⟩ := List.mem_map.1 hx
    refine noNul_append (noNul_append (by unfold NoNul; decide) ?_) (by unfold NoNul; decide) hm
    intro hm
    rcases mem_intercalate hm with hm | ⟨y, hy, hm⟩
    · revert hm; decide
    · obtain ⟨c, _, rfl⟩ := List.mem_map.1 hy
      exact h c r hm

theorem noNul_digits (n : Nat) : NoNul (Nat.toDigits 10 n) := by
  intro h
  have := Nat.isDigit_of_mem_toDigits (by norm_num) (by norm_num) h
  revert this; decide

theorem noNul_numeral (z : Int) : NoNul (numeral z) := by
  unfold numeral
  split
  · exact noNul_append (s := ['-']) (by unfold NoNul; decide) (noNul_digits _)
  · exact noNul_digits _

theorem noNul_zeros (d : Nat) : NoNul (zeros d) := by
  unfold zeros
  split
  · simp [NoNul]
  · exact noNul_append (s := ['.']) (by unfold NoNul; decide) (noNul_replicate (by decide))

theorem noNul_rightAligned {w : Nat} {s : List Char} (h : NoNul s) : NoNul (rightAligned w s) :=
  noNul_append (noNul_replicate (by decide)) h

theorem noNul_f64Chars (x : F64) (d : Nat) : NoNul (f64Chars x d) := by
  unfold f64Chars
  cases x with
  | nan => simp [NoNul]
  | inf neg => cases neg <;> simp [NoNul]
  | fin q =>
    refine noNul_append ?_ ?_
    · by_cases hq : q < 0
      · rw [if_pos hq]; unfold NoNul; decide
      · rw [if_neg hq]; simp [NoNul]
    · unfold fixedChars
      rw [decChars_eq]
      refine noNul_append (noNul_digits _) ?_
      split
      · simp [NoNul]
      · simp only [decChars_eq]
        exact noNul_append (s := ['.']) (by unfold NoNul; decide) (noNul_append (noNul_replicate (by decide)) (noNul_digits _))

theorem Spec.ShowsText.noNul {P : Platform} {n w : Nat} {text : Nat → Nat → List Char} {res : Res (List Char)} {s : List Char}
    (h : ShowsText P n w text res) (hw : w + 2 ≤ P.usizeMax) (ht : ∀ c r, NoNul (text c r)) (hs : res = .ok s) : NoNul s := by
  subst hs
  by_cases hn : n = 0
  · have := h.empty hn; cases this; simp [NoNul]
  · by_cases hsz : 4 * n + (w + 2) * (n * n) ≤ P.usizeMax
    · cases hal : P.alloc (4 * n + (w + 2) * (n * n) - 2) with
      | true =>
        have := h.shows hn hsz hal
        cases this
        exact noNul_grid fun c r => noNul_rightAligned (ht c r)
      | false => obtain ⟨msg, e⟩ := h.noMemory hn hsz hal; cases e
    · obtain ⟨msg, e⟩ := h.tooLarge hn hw (by omega); cases e

theorem Spec.ShowsGrid.noNul {P : Platform} {n d w : Nat} {val : Nat → Nat → Int} {res : Res (List Char)} {s : List Char}
    (h : ShowsGrid P n d w val res) (hw : w + 2 ≤ P.usizeMax) (hs : res = .ok s) : NoNul s := by
  subst hs
  by_cases hn : n = 0
  · have := h.empty hn; cases this; simp [NoNul]
  · by_cases hsz : 4 * n + (w + 2) * (n * n) ≤ P.usizeMax
    · cases hal : P.alloc (4 * n + (w + 2) * (n * n) - 2) with
      | true =>
        have := h.shows hn hsz hal
        cases this
        exact noNul_grid fun c r => noNul_rightAligned (noNul_append (noNul_numeral _) (noNul_zeros _))
      | false => obtain ⟨msg, e⟩ := h.noMemory hn hsz hal; cases e
    · obtain ⟨msg, e⟩ := h.tooLarge hn hw (by omega); cases e

theorem Graph.matrixString_noNul {g : Graph} {P : Platform} {s : List Char} (h : g.matrixString P = .ok s) : NoNul s := by
  by_cases hn : g.vertexCount = 0
  · rw [(Props.C49_matrix_string g P).1 hn] at h; cases h; simp [NoNul]
  · have h2 := (Props.C49_matrix_string g P).2 hn
    simp only at h2
    by_cases hs : 4 * g.vertexCount + 3 * (g.vertexCount * g.vertexCount) - 2 + 2 ≤ P.usizeMax ∧
        P.alloc (4 * g.vertexCount + 3 * (g.vertexCount * g.vertexCount) - 2) = true
    · rw [h2.1 hs.1 hs.2] at h; cases h
      unfold Props.graphText
      exact noNul_grid fun c r => by split <;> (unfold NoNul; decide)
    · obtain ⟨msg, hmsg⟩ := h2.2.1 (by
        rcases Nat.lt_or_ge P.usizeMax (4 * g.vertexCount + 3 * (g.vertexCount * g.vertexCount) - 2 + 2) with h3 | h3
        · exact .inl h3
        · exact .inr (by simpa using fun h4 => hs ⟨h3, h4⟩))
      rw [hmsg] at h; cases h

end Verif
