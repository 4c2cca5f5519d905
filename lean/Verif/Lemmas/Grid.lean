import Mathlib.Tactic.IntervalCases
import Mathlib.Tactic.Ring
import Verif.Spec.Grid
import Verif.Lemmas.SqMatrix

/-! Lemmas about the text of matrices. -/

namespace Verif
open Spec

/-! ### `grid` as nested `flatMap`s -/

theorem intercalate_concat {α : Type} (sep : List α) (l : List (List α)) (x : List α) :
    sep.intercalate (l ++ [x]) = l.flatMap (· ++ sep) ++ x := by
  induction l with
  | nil => simp [List.intercalate]
  | cons a l ih =>
    cases l with
    | nil => simp [List.intercalate]
    | cons b l =>
      have : sep.intercalate (a :: b :: l ++ [x]) = a ++ sep ++ sep.intercalate (b :: l ++ [x]) := by
        simp [List.intercalate]
      rw [this, ih]
      simp

theorem flatMap_range_sep (f : Nat → List Char) (sep last : List Char) (n : Nat) (hn : n ≠ 0) :
    (List.range n).flatMap (fun c => f c ++ (if c ≠ n - 1 then sep else last)) =
      sep.intercalate ((List.range n).map f) ++ last := by
  obtain ⟨k, rfl⟩ := Nat.exists_eq_succ_of_ne_zero hn
  rw [List.range_succ, List.map_append, List.map_singleton, intercalate_concat, List.flatMap_append,
    List.flatMap_map]
  have : ∀ c ∈ List.range k, (f c ++ if c ≠ k.succ - 1 then sep else last) = f c ++ sep := by
    intro c hc
    rw [List.mem_range] at hc
    rw [if_pos (by simp; omega)]
  rw [List.flatMap_congr this]
  simp

/-- One row with its line break. -/
def rowText (n : Nat) (cell : Nat → Nat → List Char) (r : Nat) : List Char :=
  ['[', ' '] ++ (List.range n).flatMap (fun c => cell c r ++ (if c ≠ n - 1 then [',', ' '] else [' '])) ++
    [']'] ++ (if r ≠ n - 1 then ['\r', '\n'] else [])

theorem grid_eq (n : Nat) (hn : n ≠ 0) (cell : Nat → Nat → List Char) :
    (List.range n).flatMap (rowText n cell) = grid n cell := by
  have := flatMap_range_sep (fun r => "[ ".toList ++ ", ".toList.intercalate ((List.range n).map fun c => cell c r)
    ++ " ]".toList) ['\r', '\n'] [] n hn
  rw [List.append_nil] at this
  unfold grid
  rw [← this]
  apply List.flatMap_congr
  intro r _
  unfold rowText
  rw [flatMap_range_sep _ _ _ n hn]
  simp

/-! ### lengths and decomposition -/

theorem flatMap_length_const {α : Type} (l : List α) (f : α → List Char) (w : Nat) (h : ∀ a ∈ l, (f a).length = w) :
    (l.flatMap f).length = l.length * w := by
  induction l with
  | nil => simp
  | cons a l ih =>
    rw [List.flatMap_cons, List.length_append, h a (by simp), ih (fun b hb => h b (by simp [hb])), List.length_cons]
    ring

/-- Changing one piece of a concatenation of equally long pieces. -/
theorem flatMap_range_at (n i w : Nat) (hi : i < n) (f : Nat → List Char) (hw : ∀ j < i, (f j).length = w) :
    ∃ A B, A.length = i * w ∧ (List.range n).flatMap f = A ++ f i ++ B ∧
      ∀ f' : Nat → List Char, (∀ j, j ≠ i → f' j = f j) → (List.range n).flatMap f' = A ++ f' i ++ B := by
  have hr : List.range n = List.range i ++ i :: (List.range (n - i - 1)).map (· + (i + 1)) := by
    have : n = i + (1 + (n - i - 1)) := by omega
    conv_lhs => rw [this, List.range_add, List.range_add]
    simp only [List.range_one, List.map_append, List.map_cons, List.map_nil, List.map_map, List.singleton_append,
      Nat.add_zero]
    congr 2
    apply List.map_congr_left
    intro x _
    simp; omega
  refine ⟨(List.range i).flatMap f, ((List.range (n - i - 1)).map (· + (i + 1))).flatMap f, ?_, ?_, ?_⟩
  · rw [flatMap_length_const _ _ w (fun j hj => hw j (List.mem_range.1 hj)), List.length_range]
  · rw [hr, List.flatMap_append, List.flatMap_cons, List.append_assoc]
  · intro f' hf'
    rw [hr, List.flatMap_append, List.flatMap_cons, List.append_assoc]
    congr 1
    · apply List.flatMap_congr
      intro j hj
      exact hf' j (by have := List.mem_range.1 hj; omega)
    · congr 1
      apply List.flatMap_congr
      intro j hj
      simp only [List.mem_map, List.mem_range] at hj
      obtain ⟨k, _, rfl⟩ := hj
      exact hf' _ (by omega)

theorem cells_length (n e r : Nat) (hn : n ≠ 0) (cell : Nat → Nat → List Char)
    (he : ∀ c < n, (cell c r).length = e) :
    ((List.range n).flatMap (fun c => cell c r ++ (if c ≠ n - 1 then [',', ' '] else [' ']))).length + 1 =
      n * (e + 2) := by
  obtain ⟨k, rfl⟩ := Nat.exists_eq_succ_of_ne_zero hn
  rw [List.range_succ, List.flatMap_append, List.length_append, flatMap_length_const _ _ (e + 2), List.length_range]
  · simp [he k (by omega)]; ring
  · intro c hc
    have := List.mem_range.1 hc
    rw [if_pos (by simp; omega)]
    simp [he c (by omega)]

theorem rowText_length (n e r : Nat) (hn : n ≠ 0) (cell : Nat → Nat → List Char)
    (he : ∀ c < n, (cell c r).length = e) :
    (rowText n cell r).length = (if r ≠ n - 1 then 4 else 2) + n * (e + 2) := by
  have := cells_length n e r hn cell he
  unfold rowText
  split <;> simp only [List.length_append, List.length_cons, List.length_nil] <;> omega

theorem rows_length (n e : Nat) (hn : n ≠ 0) (cell : Nat → Nat → List Char)
    (he : ∀ c < n, ∀ r < n, (cell c r).length = e) :
    ((List.range n).flatMap (rowText n cell)).length + 2 = 4 * n + (e + 2) * (n * n) := by
  obtain ⟨k, rfl⟩ := Nat.exists_eq_succ_of_ne_zero hn
  rw [List.range_succ, List.flatMap_append, List.length_append,
    flatMap_length_const _ _ (4 + (k + 1) * (e + 2)), List.length_range]
  · rw [List.flatMap_cons, List.flatMap_nil, List.append_nil,
      rowText_length (k + 1) e k hn cell (fun c hc => he c hc k (by omega))]
    simp; ring
  · intro r hr
    have := List.mem_range.1 hr
    rw [rowText_length (k + 1) e r hn cell (fun c hc => he c hc r (by omega)), if_pos (by simp; omega)]

/-- The size of the text. -/
theorem grid_length (n e : Nat) (hn : n ≠ 0) (cell : Nat → Nat → List Char)
    (he : ∀ c < n, ∀ r < n, (cell c r).length = e) :
    (grid n cell).length + 2 = 4 * n + (e + 2) * (n * n) := by
  rw [← grid_eq n hn, rows_length n e hn cell he]

/-- Only the cells inside the matrix matter. -/
theorem grid_congr (n : Nat) {cell cell' : Nat → Nat → List Char} (h : ∀ c < n, ∀ r < n, cell c r = cell' c r) :
    grid n cell = grid n cell' := by
  unfold grid
  congr 1
  apply List.map_congr_left
  intro r hr
  congr 3
  apply List.map_congr_left
  intro c hc
  exact h c (List.mem_range.1 hc) r (List.mem_range.1 hr)

/-- Changing one cell. -/
def putCell (cell : Nat → Nat → List Char) (c r : Nat) (x : List Char) : Nat → Nat → List Char :=
  fun c' r' => if c' = c ∧ r' = r then x else cell c' r'

theorem rows_at (n e c r : Nat) (hc : c < n) (hr : r < n) (cell : Nat → Nat → List Char)
    (he : ∀ c < n, ∀ r < n, (cell c r).length = e) :
    ∃ A B, A.length = r * (4 + n * (e + 2)) + 2 + (e + 2) * c ∧
      (List.range n).flatMap (rowText n cell) = A ++ cell c r ++ B ∧
      ∀ x, (List.range n).flatMap (rowText n (putCell cell c r x)) = A ++ x ++ B := by
  have hn : n ≠ 0 := by omega
  obtain ⟨A, B, hA, hAB, hAB'⟩ := flatMap_range_at n r (4 + n * (e + 2)) hr (rowText n cell) (by
    intro j hj
    rw [rowText_length n e j hn cell (fun c hc => he c hc j (by omega)), if_pos (by simp; omega)])
  obtain ⟨C, D, hC, hCD, hCD'⟩ := flatMap_range_at n c (e + 2) hc
    (fun c => cell c r ++ (if c ≠ n - 1 then [',', ' '] else [' '])) (by
    intro j hj
    rw [if_pos (by simp; omega)]
    simp [he j (by omega) r hr])
  refine ⟨A ++ ['[', ' '] ++ C,
    (if c ≠ n - 1 then [',', ' '] else [' ']) ++ D ++ [']'] ++ (if r ≠ n - 1 then ['\r', '\n'] else []) ++ B, ?_, ?_, ?_⟩
  · simp only [List.length_append, hA, hC, List.length_cons, List.length_nil]; ring
  · rw [hAB]
    unfold rowText
    rw [hCD]
    simp only [List.append_assoc]
  · intro x
    rw [hAB' (rowText n (putCell cell c r x))]
    · unfold rowText
      rw [hCD' (fun c' => putCell cell c r x c' r ++ (if c' ≠ n - 1 then [',', ' '] else [' ']))]
      · simp only [putCell, and_self, if_true, List.append_assoc]
      · intro j hj
        simp [putCell, hj]
    · intro j hj
      unfold rowText
      simp [putCell, hj]

/-! ### injectivity -/

theorem flatMap_inj {α : Type} (l : List α) (f g : α → List Char) (hlen : ∀ a ∈ l, (f a).length = (g a).length)
    (h : l.flatMap f = l.flatMap g) : ∀ a ∈ l, f a = g a := by
  induction l with
  | nil => simp
  | cons a l ih =>
    rw [List.flatMap_cons, List.flatMap_cons] at h
    obtain ⟨h1, h2⟩ := List.append_inj h (hlen a (by simp))
    intro b hb
    rcases List.mem_cons.1 hb with rfl | hb
    · exact h1
    · exact ih (fun c hc => hlen c (by simp [hc])) h2 b hb

theorem grid_inj (n e : Nat) (hn : n ≠ 0) {cell cell' : Nat → Nat → List Char}
    (he : ∀ c < n, ∀ r < n, (cell c r).length = e) (he' : ∀ c < n, ∀ r < n, (cell' c r).length = e)
    (h : grid n cell = grid n cell') : ∀ c < n, ∀ r < n, cell c r = cell' c r := by
  rw [← grid_eq n hn, ← grid_eq n hn] at h
  intro c hc r hr
  have h1 := flatMap_inj _ _ _ (fun r hr => by
    have hr := List.mem_range.1 hr
    rw [rowText_length n e r hn cell (fun c hc => he c hc r hr),
      rowText_length n e r hn cell' (fun c hc => he' c hc r hr)]) h r (List.mem_range.2 hr)
  unfold rowText at h1
  rw [List.append_left_inj, List.append_left_inj, List.append_right_inj] at h1
  have h2 := flatMap_inj _ _ _ (fun c hc => by
    have hc := List.mem_range.1 hc
    simp only [List.length_append, he c hc r hr, he' c hc r hr]) h1 c (List.mem_range.2 hc)
  exact List.append_left_injective _ h2

/-! ### writing into the buffer -/

theorem writeChars_append (x : List Char) : ∀ (A y B : List Char), x.length = y.length →
    SqMatrix.writeChars (A ++ y ++ B) A.length x = .ok (A ++ x ++ B) := by
  induction x with
  | nil =>
    intro A y B h
    have : y = [] := List.length_eq_zero_iff.1 h.symm
    subst this
    rfl
  | cons a x ih =>
    intro A y B h
    cases y with
    | nil => simp at h
    | cons b y =>
      unfold SqMatrix.writeChars
      rw [if_pos (by simp)]
      have h1 : (A ++ b :: y ++ B).set A.length a = (A ++ [a]) ++ y ++ B := by simp
      have h2 : A.length + 1 = (A ++ [a]).length := by simp
      rw [h1, h2, ih _ _ _ (by simpa using h)]
      simp

theorem writeChars_full (x y : List Char) (h : x.length = y.length) :
    SqMatrix.writeChars y 0 x = .ok x := by
  have := writeChars_append x [] y [] h
  simpa using this

/-! ### numerals -/

theorem digitChar_eq (d : Nat) (h : d < 10) : Char.ofNat (48 + d) = Nat.digitChar d := by
  interval_cases d <;> rfl

theorem decCharsAux_eq (fuel n : Nat) (acc : List Char) :
    decCharsAux fuel n acc = Nat.toDigitsCore 10 fuel n acc := by
  induction fuel generalizing n acc with
  | zero => rfl
  | succ k ih =>
    unfold decCharsAux Nat.toDigitsCore
    simp only [digitChar_eq _ (Nat.mod_lt n (by norm_num : 0 < 10)), ih]

theorem decChars_eq (n : Nat) : decChars n = Nat.toDigits 10 n := decCharsAux_eq _ _ _

theorem intChars_eq (z : Int) : intChars z = numeral z := by
  unfold intChars numeral
  cases z with
  | ofNat n => simp only [decChars_eq]; rw [if_neg (by simp)]; rfl
  | negSucc n => simp only [decChars_eq]; rw [if_pos (Int.negSucc_lt_zero n)]; rfl

theorem numeral_natCast (n : Nat) : numeral (n : Int) = Nat.toDigits 10 n := by
  unfold numeral
  rw [if_neg (by omega)]; rfl

theorem padLeft_eq (w : Nat) (s : List Char) : padLeft w s = rightAligned w s := rfl

theorem rightAligned_length {w : Nat} {s : List Char} (h : s.length ≤ w) : (rightAligned w s).length = w := by
  simp [rightAligned]; omega

theorem rightAligned_append (w : Nat) (s t : List Char) :
    rightAligned w s ++ t = rightAligned (w + t.length) (s ++ t) := by
  unfold rightAligned
  rw [List.length_append, Nat.add_sub_add_right]; simp

end Verif
