import Mathlib.Data.Nat.Bitwise
import Mathlib.Data.Finset.Card
import Mathlib.Data.Finset.Prod
import Mathlib.Tactic.IntervalCases
import Verif.Model.Pool
import Verif.Lemmas.Reach
import Verif.Spec.Blocks

/-! Bits of the 64-bit words that represent 8×8 blocks. -/

namespace Verif
open Spec

/-- The word whose bit `j < n` is `f j`. -/
def wordOf (f : Nat → Bool) : Nat → Nat
  | 0 => 0
  | n + 1 => if f n then wordOf f n ||| 2 ^ n else wordOf f n

/-- How many `j < n` satisfy `f`. -/
def countOf (f : Nat → Bool) (n : Nat) : Nat := ((List.range n).filter f).length

theorem testBit_wordOf (f : Nat → Bool) (n j : Nat) : (wordOf f n).testBit j = (decide (j < n) && f j) := by
  induction n with
  | zero => simp [wordOf]
  | succ n ih =>
    unfold wordOf
    by_cases hj : j = n
    · subst hj
      by_cases hf : f j
      · simp [hf]
      · simp [hf, ih]
    · have h1 : decide (j < n + 1) = decide (j < n) := by
        rw [decide_eq_decide]; omega
      by_cases hf : f n
      · rw [if_pos hf, Nat.testBit_or, ih, h1, Nat.testBit_two_pow_of_ne (Ne.symm hj), Bool.or_false]
      · rw [if_neg hf, ih, h1]

theorem wordOf_lt (f : Nat → Bool) (n : Nat) : wordOf f n < 2 ^ n := by
  apply Nat.lt_pow_two_of_testBit
  intro i hi
  rw [testBit_wordOf]
  simp only [Bool.and_eq_false_iff, decide_eq_false_iff_not]
  left; omega

theorem countOf_succ (f : Nat → Bool) (n : Nat) : countOf f (n + 1) = countOf f n + if f n then 1 else 0 := by
  unfold countOf
  rw [List.range_succ, List.filter_append, List.length_append]
  by_cases h : f n <;> simp [h]

theorem countOf_le (f : Nat → Bool) (n : Nat) : countOf f n ≤ n := by
  unfold countOf
  exact (List.length_filter_le _ _).trans (by simp)

theorem countOf_card (f : Nat → Bool) (n : Nat) : countOf f n = ((Finset.range n).filter fun j => f j = true).card := by
  unfold countOf
  rw [← List.toFinset_card_of_nodup (List.nodup_range.filter _)]
  congr 1
  ext j; simp

theorem countOf_eq_zero {f : Nat → Bool} {n : Nat} : countOf f n = 0 ↔ ∀ j < n, f j = false := by
  rw [countOf_card, Finset.card_eq_zero, Finset.filter_eq_empty_iff]
  simp

theorem popCount_eq (x : Nat) : popCount x = countOf (fun j => x.testBit j) 64 := rfl

theorem popCount_wordOf (f : Nat → Bool) : popCount (wordOf f 64) = countOf f 64 := by
  rw [popCount_eq, countOf_card, countOf_card]
  congr 1
  ext j
  rw [Finset.mem_filter, Finset.mem_filter, testBit_wordOf]
  simp only [Finset.mem_range, Bool.and_eq_true, decide_eq_true_eq]
  tauto

theorem wordOf_testBit {x : Nat} (h : x < 2 ^ 64) : wordOf (fun j => x.testBit j) 64 = x := by
  apply Nat.eq_of_testBit_eq
  intro j
  rw [testBit_wordOf]
  by_cases hj : j < 64
  · simp [hj]
  · simp only [hj, decide_false, Bool.false_and]
    exact (Nat.testBit_eq_false_of_lt (h.trans_le (Nat.pow_le_pow_right (by norm_num) (by omega)))).symm

theorem popCount_pos {x : Nat} (h : x < 2 ^ 64) (h0 : x ≠ 0) : 0 < popCount x := by
  rw [Nat.pos_iff_ne_zero]
  intro hc
  rw [popCount_eq, countOf_eq_zero] at hc
  apply h0
  apply Nat.eq_of_testBit_eq
  intro j
  rw [Nat.zero_testBit]
  by_cases hj : j < 64
  · exact hc j hj
  · exact Nat.testBit_eq_false_of_lt (h.trans_le (Nat.pow_le_pow_right (by norm_num) (by omega)))

theorem popCount_le (x : Nat) : popCount x ≤ 64 := countOf_le _ _

theorem shift_and_one (x i : Nat) : ((x >>> i) &&& 1 = 1) ↔ x.testBit i = true := by
  rw [Nat.testBit, Nat.and_comm]
  simp only [bne_iff_ne, ne_eq]
  rw [Nat.one_and_eq_mod_two]
  omega

theorem shift_and_zero (x i : Nat) : ((x >>> i) &&& 1 = 0) ↔ x.testBit i = false := by
  have := shift_and_one x i
  have h2 : (x >>> i) &&& 1 = (x >>> i) % 2 := by rw [Nat.and_one_is_mod]
  cases h : x.testBit i <;> simp [h] at this ⊢ <;> omega

theorem and_two_pow (x i : Nat) : (x &&& 2 ^ i = 2 ^ i) ↔ x.testBit i = true := by
  rw [Nat.and_two_pow]
  have := Nat.two_pow_pos i
  cases x.testBit i <;> simp
  omega

/-- Bits of the block `(c, r)`: bit `j` is the edge from `8c + j%8` to `8r + j/8`. -/
def blockBits (edge : Nat → Nat → Bool) (c r : Nat) (j : Nat) : Bool := edge (c * 8 + j % 8) (r * 8 + j / 8)

theorem countOf_blockBits (edge : Nat → Nat → Bool) (c r : Nat) :
    countOf (blockBits edge c r) 64 = blockCount edge 8 c r := by
  rw [countOf_card]
  unfold blockCount
  refine Finset.card_bij (fun j _ => (j % 8, j / 8)) ?_ ?_ ?_
  · intro j hj
    rw [Finset.mem_filter, Finset.mem_range] at hj
    rw [Finset.mem_filter, Finset.mem_product, Finset.mem_range, Finset.mem_range]
    exact ⟨⟨by simp only; omega, by simp only; omega⟩, hj.2⟩
  · intro a _ b _ h
    simp only [Prod.mk.injEq] at h
    omega
  · rintro ⟨x, y⟩ h
    rw [Finset.mem_filter, Finset.mem_product, Finset.mem_range, Finset.mem_range] at h
    refine ⟨8 * y + x, ?_, ?_⟩
    · rw [Finset.mem_filter, Finset.mem_range]
      have e1 : (8 * y + x) % 8 = x := by omega
      have e2 : (8 * y + x) / 8 = y := by omega
      refine ⟨by omega, ?_⟩
      unfold blockBits
      rw [e1, e2]; exact h.2
    · simp only [Prod.mk.injEq]; omega

namespace Graph

theorem blockPositions_eq : blockPositions = (List.range 64).map (fun j => (j / 8, j % 8)) := by decide

end Graph

theorem Res.foldl_append {α β : Type} (f : β → α → Res β) (l l' : List α) (b : β) :
    Res.foldl f b (l ++ l') = (Res.foldl f b l).bind fun b' => Res.foldl f b' l' := by
  induction l generalizing b with
  | nil => rfl
  | cons a l ih =>
    change (f b a).bind _ = ((f b a).bind _).bind _
    cases f b a with
    | ok x => exact ih x
    | err e => rfl
    | panic => rfl

namespace Graph

/-- The bit loop of `compress`. -/
theorem bitLoop (P : Platform) (g : Graph) (c r : Nat) (hc : c * 8 + 7 ≤ U64_MAX) (hr : r * 8 + 7 ≤ U64_MAX)
    (n : Nat) (hn : n ≤ 64) :
    Res.foldl (compressBit P g (c * 8) (r * 8)) ⟨0, 0, 1⟩ ((List.range n).map (fun j => (j / 8, j % 8))) =
      .ok ⟨wordOf (blockBits g.doesEdgeExist c r) n, countOf (blockBits g.doesEdgeExist c r) n, 2 ^ (min n 63)⟩ := by
  induction n with
  | zero => rfl
  | succ n ih =>
    rw [List.range_succ, List.map_append, Res.foldl_append, ih (by omega)]
    change (compressBit P g (c * 8) (r * 8) _ (n / 8, n % 8)).bind _ = _
    have h1 : P.u64Add (c * 8) (n % 8) = .ok (c * 8 + n % 8) := by
      unfold Platform.u64Add Platform.wrapTo; rw [if_pos (by omega)]
    have h2 : P.u64Add (r * 8) (n / 8) = .ok (r * 8 + n / 8) := by
      unfold Platform.u64Add Platform.wrapTo; rw [if_pos (by omega)]
    have hpos : min n 63 = n := by omega
    have hcb : compressBit P g (c * 8) (r * 8) ⟨wordOf (blockBits g.doesEdgeExist c r) n,
        countOf (blockBits g.doesEdgeExist c r) n, 2 ^ (min n 63)⟩ (n / 8, n % 8) =
        .ok ⟨wordOf (blockBits g.doesEdgeExist c r) (n + 1), countOf (blockBits g.doesEdgeExist c r) (n + 1),
          2 ^ (min (n + 1) 63)⟩ := by
      unfold compressBit
      simp only [h1, h2, Res.bind_ok, hpos]
      have hb : g.doesEdgeExist (c * 8 + n % 8) (r * 8 + n / 8) = blockBits g.doesEdgeExist c r n := rfl
      rw [hb, countOf_succ]
      have hp : (if (2 : Nat) ^ n ≠ 0x8000000000000000 then (2 ^ n <<< 1) % (U64_MAX + 1) else 2 ^ n) =
          2 ^ (min (n + 1) 63) := by
        by_cases h63 : n = 63
        · subst h63; rfl
        · have hne : (2 : Nat) ^ n ≠ 0x8000000000000000 := by
            intro h
            have : (2 : Nat) ^ n = 2 ^ 63 := h
            exact h63 (Nat.pow_right_injective (le_refl 2) this)
          rw [if_pos hne, Nat.shiftLeft_eq, pow_one, ← pow_succ]
          have : (2 : Nat) ^ (n + 1) < U64_MAX + 1 := by
            have : (2 : Nat) ^ (n + 1) ≤ 2 ^ 63 := Nat.pow_le_pow_right (by norm_num) (by omega)
            unfold U64_MAX; omega
          rw [Nat.mod_eq_of_lt this]
          congr 1; omega
      rw [← hp]
      conv_rhs => rw [wordOf]
      cases blockBits g.doesEdgeExist c r n <;> (simp only [Bool.false_eq_true, if_true, if_false]; split <;> rfl)
    rw [hcb]
    rfl

end Graph
end Verif
