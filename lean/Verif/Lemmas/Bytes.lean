import Verif.Model.Std
import Verif.Spec.Format
import Mathlib.Tactic.Ring
import Mathlib.Tactic.Linarith

/-! Big-endian encoding lemmas. -/

namespace Verif
open Spec

theorem toBE_length (k x : Nat) : (toBE k x).length = k := by
  induction k with
  | zero => rfl
  | succ k ih => simp [toBE, ih]

theorem toBE_eq_beBytes (k x : Nat) : toBE k x = beBytes k x := by
  induction k with
  | zero => rfl
  | succ k ih =>
    rw [toBE, ih]
    unfold beBytes
    rw [List.range_succ_eq_map, List.map_cons, List.map_map]
    congr 1
    apply List.map_congr_left
    intro i hi
    rw [List.mem_range] at hi
    unfold beByte
    simp only [Function.comp]
    congr 3
    omega

theorem beBytes_length (k x : Nat) : (beBytes k x).length = k := by simp [beBytes]

theorem foldl_be (b : Bytes) (acc : Nat) :
    b.foldl (fun acc x => acc * 256 + x.toNat) acc = acc * 256 ^ b.length + beValue b := by
  induction b generalizing acc with
  | nil => simp [beValue]
  | cons x xs ih =>
    rw [List.foldl_cons, ih, List.length_cons, beValue]
    ring

theorem fromBE_eq_beValue (b : Bytes) : fromBE b = beValue b := by
  unfold fromBE; rw [foldl_be]; simp

theorem beValue_lt (b : Bytes) : beValue b < 256 ^ b.length := by
  induction b with
  | nil => simp [beValue]
  | cons x xs ih =>
    rw [beValue, List.length_cons, pow_succ]
    have hx : x.toNat < 256 := x.toNat_lt
    have : (x.toNat + 1) * 256 ^ xs.length ≤ 256 * 256 ^ xs.length := Nat.mul_le_mul_right _ hx
    rw [add_mul, one_mul] at this
    rw [mul_comm (256 ^ xs.length)]
    omega

theorem beValue_toBE (k x : Nat) : beValue (toBE k x) = x % 256 ^ k := by
  induction k with
  | zero => simp [toBE, beValue, Nat.mod_one]
  | succ k ih =>
    rw [toBE, beValue, toBE_length, ih]
    have : (UInt8.ofNat (x / 256 ^ k)).toNat = x / 256 ^ k % 256 := by simp
    rw [this, pow_succ, Nat.mod_mul]
    ring

theorem beValue_toBE_of_lt {k x : Nat} (h : x < 256 ^ k) : beValue (toBE k x) = x := by
  rw [beValue_toBE, Nat.mod_eq_of_lt h]

theorem toBE_mod (k x y : Nat) (h : x % 256 ^ k = y % 256 ^ k) : toBE k x = toBE k y := by
  induction k with
  | zero => rfl
  | succ k ih =>
    rw [toBE, toBE]
    rw [pow_succ, Nat.mod_mul, Nat.mod_mul] at h
    have hx := Nat.mod_lt x (show 256 ^ k > 0 by positivity)
    have hy := Nat.mod_lt y (show 256 ^ k > 0 by positivity)
    have hp : 0 < 256 ^ k := by positivity
    have h1 : x % 256 ^ k = y % 256 ^ k := by
      have := congrArg (· % 256 ^ k) h
      simpa [Nat.add_mul_mod_self_left] using this
    have h2 : x / 256 ^ k % 256 = y / 256 ^ k % 256 := by
      rw [h1] at h
      have h' := Nat.add_left_cancel h
      exact Nat.eq_of_mul_eq_mul_left hp h'
    rw [ih h1]
    congr 1
    apply UInt8.toNat_inj.1
    simp [h2]

theorem toBE_beValue (b : Bytes) : toBE b.length (beValue b) = b := by
  induction b with
  | nil => rfl
  | cons x xs ih =>
    rw [List.length_cons, toBE, beValue]
    have hlt := beValue_lt xs
    have hd : (x.toNat * 256 ^ xs.length + beValue xs) / 256 ^ xs.length = x.toNat := by
      rw [Nat.add_comm, Nat.add_mul_div_right _ _ (by positivity), Nat.div_eq_of_lt hlt]; omega
    rw [hd]
    congr 1
    · simp
    · rw [toBE_mod xs.length _ (beValue xs) (by simp), ih]

theorem U64_eq : (256 : Nat) ^ 8 = U64_MAX + 1 := by decide

theorem sliceGet_eq {b : Bytes} {s k : Nat} (h : s + k ≤ b.length) :
    sliceGet b s (s + k) = some ((b.drop s).take k) := by
  unfold sliceGet
  simp [h]

theorem field_append_right (a b : Bytes) (off k : Nat) (h : a.length ≤ off) :
    field (a ++ b) off k = field b (off - a.length) k := by
  unfold field
  rw [List.drop_append_of_le_length' h]
where
  List.drop_append_of_le_length' {a b : Bytes} {off : Nat} (h : a.length ≤ off) :
      (a ++ b).drop off = b.drop (off - a.length) := by
    rw [List.drop_append]; simp [List.drop_eq_nil_of_le h]

theorem field_append_left (a b : Bytes) (off k : Nat) (h : off + k ≤ a.length) :
    field (a ++ b) off k = field a off k := by
  unfold field
  rw [List.drop_append_of_le_length (by omega), List.take_append_of_le_length (by simp; omega)]

theorem field_toBE (k x : Nat) (rest : Bytes) (h : x < 256 ^ k) : field (toBE k x ++ rest) 0 k = x := by
  rw [field_append_left _ _ _ _ (by simp [toBE_length])]
  unfold field
  rw [List.drop_zero, List.take_of_length_le (by simp [toBE_length]), beValue_toBE_of_lt h]

theorem field_lt {b : Bytes} {off k : Nat} : field b off k < 256 ^ k := by
  unfold field
  refine lt_of_lt_of_le (beValue_lt _) ?_
  apply Nat.pow_le_pow_right (by decide)
  simp

end Verif
