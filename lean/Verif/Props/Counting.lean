import Verif.Props.Matrices
import Verif.Lemmas.F32

/-! # C83: matrices used as counters, for every entry type -/

namespace Verif.Props
open Verif Spec

/-- Increments of the given coordinates, in order. -/
def incs {T : Type} (l : List (Nat × Nat)) : List (NumOp T) := l.map fun p => .increment p.1 p.2

/-- Coordinates that a matrix can hold. -/
def Usable (c r : Nat) : Prop := c < 2 ^ 64 - 1 ∧ r < 2 ^ 64 - 1

instance (c r : Nat) : Decidable (Usable c r) := inferInstanceAs (Decidable (_ ∧ _))

/-- The abstract matrix holds `v k` where `k > 0` increments have happened, and nothing elsewhere. -/
def Holds {T : Type} (v : Nat → T) (n : Nat → Nat → Nat) (a : ANum T) : Prop :=
  ∀ c r, a.val c r = if n c r = 0 then none else some (v (n c r))

/-- How many usable increments of a coordinate the list has. -/
def times (l : List (Nat × Nat)) (c r : Nat) : Nat := if Usable c r then l.count (c, r) else 0

theorem times_cons (p : Nat × Nat) (l : List (Nat × Nat)) (c r : Nat) :
    times (p :: l) c r = (if Usable p.1 p.2 ∧ (c, r) = p then 1 else 0) + times l c r := by
  unfold times
  rw [List.count_cons]
  by_cases hu : Usable c r
  · rw [if_pos hu, if_pos hu]
    by_cases he : (c, r) = p
    · subst he
      have hu' : Usable (c, r).1 (c, r).2 ∧ (c, r) = (c, r) := ⟨hu, rfl⟩
      rw [if_pos hu']
      simp only [beq_self_eq_true, if_true]
      omega
    · have h2 : ¬ (Usable p.1 p.2 ∧ (c, r) = p) := fun h => he h.2
      have h3 : ¬ (p == (c, r)) = true := by rw [beq_iff_eq]; exact fun h => he h.symm
      rw [if_neg h2, if_neg h3]; omega
  · rw [if_neg hu, if_neg hu, if_neg]
    rintro ⟨h1, h2⟩
    rw [← h2] at h1
    exact hu h1

theorem times_le (l : List (Nat × Nat)) (c r : Nat) : times l c r ≤ l.count (c, r) := by
  unfold times
  by_cases h : Usable c r
  · rw [if_pos h]
  · rw [if_neg h]; exact Nat.zero_le _

theorem step_count {T : Type} {N : Numeric T} {P : Platform} {v : Nat → T} {K : Nat} (h1 : v 1 = N.one)
    (hadd : ∀ k, 1 ≤ k → k < K → N.addOne P (v k) = .ok (v (k + 1))) {n : Nat → Nat → Nat} {a : ANum T}
    (ha : Holds v n a) (p : Nat × Nat) (hK : Usable p.1 p.2 → n p.1 p.2 < K) :
    ∃ a', ANum.step N P a (.increment p.1 p.2) = .ok a' ∧
      Holds v (fun c r => n c r + if Usable p.1 p.2 ∧ (c, r) = p then 1 else 0) a' := by
  by_cases hu : Usable p.1 p.2
  · have hstep : ANum.step N P a (.increment p.1 p.2) =
        .ok (a.put p.1 p.2 (some (v (n p.1 p.2 + 1)))) := by
      unfold ANum.step
      have hu' : p.1 < 2 ^ 64 - 1 ∧ p.2 < 2 ^ 64 - 1 := hu
      simp only [if_pos hu', ha p.1 p.2]
      by_cases h0 : n p.1 p.2 = 0
      · simp only [if_pos h0]
        rw [h0, h1]
      · simp only [if_neg h0]
        rw [hadd _ (by omega) (hK hu)]
        rfl
    refine ⟨_, hstep, ?_⟩
    intro c r
    simp only [ANum.put]
    by_cases he : (c, r) = p
    · subst he
      have hu' : Usable (c, r).1 (c, r).2 ∧ (c, r) = (c, r) := ⟨hu, rfl⟩
      have hu2 : Usable c r := hu
      simp [hu2]
    · have h2 : ¬ (Usable p.1 p.2 ∧ (c, r) = p) := fun h => he h.2
      simp only [if_neg h2, Nat.add_zero]
      rw [if_neg he]
      exact ha c r
  · refine ⟨a, ?_, ?_⟩
    · have hu' : ¬ (p.1 < 2 ^ 64 - 1 ∧ p.2 < 2 ^ 64 - 1) := hu
      simp only [ANum.step, if_neg hu']
    · intro c r
      simp only [if_neg (fun h : Usable p.1 p.2 ∧ (c, r) = p => hu h.1), Nat.add_zero]
      exact ha c r

theorem run_count {T : Type} {N : Numeric T} {P : Platform} {v : Nat → T} {K : Nat} (h1 : v 1 = N.one)
    (hadd : ∀ k, 1 ≤ k → k < K → N.addOne P (v k) = .ok (v (k + 1))) (l : List (Nat × Nat)) :
    ∀ {n : Nat → Nat → Nat} {a : ANum T}, Holds v n a → (∀ c r, Usable c r → n c r + times l c r ≤ K) →
    ∃ a', Res.foldl (ANum.step N P) a (incs l) = .ok a' ∧ Holds v (fun c r => n c r + times l c r) a' := by
  induction l with
  | nil =>
    intro n a ha _
    refine ⟨a, rfl, ?_⟩
    intro c r
    have : times [] c r = 0 := by unfold times; simp
    simp only [this, Nat.add_zero]
    exact ha c r
  | cons p l ih =>
    intro n a ha hK
    obtain ⟨a', hs, ha'⟩ := step_count h1 hadd ha p (fun hu => by
      have := hK p.1 p.2 hu
      rw [times_cons, if_pos ⟨hu, rfl⟩] at this
      omega)
    obtain ⟨a'', hf, ha''⟩ := ih ha' (fun c r hu => by
      have := hK c r hu
      rw [times_cons] at this
      beta_reduce
      omega)
    refine ⟨a'', ?_, ?_⟩
    · change Res.bind (ANum.step N P a (.increment p.1 p.2)) (fun b => Res.foldl (ANum.step N P) b (incs l)) = _
      rw [hs]
      exact hf
    · intro c r
      rw [ha'' c r]
      simp only [times_cons, Nat.add_assoc]

theorem run_count_panic {T : Type} {N : Numeric T} {P : Platform} {v : Nat → T} {K : Nat} (h1 : v 1 = N.one)
    (hadd : ∀ k, 1 ≤ k → k < K → N.addOne P (v k) = .ok (v (k + 1))) (hK1 : 1 ≤ K) (hpanic : N.addOne P (v K) = .panic)
    (l : List (Nat × Nat)) :
    ∀ {n : Nat → Nat → Nat} {a : ANum T}, Holds v n a → (∀ c r, n c r ≤ K) → (∃ c r, K < n c r + times l c r) →
    Res.foldl (ANum.step N P) a (incs l) = .panic := by
  induction l with
  | nil =>
    rintro n a _ hle ⟨c, r, h⟩
    have : times [] c r = 0 := by unfold times; simp
    have := hle c r
    omega
  | cons p l ih =>
    rintro n a ha hle ⟨c, r, h⟩
    change Res.bind (ANum.step N P a (.increment p.1 p.2)) (fun b => Res.foldl (ANum.step N P) b (incs l)) = _
    by_cases hK : Usable p.1 p.2 → n p.1 p.2 < K
    · obtain ⟨a', hs, ha'⟩ := step_count h1 hadd ha p hK
      rw [hs]
      refine ih ha' ?_ ⟨c, r, ?_⟩
      · intro c r
        beta_reduce
        by_cases he : Usable p.1 p.2 ∧ (c, r) = p
        · rw [if_pos he]
          have h2 := hK he.1
          rw [← he.2] at h2
          exact h2
        · rw [if_neg he]; exact hle c r
      · rw [times_cons] at h
        beta_reduce
        omega
    · push Not at hK
      obtain ⟨hu, hge⟩ := hK
      have hn : n p.1 p.2 = K := le_antisymm (hle _ _) hge
      have : ANum.step N P a (.increment p.1 p.2) = .panic := by
        unfold ANum.step
        have hu' : p.1 < 2 ^ 64 - 1 ∧ p.2 < 2 ^ 64 - 1 := hu
        simp only [if_pos hu', ha p.1 p.2, hn]
        rw [if_neg (by omega)]
        simp only [hpanic]
        rfl
      rw [this]
      rfl

/-- From the abstract matrix to the one of the code. -/
theorem count_ok {T : Type} {N : Numeric T} {P : Platform} {v : Nat → T} {K : Nat} (h1 : v 1 = N.one) (h0 : v 0 = N.zero)
    (hadd : ∀ k, 1 ≤ k → k < K → N.addOne P (v k) = .ok (v (k + 1))) (l : List (Nat × Nat))
    (hK : ∀ c r, Usable c r → times l c r ≤ K) :
    ∃ m, runNum N P (incs l) = .ok m ∧ (∀ c r, m.getEntry N c r = v (times l c r)) ∧
      m.entryCount = (l.toFinset.filter fun p => Usable p.1 p.2).card := by
  obtain ⟨a, ha, hh⟩ := run_count (P := P) h1 hadd l (n := fun _ _ => 0) (a := ⟨0, fun _ _ => none⟩) (fun _ _ => rfl)
    (fun c r hu => by simpa using hK c r hu)
  have hrel := runNum_rel N P (incs l)
  have ha' : ANum.run N P (incs l) = .ok a := ha
  rw [ha'] at hrel
  cases hm : runNum N P (incs l) with
  | err e => rw [hm] at hrel; exact hrel.elim
  | panic => rw [hm] at hrel; exact hrel.elim
  | ok m =>
    rw [hm] at hrel
    have hag := hrel.agrees N
    refine ⟨m, rfl, ?_, ?_⟩
    · intro c r
      rw [hag.entry, hh c r]
      simp only [Nat.zero_add]
      split
      · next h => rw [h, h0]; rfl
      · rfl
    · obtain ⟨S, hS, hc⟩ := hag.count
      rw [hc]
      congr 1
      ext ⟨c, r⟩
      rw [hS, hh c r]
      simp only [Nat.zero_add, Finset.mem_filter, List.mem_toFinset, ne_eq, ite_eq_left_iff, reduceCtorEq, imp_false,
        not_not]
      unfold times
      by_cases hu : Usable c r
      · rw [if_pos hu]
        rw [List.count_eq_zero, not_not]
        simp [hu]
      · rw [if_neg hu]
        simp [hu]

theorem count_panic {T : Type} {N : Numeric T} {P : Platform} {v : Nat → T} {K : Nat} (h1 : v 1 = N.one)
    (hadd : ∀ k, 1 ≤ k → k < K → N.addOne P (v k) = .ok (v (k + 1))) (hK1 : 1 ≤ K) (hpanic : N.addOne P (v K) = .panic)
    (l : List (Nat × Nat)) (hK : ∃ c r, K < times l c r) : runNum N P (incs l) = .panic := by
  have h := run_count_panic (P := P) h1 hadd hK1 hpanic l (n := fun _ _ => 0) (a := ⟨0, fun _ _ => none⟩)
    (fun _ _ => rfl) (fun _ _ => Nat.zero_le _) (by simpa using hK)
  have hrel := runNum_rel N P (incs l)
  have h' : ANum.run N P (incs l) = .panic := h
  rw [h'] at hrel
  cases hm : runNum N P (incs l) with
  | err e => rw [hm] at hrel; exact hrel.elim
  | panic => rfl
  | ok m => rw [hm] at hrel; exact hrel.elim

/-! ## The entry types -/

/-- **C83, `f64`.** Counting in an `f64` matrix is exact up to `2^53` increments of one entry; further increments change
nothing. -/
theorem C83_count_f64 (P : Platform) (l : List (Nat × Nat)) :
    ∃ m, runNum f64Numeric P (incs l) = .ok m ∧
      (∀ c r, c < 2 ^ 64 - 1 → r < 2 ^ 64 - 1 →
        m.getEntry f64Numeric c r = .fin ((min (l.count (c, r)) (2 ^ 53) : ℕ) : ℚ)) ∧
      m.entryCount = (l.toFinset.filter fun p => p.1 < 2 ^ 64 - 1 ∧ p.2 < 2 ^ 64 - 1).card := by
  have hone : F64.lit 1 = .fin 1 := F64.lit_one
  obtain ⟨m, hm, hv, hc⟩ := count_ok (N := f64Numeric) (P := P) (v := fun k => .fin ((min k (2 ^ 53) : ℕ) : ℚ))
    (K := l.length) (by
      change F64.fin ((1 : ℕ) : ℚ) = F64.lit 1
      rw [hone]; norm_num) (by
      change F64.fin ((0 : ℕ) : ℚ) = F64.lit 0
      rw [F64.lit_zero]; norm_num) (by
      intro k _ _
      change Res.ok (F64.add _ (F64.lit 1)) = _
      rw [hone]
      change Res.ok (F64.rnd _) = _
      have hcast : ((min k (2 ^ 53) : ℕ) : ℚ) + 1 = ((min k (2 ^ 53) + 1 : ℕ) : ℚ) := by push_cast; rfl
      rw [hcast]
      congr 1
      by_cases h : k + 1 ≤ 2 ^ 53
      · rw [Nat.min_eq_left (by omega), Nat.min_eq_left h]
        exact F64.ofNat_eq h
      · rw [Nat.min_eq_right (by omega), Nat.min_eq_right (by omega)]
        decide +kernel) l (by
      intro c r _
      exact (times_le l c r).trans List.count_le_length)
  refine ⟨m, hm, ?_, hc⟩
  intro c r h1 h2
  rw [hv c r]
  unfold times
  rw [if_pos ⟨h1, h2⟩]

/-- **C83, `f32`.** Counting in an `f32` matrix is exact up to `2^24` increments of one entry; further increments change
nothing. -/
theorem C83_count_f32 (P : Platform) (l : List (Nat × Nat)) :
    ∃ m, runNum f32Numeric P (incs l) = .ok m ∧
      (∀ c r, c < 2 ^ 64 - 1 → r < 2 ^ 64 - 1 →
        m.getEntry f32Numeric c r = .fin ((min (l.count (c, r)) (2 ^ 24) : ℕ) : ℚ)) ∧
      m.entryCount = (l.toFinset.filter fun p => p.1 < 2 ^ 64 - 1 ∧ p.2 < 2 ^ 64 - 1).card := by
  obtain ⟨m, hm, hv, hc⟩ := count_ok (N := f32Numeric) (P := P) (v := fun k => .fin ((min k (2 ^ 24) : ℕ) : ℚ))
    (K := l.length) (by
      change F64.fin ((1 : ℕ) : ℚ) = F32.rnd 1
      rw [F32.one_eq]; norm_num) (by
      change F64.fin ((0 : ℕ) : ℚ) = F32.rnd 0
      rw [F32.zero_eq]; norm_num) (by
      intro k _ _
      exact congrArg Res.ok (F32.add_one k)) l (by
      intro c r _
      exact (times_le l c r).trans List.count_le_length)
  refine ⟨m, hm, ?_, hc⟩
  intro c r h1 h2
  rw [hv c r]
  unfold times
  rw [if_pos ⟨h1, h2⟩]

/-- **C83, unsigned integers** (`u8`…`u128`, largest value `max`). If no entry is incremented more than `max` times the
counts are exact; otherwise a debug build panics and a release build counts modulo `max + 1`. -/
theorem C83_count_unsigned (P : Platform) (max : Nat) (hmax : 1 ≤ max) (l : List (Nat × Nat)) :
    ((∀ c r, l.count (c, r) ≤ max) ∨ P.profile = .release →
      ∃ m, runNum (uintFmt max).toNumeric P (incs l) = .ok m ∧
        (∀ c r, c < 2 ^ 64 - 1 → r < 2 ^ 64 - 1 →
          m.getEntry (uintFmt max).toNumeric c r = l.count (c, r) % (max + 1)) ∧
        m.entryCount = (l.toFinset.filter fun p => p.1 < 2 ^ 64 - 1 ∧ p.2 < 2 ^ 64 - 1).card) ∧
    (P.profile = .debug → (∃ c r, c < 2 ^ 64 - 1 ∧ r < 2 ^ 64 - 1 ∧ max < l.count (c, r)) →
      runNum (uintFmt max).toNumeric P (incs l) = .panic) := by
  have hlow : ∀ k, 1 ≤ k → k < max → (uintFmt max).toNumeric.addOne P (k % (max + 1)) = .ok ((k + 1) % (max + 1)) := by
    intro k _ hk
    change P.wrapTo max (k % (max + 1) + 1) = _
    rw [Nat.mod_eq_of_lt (by omega), Nat.mod_eq_of_lt (by omega)]
    unfold Platform.wrapTo
    rw [if_pos (by omega)]
  have h1 : 1 % (max + 1) = (uintFmt max).toNumeric.one := Nat.mod_eq_of_lt (by omega)
  have hle := times_le l
  refine ⟨fun h => ?_, fun hd => ?_⟩
  · have key : ∃ K, (∀ k, 1 ≤ k → k < K → (uintFmt max).toNumeric.addOne P (k % (max + 1)) =
        .ok ((k + 1) % (max + 1))) ∧ ∀ c r, Usable c r → times l c r ≤ K := by
      rcases h with h | h
      · exact ⟨max, hlow, fun c r _ => (hle c r).trans (h c r)⟩
      · refine ⟨l.length, ?_, fun c r _ => (hle c r).trans List.count_le_length⟩
        intro k _ _
        change P.wrapTo max (k % (max + 1) + 1) = _
        unfold Platform.wrapTo
        rw [h]
        split
        · next hs =>
          rw [Nat.add_mod, Nat.mod_eq_of_lt (a := 1) (by omega), Nat.mod_eq_of_lt (a := k % (max + 1) + 1) (by omega)]
        · simp only
          rw [Nat.add_mod k 1, Nat.mod_eq_of_lt (a := 1) (by omega)]
    obtain ⟨K, hadd, hK⟩ := key
    obtain ⟨m, hm, hv, hc⟩ := count_ok (N := (uintFmt max).toNumeric) (P := P) (v := fun k => k % (max + 1)) h1
      (Nat.zero_mod _) hadd l hK
    refine ⟨m, hm, ?_, hc⟩
    intro c r h1 h2
    rw [hv c r]
    unfold times
    rw [if_pos ⟨h1, h2⟩]
  · rintro ⟨c, r, hc, hr, hlt⟩
    refine count_panic (N := (uintFmt max).toNumeric) (P := P) (v := fun k => k % (max + 1)) (K := max) h1 hlow hmax ?_ l
      ⟨c, r, by unfold times; rw [if_pos ⟨hc, hr⟩]; exact hlt⟩
    change P.wrapTo max (max % (max + 1) + 1) = _
    unfold Platform.wrapTo
    rw [Nat.mod_eq_of_lt (by omega), if_neg (by omega), hd]

/-- **C83, signed integers** (`i8`…`i128`, largest value `max`). As for unsigned ones; a release build wraps from `max` to
`-max - 1`. -/
theorem C83_count_signed (P : Platform) (max : Nat) (hmax : 1 ≤ max) (dec : Bool) (l : List (Nat × Nat)) :
    ((∀ c r, l.count (c, r) ≤ max) ∨ P.profile = .release →
      ∃ m, runNum (sintFmt max dec).toNumeric P (incs l) = .ok m ∧
        (∀ c r, c < 2 ^ 64 - 1 → r < 2 ^ 64 - 1 →
          m.getEntry (sintFmt max dec).toNumeric c r =
            ((l.count (c, r) : Int) + max + 1) % (2 * max + 2) - max - 1) ∧
        m.entryCount = (l.toFinset.filter fun p => p.1 < 2 ^ 64 - 1 ∧ p.2 < 2 ^ 64 - 1).card) ∧
    (P.profile = .debug → (∃ c r, c < 2 ^ 64 - 1 ∧ r < 2 ^ 64 - 1 ∧ max < l.count (c, r)) →
      runNum (sintFmt max dec).toNumeric P (incs l) = .panic) := by
  have hsmall : ∀ k : Nat, k ≤ max → ((k : Int) + max + 1) % (2 * max + 2) - max - 1 = k := by
    intro k hk
    rw [Int.emod_eq_of_lt (by omega) (by omega)]; omega
  have hlow : ∀ k : Nat, 1 ≤ k → k < max → (sintFmt max dec).toNumeric.addOne P
      (((k : Int) + max + 1) % (2 * max + 2) - max - 1) =
      .ok ((((k + 1 : Nat) : Int) + max + 1) % (2 * max + 2) - max - 1) := by
    intro k _ hk
    rw [hsmall k (by omega), hsmall (k + 1) (by omega)]
    change (if (k : Int) + 1 ≤ (max : Int) then _ else _) = _
    rw [if_pos (by omega)]
    push_cast
    rfl
  have h1 : (((1 : Nat) : Int) + max + 1) % (2 * max + 2) - max - 1 = (sintFmt max dec).toNumeric.one :=
    hsmall 1 hmax
  have h0 : (((0 : Nat) : Int) + max + 1) % (2 * max + 2) - max - 1 = (sintFmt max dec).toNumeric.zero :=
    hsmall 0 (by omega)
  have hle := times_le l
  refine ⟨fun h => ?_, fun hd => ?_⟩
  · have key : ∃ K, (∀ k : Nat, 1 ≤ k → k < K → (sintFmt max dec).toNumeric.addOne P
        (((k : Int) + max + 1) % (2 * max + 2) - max - 1) =
        .ok ((((k + 1 : Nat) : Int) + max + 1) % (2 * max + 2) - max - 1)) ∧
        ∀ c r, Usable c r → times l c r ≤ K := by
      rcases h with h | h
      · exact ⟨max, hlow, fun c r _ => (hle c r).trans (h c r)⟩
      · refine ⟨l.length, ?_, fun c r _ => (hle c r).trans List.count_le_length⟩
        intro k _ _
        have hp : (0 : Int) < 2 * max + 2 := by omega
        have hb1 := Int.emod_nonneg ((k : Int) + max + 1) (ne_of_gt hp)
        have hb2 := Int.emod_lt_of_pos ((k : Int) + max + 1) hp
        have hs : (((k + 1 : Nat) : Int) + max + 1) % (2 * max + 2) =
            (((k : Int) + max + 1) % (2 * max + 2) + 1) % (2 * max + 2) := by
          rw [Int.emod_add_emod]
          congr 1
          push_cast
          ring
        rw [hs]
        generalize ((k : Int) + max + 1) % (2 * max + 2) = x at hb1 hb2
        change (if (x - max - 1) + 1 ≤ (max : Int) then _ else _) = _
        rw [h]
        split
        · rw [Int.emod_eq_of_lt (by omega) (by omega)]
          congr 1
          omega
        · have : x + 1 = 2 * max + 2 := by omega
          rw [this, Int.emod_self]
          simp only
          congr 1
          omega
    obtain ⟨K, hadd, hK⟩ := key
    obtain ⟨m, hm, hv, hc⟩ := count_ok (N := (sintFmt max dec).toNumeric) (P := P)
      (v := fun k : Nat => ((k : Int) + max + 1) % (2 * max + 2) - max - 1) h1 h0 hadd l hK
    refine ⟨m, hm, ?_, hc⟩
    intro c r h1 h2
    rw [hv c r]
    unfold times
    rw [if_pos ⟨h1, h2⟩]
  · rintro ⟨c, r, hc, hr, hlt⟩
    refine count_panic (N := (sintFmt max dec).toNumeric) (P := P)
      (v := fun k : Nat => ((k : Int) + max + 1) % (2 * max + 2) - max - 1) (K := max) h1 hlow hmax ?_ l
      ⟨c, r, by unfold times; rw [if_pos ⟨hc, hr⟩]; exact hlt⟩
    rw [hsmall max (le_refl _)]
    change (if (max : Int) + 1 ≤ (max : Int) then _ else _) = _
    rw [if_neg (by omega), hd]

/-- C83 on a small type: the fourth increment of an entry whose largest value is 3 panics (debug) or wraps (release). -/
example : ([(0, 0), (0, 0), (5, 1), (0, 0), (0, 0)] : List (Nat × Nat)).count (0, 0) = 4 ∧
    runNum (uintFmt 3).toNumeric exP (incs [(0, 0), (0, 0), (5, 1), (0, 0)]) ≠ .panic ∧
    runNum (uintFmt 3).toNumeric exP (incs [(0, 0), (0, 0), (5, 1), (0, 0), (0, 0)]) = .panic := by
  refine ⟨by decide, ?_, ?_⟩
  · obtain ⟨m, hm, _⟩ := (C83_count_unsigned exP 3 (by norm_num) [(0, 0), (0, 0), (5, 1), (0, 0)]).1 (.inl (by
      intro c r
      by_cases h0 : (5, 1) = (c, r)
      · rw [← h0]; decide
      · have h1 : ((5, 1) == (c, r)) = false := by simpa using h0
        rw [List.count_cons, List.count_cons, List.count_cons, h1]
        simp only [Bool.false_eq_true, if_false, List.count_cons, List.count_nil]
        split <;> omega))
    rw [hm]; simp
  · exact (C83_count_unsigned exP 3 (by norm_num) _).2 rfl ⟨0, 0, by norm_num, by norm_num, by decide⟩

end Verif.Props
