import Verif.Spec.Matrix
import Verif.Props.Codec
import Verif.Lemmas.Reach
import Verif.Lemmas.SqMatrix

/-!
# Histories of the two sparse matrix types: C52–C55
-/

namespace Verif.Props
open Verif Spec

theorem u64_lt_iff (x : Nat) : x < 2 ^ 64 - 1 ↔ x < U64_MAX := by
  unfold U64_MAX; norm_num

/-! ## C52 -/

theorem runBits_agrees (h : List BitOp) :
    (runBits h).WF ∧ (runBits h).dimension = (ABits.run h).dim ∧ (runBits h).pairs = (ABits.run h).S := by
  unfold runBits ABits.run
  induction h using List.reverseRecOn with
  | nil => exact ⟨AdjMatrix.WF.new, rfl, rfl⟩
  | append_singleton h op ih =>
    rw [List.foldl_append, List.foldl_append]
    simp only [List.foldl_cons, List.foldl_nil]
    generalize List.foldl BitOp.call AdjMatrix.new h = m at ih
    generalize List.foldl ABits.step ⟨0, ∅⟩ h = a at ih
    obtain ⟨hw, hd, hp⟩ := ih
    cases op with
    | set e c r =>
      simp only [BitOp.call, ABits.step]
      refine ⟨hw.setEntry e c r, ?_, ?_⟩
      · by_cases hb : c < U64_MAX ∧ r < U64_MAX
        · rw [AdjMatrix.setEntry_dimension hb.1 hb.2, if_pos (by simpa only [u64_lt_iff] using hb), hd]
          simp only; omega
        · rw [AdjMatrix.setEntry_overflow hb, if_neg (by simpa only [u64_lt_iff] using hb), hd]
      · by_cases hb : c < U64_MAX ∧ r < U64_MAX
        · rw [if_pos (by simpa only [u64_lt_iff] using hb)]
          by_cases he : e = 0
          · subst he
            rw [AdjMatrix.setEntry_zero hb.1 hb.2]
            simp only [if_true]
            exact hp
          · rw [AdjMatrix.setEntry_pairs he hb.1 hb.2, hp]
            simp only [if_neg he]
            ext p; simp [or_comm]
        · rw [AdjMatrix.setEntry_overflow hb, if_neg (by simpa only [u64_lt_iff] using hb), hp]
    | zero c r =>
      simp only [BitOp.call, ABits.step]
      refine ⟨hw.zeroEntry c r, ?_, ?_⟩
      · rw [AdjMatrix.zeroEntry_dimension, hd]
      · rw [AdjMatrix.zeroEntry_pairs, hp]
        ext p; simp [and_comm]

/-- **C52.** After any history of `set_entry` and `zero_entry` every query of a `CsrAdjacencyMatrix` gives the
answer of an abstract set of coordinates with a dimension. -/
theorem C52_adjacency_matrix_history (h : List BitOp) :
    let m := runBits h
    let a := ABits.run h
    m.dimension = a.dim ∧ m.entryCount = a.S.card ∧
    (∀ c r, m.getEntry c r = if (c, r) ∈ a.S then 1 else 0) ∧
    (∀ o c, (m.getSparseColVector o c).Nodup ∧ ∀ r, r ∈ m.getSparseColVector o c ↔ (c, r) ∈ a.S) ∧
    (∀ o r, (m.getSparseRowVector o r).Nodup ∧ ∀ c, c ∈ m.getSparseRowVector o r ↔ (c, r) ∈ a.S) ∧
    (∀ c, m.colNonzeroEntryCount c = (a.S.filter fun p => p.1 = c).card) ∧
    (∀ r, m.rowNonzeroEntryCount r = (a.S.filter fun p => p.2 = r).card) ∧
    (∀ o, (m.items o).Nodup ∧ ∀ p, p ∈ m.items o ↔ p ∈ a.S) := by
  obtain ⟨hw, hd, hp⟩ := runBits_agrees h
  refine ⟨hd, by rw [hw.count, hp], fun c r => by rw [AdjMatrix.getEntry_eq, hp],
    fun o c => ⟨AdjMatrix.getSparseColVector_nodup _ o c, fun r => by rw [AdjMatrix.mem_getSparseColVector, hp]⟩,
    fun o r => ⟨AdjMatrix.getSparseRowVector_nodup _ o r, fun c => by rw [AdjMatrix.mem_getSparseRowVector, hp]⟩,
    fun c => by rw [AdjMatrix.colNonzeroEntryCount_eq, hp],
    fun r => by rw [AdjMatrix.rowNonzeroEntryCount_eq, hp],
    fun o => ⟨AdjMatrix.items_nodup hw o, fun p => by rw [AdjMatrix.mem_items hw, hp]⟩⟩

/-- **C52**, one call: a non-zero `set_entry` at usable indices reads back as 1, leaves every other entry
alone and makes the matrix just large enough. -/
theorem C52_set_reads_back (h : List BitOp) (e c r : Nat) (he : e ≠ 0) (hc : c < 2 ^ 64 - 1)
    (hr : r < 2 ^ 64 - 1) :
    let m := runBits h
    (m.setEntry e c r).getEntry c r = 1 ∧
    (∀ c' r', (c', r') ≠ (c, r) → (m.setEntry e c r).getEntry c' r' = m.getEntry c' r') ∧
    (m.setEntry e c r).dimension = max m.dimension (max c r + 1) := by
  rw [u64_lt_iff] at hc hr
  refine ⟨?_, ?_, ?_⟩
  · rw [AdjMatrix.getEntry_eq, AdjMatrix.setEntry_pairs he hc hr]; simp
  · intro c' r' hne
    rw [AdjMatrix.getEntry_eq, AdjMatrix.getEntry_eq, AdjMatrix.setEntry_pairs he hc hr]
    simp [Finset.mem_insert, hne]
  · rw [AdjMatrix.setEntry_dimension hc hr]; omega

/-- The history of C52 on a concrete case: two ones, one of them erased, one growing zero, one ignored. -/
example : (runBits [.set 1 2 0, .set 7 1 1, .zero 2 0, .set 0 4 3, .set 1 (2 ^ 64 - 1) 0]).dimension = 5 ∧
    (runBits [.set 1 2 0, .set 7 1 1, .zero 2 0, .set 0 4 3, .set 1 (2 ^ 64 - 1) 0]).entryCount = 1 ∧
    (runBits [.set 1 2 0, .set 7 1 1, .zero 2 0, .set 0 4 3]).getEntry 1 1 = 1 := by decide +kernel

example : (3 : Nat) ≠ 0 ∧ 5 < 2 ^ 64 - 1 ∧ 6 < 2 ^ 64 - 1 := by norm_num

/-! ## C53 -/

/-- **C53** as documented, for the 0/1 matrix: what was set (0 or non-zero) is read back. -/
def C53_adj_full : Prop :=
  ∀ (h : List BitOp) (e c r : Nat), c < 2 ^ 64 - 1 → r < 2 ^ 64 - 1 →
    ((runBits h).setEntry e c r).getEntry c r = if e = 0 then 0 else 1

/-- **C53** as documented, for `i64` entries. -/
def C53_square_full : Prop :=
  ∀ (P : Platform) (h : List (NumOp Int)) (m : SqMatrix Int) (x : Int) (c r : Nat),
    runNum (sintFmt (2 ^ 63 - 1) false).toNumeric P h = .ok m → c < 2 ^ 64 - 1 → r < 2 ^ 64 - 1 →
    (m.setEntry (sintFmt (2 ^ 63 - 1) false).toNumeric x c r).getEntry
      (sintFmt (2 ^ 63 - 1) false).toNumeric c r = x

/-- The documented behaviour fails for the 0/1 matrix: setting 0 over a 1 keeps the 1. -/
theorem C53_adj_full_false : ¬ C53_adj_full := by
  intro h
  exact absurd (h [.set 1 0 0] 0 0 0 (by norm_num) (by norm_num)) (by decide +kernel)

/-- The documented behaviour fails for numeric matrices: setting 0 over a 5 keeps the 5. -/
theorem C53_square_full_false : ¬ C53_square_full := by
  intro h
  exact absurd (h ⟨2 ^ 64 - 1, fun _ => true, .debug, 65535⟩ [.set 5 0 0] _ 0 0 0 rfl (by norm_num) (by norm_num))
    (by decide +kernel)

/-- **C53**, the exact rule for the 0/1 matrix (the claim in full is false): after `set_entry` the entry is 1 if the value is not 0,
and is what it was before if the value is 0. -/
theorem C53_adj_partial (h : List BitOp) (e c r : Nat) (hc : c < 2 ^ 64 - 1) (hr : r < 2 ^ 64 - 1) :
    (e ≠ 0 → ((runBits h).setEntry e c r).getEntry c r = 1) ∧
    (e = 0 → ((runBits h).setEntry e c r).getEntry c r = (runBits h).getEntry c r) ∧
    ∀ c' r', (c', r') ≠ (c, r) → ((runBits h).setEntry e c r).getEntry c' r' = (runBits h).getEntry c' r' := by
  rw [u64_lt_iff] at hc hr
  refine ⟨fun h0 => ?_, fun h0 => ?_, fun c' r' hne => ?_⟩
  · rw [AdjMatrix.getEntry_eq, AdjMatrix.setEntry_pairs h0 hc hr]; simp
  · subst h0
    rw [AdjMatrix.setEntry_zero hc hr]
    rfl
  · by_cases h0 : e = 0
    · subst h0
      rw [AdjMatrix.setEntry_zero hc hr]
      rfl
    · rw [AdjMatrix.getEntry_eq, AdjMatrix.getEntry_eq, AdjMatrix.setEntry_pairs h0 hc hr]
      have : (c', r') ∈ insert (c, r) (runBits h).pairs ↔ (c', r') ∈ (runBits h).pairs := by
        rw [Finset.mem_insert, or_iff_right hne]
      simp only [this]

/-- Both cases occur: a 1 stays when 0 is set, and a 0 becomes 1. -/
example : ((runBits [.set 1 0 0]).setEntry 0 0 0).getEntry 0 0 = 1 ∧ ((runBits [.set 1 0 0]).setEntry 7 1 0).getEntry 1 0 = 1 := by
  decide +kernel

/-- **C53**, the part that holds, numeric matrix over any entry type: a value different from zero (also a NaN)
is read back; a zero is read back as zero if nothing was stored.  No other entry changes.
Missing: value 0 over a stored entry. -/
theorem C53_square_partial {T : Type} (N : Numeric T) (m : SqMatrix T) (x : T) (c r : Nat)
    (hc : c < 2 ^ 64 - 1) (hr : r < 2 ^ 64 - 1) :
    (N.eq x N.zero = false → (m.setEntry N x c r).getEntry N c r = x) ∧
    (N.eq x N.zero = true → (m.setEntry N x c r).getEntry N c r = m.getEntry N c r) ∧
    ∀ c' r', (c', r') ≠ (c, r) → (m.setEntry N x c r).getEntry N c' r' = m.getEntry N c' r' := by
  rw [u64_lt_iff] at hc hr
  refine ⟨?_, ?_, ?_⟩
  · intro hx
    rw [SqMatrix.getEntry_eq, SqMatrix.setEntry_at hc hr hx]; simp
  · intro hx
    rw [SqMatrix.setEntry_zero hc hr hx]; rfl
  · intro c' r' hne
    cases hx : N.eq x N.zero with
    | true => rw [SqMatrix.setEntry_zero hc hr hx]; rfl
    | false =>
      rw [SqMatrix.getEntry_eq, SqMatrix.getEntry_eq, SqMatrix.setEntry_at hc hr hx, if_neg]
      rintro ⟨rfl, rfl⟩
      exact hne rfl

example : (uintFmt 255).eq 7 (uintFmt 255).zero = false := rfl

/-! ## C54 -/

/-- The relation kept by every call. -/
structure NumRel {T : Type} (m : SqMatrix T) (a : ANum T) : Prop where
  wf : m.WF
  dim : m.dimension = a.dim
  at_eq : ∀ c r, m.at? c r = a.val c r

/-- Two outcomes correspond: both succeed with related values, or both panic, or both fail alike. -/
def ResRel {α β : Type} (R : α → β → Prop) : Res α → Res β → Prop
  | .ok a, .ok b => R a b
  | .panic, .panic => True
  | .err e, .err e' => e = e'
  | _, _ => False

theorem map_bind {α β : Type} (f : α → β) (x : Res α) : x.map f = x.bind fun a => .ok (f a) := by
  cases x <;> rfl

theorem numStep_rel {T : Type} (N : Numeric T) (P : Platform) {m : SqMatrix T} {a : ANum T} (h : NumRel m a)
    (op : NumOp T) : ResRel NumRel (NumOp.call N P m op) (ANum.step N P a op) := by
  have hiff : ∀ c r : Nat, (c < 2 ^ 64 - 1 ∧ r < 2 ^ 64 - 1) ↔ (c < U64_MAX ∧ r < U64_MAX) := by
    intro c r; rw [u64_lt_iff, u64_lt_iff]
  cases op with
  | set x c r =>
    simp only [NumOp.call, ANum.step]
    by_cases hb : c < U64_MAX ∧ r < U64_MAX
    · rw [if_pos ((hiff c r).2 hb)]
      refine ⟨h.wf.setEntry N x c r, ?_, ?_⟩
      · rw [SqMatrix.setEntry_dimension hb.1 hb.2, h.dim]; simp only [ANum.put]; omega
      · intro c' r'
        cases hx : N.eq x N.zero with
        | true =>
          rw [SqMatrix.setEntry_zero hb.1 hb.2 hx]
          simp only [ANum.put, Prod.mk.injEq, if_true]
          by_cases he : c' = c ∧ r' = r
          · obtain ⟨rfl, rfl⟩ := he
            simpa using h.at_eq c' r'
          · rw [if_neg he]; exact h.at_eq c' r'
        | false =>
          rw [SqMatrix.setEntry_at hb.1 hb.2 hx]
          simp only [ANum.put, Prod.mk.injEq, h.at_eq, Bool.false_eq_true, if_false]
    · rw [if_neg (fun hh => hb ((hiff c r).1 hh)), SqMatrix.setEntry_overflow hb]
      exact h
  | zero c r =>
    simp only [NumOp.call, ANum.step]
    refine ⟨h.wf.zeroEntry c r, ?_, ?_⟩
    · rw [SqMatrix.zeroEntry_dimension, h.dim]
    · intro c' r'
      rw [SqMatrix.zeroEntry_at]
      simp only [Prod.mk.injEq, h.at_eq]
  | increment c r =>
    simp only [NumOp.call, ANum.step]
    by_cases hb : c < U64_MAX ∧ r < U64_MAX
    · rw [if_pos ((hiff c r).2 hb)]
      have hput : ∀ m' y, m.incrementEntry N P c r = .ok m' → SqMatrix.incValue N P (m.at? c r) = .ok y →
          NumRel m' (a.put c r (some y)) := by
        intro m' y hm hy
        obtain ⟨e', he', hat, hd, _⟩ := SqMatrix.incrementEntry_ok hb.1 hb.2 hm
        rw [hy] at he'
        cases he'
        refine ⟨h.wf.incrementEntry hm, ?_, ?_⟩
        · rw [hd, h.dim]; simp only [ANum.put]; omega
        · intro c' r'
          rw [hat]
          simp only [ANum.put, Prod.mk.injEq, h.at_eq]
      rw [← h.at_eq c r]
      have hg2 : ((m.edgesTable.get? c).getD HMap.empty).get? r = m.at? c r := SqMatrix.get2_getD' _ _ _
      cases hat : m.at? c r with
      | none =>
        have hm : ∃ m', m.incrementEntry N P c r = .ok m' := by
          unfold SqMatrix.incrementEntry
          rw [AdjMatrix.checkedAdd_one, AdjMatrix.checkedAdd_one]
          simp only [hb.1, hb.2, if_true, hg2, hat]
          exact ⟨_, rfl⟩
        obtain ⟨m', hm⟩ := hm
        rw [hm]
        exact hput m' _ hm (by rw [hat]; rfl)
      | some e =>
        cases hadd : N.addOne P e with
        | ok y =>
          have hm : ∃ m', m.incrementEntry N P c r = .ok m' := by
            unfold SqMatrix.incrementEntry
            rw [AdjMatrix.checkedAdd_one, AdjMatrix.checkedAdd_one]
            simp only [hb.1, hb.2, if_true, hg2, hat, hadd]
            exact ⟨_, rfl⟩
          obtain ⟨m', hm⟩ := hm
          rw [hm]
          simp only [Res.map, hadd]
          exact hput m' _ hm (by rw [hat]; exact hadd)
        | err e' =>
          have hm : m.incrementEntry N P c r = .err e' := by
            unfold SqMatrix.incrementEntry
            rw [AdjMatrix.checkedAdd_one, AdjMatrix.checkedAdd_one]
            simp only [hb.1, hb.2, if_true, hg2, hat, hadd]
            rfl
          rw [hm]
          simp only [Res.map, hadd, ResRel]
        | panic =>
          have hm : m.incrementEntry N P c r = .panic := by
            unfold SqMatrix.incrementEntry
            rw [AdjMatrix.checkedAdd_one, AdjMatrix.checkedAdd_one]
            simp only [hb.1, hb.2, if_true, hg2, hat, hadd]
            rfl
          rw [hm]
          simp only [Res.map, hadd, ResRel]
    · rw [if_neg (fun hh => hb ((hiff c r).1 hh)), SqMatrix.incrementEntry_overflow hb]
      exact h

theorem runNum_rel_from {T : Type} (N : Numeric T) (P : Platform) (h : List (NumOp T)) :
    ∀ {m : SqMatrix T} {a : ANum T}, NumRel m a →
      ResRel NumRel (Res.foldl (NumOp.call N P) m h) (Res.foldl (ANum.step N P) a h) := by
  induction h with
  | nil => intro m a hr; exact hr
  | cons op l ih =>
    intro m a hr
    have hs := numStep_rel N P hr op
    simp only [Res.foldl]
    revert hs
    cases NumOp.call N P m op <;> cases ANum.step N P a op <;> intro hs <;>
      simp only [ResRel] at hs <;> simp only [Res.bind, ResRel]
    · exact ih hs
    · exact hs

theorem runNum_rel {T : Type} (N : Numeric T) (P : Platform) (h : List (NumOp T)) :
    ResRel NumRel (runNum N P h) (ANum.run N P h) :=
  runNum_rel_from N P h ⟨SqMatrix.WF.new, rfl, fun _ _ => rfl⟩

theorem NumRel.agrees {T : Type} (N : Numeric T) {m : SqMatrix T} {a : ANum T} (h : NumRel m a) :
    NumAgrees N m a := by
  refine ⟨h.dim, ?_, ⟨m.keys, ?_, h.wf.count⟩, ?_, ?_⟩
  · intro c r; rw [SqMatrix.getEntry_eq, h.at_eq]
  · intro c r
    rw [SqMatrix.mem_keys, Option.ne_none_iff_exists']
    simp only [h.at_eq]
  · intro o x c r
    rw [SqMatrix.mem_items h.wf, h.at_eq]
  · intro o; exact SqMatrix.items_keys_nodup h.wf o

/-- **C54.** For any entry type and any history of `set_entry`, `zero_entry` and `increment_entry`, the code and
the abstract map fail on the same histories (overflow of `+ 1` in a debug build), and otherwise every
observation of the code's matrix is that of the abstract map; iteration yields each stored entry once. -/
theorem C54_square_matrix_history {T : Type} (N : Numeric T) (P : Platform) (h : List (NumOp T)) :
    ResRel (NumAgrees N) (runNum N P h) (ANum.run N P h) := by
  have hr := runNum_rel N P h
  revert hr
  cases runNum N P h <;> cases ANum.run N P h <;> intro hr <;> simp only [ResRel] at hr ⊢
  · exact hr.agrees N
  · exact hr

/-- C54 on a concrete history of `u8` entries: the run succeeds, with these values. -/
example : okAnd (runNum (uintFmt 255).toNumeric ⟨2 ^ 64 - 1, fun _ => true, .debug, 65535⟩
    [.set 7 1 2, .increment 1 2, .increment 0 4, .set 9 3 3, .zero 3 3]) (fun m =>
      m.dimension == 5 && m.entryCount == 2 && m.getEntry (uintFmt 255).toNumeric 1 2 == 8) = true := by
  decide +kernel

/-! ## C55 -/

/-- The documented meaning of `entry_count`. -/
def CountsNonzero {T : Type} (N : Numeric T) (m : SqMatrix T) : Prop :=
  ∃ S : Finset (Nat × Nat), (∀ c r, (c, r) ∈ S ↔ N.eq (m.getEntry N c r) N.zero = false) ∧
    m.entryCount = S.card

/-- **C55** as documented, for `i64` entries in a debug build. -/
def C55_full : Prop :=
  ∀ (P : Platform) (h : List (NumOp Int)) (m : SqMatrix Int),
    runNum (sintFmt (2 ^ 63 - 1) false).toNumeric P h = .ok m →
    CountsNonzero (sintFmt (2 ^ 63 - 1) false).toNumeric m

/-- The documented meaning fails: incrementing `-1` leaves a stored zero that is still counted. -/
theorem C55_full_false : ¬ C55_full := by
  intro h
  let P : Platform := ⟨2 ^ 64 - 1, fun _ => true, .debug, 65535⟩
  let N := (sintFmt (2 ^ 63 - 1) false).toNumeric
  have hok : okAnd (runNum N P [.set (-1) 0 0, .increment 0 0]) (fun m => m.entryCount == 1 && m.dimension == 1 &&
      m.getEntry N 0 0 == 0) = true := by decide +kernel
  obtain ⟨m, hm, hc⟩ := okAnd_elim hok
  simp only [Bool.and_eq_true, beq_iff_eq] at hc
  obtain ⟨S, hS, hcard⟩ := h P _ m hm
  have hrel := runNum_rel N P [.set (-1) 0 0, .increment 0 0]
  rw [hm] at hrel
  have hwf : m.WF := by
    revert hrel
    cases ANum.run N P [.set (-1) 0 0, .increment 0 0] <;> simp only [ResRel] <;> intro hrel
    · exact hrel.wf
    · exact hrel.elim
    · exact hrel.elim
  have : S = ∅ := by
    rw [Finset.eq_empty_iff_forall_notMem]
    rintro ⟨c, r⟩ hmem
    rw [hS] at hmem
    by_cases hcr : c = 0 ∧ r = 0
    · obtain ⟨rfl, rfl⟩ := hcr
      rw [hc.2] at hmem
      exact absurd hmem (by decide)
    · have hnone : m.at? c r = none := by
        rw [← SqMatrix.notMem_keys (p := (c, r))]
        intro hk
        have := hwf.bound _ hk
        simp only [hc.1.2] at this
        omega
      rw [SqMatrix.getEntry_eq, hnone] at hmem
      exact absurd hmem (by decide)
  rw [this, hc.1.1] at hcard
  exact absurd hcard (by decide)

theorem counts_of_nonzero {T : Type} {N : Numeric T} (hz : N.eq N.zero N.zero = true) {m : SqMatrix T} (hwf : m.WF)
    (hv : ∀ c r x, m.at? c r = some x → N.eq x N.zero = false) : CountsNonzero N m := by
  refine ⟨m.keys, ?_, hwf.count⟩
  intro c r
  rw [SqMatrix.mem_keys, SqMatrix.getEntry_eq]
  cases hat : m.at? c r with
  | none => simp [hz]
  | some x => simpa using hv c r x hat

theorem nonzero_inv {T : Type} {N : Numeric T} {P : Platform} (h : List (NumOp T))
    (hinc : ∀ c r, NumOp.increment c r ∈ h →
      N.eq N.one N.zero = false ∧ ∀ x y, N.eq x N.zero = false → N.addOne P x = .ok y → N.eq y N.zero = false)
    {m : SqMatrix T} (hm : runNum N P h = .ok m) :
    m.WF ∧ ∀ c r x, m.at? c r = some x → N.eq x N.zero = false := by
  unfold runNum at hm
  refine Res.foldl_inv (I := fun m => m.WF ∧ ∀ c r x, m.at? c r = some x → N.eq x N.zero = false) h ?_
    ⟨SqMatrix.WF.new, fun c r x hx => by simp [SqMatrix.new_at] at hx⟩ hm
  rintro m op m' hop ⟨hw, hv⟩ hcall
  cases op with
  | set e c r =>
    simp only [NumOp.call, Res.ok.injEq] at hcall
    subst hcall
    refine ⟨hw.setEntry N e c r, ?_⟩
    intro c' r' x hx
    by_cases hb : c < U64_MAX ∧ r < U64_MAX
    · cases he : N.eq e N.zero with
      | true =>
        rw [SqMatrix.setEntry_zero hb.1 hb.2 he] at hx
        exact hv c' r' x hx
      | false =>
        rw [SqMatrix.setEntry_at hb.1 hb.2 he] at hx
        split at hx
        · simp only [Option.some.injEq] at hx; rw [← hx]; exact he
        · exact hv c' r' x hx
    · rw [SqMatrix.setEntry_overflow hb] at hx
      exact hv c' r' x hx
  | zero c r =>
    simp only [NumOp.call, Res.ok.injEq] at hcall
    subst hcall
    refine ⟨hw.zeroEntry c r, ?_⟩
    intro c' r' x hx
    rw [SqMatrix.zeroEntry_at] at hx
    split at hx
    · cases hx
    · exact hv c' r' x hx
  | increment c r =>
    simp only [NumOp.call] at hcall
    refine ⟨hw.incrementEntry hcall, ?_⟩
    intro c' r' x hx
    by_cases hb : c < U64_MAX ∧ r < U64_MAX
    · obtain ⟨y, hy, hat, _, _⟩ := SqMatrix.incrementEntry_ok hb.1 hb.2 hcall
      rw [hat] at hx
      split at hx
      · simp only [Option.some.injEq] at hx
        subst hx
        obtain ⟨h1, h2⟩ := hinc c r hop
        cases hold : m.at? c r with
        | none =>
          rw [hold] at hy
          simp only [SqMatrix.incValue, Res.ok.injEq] at hy
          rw [← hy]; exact h1
        | some z =>
          rw [hold] at hy
          exact h2 z y (hv c r z hold) hy
      · exact hv c' r' x hx
    · rw [SqMatrix.incrementEntry_overflow hb] at hcall
      cases hcall
      exact hv c' r' x hx

/-- **C55**, the part that holds for every entry type (also floats): without `increment_entry`, `entry_count` is
the number of non-zero entries.  Missing: increments of negative entries. -/
theorem C55_sets_partial {T : Type} (N : Numeric T) (P : Platform) (hz : N.eq N.zero N.zero = true)
    (h : List (NumOp T)) (hno : ∀ c r, NumOp.increment c r ∉ h) (m : SqMatrix T) (hm : runNum N P h = .ok m) :
    CountsNonzero N m := by
  obtain ⟨hw, hv⟩ := nonzero_inv h (fun c r hin => absurd hin (hno c r)) hm
  exact counts_of_nonzero hz hw hv

/-- A history that does not panic in a debug build gives the same matrix in every build. -/
theorem debug_release_same (max : Nat) (P P' : Platform) (hP : P.profile = .debug) (h : List (NumOp Nat))
    (m : SqMatrix Nat) (hm : runNum (uintFmt max).toNumeric P h = .ok m) :
    runNum (uintFmt max).toNumeric P' h = .ok m := by
  unfold runNum at *
  revert hm
  generalize (SqMatrix.new : SqMatrix Nat) = s
  induction h generalizing s with
  | nil => intro hm; exact hm
  | cons op l ih =>
    intro hm
    simp only [Res.foldl] at hm ⊢
    have hstep : ∀ s', NumOp.call (uintFmt max).toNumeric P s op = .ok s' →
        NumOp.call (uintFmt max).toNumeric P' s op = .ok s' := by
      intro s' hs
      cases op with
      | set e c r => exact hs
      | zero c r => exact hs
      | increment c r =>
        simp only [NumOp.call] at hs ⊢
        unfold SqMatrix.incrementEntry at hs ⊢
        have hadd : ∀ x y, (uintFmt max).addOne P x = .ok y → (uintFmt max).addOne P' x = .ok y := by
          intro x y hxy
          simp only [uintFmt, Platform.wrapTo, hP] at hxy ⊢
          split at hxy
          · next hle => rw [if_pos hle]; exact hxy
          · cases hxy
        revert hs
        cases checkedAdd c 1 with
        | none => exact id
        | some cd =>
          cases checkedAdd r 1 with
          | none => exact id
          | some rd =>
            simp only
            cases ((s.edgesTable.get? c).getD HMap.empty).get? r with
            | none => exact id
            | some e =>
              simp only
              intro hs
              cases ha : (uintFmt max).addOne P e with
              | ok y => rw [hadd e y ha]; rw [ha] at hs; exact hs
              | err e' => rw [ha] at hs; cases hs
              | panic => rw [ha] at hs; cases hs
    cases hc : NumOp.call (uintFmt max).toNumeric P s op with
    | ok s' =>
      rw [hc] at hm
      rw [hstep s' hc]
      exact ih s' hm
    | err e => rw [hc] at hm; cases hm
    | panic => rw [hc] at hm; cases hm

/-- **C55**, the part that holds for unsigned types (maximum `max ≥ 1`) with increments: if the history does not
overflow (does not panic in a debug build), then in every build `entry_count` is the number of non-zero
entries.  Missing: overflowing increments in release builds, signed types. -/
theorem C55_unsigned_partial (max : Nat) (P P' : Platform) (hP : P.profile = .debug)
    (h : List (NumOp Nat)) (m : SqMatrix Nat) (hm : runNum (uintFmt max).toNumeric P h = .ok m) :
    runNum (uintFmt max).toNumeric P' h = .ok m ∧ CountsNonzero (uintFmt max).toNumeric m := by
  refine ⟨debug_release_same max P P' hP h m hm, ?_⟩
  have hadd : ∀ x y, (uintFmt max).eq x (uintFmt max).zero = false → (uintFmt max).addOne P x = .ok y →
      (uintFmt max).eq y (uintFmt max).zero = false := by
    intro x y _ hxy
    simp only [uintFmt, Platform.wrapTo, hP] at hxy ⊢
    split at hxy
    · simp only [Res.ok.injEq] at hxy; subst hxy; simp
    · cases hxy
  obtain ⟨hw, hv⟩ := nonzero_inv h (fun c r _ => ⟨rfl, hadd⟩) hm
  exact counts_of_nonzero rfl hw hv

/-- In a release build an overflowing increment of an unsigned entry also leaves a counted zero. -/
example : okAnd (runNum (uintFmt 255).toNumeric ⟨2 ^ 64 - 1, fun _ => true, .release, 65535⟩
    [.set 255 0 0, .increment 0 0]) (fun m => m.entryCount == 1 && m.getEntry (uintFmt 255).toNumeric 0 0 == 0)
    = true := by decide +kernel

example : okAnd (runNum (uintFmt 255).toNumeric ⟨2 ^ 64 - 1, fun _ => true, .debug, 65535⟩
    [.set 3 0 0, .increment 0 0, .increment 5 1, .zero 0 0]) (fun m => m.entryCount == 1) = true := by
  decide +kernel

/-- A call that stores something at `(c, r)`: an increment, or a value that is not zero, at a usable place. -/
def Stores {T : Type} (N : Numeric T) (op : NumOp T) (c r : Nat) : Prop :=
  c < 2 ^ 64 - 1 ∧ r < 2 ^ 64 - 1 ∧ (op = .increment c r ∨ ∃ x, op = .set x c r ∧ N.eq x N.zero = false)

/-- The history stores something at `(c, r)` and does not remove it later. -/
def Kept {T : Type} (N : Numeric T) (h : List (NumOp T)) (c r : Nat) : Prop :=
  ∃ pre op post, h = pre ++ op :: post ∧ Stores N op c r ∧ NumOp.zero c r ∉ post

theorem call_stored {T : Type} {N : Numeric T} {P : Platform} {m m' : SqMatrix T} (op : NumOp T) (hm : op.call N P m = .ok m') (c r : Nat) :
    m'.at? c r ≠ none ↔ Stores N op c r ∨ (m.at? c r ≠ none ∧ op ≠ .zero c r) := by
  unfold Stores
  rw [u64_lt_iff, u64_lt_iff]
  cases op with
  | set x c' r' =>
    simp only [NumOp.call, Res.ok.injEq] at hm
    subst hm
    by_cases hb : c' < U64_MAX ∧ r' < U64_MAX
    · cases hx : N.eq x N.zero with
      | true =>
        rw [SqMatrix.setEntry_zero hb.1 hb.2 hx]
        change m.at? c r ≠ none ↔ _
        simp only [reduceCtorEq, not_false_eq_true, NumOp.set.injEq, false_or, and_true, ne_eq]
        constructor
        · exact fun h => .inr h
        · rintro (⟨_, _, y, ⟨rfl, _, _⟩, hy⟩ | h)
          · rw [hx] at hy; cases hy
          · exact h
      | false =>
        rw [SqMatrix.setEntry_at hb.1 hb.2 hx]
        by_cases he : c = c' ∧ r = r'
        · obtain ⟨rfl, rfl⟩ := he
          simp only [and_self, if_true]
          exact ⟨fun _ => .inl ⟨hb.1, hb.2, .inr ⟨x, rfl, hx⟩⟩, fun _ => by simp⟩
        · rw [if_neg he]
          simp only [reduceCtorEq, not_false_eq_true, NumOp.set.injEq, false_or, and_true, ne_eq]
          constructor
          · exact fun h => .inr h
          · rintro (⟨_, _, y, ⟨_, h1, h2⟩, _⟩ | h)
            · exact absurd ⟨h1.symm, h2.symm⟩ he
            · exact h
    · rw [SqMatrix.setEntry_overflow hb]
      simp only [reduceCtorEq, not_false_eq_true, NumOp.set.injEq, false_or, and_true, ne_eq]
      constructor
      · exact fun h => .inr h
      · rintro (⟨h1, h2, y, ⟨_, rfl, rfl⟩, _⟩ | h)
        · exact absurd ⟨h1, h2⟩ hb
        · exact h
  | zero c' r' =>
    simp only [NumOp.call, Res.ok.injEq] at hm
    subst hm
    rw [SqMatrix.zeroEntry_at]
    simp only [reduceCtorEq, NumOp.zero.injEq, false_and, exists_false, or_self, and_false, false_or, ne_eq]
    by_cases he : c = c' ∧ r = r'
    · obtain ⟨rfl, rfl⟩ := he
      simp
    · rw [if_neg he]
      exact ⟨fun h => ⟨h, fun h' => he ⟨h'.1.symm, h'.2.symm⟩⟩, fun h => h.1⟩
  | increment c' r' =>
    simp only [NumOp.call] at hm
    by_cases hb : c' < U64_MAX ∧ r' < U64_MAX
    · obtain ⟨y, hy, hat, _, _⟩ := SqMatrix.incrementEntry_ok hb.1 hb.2 hm
      rw [hat]
      by_cases he : c = c' ∧ r = r'
      · obtain ⟨rfl, rfl⟩ := he
        simp only [and_self, if_true]
        exact ⟨fun _ => .inl ⟨hb.1, hb.2, by simp⟩, fun _ => by simp⟩
      · rw [if_neg he]
        simp only [reduceCtorEq, not_false_eq_true, NumOp.increment.injEq, false_and, exists_false, or_false, and_true, ne_eq]
        constructor
        · exact fun h => .inr h
        · rintro (⟨_, _, h1, h2⟩ | h)
          · exact absurd ⟨h1.symm, h2.symm⟩ he
          · exact h
    · rw [SqMatrix.incrementEntry_overflow hb] at hm
      cases hm
      simp only [reduceCtorEq, not_false_eq_true, NumOp.increment.injEq, false_and, exists_false, or_false, and_true, ne_eq]
      constructor
      · exact fun h => .inr h
      · rintro (⟨h1, h2, rfl, rfl⟩ | h)
        · exact absurd ⟨h1, h2⟩ hb
        · exact h

theorem kept_cons {T : Type} {N : Numeric T} {op : NumOp T} {l : List (NumOp T)} {c r : Nat} :
    Kept N (op :: l) c r ↔ (Stores N op c r ∧ NumOp.zero c r ∉ l) ∨ Kept N l c r := by
  constructor
  · rintro ⟨pre, o, post, h, hs, hz⟩
    cases pre with
    | nil => cases h; exact .inl ⟨hs, hz⟩
    | cons p pre => cases h; exact .inr ⟨pre, o, post, rfl, hs, hz⟩
  · rintro (⟨hs, hz⟩ | ⟨pre, o, post, rfl, hs, hz⟩)
    · exact ⟨[], op, l, rfl, hs, hz⟩
    · exact ⟨op :: pre, o, post, rfl, hs, hz⟩

theorem run_stored {T : Type} {N : Numeric T} {P : Platform} (h : List (NumOp T)) : ∀ {m m' : SqMatrix T},
    Res.foldl (NumOp.call N P) m h = .ok m' → ∀ c r,
      (m'.at? c r ≠ none ↔ Kept N h c r ∨ (m.at? c r ≠ none ∧ NumOp.zero c r ∉ h)) := by
  induction h with
  | nil =>
    intro m m' hm c r
    cases hm
    simp [Kept]
  | cons op l ih =>
    intro m m' hm c r
    simp only [Res.foldl] at hm
    cases h1 : NumOp.call N P m op with
    | ok m₁ =>
      rw [h1] at hm
      rw [ih hm c r, call_stored op h1 c r, kept_cons, List.mem_cons]
      have : NumOp.zero c r = op ↔ op = NumOp.zero c r := eq_comm
      rw [this]
      tauto
    | err e => rw [h1] at hm; cases hm
    | panic => rw [h1] at hm; cases hm

/-- **C55**, the exact rule for every entry type and every history that does not panic: `entry_count` is the number of places at which
something was stored and not removed later, whatever its value has become; so it is the number of non-zero entries if and only if the
entries at all these places are not zero. -/
theorem C55_count_exact {T : Type} (N : Numeric T) (P : Platform) (hz : N.eq N.zero N.zero = true) (h : List (NumOp T))
    (m : SqMatrix T) (hm : runNum N P h = .ok m) :
    (∃ S : Finset (Nat × Nat), (∀ c r, (c, r) ∈ S ↔ Kept N h c r) ∧ m.entryCount = S.card) ∧
    (CountsNonzero N m ↔ ∀ c r, Kept N h c r → N.eq (m.getEntry N c r) N.zero = false) := by
  have hwf : m.WF := by
    have hrel := runNum_rel N P h
    rw [hm] at hrel
    revert hrel
    cases ANum.run N P h <;> simp only [ResRel] <;> intro hrel
    · exact hrel.wf
    · exact hrel.elim
    · exact hrel.elim
  have hk : ∀ c r, (c, r) ∈ m.keys ↔ Kept N h c r := by
    intro c r
    rw [SqMatrix.mem_keys, Option.ne_none_iff_exists'.symm.trans (run_stored h hm c r)]
    simp [SqMatrix.new_at]
  refine ⟨⟨m.keys, hk, hwf.count⟩, ?_, ?_⟩
  · rintro ⟨S, hS, hc⟩ c r hkept
    have hsub : S ⊆ m.keys := by
      rintro ⟨x, y⟩ hxy
      rw [hS] at hxy
      by_contra hn
      rw [SqMatrix.notMem_keys] at hn
      rw [SqMatrix.getEntry_eq, hn] at hxy
      simp [hz] at hxy
    have := Finset.eq_of_subset_of_card_le hsub (by rw [← hc, hwf.count])
    rw [← hS, this, hk]
    exact hkept
  · intro hv
    refine counts_of_nonzero hz hwf fun c r x hx => ?_
    have := hv c r ((hk c r).1 ((SqMatrix.mem_keys).2 ⟨x, hx⟩))
    rwa [SqMatrix.getEntry_eq, hx] at this

/-- The history of the counterexample keeps the place `(0, 0)`, whose entry is zero. -/
example : Kept (sintFmt 127 false).toNumeric [.set (-1) 0 0, .increment 0 0, .zero 1 1] 0 0 ∧
    ¬ Kept (sintFmt 127 false).toNumeric [.set (-1) 0 0, .increment 0 0, .zero 0 0] 0 0 := by
  constructor
  · exact ⟨[.set (-1) 0 0], .increment 0 0, [.zero 1 1], rfl, ⟨by norm_num, by norm_num, .inl rfl⟩, by simp⟩
  · rw [kept_cons, kept_cons, kept_cons]
    rintro (⟨-, h⟩ | ⟨-, h⟩ | ⟨⟨-, -, h⟩, -⟩ | ⟨pre, op, post, h, -⟩)
    · simp at h
    · simp at h
    · simp at h
    · simp at h

end Verif.Props
