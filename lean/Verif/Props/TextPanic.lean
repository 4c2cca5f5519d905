import Verif.Lemmas.TextPanic
import Verif.Props.FloatText
import Verif.Props.Ieee

/-!
# C109: when printing a pooled matrix panics
-/

namespace Verif.Props
open Verif Spec

theorem poolQ_le_pow {s : Nat} (h1 : 1 ≤ s) (h2 : s ≤ U64_MAX) (k : Nat) : F64.poolQ s k ≤ 2 ^ 53 := by
  have hp := F64.recipQ_pos h1 h2
  have hr := (F64.recipQ_bounds h1 h2).2
  unfold F64.poolQ
  rw [← F64.rndQ_pow2_nat 53]
  apply F64.rndQ_mono (by positivity)
  have : ((min k (2 ^ 53) : Nat) : ℚ) ≤ 2 ^ 53 := by exact_mod_cast min_le_right k (2 ^ 53)
  have h0 : (0 : ℚ) ≤ ((min k (2 ^ 53) : Nat) : ℚ) := by positivity
  nlinarith

/-- The entries of a pooled matrix, for any block dimension and build profile. -/
theorem pooled_entries {g : Graph} (hg : GReach g) {P : Platform} {o : HashOrder} {b : Nat} {m : SqMatrix F64}
    (hm : g.findAvgPoolMatrix P o b = .ok m) :
    m.WF ∧ (∀ c r v, m.at? c r = some v → v = .inf false ∨ ∃ q, v = .fin q ∧ 0 ≤ q ∧ q ≤ 2 ^ 53) ∧
      (m.entryCount = 0 → m.edgesTable.entries.length = 0) := by
  by_cases hn : g.vertexCount = 0
  · unfold Graph.findAvgPoolMatrix at hm
    rw [if_pos hn] at hm
    cases hm
    exact ⟨SqMatrix.WF.new, fun c r v h => by rw [SqMatrix.new_at] at h; (cases h), fun _ => rfl⟩
  · obtain ⟨m', hwf, hdim, hat, h⟩ := Graph.pool_general hg.ok P o b hn
    have hm0 := hm
    rw [h, Res.map_eq_ok] at hm
    obtain ⟨sq, hsq, rfl⟩ := hm
    have hw := hwf.multiplyEntriesBy (F64.div (F64.lit 1) (F64.ofNat sq))
    have hsq : sq ≤ U64_MAX := by
      unfold Platform.u64Mul Platform.wrapTo at hsq
      split at hsq
      · cases hsq; assumption
      · cases hp : P.profile with
        | debug => rw [hp] at hsq; cases hsq
        | release => rw [hp] at hsq; cases hsq; exact Nat.le_of_lt_succ (Nat.mod_lt _ (by omega))
    refine ⟨hw, ?_, ?_⟩
    · intro c r v hv
      rw [SqMatrix.multiplyEntriesBy_at, hat] at hv
      split at hv
      · cases hv
      · next hk =>
        rw [Option.map_some, Option.some.injEq] at hv
        rcases Nat.eq_zero_or_pos sq with h0 | h0
        · left
          have hd : F64.div (F64.lit 1) (F64.ofNat 0) = .inf false := by decide +kernel
          rw [h0, hd] at hv
          rw [← hv]
          unfold F64.cnt F64.mul
          generalize blockCount _ _ _ _ = k at hk ⊢
          have : (0 : ℚ) < ((min k (2 ^ 53) : Nat) : ℚ) := by
            have : 0 < min k (2 ^ 53) := by omega
            exact_mod_cast this
          simp only
          rw [if_neg this.ne', decide_eq_false (not_lt.2 this.le)]
          rfl
        · right
          rw [F64.div_eq_recip h0 hsq, F64.mul_cnt_recip h0 hsq] at hv
          exact ⟨_, hv.symm, F64.poolQ_nonneg h0 hsq _, poolQ_le_pow h0 hsq _⟩
    · intro h0
      refine pool_empty_table hg ?_ hm0
      rw [hw.count, Finset.card_eq_zero] at h0
      rw [Graph.edgeCount_eq hg.ok, Finset.card_eq_zero, Finset.eq_empty_iff_forall_notMem]
      rintro ⟨u, v⟩ huv
      have hb : 0 < Graph.clampBlockDimension g.vertexCount b := Graph.clamp_pos hn
      generalize hB : Graph.clampBlockDimension g.vertexCount b = B at *
      have hpos : 0 < blockCount g.doesEdgeExist B (u / B) (v / B) := by
        rw [blockCount_fiber hg.ok hb]
        exact Finset.card_pos.2 ⟨(u, v), Finset.mem_filter.2 ⟨huv, rfl⟩⟩
      have : (u / B, v / B) ∈ (m'.multiplyEntriesBy (F64.div (F64.lit 1) (F64.ofNat sq))).keys := by
        rw [SqMatrix.mem_keys]
        rw [SqMatrix.multiplyEntriesBy_at, hat, if_neg hpos.ne']
        exact ⟨_, rfl⟩
      rw [h0] at this
      simp at this

theorem foldExtremes_mem (l : List F64) : ∀ a b : F64,
    let hl := l.foldl (fun hl v => (if F64.lt hl.1 v then v else hl.1, if F64.lt v hl.2 then v else hl.2)) (a, b)
    (hl.1 = a ∨ hl.1 ∈ l) ∧ (hl.2 = b ∨ hl.2 ∈ l) := by
  induction l with
  | nil => intro a b; exact ⟨.inl rfl, .inl rfl⟩
  | cons x l ih =>
    intro a b
    simp only [List.foldl_cons]
    obtain ⟨h1, h2⟩ := ih (if F64.lt a x then x else a) (if F64.lt x b then x else b)
    constructor
    · rcases h1 with h1 | h1
      · rw [h1]
        split
        · right; simp
        · left; rfl
      · right; exact List.mem_cons_of_mem _ h1
    · rcases h2 with h2 | h2
      · rw [h2]
        split
        · right; simp
        · left; rfl
      · right; exact List.mem_cons_of_mem _ h2

theorem digits_39 : (Nat.toDigits 10 (2 ^ 127 - 1)).length = 39 := by decide +kernel

theorem digitCount_maxV : f64Fmt.digitCount f64Fmt.maxV = 39 := by
  change (intChars (F64.asI128 (.fin f64Max))).length = 39
  rw [asI128_max]
  decide +kernel

theorem digitCount_entry {v : F64} (h : v = .inf false ∨ ∃ q, v = .fin q ∧ 0 ≤ q ∧ q ≤ 2 ^ 53) :
    f64Fmt.digitCount v = intDigits v := by
  rcases h with rfl | ⟨q, rfl, h0, h1⟩
  · change (intChars (2 ^ 127 - 1)).length = 39
    decide +kernel
  · exact digitCount_fin h0 (lt_of_le_of_lt h1 (by norm_num))

theorem intDigits_le {v : F64} (h : v = .inf false ∨ ∃ q, v = .fin q ∧ 0 ≤ q ∧ q ≤ 2 ^ 53) : intDigits v ≤ 39 := by
  rcases h with rfl | ⟨q, rfl, h0, h1⟩
  · exact le_refl _
  · refine (Nat.length_toDigits_le_iff (by norm_num) (by norm_num)).2 ?_
    have : ⌊q⌋ ≤ 2 ^ 53 := by
      have := Int.floor_mono h1
      rwa [show (2 : ℚ) ^ 53 = ((2 ^ 53 : ℤ) : ℚ) by norm_num, Int.floor_intCast] at this
    have h2 : ⌊q⌋.toNat ≤ 2 ^ 53 := by omega
    exact lt_of_le_of_lt h2 (by norm_num)

theorem intDigits_mono {v w : F64} (hv : v = .inf false ∨ ∃ q, v = .fin q ∧ 0 ≤ q ∧ q ≤ 2 ^ 53)
    (hw : w = .inf false ∨ ∃ q, w = .fin q ∧ 0 ≤ q ∧ q ≤ 2 ^ 53) (h : v.key ≤ w.key) : intDigits v ≤ intDigits w := by
  rcases hw with rfl | ⟨q, rfl, h0, h1⟩
  · exact intDigits_le hv
  · rcases hv with rfl | ⟨p, rfl, h2, h3⟩
    · exact absurd h (not_le.2 (WithBot.coe_lt_coe.2 (WithTop.coe_lt_top _)))
    · have hpq : p ≤ q := WithTop.coe_le_coe.1 (WithBot.coe_le_coe.1 h)
      apply toDigits_length_mono
      have := Int.floor_mono hpq
      omega

/-- How many digits the code reserves for the integral parts of a pooled matrix. -/
theorem reserved_digits {m : SqMatrix F64} (hw : m.WF)
    (he : ∀ c r v, m.at? c r = some v → v = .inf false ∨ ∃ q, v = .fin q ∧ 0 ≤ q ∧ q ≤ 2 ^ 53)
    (h0 : m.entryCount = 0 → m.edgesTable.entries.length = 0) (o : HashOrder) (k : Nat) :
    Reserved m k ↔ k = SqMatrix.digitsOf f64Fmt (SqMatrix.extremes f64Fmt o m) := by
  unfold Reserved
  by_cases hz : m.entryCount = 0
  · rw [if_pos hz]
    have : SqMatrix.digitsOf f64Fmt (SqMatrix.extremes f64Fmt o m) = 39 := by
      unfold SqMatrix.extremes
      rw [if_pos (h0 hz)]
      unfold SqMatrix.digitsOf
      rw [digitCount_maxV]
      have : f64Fmt.digitCount f64Fmt.zero = 1 := by
        change f64Fmt.digitCount (F64.lit 0) = 1
        rw [F64.lit_zero]
        exact digits_unit (le_refl _) (by norm_num)
      simp only [this]
      rfl
    rw [this]
  · rw [if_neg hz]
    have hne : ∃ c r v, m.at? c r = some v := by
      rw [hw.count, ← Ne, Finset.card_ne_zero] at hz
      obtain ⟨⟨c, r⟩, hp⟩ := hz
      obtain ⟨v, hv⟩ := SqMatrix.mem_keys.1 hp
      exact ⟨c, r, v, hv⟩
    have hent : ¬ m.edgesTable.entries.length = 0 := by
      intro h
      obtain ⟨c, r, v, hv⟩ := hne
      have : m.edgesTable.entries = [] := List.length_eq_zero_iff.1 h
      simp [SqMatrix.at?, get2, HMap.get?, this, HMap.lookup] at hv
    have hext : SqMatrix.extremes f64Fmt o m = (SqMatrix.values o m).foldl
        (fun hl v => (if F64.lt hl.1 v then v else hl.1, if F64.lt v hl.2 then v else hl.2))
        (f64Fmt.minV, f64Fmt.maxV) := by
      unfold SqMatrix.extremes; rw [if_neg hent]; rfl
    obtain ⟨h1, h2, h3, h4, h5⟩ := SqMatrix.foldExtremes_f64 (SqMatrix.values o m) f64Fmt.minV f64Fmt.maxV
      (F64.noConfusion) (F64.noConfusion)
    obtain ⟨h6, h7⟩ := foldExtremes_mem (SqMatrix.values o m) f64Fmt.minV f64Fmt.maxV
    rw [← hext] at h1 h2 h3 h4 h5 h6 h7
    have hval : ∀ v, v ∈ SqMatrix.values o m → (v = .inf false ∨ ∃ q, v = .fin q ∧ 0 ≤ q ∧ q ≤ 2 ^ 53) := by
      intro v hv
      obtain ⟨c, r, h⟩ := SqMatrix.mem_values.1 hv
      exact he c r v h
    have hnn : ∀ v, v ∈ SqMatrix.values o m → v ≠ .nan := by
      intro v hv
      rcases hval v hv with rfl | ⟨q, rfl, -, -⟩ <;> simp
    obtain ⟨c₀, r₀, v₀, hat₀⟩ := hne
    have hv₀ : v₀ ∈ SqMatrix.values o m := SqMatrix.mem_values.2 ⟨c₀, r₀, hat₀⟩
    have hfm : (0 : ℚ) < f64Max := lt_of_lt_of_le (by norm_num) one_le_f64Max
    -- the highest value is an entry
    have hhi : (SqMatrix.extremes f64Fmt o m).1 ∈ SqMatrix.values o m := by
      rcases h6 with h6 | h6
      · have hk := (h5 v₀ hv₀ (hnn v₀ hv₀)).1
        rw [h6] at hk
        exfalso
        change v₀.key ≤ (((-f64Max : ℚ) : WithTop ℚ) : WithBot (WithTop ℚ)) at hk
        rcases hval v₀ hv₀ with rfl | ⟨q, rfl, hq, -⟩
        · exact absurd hk (not_le.2 (WithBot.coe_lt_coe.2 (WithTop.coe_lt_top _)))
        · have : q ≤ -f64Max := WithTop.coe_le_coe.1 (WithBot.coe_le_coe.1 hk)
          linarith
      · exact h6
    have hdc : f64Fmt.digitCount (SqMatrix.extremes f64Fmt o m).2 ≤
        f64Fmt.digitCount (SqMatrix.extremes f64Fmt o m).1 := by
      rw [digitCount_entry (hval _ hhi)]
      rcases h7 with h7 | h7
      · have hk := (h5 _ hhi (hnn _ hhi)).2
        rw [h7] at hk ⊢
        rw [digitCount_maxV]
        change (((f64Max : ℚ) : WithTop ℚ) : WithBot (WithTop ℚ)) ≤ _ at hk
        rcases hval _ hhi with h | ⟨q, h, hq0, hq⟩
        · rw [h]; exact le_refl _
        · exfalso
          rw [h] at hk
          have hle : f64Max ≤ q := WithTop.coe_le_coe.1 (WithBot.coe_le_coe.1 hk)
          have : (2 : ℚ) ^ 53 < f64Max := by
            unfold f64Max
            have h971 : (2 : ℚ) ≤ 2 ^ 971 := by
              calc (2 : ℚ) = 2 ^ 1 := by norm_num
                _ ≤ 2 ^ 971 := pow_le_pow_right₀ (by norm_num) (by norm_num)
            have h52 : (2 : ℚ) ^ 53 < (2 ^ 53 - 1) * 2 := by norm_num
            exact h52.trans_le (mul_le_mul_of_nonneg_left h971 (by norm_num))
          exact absurd (this.trans_le (hle.trans hq)) (lt_irrefl _)
      · rw [digitCount_entry (hval _ h7)]
        exact intDigits_mono (hval _ h7) (hval _ hhi) (h5 _ h7 (hnn _ h7)).1
    have hdo : SqMatrix.digitsOf f64Fmt (SqMatrix.extremes f64Fmt o m) =
        intDigits (SqMatrix.extremes f64Fmt o m).1 := by
      unfold SqMatrix.digitsOf
      rw [max_eq_left hdc, digitCount_entry (hval _ hhi)]
    have hle : ∀ c r, intDigits (m.getEntry f64Numeric c r) ≤ intDigits (SqMatrix.extremes f64Fmt o m).1 := by
      intro c r
      rw [SqMatrix.getEntry_eq]
      cases hat : m.at? c r with
      | none =>
        have : intDigits (Option.getD none f64Numeric.zero) = 1 := by
          change intDigits (F64.lit 0) = 1
          rw [F64.lit_zero]
          simp [intDigits]
        rw [this, ← hdo]
        exact (SqMatrix.digitsOf_f64 _).1
      | some v =>
        have hv : v ∈ SqMatrix.values o m := SqMatrix.mem_values.2 ⟨c, r, hat⟩
        exact intDigits_mono (hval v hv) (hval _ hhi) (h5 v hv (hnn v hv)).1
    obtain ⟨c₁, r₁, hat₁⟩ := SqMatrix.mem_values.1 hhi
    have hge : m.getEntry f64Numeric c₁ r₁ = (SqMatrix.extremes f64Fmt o m).1 := by
      rw [SqMatrix.getEntry_eq, hat₁]; rfl
    rw [hdo]
    constructor
    · rintro ⟨⟨c, r, hk⟩, hall⟩
      apply le_antisymm
      · rw [← hk]; exact hle c r
      · rw [← hge]; exact hall c₁ r₁
    · rintro rfl
      exact ⟨⟨c₁, r₁, by rw [hge]⟩, hle⟩

theorem entry_printable {v : F64} (h : v = .inf false ∨ ∃ q, v = .fin q ∧ 0 ≤ q ∧ q ≤ 2 ^ 53) : v.Printable := by
  rcases h with rfl | ⟨q, rfl, h0, h1⟩
  · trivial
  · change |q| < 10 ^ 39
    rw [abs_of_nonneg h0]
    exact lt_of_le_of_lt h1 (by norm_num)

/-- **C109.** Printing a pooled matrix with `d` decimals panics exactly in the cases of `TextPanics`, whatever the block dimension it
was pooled with, the build profile and the number of decimals. -/
theorem C109_panics_iff {g : Graph} (hg : GReach g) {P₀ : Platform} {o : HashOrder} {b : Nat} {m : SqMatrix F64}
    (hm : g.findAvgPoolMatrix P₀ o b = .ok m) {P : Platform} (hP : Usual P) (o₁ o₂ : HashOrder) {d : Nat} (hd : d ≤ P.usizeMax) :
    ∃ k, Reserved m k ∧ (∀ k', Reserved m k' → k' = k) ∧ 1 ≤ k ∧ k ≤ 39 ∧
      (m.toStringWithPrecision P f64Fmt o₁ o₂ d = .panic ↔ TextPanics P m k d) := by
  obtain ⟨hw, he, h0⟩ := pooled_entries hg hm
  have hr := reserved_digits hw he h0 o₁
  refine ⟨_, (hr _).2 rfl, fun k' h => (hr k').1 h, (SqMatrix.digitsOf_f64 _).1, ?_,
    SqMatrix.f64Text_panic hP o₁ o₂ hw hd fun c r v hv => entry_printable (he c r v hv)⟩
  have h := (hr _).2 rfl
  unfold Reserved at h
  split at h
  · exact h.le
  · obtain ⟨⟨c, r, hk⟩, -⟩ := h
    rw [← hk, SqMatrix.getEntry_eq]
    cases hat : m.at? c r with
    | none =>
      change intDigits (F64.lit 0) ≤ 39
      rw [F64.lit_zero]
      simp [intDigits]
    | some v => exact intDigits_le (he c r v hat)

/-- **C109**, the other outcomes: an error exactly when there is no room for a text of the computed size (computed modulo the size of
`usize` in a build without overflow checks), and otherwise, if it does not panic, a text. -/
theorem C109_outcomes {g : Graph} (hg : GReach g) {P₀ : Platform} {o : HashOrder} {b : Nat} {m : SqMatrix F64}
    (hm : g.findAvgPoolMatrix P₀ o b = .ok m) (P : Platform) (o₁ o₂ : HashOrder) (d : Nat) :
    ∃ k, Reserved m k ∧ (∀ k', Reserved m k' → k' = k) ∧
      (∀ e, m.toStringWithPrecision P f64Fmt o₁ o₂ d = .err e → ∃ msg, e = .CapacityOverflow msg) ∧
      ((∃ e, m.toStringWithPrecision P f64Fmt o₁ o₂ d = .err e) ↔
        m.dimension ≠ 0 ∧ (k + 1 + d + 2 ≤ P.usizeMax ∨ P.profile = .release) ∧
        ¬ TextRoom P m.dimension ((k + 1 + d + 2) % (P.usizeMax + 1))) := by
  obtain ⟨hw, he, h0⟩ := pooled_entries hg hm
  have hr := reserved_digits hw he h0 o₁
  refine ⟨_, (hr _).2 rfl, fun k' h => (hr k').1 h, SqMatrix.toString_capErr P f64Fmt o₁ o₂ m d, ?_⟩
  rw [← SqMatrix.f64Text_err o₁ o₂]
  constructor
  · rintro ⟨e, h⟩
    obtain ⟨msg, rfl⟩ := SqMatrix.toString_capErr P f64Fmt o₁ o₂ m d e h
    exact ⟨msg, h⟩
  · rintro ⟨msg, h⟩
    exact ⟨_, h⟩

/-- **C109**, `to_string()`: two decimals, and it panics exactly when there is no room for the text. -/
theorem C109_to_string {g : Graph} (hg : GReach g) {P₀ : Platform} {o : HashOrder} {b : Nat} {m : SqMatrix F64}
    (hm : g.findAvgPoolMatrix P₀ o b = .ok m) {P : Platform} (hf : 42 ≤ P.fmtMax) (hu : 44 ≤ P.usizeMax) (o₁ o₂ : HashOrder) :
    ∃ k, Reserved m k ∧ (∀ k', Reserved m k' → k' = k) ∧
      (m.toText P f64Fmt o₁ o₂ = .panic ↔ m.dimension ≠ 0 ∧ ¬ TextRoom P m.dimension (k + 5)) := by
  obtain ⟨hw, he, h0⟩ := pooled_entries hg hm
  have hr := reserved_digits hw he h0 o₁
  refine ⟨_, (hr _).2 rfl, fun k' h => (hr k').1 h, ?_⟩
  have hk39 : SqMatrix.digitsOf f64Fmt (SqMatrix.extremes f64Fmt o₁ m) ≤ 39 := by
    have h := (hr _).2 rfl
    unfold Reserved at h
    split at h
    · exact h.le
    · obtain ⟨⟨c, r, hk⟩, -⟩ := h
      rw [← hk, SqMatrix.getEntry_eq]
      cases hat : m.at? c r with
      | none =>
        change intDigits (F64.lit 0) ≤ 39
        rw [F64.lit_zero]
        simp [intDigits]
      | some v => exact intDigits_le (he c r v hat)
  have htot := fun hn => SqMatrix.f64Text_room (P := P) o₁ o₂ hw 2 (fun c r v hv => entry_printable (he c r v hv)) hn rfl
    (by omega) (by omega)
  generalize SqMatrix.digitsOf f64Fmt (SqMatrix.extremes f64Fmt o₁ m) = k at *
  unfold SqMatrix.toText
  change (match m.toStringWithPrecision P f64Fmt o₁ o₂ 2 with | .ok s => _ | .err _ => _ | .panic => _) = _ ↔ _
  by_cases hn : m.dimension = 0
  · have : m.toStringWithPrecision P f64Fmt o₁ o₂ 2 = .ok [] := by
      unfold SqMatrix.toStringWithPrecision; rw [if_pos hn]
    rw [this]
    simp [hn]
  · rcases htot hn with ⟨s, h, hr⟩ | ⟨e, h, hr⟩ <;> rw [h]
    · simp only [reduceCtorEq, false_iff, not_and, not_not]
      exact fun _ => hr
    · simp only [true_iff]
      exact ⟨hn, hr⟩

/-- A usual 64-bit platform, with overflow checks. -/
def exUs : Platform := ⟨U64_MAX, fun k => decide (2 * k ≤ U64_MAX), .debug, 65535⟩

theorem exUs_usual : Usual exUs := ⟨by decide, by decide, fun _ h => of_decide_eq_true h⟩

/-- The same without overflow checks. -/
def exUsR : Platform := { exUs with profile := .release }

theorem exUsR_usual : Usual exUsR := ⟨by decide, by decide, fun _ h => of_decide_eq_true h⟩

/-- The matrix of `exD` pooled with blocks of 3 has one digit before the point; with 2 decimals it is printed, with 65534 decimals
an entry has 65536 characters, more than `format!` accepts. -/
example : ∃ m, GReach exD ∧ exD.findAvgPoolMatrix exUs .id 3 = .ok m ∧ Reserved m 1 ∧ ¬ TextPanics exUs m 1 2 ∧
    TextPanics exUs m 1 65534 ∧ ¬ TextPanics exUs m 1 65533 ∧ TextPanics exUs m 1 U64_MAX ∧ TextPanics exUsR m 1 U64_MAX := by
  obtain ⟨m, hm, h⟩ := okAnd_elim (x := exD.findAvgPoolMatrix exUs .id 3)
    (p := fun m => decide (m.dimension = 2 ∧ m.entryCount ≠ 0)) (by decide +kernel)
  have h := of_decide_eq_true h
  obtain ⟨k, hk, huniq, hk1, -, -⟩ := C109_panics_iff exD_reach hm exUs_usual .id .id (d := 0) (by decide)
  obtain ⟨m', hm', hq⟩ := ((C46_no_overflow_partial exD_reach exUs .id .id 3 (F64.lit 0)).1 (by decide +kernel)).1
  rw [hm] at hm'; cases hm'
  have hk' : k = 1 := by
    unfold Reserved at hk
    rw [if_neg h.2] at hk
    obtain ⟨⟨c, r, rfl⟩, -⟩ := hk
    obtain ⟨q, hq, h0, h1⟩ := hq c r
    rw [hq] at hk1 ⊢
    rw [← digitCount_entry (.inr ⟨q, rfl, h0, h1.trans (by norm_num)⟩)]
    exact digits_unit h0 h1
  subst hk'
  refine ⟨m, exD_reach, hm, hk, ?_, ?_, ?_, ?_, ?_⟩ <;> unfold TextPanics TextRoom <;> rw [h.1]
  · rintro ⟨-, h'⟩
    rw [if_pos (by decide)] at h'
    exact absurd h'.2.2 (by decide)
  · exact ⟨by decide, by rw [if_pos (by decide)]; exact ⟨by decide +kernel, h.2, by decide⟩⟩
  · rintro ⟨-, h'⟩
    rw [if_pos (by decide)] at h'
    exact absurd h'.2.2 (by decide)
  · exact ⟨by decide, by rw [if_neg (by decide)]; exact .inl rfl⟩
  · exact ⟨by decide, by rw [if_neg (by decide)]; exact .inr ⟨by decide +kernel, .inl h.2⟩⟩

/-- A graph with one vertex and no edges: with `2^64 - 1` decimals a build without overflow checks returns a text of 43 characters,
one with them panics. -/
example : okAnd ((Graph.newDirected.addVertex 0 none).findAvgPoolMatrix exUs .id 1) (fun m =>
    okAnd (m.toStringWithPrecision exUsR f64Fmt .id .id U64_MAX) (fun s => s.length == 43) &&
    isPanic (m.toStringWithPrecision exUs f64Fmt .id .id U64_MAX)) = true := by decide +kernel

end Verif.Props
