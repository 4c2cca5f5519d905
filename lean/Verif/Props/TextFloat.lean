import Verif.Props.TextPanic
import Verif.Props.TextWidth
import Verif.Props.Demo
import Verif.Lemmas.TextSpill

/-!
# C113: the text of any matrix of floating-point numbers
-/

namespace Verif.Props
open Verif Spec

/-! ## The characters reserved for integral parts -/

theorem entries_ne_nil {m : SqMatrix F64} {c r : Nat} {v : F64} (h : m.at? c r = some v) : m.edgesTable.entries.length ≠ 0 := by
  intro h0
  have : m.edgesTable.entries = [] := List.length_eq_zero_iff.1 h0
  simp [SqMatrix.at?, get2, HMap.get?, this, HMap.lookup] at h

theorem wholeLength_eq {v : F64} {l : Nat} : wholeLength v = some l ↔ v ≠ .nan ∧ f64Fmt.digitCount v = l := by
  rcases v with _ | (_ | _) | q
  · simp [wholeLength]
  · have : f64Fmt.digitCount (.inf false) = 39 := by
      change (intChars (2 ^ 127 - 1)).length = 39
      decide +kernel
    rw [this]
    simp [wholeLength]
  · have : f64Fmt.digitCount (.inf true) = 40 := by
      change (intChars (-2 ^ 127)).length = 40
      decide +kernel
    rw [this]
    simp [wholeLength]
  · have : f64Fmt.digitCount (.fin q) = (numeral (max (-2 ^ 127) (min (integralPart q) (2 ^ 127 - 1)))).length := by
      change (intChars (F64.asI128 (.fin q))).length = _
      rw [intChars_eq]
      rfl
    rw [this]
    simp [wholeLength]

theorem asI128_minV : f64Fmt.minV.asI128 = -2 ^ 127 := by
  have h2 : (2 : ℚ) ^ 127 ≤ f64Max := by
    unfold f64Max
    calc (2 : ℚ) ^ 127 = 1 * 2 ^ 127 := by ring
      _ ≤ _ := mul_le_mul (by norm_num) (pow_le_pow_right₀ (by norm_num) (by norm_num)) (by positivity) (by norm_num)
  have h3 : -f64Max < 0 := by
    have : (0 : ℚ) < 2 ^ 127 := by positivity
    linarith
  change F64.asI128 (.fin (-f64Max)) = _
  unfold F64.asI128
  simp only [if_pos h3]
  have : ⌈-f64Max⌉ ≤ -2 ^ 127 := by
    rw [Int.ceil_le]
    push_cast
    linarith
  omega

theorem asI128_maxV : f64Fmt.maxV.asI128 = 2 ^ 127 - 1 := asI128_max

theorem digitCount_numeral (v : F64) : f64Fmt.digitCount v = (numeral v.asI128).length := by
  change (intChars v.asI128).length = _
  rw [intChars_eq]

theorem digitCount_minV : f64Fmt.digitCount f64Fmt.minV = 40 := by
  change (intChars f64Fmt.minV.asI128).length = 40
  rw [asI128_minV]
  decide +kernel

theorem digitsOf_some {m : SqMatrix F64} (o : HashOrder) {c₀ r₀ : Nat} {v₀ : F64} (h₀ : m.at? c₀ r₀ = some v₀) (hn₀ : v₀ ≠ .nan) :
    (∃ c r v, m.at? c r = some v ∧ v ≠ .nan ∧ f64Fmt.digitCount v = SqMatrix.digitsOf f64Fmt (SqMatrix.extremes f64Fmt o m)) ∧
    ∀ c r v, m.at? c r = some v → v ≠ .nan → f64Fmt.digitCount v ≤ SqMatrix.digitsOf f64Fmt (SqMatrix.extremes f64Fmt o m) := by
  have hext : SqMatrix.extremes f64Fmt o m = (SqMatrix.values o m).foldl
      (fun hl v => (if F64.lt hl.1 v then v else hl.1, if F64.lt v hl.2 then v else hl.2))
      (f64Fmt.minV, f64Fmt.maxV) := by
    unfold SqMatrix.extremes; rw [if_neg (entries_ne_nil h₀)]; rfl
  obtain ⟨h1, h2, h3, h4, h5⟩ := SqMatrix.foldExtremes_f64 (SqMatrix.values o m) f64Fmt.minV f64Fmt.maxV
    (F64.noConfusion) (F64.noConfusion)
  obtain ⟨h6, h7⟩ := foldExtremes_mem (SqMatrix.values o m) f64Fmt.minV f64Fmt.maxV
  rw [← hext] at h1 h2 h3 h4 h5 h6 h7
  generalize SqMatrix.extremes f64Fmt o m = hl at *
  have hb := fun c r v (h : m.at? c r = some v) hn => h5 v (SqMatrix.mem_values.2 ⟨c, r, h⟩) hn
  constructor
  · have hmin : ∃ c r v, m.at? c r = some v ∧ v ≠ .nan ∧ f64Fmt.digitCount v = f64Fmt.digitCount hl.1 := by
      rcases h6 with h6 | h6
      · refine ⟨c₀, r₀, v₀, h₀, hn₀, ?_⟩
        have h8 := F64.asI128_mono hn₀ h1 (hb _ _ _ h₀ hn₀).1
        have h9 := (F64.asI128_range v₀).1
        rw [digitCount_numeral, digitCount_numeral]
        rw [h6, asI128_minV] at h8 ⊢
        rw [le_antisymm h8 h9]
      · obtain ⟨c, r, h⟩ := SqMatrix.mem_values.1 h6
        exact ⟨c, r, _, h, h1, rfl⟩
    have hmax : ∃ c r v, m.at? c r = some v ∧ v ≠ .nan ∧ f64Fmt.digitCount v = f64Fmt.digitCount hl.2 := by
      rcases h7 with h7 | h7
      · refine ⟨c₀, r₀, v₀, h₀, hn₀, ?_⟩
        have h8 := F64.asI128_mono h2 hn₀ (hb _ _ _ h₀ hn₀).2
        have h9 := (F64.asI128_range v₀).2
        rw [digitCount_numeral, digitCount_numeral]
        rw [h7, asI128_maxV] at h8 ⊢
        rw [le_antisymm h9 h8]
      · obtain ⟨c, r, h⟩ := SqMatrix.mem_values.1 h7
        exact ⟨c, r, _, h, h2, rfl⟩
    unfold SqMatrix.digitsOf
    rcases max_choice (f64Fmt.digitCount hl.1) (f64Fmt.digitCount hl.2) with h | h <;> rw [h]
    · exact hmin
    · exact hmax
  · intro c r v hv hn
    obtain ⟨k1, k2⟩ := hb c r v hv hn
    unfold SqMatrix.digitsOf
    rw [digitCount_numeral, digitCount_numeral, digitCount_numeral]
    have := numeral_length_between (F64.asI128_mono h2 hn k2) (F64.asI128_mono hn h1 k1)
    omega

theorem digitsOf_nan {m : SqMatrix F64} (o : HashOrder) (hent : m.edgesTable.entries.length ≠ 0)
    (hnan : ∀ c r v, m.at? c r = some v → v = .nan) : SqMatrix.digitsOf f64Fmt (SqMatrix.extremes f64Fmt o m) = 40 := by
  have hext : SqMatrix.extremes f64Fmt o m = (SqMatrix.values o m).foldl
      (fun hl v => (if F64.lt hl.1 v then v else hl.1, if F64.lt v hl.2 then v else hl.2))
      (f64Fmt.minV, f64Fmt.maxV) := by
    unfold SqMatrix.extremes; rw [if_neg hent]; rfl
  obtain ⟨h1, h2, -⟩ := SqMatrix.foldExtremes_f64 (SqMatrix.values o m) f64Fmt.minV f64Fmt.maxV
    (F64.noConfusion) (F64.noConfusion)
  obtain ⟨h6, h7⟩ := foldExtremes_mem (SqMatrix.values o m) f64Fmt.minV f64Fmt.maxV
  rw [← hext] at h1 h2 h6 h7
  have hval : ∀ v, v ∈ SqMatrix.values o m → v = .nan := by
    intro v hv
    obtain ⟨c, r, h⟩ := SqMatrix.mem_values.1 hv
    exact hnan c r v h
  unfold SqMatrix.digitsOf
  rw [h6.resolve_right fun h => h1 (hval _ h), h7.resolve_right fun h => h2 (hval _ h), digitCount_minV, digitCount_maxV]
  rfl

theorem digitsOf_empty {m : SqMatrix F64} (o : HashOrder) (hent : m.edgesTable.entries.length = 0) :
    SqMatrix.digitsOf f64Fmt (SqMatrix.extremes f64Fmt o m) = 39 := by
  unfold SqMatrix.extremes
  rw [if_pos hent]
  unfold SqMatrix.digitsOf
  rw [digitCount_maxV]
  have : f64Fmt.digitCount f64Fmt.zero = 1 := by
    change f64Fmt.digitCount (F64.lit 0) = 1
    rw [F64.lit_zero]
    exact digits_unit (le_refl _) (by norm_num)
  simp only [this]
  rfl

/-! ## Tables that are not empty -/

theorem call_entries {N : Numeric F64} {P : Platform} {m m' : SqMatrix F64} {op : NumOp F64} (h : NumOp.call N P m op = .ok m') :
    m'.edgesTable.entries.length ≠ 0 ↔ m.edgesTable.entries.length ≠ 0 ∨ ∃ c r, m'.at? c r ≠ none := by
  have hins : ∀ (t : HMap (HMap F64)) k v, (t.insert k v).entries.length ≠ 0 := by
    intro t k v
    simp [HMap.insert]
  have hback : (∃ c r, m'.at? c r ≠ none) → m'.edgesTable.entries.length ≠ 0 := by
    rintro ⟨c, r, h⟩
    obtain ⟨v, hv⟩ := Option.ne_none_iff_exists'.1 h
    exact entries_ne_nil hv
  cases op with
  | set x c r =>
    cases h
    by_cases hb : c < U64_MAX ∧ r < U64_MAX
    · by_cases hx : N.eq x N.zero = true
      · rw [SqMatrix.setEntry_zero hb.1 hb.2 hx] at hback ⊢
        exact ⟨fun h => .inl h, fun h => h.elim id hback⟩
      · have hat := SqMatrix.setEntry_at (m := m) hb.1 hb.2 (by simpa using hx) c r
        rw [if_pos ⟨rfl, rfl⟩] at hat
        have h1 := hback ⟨c, r, by rw [hat]; simp⟩
        exact ⟨fun _ => .inr ⟨c, r, by rw [hat]; simp⟩, fun _ => h1⟩
    · rw [SqMatrix.setEntry_overflow hb] at hback ⊢
      exact ⟨fun h => .inl h, fun h => h.elim id hback⟩
  | zero c r =>
    cases h
    unfold SqMatrix.zeroEntry at hback ⊢
    cases hg : m.edgesTable.get? c with
    | none =>
      simp only [hg] at hback ⊢
      exact ⟨fun h => .inl h, fun h => h.elim id hback⟩
    | some t =>
      simp only [hg] at hback ⊢
      refine ⟨fun _ => .inl fun h0 => ?_, fun _ => hins _ _ _⟩
      have : m.edgesTable.entries = [] := List.length_eq_zero_iff.1 h0
      simp [HMap.get?, this, HMap.lookup] at hg
  | increment c r =>
    have h' : m.incrementEntry N P c r = .ok m' := h
    by_cases hb : c < U64_MAX ∧ r < U64_MAX
    · obtain ⟨e', _, hat, _⟩ := SqMatrix.incrementEntry_ok hb.1 hb.2 h'
      have := hat c r
      rw [if_pos ⟨rfl, rfl⟩] at this
      have h1 := hback ⟨c, r, by rw [this]; simp⟩
      exact ⟨fun _ => .inr ⟨c, r, by rw [this]; simp⟩, fun _ => h1⟩
    · rw [SqMatrix.incrementEntry_overflow hb] at h'
      cases h'
      exact ⟨fun h => .inl h, fun h => h.elim id hback⟩

theorem runNum_abs {T : Type} {N : Numeric T} {P : Platform} {h : List (NumOp T)} {m : SqMatrix T} (hm : runNum N P h = .ok m) :
    ∃ a, ANum.run N P h = .ok a ∧ NumRel m a := by
  have hr := runNum_rel N P h
  rw [hm] at hr
  cases ha : ANum.run N P h with
  | ok a => rw [ha] at hr; exact ⟨a, rfl, hr⟩
  | err e => rw [ha] at hr; exact absurd hr (by simp [ResRel])
  | panic => rw [ha] at hr; exact absurd hr (by simp [ResRel])

theorem everStored_iff {N : Numeric F64} {P : Platform} (h : List (NumOp F64)) :
    ∀ {m : SqMatrix F64}, runNum N P h = .ok m → (m.edgesTable.entries.length ≠ 0 ↔ EverStored N P h) := by
  induction h using List.reverseRecOn with
  | nil =>
    intro m hm
    cases hm
    constructor
    · intro h; exact absurd rfl h
    · rintro ⟨h', hp, a, ha, c, r, hv⟩
      rw [List.prefix_nil] at hp
      subst hp
      cases ha
      exact absurd rfl hv
  | append_singleton l op ih =>
    intro m' hm'
    have h1 : (runNum N P l).bind (fun m => Res.foldl (NumOp.call N P) m [op]) = .ok m' := by
      rw [← hm']; unfold runNum; rw [Res.foldl_append]
    obtain ⟨m, hm, hc⟩ := Res.bind_eq_ok.1 h1
    obtain ⟨m₁, hc, hc'⟩ := Res.bind_eq_ok.1 hc
    cases hc'
    obtain ⟨a', ha', hrel⟩ := runNum_abs hm'
    rw [call_entries hc, ih hm]
    constructor
    · rintro (⟨h', hp, h⟩ | ⟨c, r, h⟩)
      · exact ⟨h', hp.trans (List.prefix_append _ _), h⟩
      · exact ⟨_, List.prefix_refl _, a', ha', c, r, by rw [← hrel.at_eq]; exact h⟩
    · rintro ⟨h', hp, a, ha, c, r, h⟩
      rcases List.prefix_concat_iff.1 hp with rfl | hp
      · rw [ha'] at ha
        cases ha
        exact .inr ⟨c, r, by rw [hrel.at_eq]; exact h⟩
      · exact .inl ⟨h', hp, a, ha, c, r, h⟩

/-- The code reserves the characters of `ReservedAfter`. -/
theorem reservedAfter_iff {N : Numeric F64} {P : Platform} {h : List (NumOp F64)} {m : SqMatrix F64} {a : ANum F64}
    (hm : runNum N P h = .ok m) (hr : NumRel m a) (o : HashOrder) (k : Nat) :
    ReservedAfter N P h a k ↔ k = SqMatrix.digitsOf f64Fmt (SqMatrix.extremes f64Fmt o m) := by
  have hs := everStored_iff h hm
  unfold ReservedAfter
  simp only [← hr.at_eq, wholeLength_eq]
  by_cases hsome : ∃ c r v, m.at? c r = some v ∧ v ≠ .nan
  · obtain ⟨c₀, r₀, v₀, h₀, hn₀⟩ := hsome
    obtain ⟨d1, d2⟩ := digitsOf_some o h₀ hn₀
    have hev : EverStored N P h := hs.1 (entries_ne_nil h₀)
    constructor
    · rintro ⟨h1, -, -⟩
      obtain ⟨⟨c, r, v, hv, hn, hk⟩, h3⟩ := h1 ⟨c₀, r₀, v₀, h₀, hn₀⟩
      apply le_antisymm
      · rw [← hk]; exact d2 c r v hv hn
      · obtain ⟨c, r, v, hv, hn, hd⟩ := d1
        exact h3 c r v _ hv ⟨hn, hd⟩
    · rintro rfl
      refine ⟨fun _ => ⟨?_, ?_⟩, fun h => absurd (h _ _ _ h₀) hn₀, fun h => absurd hev h⟩
      · obtain ⟨c, r, v, hv, hn, hd⟩ := d1
        exact ⟨c, r, v, hv, hn, hd⟩
      · rintro c r v l hv ⟨hn, rfl⟩
        exact d2 c r v hv hn
  · have hnan : ∀ c r v, m.at? c r = some v → v = .nan := by
      intro c r v hv
      by_contra hn
      exact hsome ⟨c, r, v, hv, hn⟩
    by_cases hev : EverStored N P h
    · rw [digitsOf_nan o (hs.2 hev) hnan]
      exact ⟨fun h => h.2.1 hnan hev, fun h => ⟨fun h' => absurd h' hsome, fun _ _ => h, fun h' => absurd hev h'⟩⟩
    · rw [digitsOf_empty o (by_contra fun h => hev (hs.1 h))]
      exact ⟨fun h => h.2.2 hev, fun h => ⟨fun h' => absurd h' hsome, fun _ h' => absurd h' hev, fun _ => h⟩⟩

/-! ## The texts of the numbers -/

theorem shownAs_f64Chars (d : Nat) (v : F64) : ShownAs d v (f64Chars v d) := by
  rcases v with _ | neg | q
  · rfl
  · cases neg <;> rfl
  · unfold ShownAs
    simp only
    split
    · next h0 =>
      subst h0
      have hnn : 0 ≤ F64.roundEven |q| := F64.int_le_roundEven (by push_cast; positivity)
      obtain ⟨k, hk⟩ := Int.eq_ofNat_of_zero_le hnn
      have hkq : (F64.roundEven |q| : ℚ) = (k : ℚ) := by rw [hk]; rfl
      refine ⟨k, ?_, ?_, ?_⟩
      · rw [← hkq]; exact F64.abs_roundEven_sub _
      · intro h
        rw [← hkq] at h
        have := Verif.roundEven_even h
        omega
      · unfold f64Chars fixedChars
        simp only [pow_zero, mul_one, Nat.div_one, if_true, List.append_nil, hk, Int.toNat_natCast, decChars_eq]
    · exact isDecimal_f64Chars d (by omega) q

theorem shownAs_unique {d : Nat} {v : F64} {s s' : List Char} (h : ShownAs d v s) (h' : ShownAs d v s') : s = s' := by
  rcases v with _ | neg | q
  · exact Eq.trans h (Eq.symm h')
  · exact Eq.trans h (Eq.symm h')
  · unfold ShownAs at h h'
    simp only at h h'
    split at h
    · next h0 =>
      rw [if_pos h0] at h'
      obtain ⟨k, h1, h2, rfl⟩ := h
      obtain ⟨k', h1', h2', rfl⟩ := h'
      have a1 := Format.roundEven_unique (x := |q|) (n := k) (by exact_mod_cast h1) (fun e => by
        have := h2 (by exact_mod_cast e); omega)
      have a2 := Format.roundEven_unique (x := |q|) (n := k') (by exact_mod_cast h1') (fun e => by
        have := h2' (by exact_mod_cast e); omega)
      have : k = k' := by rw [a1] at a2; exact_mod_cast a2
      rw [this]
    · next h0 =>
      rw [if_neg h0] at h'
      exact isDecimal_unique h h'

theorem cellTexts_exist (a : ANum F64) (d : Nat) :
    ∃ text, CellTexts a d text ∧ ∀ text', CellTexts a d text' → text' = text := by
  refine ⟨fun c r => match a.val c r with | some v => f64Chars v d | none => '0' :: '.' :: List.replicate d '0', ?_, ?_⟩
  · intro c r
    cases hv : a.val c r with
    | none => simp only [hv]
    | some v => simp only [hv]; exact shownAs_f64Chars d v
  · intro text' h'
    funext c r
    have := h' c r
    cases hv : a.val c r with
    | none => simp only [hv] at this ⊢; exact this
    | some v => simp only [hv] at this ⊢; exact shownAs_unique this (shownAs_f64Chars d v)

/-! ## The theorems for any entry type whose printing is that of doubles -/

section
variable {N : Numeric F64} {P₀ : Platform} {h : List (NumOp F64)} {m : SqMatrix F64} {a : ANum F64}

theorem floatText_panics (hm : runNum N P₀ h = .ok m) (hr : NumRel m a) {k : Nat} (hk : ReservedAfter N P₀ h a k)
    {P : Platform} (hP : Usual P) (o₁ o₂ : HashOrder) {d : Nat} (hd : d ≤ P.usizeMax) :
    m.toStringWithPrecision P f64Fmt o₁ o₂ d = .panic ↔ FloatTextPanics P a k d := by
  rw [SqMatrix.f64Text_panics hP o₁ o₂ hr.wf hd, ← (reservedAfter_iff hm hr o₁ k).1 hk]
  unfold FloatTextPanics
  simp only [hr.at_eq, hr.dim]
  refine and_congr_right fun _ => ?_
  split
  · refine and_congr_right fun _ => exists_congr fun c => exists_congr fun r => exists_congr fun v => and_congr_right fun _ =>
      or_congr_right ?_
    constructor
    · exact fun hl => ⟨_, shownAs_f64Chars d v, hl⟩
    · rintro ⟨s, hs, hl⟩
      rwa [shownAs_unique hs (shownAs_f64Chars d v)] at hl
  · simp only [Option.ne_none_iff_exists']

theorem floatText_errors (hm : runNum N P₀ h = .ok m) (hr : NumRel m a) {k : Nat} (hk : ReservedAfter N P₀ h a k)
    (P : Platform) (o₁ o₂ : HashOrder) (d : Nat) :
    (∀ e, m.toStringWithPrecision P f64Fmt o₁ o₂ d = .err e → ∃ msg, e = .CapacityOverflow msg) ∧
    ((∃ e, m.toStringWithPrecision P f64Fmt o₁ o₂ d = .err e) ↔
      a.dim ≠ 0 ∧ (k + 1 + d + 2 ≤ P.usizeMax ∨ P.profile = .release) ∧
      ¬ TextRoom P a.dim ((k + 1 + d + 2) % (P.usizeMax + 1))) := by
  refine ⟨SqMatrix.toString_capErr P f64Fmt o₁ o₂ m d, ?_⟩
  rw [(reservedAfter_iff hm hr o₁ k).1 hk, ← hr.dim, ← SqMatrix.f64Text_err o₁ o₂]
  constructor
  · rintro ⟨e, h⟩
    obtain ⟨msg, rfl⟩ := SqMatrix.toString_capErr P f64Fmt o₁ o₂ m d e h
    exact ⟨msg, h⟩
  · rintro ⟨msg, h⟩
    exact ⟨_, h⟩

theorem floatText_text (hm : runNum N P₀ h = .ok m) (hr : NumRel m a) {k : Nat} (hk : ReservedAfter N P₀ h a k)
    {P : Platform} (o₁ o₂ : HashOrder) {d : Nat} (hu : k + 1 + d + 2 ≤ P.usizeMax) {text : Nat → Nat → List Char}
    (ht : CellTexts a d text) {s : List Char} (hs : m.toStringWithPrecision P f64Fmt o₁ o₂ d = .ok s) (hn : a.dim ≠ 0) :
    s.length + 2 = 4 * a.dim + (k + 3 + d) * (a.dim * a.dim) ∧
    (IsGridOf a.dim text s ↔ ∀ c r, (text c r).length ≤ k + 1 + d) ∧
    ((∀ c r, (text c r).length ≤ k + 1 + d) → s = grid a.dim fun c r => rightAligned (k + 1 + d) (text c r)) := by
  have hkd := (reservedAfter_iff hm hr o₁ k).1 hk
  have hk1 := (SqMatrix.digitsOf_f64 (SqMatrix.extremes f64Fmt o₁ m)).1
  rw [← hkd] at hk1
  have hdim := hn
  rw [← hr.dim] at hdim
  have htext : ∀ c r, text c r = match m.at? c r with | some v => f64Chars v d | none => '0' :: '.' :: List.replicate d '0' := by
    intro c r
    have := ht c r
    rw [hr.at_eq]
    cases hv : a.val c r with
    | none => rw [hv] at this; exact this
    | some v => rw [hv] at this; exact shownAs_unique this (shownAs_f64Chars d v)
  have hcw : k + 1 + d = SqMatrix.cellWidth f64Fmt (SqMatrix.extremes f64Fmt o₁ m) d := by
    unfold SqMatrix.cellWidth
    rw [← hkd]
    simp only [show f64Fmt.hasDecimal = true from rfl, Bool.true_or, if_true]
    omega
  have hlen : s.length + 2 = 4 * a.dim + (k + 3 + d) * (a.dim * a.dim) := by
    obtain ⟨-, buffer, hb, hfold⟩ := SqMatrix.toString_ok_fold o₁ o₂ hdim (by rw [← hkd]; exact hk1) hcw hu hs
    rw [SqMatrix.foldl_write_length _ _ _ hfold, hb, hr.dim, show k + 1 + d + 2 = k + 3 + d by omega]
  have hfit : (∀ c r, (text c r).length ≤ k + 1 + d) → s = grid a.dim fun c r => rightAligned (k + 1 + d) (text c r) := by
    intro hf
    rw [SqMatrix.f64Text_ok o₁ o₂ hr.wf d hkd.symm hk1 hdim hu (fun c r v hv => by
      have := hf c r
      rw [htext, hv] at this
      exact this) hs, hr.dim]
    congr 1
    funext c r
    rw [htext]
    cases m.at? c r <;> rfl
  refine ⟨hlen, ⟨fun hg => ?_, fun hf => ⟨_, fun c _ r _ => hf c r, hfit hf⟩⟩, hfit⟩
  obtain ⟨w, h1, h2, -⟩ := isGridOf_length hn hg
  have hpos : 0 < a.dim * a.dim := Nat.mul_pos (by omega) (by omega)
  have hw : w + 2 = k + 3 + d := Nat.eq_of_mul_eq_mul_right hpos (by omega)
  intro c r
  by_cases hb : c < a.dim ∧ r < a.dim
  · have := h1 c hb.1 r hb.2
    omega
  · have hnone : m.at? c r = none := by
      cases hm' : m.at? c r with
      | none => rfl
      | some v =>
        have := hr.wf.bound (c, r) (SqMatrix.mem_keys.2 ⟨v, hm'⟩)
        rw [hr.dim] at this
        exact absurd this hb
    rw [htext, hnone]
    simp
    omega

end

/-! ## C113 -/

/-- **C113, widths.** Whatever doubles (NaN and infinities included) have been stored in a matrix, the number of characters that printing
reserves for integral parts is determined by the history as in `ReservedAfter`. -/
theorem C113_reserved (N : Numeric F64) (P₀ : Platform) (h : List (NumOp F64)) (m : SqMatrix F64) (a : ANum F64)
    (hm : runNum N P₀ h = .ok m) (ha : ANum.run N P₀ h = .ok a) :
    ∃ k, ReservedAfter N P₀ h a k ∧ (∀ k', ReservedAfter N P₀ h a k' → k' = k) ∧ 1 ≤ k ∧ k ≤ 40 := by
  obtain ⟨a', ha', hr⟩ := runNum_abs hm
  rw [ha] at ha'
  cases ha'
  have := SqMatrix.digitsOf_f64 (SqMatrix.extremes f64Fmt .id m)
  exact ⟨_, (reservedAfter_iff hm hr .id _).2 rfl, fun k' => (reservedAfter_iff hm hr .id k').1, this.1, this.2⟩

/-- **C113, panics.** Printing a matrix of doubles with `d` decimals panics exactly in the cases of `FloatTextPanics`. -/
theorem C113_panics_iff (P₀ : Platform) (h : List (NumOp F64)) (m : SqMatrix F64) (a : ANum F64)
    (hm : runNum f64Numeric P₀ h = .ok m) (ha : ANum.run f64Numeric P₀ h = .ok a) (k : Nat)
    (hk : ReservedAfter f64Numeric P₀ h a k) (P : Platform) (hP : Usual P) (o₁ o₂ : HashOrder) (d : Nat) (hd : d ≤ P.usizeMax) :
    m.toStringWithPrecision P f64Fmt o₁ o₂ d = .panic ↔ FloatTextPanics P a k d := by
  obtain ⟨a', ha', hr⟩ := runNum_abs hm
  rw [ha] at ha'
  cases ha'
  exact floatText_panics hm hr hk hP o₁ o₂ hd

/-- **C113, errors.** The only error is a capacity error, returned exactly when there is no room for a text of the computed size. -/
theorem C113_errors (P₀ : Platform) (h : List (NumOp F64)) (m : SqMatrix F64) (a : ANum F64)
    (hm : runNum f64Numeric P₀ h = .ok m) (ha : ANum.run f64Numeric P₀ h = .ok a) (k : Nat)
    (hk : ReservedAfter f64Numeric P₀ h a k) (P : Platform) (o₁ o₂ : HashOrder) (d : Nat) :
    (∀ e, m.toStringWithPrecision P f64Fmt o₁ o₂ d = .err e → ∃ msg, e = .CapacityOverflow msg) ∧
    ((∃ e, m.toStringWithPrecision P f64Fmt o₁ o₂ d = .err e) ↔
      a.dim ≠ 0 ∧ (k + 1 + d + 2 ≤ P.usizeMax ∨ P.profile = .release) ∧
      ¬ TextRoom P a.dim ((k + 1 + d + 2) % (P.usizeMax + 1))) := by
  obtain ⟨a', ha', hr⟩ := runNum_abs hm
  rw [ha] at ha'
  cases ha'
  exact floatText_errors hm hr hk P o₁ o₂ d

/-- **C113, text.** A text that is returned has the computed size; it is the grid of the texts of the entries exactly if each of them
fits in a cell. -/
theorem C113_text (P₀ : Platform) (h : List (NumOp F64)) (m : SqMatrix F64) (a : ANum F64)
    (hm : runNum f64Numeric P₀ h = .ok m) (ha : ANum.run f64Numeric P₀ h = .ok a) (k : Nat)
    (hk : ReservedAfter f64Numeric P₀ h a k) (d : Nat) :
    ∃ text, CellTexts a d text ∧ (∀ text', CellTexts a d text' → text' = text) ∧
    ∀ (P : Platform) (o₁ o₂ : HashOrder) (s : List Char), k + 1 + d + 2 ≤ P.usizeMax →
      m.toStringWithPrecision P f64Fmt o₁ o₂ d = .ok s → a.dim ≠ 0 →
      s.length + 2 = 4 * a.dim + (k + 3 + d) * (a.dim * a.dim) ∧
      (IsGridOf a.dim text s ↔ ∀ c r, (text c r).length ≤ k + 1 + d) ∧
      ((∀ c r, (text c r).length ≤ k + 1 + d) → s = grid a.dim fun c r => rightAligned (k + 1 + d) (text c r)) := by
  obtain ⟨a', ha', hr⟩ := runNum_abs hm
  rw [ha] at ha'
  cases ha'
  obtain ⟨text, ht, hu⟩ := cellTexts_exist a d
  exact ⟨text, ht, hu, fun P o₁ o₂ s hl hs hn => floatText_text hm hr hk o₁ o₂ hl ht hs hn⟩

/-- **C113 for `f32` entries.** The same rules; no `f32` is long enough for a panic of the second kind (C84). -/
theorem C113_f32 (P₀ : Platform) (h : List (NumOp F64)) (hs : F32Sets h) (m : SqMatrix F64) (a : ANum F64)
    (hm : runNum f32Numeric P₀ h = .ok m) (ha : ANum.run f32Numeric P₀ h = .ok a) (k : Nat)
    (hk : ReservedAfter f32Numeric P₀ h a k) (d : Nat) :
    (∀ (P : Platform) (o₁ o₂ : HashOrder), Usual P → d ≤ P.usizeMax →
      (m.toStringWithPrecision P f32Fmt o₁ o₂ d = .panic ↔ FloatTextPanics P a k d)) ∧
    (∀ (P : Platform) (o₁ o₂ : HashOrder),
      ((∃ e, m.toStringWithPrecision P f32Fmt o₁ o₂ d = .err e) ↔
        a.dim ≠ 0 ∧ (k + 1 + d + 2 ≤ P.usizeMax ∨ P.profile = .release) ∧
        ¬ TextRoom P a.dim ((k + 1 + d + 2) % (P.usizeMax + 1)))) ∧
    ∃ text, CellTexts a d text ∧
    ∀ (P : Platform) (o₁ o₂ : HashOrder) (s : List Char), k + 1 + d + 2 ≤ P.usizeMax →
      m.toStringWithPrecision P f32Fmt o₁ o₂ d = .ok s → a.dim ≠ 0 →
      s.length + 2 = 4 * a.dim + (k + 3 + d) * (a.dim * a.dim) ∧
      (IsGridOf a.dim text s ↔ ∀ c r, (text c r).length ≤ k + 1 + d) ∧
      ((∀ c r, (text c r).length ≤ k + 1 + d) → s = grid a.dim fun c r => rightAligned (k + 1 + d) (text c r)) := by
  obtain ⟨_, hv⟩ := f32_inv hs hm
  obtain ⟨a', ha', hr⟩ := runNum_abs hm
  rw [ha] at ha'
  cases ha'
  obtain ⟨text, ht, -⟩ := cellTexts_exist a d
  simp only [SqMatrix.toString_f32 _ _ _ hv d]
  exact ⟨fun P o₁ o₂ hP hd => floatText_panics hm hr hk hP o₁ o₂ hd,
    fun P o₁ o₂ => (floatText_errors hm hr hk P o₁ o₂ d).2,
    text, ht, fun P o₁ o₂ s hl hs hn => floatText_text hm hr hk o₁ o₂ hl ht hs hn⟩

/-- C113: `2^200` (61 digits) in a matrix of one cell, which has 43 characters left: printing panics.  The same number in the first of four
cells (176 characters left) makes a wrong text of the computed size. -/
example : okAnd (runNum f64Numeric exUs [.set (.fin (2 ^ 200)) 0 0]) (fun m =>
    isPanic (m.toStringWithPrecision exUs f64Fmt HashOrder.id HashOrder.id 1)) = true ∧ charsLeft 1 41 0 0 = 43 := by
  constructor <;> decide +kernel
example : okAnd (runNum f64Numeric exUs [.set (.fin (2 ^ 200)) 0 0, .set (.fin 1) 1 1]) (fun m =>
    okAnd (m.toStringWithPrecision exUs f64Fmt HashOrder.id HashOrder.id 1) (fun s => s.length == 178)) = true ∧
    charsLeft 2 41 0 0 = 176 := by
  constructor <;> decide +kernel

/-- C113: a matrix that holds NaN only has cells for 40 characters before the point; one that has been emptied too; one that never held
anything for 39. -/
example : okAnd (runNum f64Numeric exP [.set .nan 0 0]) (fun m =>
    okAnd (m.toStringWithPrecision exP f64Fmt HashOrder.id HashOrder.id 1) (fun s => s.length + 2 == 4 + (40 + 3 + 1))) = true := by
  decide +kernel
example : okAnd (runNum f64Numeric exP [.set (.fin 1) 0 0, .zero 0 0]) (fun m =>
    okAnd (m.toStringWithPrecision exP f64Fmt HashOrder.id HashOrder.id 1) (fun s => s.length + 2 == 4 + (40 + 3 + 1))) = true := by
  decide +kernel
example : okAnd (runNum f64Numeric exP [.set (.fin 0) 0 0]) (fun m =>
    okAnd (m.toStringWithPrecision exP f64Fmt HashOrder.id HashOrder.id 1) (fun s => s.length + 2 == 4 + (39 + 3 + 1))) = true := by
  decide +kernel
example : okAnd (runNum f32Numeric exP [.set (.inf true) 0 0, .set (.fin (-1 / 2)) 0 1]) (fun m =>
    okAnd (m.toStringWithPrecision exP f32Fmt HashOrder.id HashOrder.id 1) (fun s => s.length + 2 == 4 * 2 + (40 + 3 + 1) * 4)) = true := by
  decide +kernel

/-- C113: `EverStored` and `ReservedAfter` on the emptied matrix. -/
example : EverStored f64Numeric exP [.set (.fin 1) 0 0, .zero 0 0] ∧
    ∃ a, ANum.run f64Numeric exP [.set (.fin 1) 0 0, .zero 0 0] = .ok a ∧
      ReservedAfter f64Numeric exP [.set (.fin 1) 0 0, .zero 0 0] a 40 := by
  have hok : okAnd (runNum f64Numeric exP [.set (.fin 1) 0 0, .zero 0 0]) (fun m =>
    m.edgesTable.entries.length != 0 && SqMatrix.digitsOf f64Fmt (SqMatrix.extremes f64Fmt .id m) == 40) = true := by decide +kernel
  obtain ⟨m, hm, hp⟩ := okAnd_elim hok
  simp only [Bool.and_eq_true, bne_iff_ne, beq_iff_eq] at hp
  obtain ⟨a, ha, hr⟩ := runNum_abs hm
  exact ⟨(everStored_iff _ hm).1 hp.1, a, ha, (reservedAfter_iff hm hr .id 40).2 hp.2.symm⟩

end Verif.Props
