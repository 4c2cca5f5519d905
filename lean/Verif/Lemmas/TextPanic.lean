import Verif.Lemmas.F64Wide
import Verif.Spec.TextRoom

/-! When `to_string_with_precision` panics. -/

namespace Verif
open Spec

theorem Platform.usizeAdd_release {P : Platform} (h : P.profile = .release) (a b : Nat) :
    P.usizeAdd a b = .ok ((a + b) % (P.usizeMax + 1)) := by
  unfold Platform.usizeAdd Platform.wrapTo
  split
  · rw [Nat.mod_eq_of_lt (by omega)]
  · rw [h]

theorem Platform.usizeMul_release {P : Platform} (h : P.profile = .release) (a b : Nat) :
    P.usizeMul a b = .ok (a * b % (P.usizeMax + 1)) := by
  unfold Platform.usizeMul Platform.wrapTo
  split
  · rw [Nat.mod_eq_of_lt (by omega)]
  · rw [h]

theorem Platform.usizeSub_release {P : Platform} (h : P.profile = .release) (a b : Nat) :
    ∃ x, P.usizeSub a b = .ok x := by
  unfold Platform.usizeSub
  split
  · exact ⟨_, rfl⟩
  · rw [h]; exact ⟨_, rfl⟩

theorem Platform.usizeAdd_debug {P : Platform} (h : P.profile = .debug) {a b : Nat} (hab : P.usizeMax < a + b) :
    P.usizeAdd a b = .panic := by
  unfold Platform.usizeAdd Platform.wrapTo
  rw [if_neg (by omega), h]

theorem Platform.wrapTo_cases (P : Platform) (max x : Nat) : (∃ y, P.wrapTo max x = .ok y) ∨ P.wrapTo max x = .panic := by
  unfold Platform.wrapTo
  split
  · exact .inl ⟨_, rfl⟩
  · cases P.profile
    · exact .inr rfl
    · exact .inl ⟨_, rfl⟩

namespace SqMatrix

variable {T : Type}

theorem writeChars_panic (cs : List Char) : ∀ (buffer : List Char) (pos : Nat), buffer.length < pos + cs.length →
    pos ≤ buffer.length → writeChars buffer pos cs = .panic := by
  induction cs with
  | nil => intro buffer pos h h'; simp only [List.length_nil] at h; omega
  | cons c cs ih =>
    intro buffer pos h h'
    simp only [List.length_cons] at h
    unfold writeChars
    split
    · exact ih _ _ (by rw [List.length_set]; omega) (by rw [List.length_set]; omega)
    · rfl

/-- If the number cannot be formatted, writing an entry panics. -/
theorem writeEntry_panic {P : Platform} {F : NumFmt T} {highest lowest : T} {e d cr ce : Nat} {cell : Nat × Nat × T}
    (h : formatEntry P F highest lowest e d cell.2.2 = .panic) (buffer : List Char) :
    writeEntry P F highest lowest e d cr ce buffer cell = .panic := by
  have key : ∀ {x : Res Nat} {f : Nat → Res (List Char)}, ((∃ y, x = .ok y) ∨ x = .panic) → (∀ y, f y = .panic) →
      (x >>= f) = .panic := by
    rintro x f (⟨y, rfl⟩ | rfl) hf
    · exact hf y
    · rfl
  unfold writeEntry
  refine key (P.wrapTo_cases _ _) fun _ => key (P.wrapTo_cases _ _) fun _ => key (P.wrapTo_cases _ _) fun _ =>
    key (P.wrapTo_cases _ _) fun _ => ?_
  rw [h]; rfl

theorem foldl_panic {P : Platform} {F : NumFmt T} {highest lowest : T} {e d cr ce : Nat} {l : List (Nat × Nat × T)}
    (hl : l ≠ []) (h : ∀ x ∈ l, formatEntry P F highest lowest e d x.2.2 = .panic) (buffer : List Char) :
    Res.foldl (writeEntry P F highest lowest e d cr ce) buffer l = .panic := by
  cases l with
  | nil => exact absurd rfl hl
  | cons x l =>
    change (writeEntry P F highest lowest e d cr ce buffer x >>= fun b' => Res.foldl _ b' l) = _
    rw [writeEntry_panic (h x (by simp))]
    rfl

theorem cells_nil {m : SqMatrix T} (hw : m.WF) (o : HashOrder) : cells o m = [] ↔ m.entryCount = 0 := by
  rw [hw.count, keys_card, ← List.length_eq_zero_iff]
  have : (cells o m).length = (flat m.edgesTable).length := (flatO_perm o m.edgesTable).length_eq
  rw [this]

/-- The steps after the widths are known, for any width of the cells. -/
theorem tail_panic {P : Platform} {F : NumFmt T} (o : HashOrder) {m : SqMatrix T} {hi lo : T} {e pad c d : Nat}
    (hd : m.dimension ≠ 0) :
    (do
      let dimension ← Res.ofOption (P.usizeTryFrom m.dimension)
        (.CapacityOverflow "Matrix dimension does not fit in platform usize")
      let matrixEntryCount ← Res.ofOption (P.checkedMul dimension dimension)
        (.CapacityOverflow "Matrix string size overflowed")
      let bufferSize ← Res.ofOption
        ((P.checkedMul 4 dimension).bind fun rows =>
          ((P.checkedMul c matrixEntryCount).bind fun x => P.checkedAdd x rows).bind fun size => checkedSub size 2)
        (.CapacityOverflow "Matrix string size overflowed")
      if !P.alloc bufferSize then .err (.CapacityOverflow "Unable to allocate matrix string")
      else do
        let buffer := List.replicate bufferSize (Char.ofNat 0)
        let buffer ← writeChars buffer 0
          ((List.range m.dimension).flatMap (templateRow m.dimension e pad))
        let x ← P.usizeMul dimension c
        let charsPerRow ← P.usizeAdd 4 x
        Res.foldl (writeEntry P F hi lo e d charsPerRow c) buffer (cells o m) : Res (List Char)) = .panic ↔
    TextRoom P m.dimension c ∧
      (do
        let buffer ← writeChars (List.replicate (4 * m.dimension + c * (m.dimension * m.dimension) - 2) (Char.ofNat 0)) 0
          ((List.range m.dimension).flatMap (templateRow m.dimension e pad))
        let x ← P.usizeMul m.dimension c
        let charsPerRow ← P.usizeAdd 4 x
        Res.foldl (writeEntry P F hi lo e d charsPerRow c) buffer (cells o m) : Res (List Char)) = .panic := by
  have hn1 : 1 ≤ m.dimension := by omega
  have hnn : m.dimension ≤ m.dimension * m.dimension := Nat.le_mul_of_pos_left _ (by omega)
  unfold TextRoom
  by_cases h1 : m.dimension ≤ P.usizeMax
  · have e1 : P.usizeTryFrom m.dimension = some m.dimension := by unfold Platform.usizeTryFrom; rw [if_pos h1]
    rw [e1]
    simp only [Res.ofOption, Res.bind_ok]
    by_cases h2 : m.dimension * m.dimension ≤ P.usizeMax
    · have e2 : P.checkedMul m.dimension m.dimension = some (m.dimension * m.dimension) := by
        unfold Platform.checkedMul; rw [if_pos h2]
      rw [e2]
      simp only [Res.bind_ok]
      by_cases h3 : 4 * m.dimension + c * (m.dimension * m.dimension) ≤ P.usizeMax
      · have a1 : P.checkedMul 4 m.dimension = some (4 * m.dimension) := by
          unfold Platform.checkedMul; rw [if_pos (by omega)]
        have a2 : P.checkedMul c (m.dimension * m.dimension) = some (c * (m.dimension * m.dimension)) := by
          unfold Platform.checkedMul; rw [if_pos (by omega)]
        have a3 : P.checkedAdd (c * (m.dimension * m.dimension)) (4 * m.dimension) =
            some (4 * m.dimension + c * (m.dimension * m.dimension)) := by
          unfold Platform.checkedAdd; rw [if_pos (by omega), Nat.add_comm]
        have a4 : checkedSub (4 * m.dimension + c * (m.dimension * m.dimension)) 2 =
            some (4 * m.dimension + c * (m.dimension * m.dimension) - 2) := by
          unfold checkedSub; rw [if_pos (by omega)]
        rw [a1, a2]
        simp only [Option.bind_some, a3, a4, Res.bind_ok]
        cases ha : P.alloc (4 * m.dimension + c * (m.dimension * m.dimension) - 2) with
        | false => simp
        | true => simp [h2, h3]
      · have a : ((P.checkedMul 4 m.dimension).bind fun rows =>
            ((P.checkedMul c (m.dimension * m.dimension)).bind fun x => P.checkedAdd x rows).bind fun size =>
              checkedSub size 2) = none := by
          unfold Platform.checkedMul Platform.checkedAdd
          split
          · split
            · simp only [Option.bind_some]
              rw [if_neg (by omega)]; rfl
            · rfl
          · rfl
        rw [a]
        simp only [h3, false_and, and_false, iff_false]
        intro h; cases h
    · have e2 : P.checkedMul m.dimension m.dimension = none := by
        unfold Platform.checkedMul; rw [if_neg h2]
      rw [e2]
      simp only [h2, false_and, iff_false]
      intro h; cases h
  · have e1 : P.usizeTryFrom m.dimension = none := by unfold Platform.usizeTryFrom; rw [if_neg h1]
    have h2 : ¬ m.dimension * m.dimension ≤ P.usizeMax := by omega
    rw [e1]
    simp only [h2, false_and, iff_false]
    intro h; cases h

theorem template_length (n e pad : Nat) (hn : n ≠ 0) :
    ((List.range n).flatMap (templateRow n e pad)).length + 2 = 4 * n + (e + 2) * (n * n) := by
  rw [List.flatMap_congr (fun r _ => templateRow_eq n e pad r)]
  exact rows_length n e hn _ (fun _ _ _ _ => zeroCell_length _ _)

/-- The template always fits if the size of the buffer was computed without overflow; then only formatting can panic. -/
theorem tail_fits {P : Platform} (o : HashOrder) {m : SqMatrix F64} (hw : m.WF) {hi lo : F64} {e pad d : Nat}
    (hd : m.dimension ≠ 0) (hr : TextRoom P m.dimension (e + 2))
    (ht : ∀ c r v, m.at? c r = some v → (padLeft e (f64Chars v d)).length ≤ e + 2 ∨ P.fmtMax < e ∨ P.fmtMax < d) :
    (do
      let buffer ← writeChars (List.replicate (4 * m.dimension + (e + 2) * (m.dimension * m.dimension) - 2) (Char.ofNat 0)) 0
        ((List.range m.dimension).flatMap (templateRow m.dimension e pad))
      let x ← P.usizeMul m.dimension (e + 2)
      let charsPerRow ← P.usizeAdd 4 x
      Res.foldl (writeEntry P f64Fmt hi lo e d charsPerRow (e + 2)) buffer (cells o m) : Res (List Char)) = .panic ↔
    m.entryCount ≠ 0 ∧ (P.fmtMax < e ∨ P.fmtMax < d) := by
  obtain ⟨r1, r2, -⟩ := hr
  have hn1 : 1 ≤ m.dimension := by omega
  have hnn : m.dimension ≤ m.dimension * m.dimension := Nat.le_mul_of_pos_left _ (by omega)
  have hle3 : m.dimension * (e + 2) ≤ (e + 2) * (m.dimension * m.dimension) := by
    rw [Nat.mul_comm]; exact Nat.mul_le_mul_left _ hnn
  have hlen := template_length m.dimension e pad hd
  rw [writeChars_full _ _ (by rw [List.length_replicate]; omega), Res.bind_ok,
    Platform.usizeMul_ok (by omega), Res.bind_ok, Platform.usizeAdd_ok (by omega), Res.bind_ok]
  have hfe : ∀ v : F64, formatEntry P f64Fmt hi lo e d v =
      if e > P.fmtMax ∨ d > P.fmtMax then .panic else .ok (padLeft e (f64Chars v d)) := by
    intro v
    unfold formatEntry
    change (if (!true && _) = true then _ else _) = _
    simp only [Bool.not_true, Bool.false_and, Bool.false_eq_true, if_false]
    rfl
  by_cases hf : P.fmtMax < e ∨ P.fmtMax < d
  · simp only [hf, and_true]
    rw [Ne, ← cells_nil hw o]
    constructor
    · intro h h0
      rw [h0] at h
      cases h
    · intro h0
      exact foldl_panic h0 (fun x _ => by rw [hfe, if_pos hf]) _
  · simp only [hf, and_false, iff_false]
    obtain ⟨b, hb, -⟩ := writeAll_total (P := P) (F := f64Fmt) (highest := hi) (lowest := lo) (d := d)
      (text := fun v => padLeft e (f64Chars v d)) (n := m.dimension) (e := e) (by omega) r2 (cells o m)
      (by
        rintro ⟨c, r, v⟩ hx
        have hat : m.at? c r = some v := mem_flat.1 (((flatO_perm o m.edgesTable).mem_iff).1 hx)
        have hb := hw.bound (c, r) (mem_keys.2 ⟨v, hat⟩)
        refine ⟨hb.1, hb.2, by rw [hfe, if_neg hf], ?_⟩
        exact (ht c r v hat).resolve_right hf)
      ((List.range m.dimension).flatMap (templateRow m.dimension e pad)) (by omega)
    rw [hb]
    intro h; cases h

/-- When printing a matrix of printable doubles panics. -/
theorem f64Text_panic {P : Platform} (hP : Usual P) (o₁ o₂ : HashOrder) {m : SqMatrix F64} (hw : m.WF) {d : Nat}
    (hdu : d ≤ P.usizeMax) (hp : ∀ c r v, m.at? c r = some v → v.Printable) :
    m.toStringWithPrecision P f64Fmt o₁ o₂ d = .panic ↔ TextPanics P m (digitsOf f64Fmt (extremes f64Fmt o₁ m)) d := by
  obtain ⟨hk1, hk40⟩ := digitsOf_f64 (extremes f64Fmt o₁ m)
  have hfm := hP.size
  unfold TextPanics
  by_cases hd : m.dimension = 0
  · simp only [hd, ne_eq, not_true_eq_false, false_and, iff_false]
    unfold toStringWithPrecision
    rw [if_pos hd]
    intro h; cases h
  simp only [hd, ne_eq, not_false_eq_true, true_and]
  by_cases hfit : digitsOf f64Fmt (extremes f64Fmt o₁ m) + 1 + d + 2 ≤ P.usizeMax
  · rw [if_pos hfit]
    have hcw : cellWidth f64Fmt (extremes f64Fmt o₁ m) d = digitsOf f64Fmt (extremes f64Fmt o₁ m) + 1 + d := by
      unfold cellWidth; simp only [show f64Fmt.hasDecimal = true from rfl, Bool.true_or, if_true]; omega
    rw [toString_prefix P f64Fmt o₁ o₂ m d hd hk1 (by rw [hcw]; exact hfit)]
    simp only [hcw]
    rw [tail_panic o₂ hd]
    refine and_congr_right fun hr => ?_
    rw [tail_fits o₂ hw hd hr]
    · refine and_congr_right fun _ => ⟨fun h => ?_, fun h => .inl h⟩
      rcases h with h | h
      · exact h
      · omega
    · intro c r v hat
      left
      have := width_f64 o₁ d hat (hp c r v hat)
      unfold padLeft
      simp only [List.length_append, List.length_replicate]
      omega
  rw [if_neg hfit]
  have hmax : (if f64Fmt.digitCount (extremes f64Fmt o₁ m).1 > f64Fmt.digitCount (extremes f64Fmt o₁ m).2 then
      f64Fmt.digitCount (extremes f64Fmt o₁ m).1 else f64Fmt.digitCount (extremes f64Fmt o₁ m).2) =
      digitsOf f64Fmt (extremes f64Fmt o₁ m) := by
    unfold digitsOf; split <;> omega
  unfold toStringWithPrecision
  rw [if_neg hd]
  simp only [hmax, show f64Fmt.hasDecimal = true from rfl, Bool.true_or, if_true]
  generalize digitsOf f64Fmt (extremes f64Fmt o₁ m) = k at *
  cases hprof : P.profile with
  | debug =>
    simp only [true_or, iff_true]
    by_cases h1 : 1 + d ≤ P.usizeMax
    · rw [Platform.usizeAdd_ok h1, Res.bind_ok]
      by_cases h2 : k + (1 + d) ≤ P.usizeMax
      · rw [Platform.usizeAdd_ok h2, Res.bind_ok, Res.bind_ok]
        by_cases h3 : 1 + (1 + d) ≤ P.usizeMax
        · rw [Platform.usizeAdd_ok h3, Res.bind_ok, Platform.usizeSub_ok (by omega), Res.bind_ok,
            Platform.usizeAdd_debug hprof (by omega)]
          rfl
        · rw [Platform.usizeAdd_debug hprof (by omega)]; rfl
      · rw [Platform.usizeAdd_debug hprof (by omega)]; rfl
    · rw [Platform.usizeAdd_debug hprof (by omega)]; rfl
  | release =>
    simp only [reduceCtorEq, false_or]
    simp only [Platform.usizeAdd_release hprof, Res.bind_ok]
    obtain ⟨pad, hpad⟩ := Platform.usizeSub_release hprof ((k + (1 + d) % (P.usizeMax + 1)) % (P.usizeMax + 1))
      ((1 + (1 + d) % (P.usizeMax + 1)) % (P.usizeMax + 1))
    rw [hpad, Res.bind_ok]
    have he : (k + (1 + d) % (P.usizeMax + 1)) % (P.usizeMax + 1) = (k + 1 + d) % (P.usizeMax + 1) := by
      rw [Nat.add_mod_mod]; congr 1; omega
    have hc : ((k + 1 + d) % (P.usizeMax + 1) + 2) % (P.usizeMax + 1) = (k + 1 + d + 2) % (P.usizeMax + 1) :=
      Nat.mod_add_mod _ _ _
    rw [he, hc]
    have htail := tail_panic (P := P) (F := f64Fmt) o₂ (m := m) (hi := (extremes f64Fmt o₁ m).1)
      (lo := (extremes f64Fmt o₁ m).2) (e := (k + 1 + d) % (P.usizeMax + 1)) (pad := pad)
      (c := (k + 1 + d + 2) % (P.usizeMax + 1)) (d := d) hd
    simp only [Platform.usizeAdd_release hprof, Res.bind_ok] at htail
    rw [htail]
    refine and_congr_right fun hr => ?_
    by_cases hover : k + 1 + d ≤ P.usizeMax
    · -- the size of a cell fits, two more characters do not: the template is longer than the buffer
      simp only [hover, or_true, iff_true]
      have he' : (k + 1 + d) % (P.usizeMax + 1) = k + 1 + d := Nat.mod_eq_of_lt (by omega)
      have hlen := template_length m.dimension (k + 1 + d) pad hd
      have hle1 : (k + 1 + d + 2) * 1 ≤ (k + 1 + d + 2) * (m.dimension * m.dimension) :=
        Nat.mul_le_mul_left _ (Nat.mul_pos (by omega) (by omega))
      have hal := hP.alloc _ hr.2.2
      rw [he', writeChars_panic _ _ _ (by rw [List.length_replicate]; omega) (Nat.zero_le _)]
      rfl
    · simp only [hover, or_false]
      have hm1 : k + 1 + d - (P.usizeMax + 1) < P.usizeMax + 1 := by omega
      have he' : (k + 1 + d) % (P.usizeMax + 1) = k + 1 + d - (P.usizeMax + 1) := by
        rw [Nat.mod_eq_sub_mod (by omega), Nat.mod_eq_of_lt hm1]
      have hc' : (k + 1 + d + 2) % (P.usizeMax + 1) = k + 1 + d - (P.usizeMax + 1) + 2 := by
        rw [Nat.mod_eq_sub_mod (by omega), Nat.mod_eq_of_lt (by omega)]; omega
      rw [hc'] at hr ⊢
      rw [he']
      have hdf : P.fmtMax < d := by omega
      have := tail_fits (P := P) o₂ hw (hi := (extremes f64Fmt o₁ m).1) (lo := (extremes f64Fmt o₁ m).2)
        (e := k + 1 + d - (P.usizeMax + 1)) (pad := pad) (d := d) hd hr (fun _ _ _ _ => .inr (.inr hdf))
      simp only [Platform.usizeAdd_release hprof, Res.bind_ok] at this
      rw [this]
      simp [hdf]

/-- Neither a value nor a panic. -/
def NoErr {α : Type} (x : Res α) : Prop := ∀ e, x ≠ .err e

theorem NoErr.bind {α β : Type} {x : Res α} {f : α → Res β} (hx : NoErr x) (hf : ∀ a, NoErr (f a)) : NoErr (x >>= f) := by
  cases x with
  | ok a => exact hf a
  | err e => exact absurd rfl (hx e)
  | panic => intro e h; cases h

theorem noErr_wrap (P : Platform) (a b : Nat) : NoErr (P.wrapTo a b) := by
  intro e h
  rcases P.wrapTo_cases a b with ⟨y, h'⟩ | h' <;> rw [h'] at h <;> cases h

theorem noErr_sub (P : Platform) (a b : Nat) : NoErr (P.usizeSub a b) := by
  intro e h
  unfold Platform.usizeSub at h
  split at h
  · cases h
  · cases hp : P.profile <;> rw [hp] at h <;> cases h

theorem noErr_writeChars (cs : List Char) : ∀ (buffer : List Char) (pos : Nat), NoErr (writeChars buffer pos cs) := by
  induction cs with
  | nil => intro buffer pos e h; cases h
  | cons c cs ih =>
    intro buffer pos
    unfold writeChars
    split
    · exact ih _ _
    · intro e h; cases h

theorem noErr_foldl {α β : Type} {f : β → α → Res β} (hf : ∀ b a, NoErr (f b a)) (l : List α) : ∀ b, NoErr (Res.foldl f b l) := by
  induction l with
  | nil => intro b e h; cases h
  | cons a l ih => intro b; exact (hf b a).bind fun b' => ih b'

theorem noErr_entry (P : Platform) (F : NumFmt T) (hi lo : T) (e d cr ce : Nat) (buffer : List Char) (cell : Nat × Nat × T) :
    NoErr (writeEntry P F hi lo e d cr ce buffer cell) := by
  unfold writeEntry
  refine (noErr_wrap _ _ _).bind fun _ => (noErr_wrap _ _ _).bind fun _ => (noErr_wrap _ _ _).bind fun _ =>
    (noErr_wrap _ _ _).bind fun _ => NoErr.bind ?_ fun _ => noErr_writeChars _ _ _
  unfold formatEntry
  split
  · have hj : ∀ width : Nat, NoErr (if width > P.fmtMax then .panic
        else .ok (F.fmtW cell.2.2 width ++ ['.'] ++ List.replicate d '0')) := by
      intro width
      split <;> · intro e h; cases h
    dsimp only
    split
    · exact (noErr_wrap _ _ _).bind hj
    · exact NoErr.bind (fun e h => by cases h) hj
  · split <;> · intro e h; cases h

/-- No error but a capacity error. -/
def CapErr {α : Type} (x : Res α) : Prop := ∀ e, x = .err e → ∃ msg, e = .CapacityOverflow msg

theorem NoErr.cap {α : Type} {x : Res α} (h : NoErr x) : CapErr x := fun e he => absurd he (h e)

theorem CapErr.bind {α β : Type} {x : Res α} {f : α → Res β} (hx : CapErr x) (hf : ∀ a, CapErr (f a)) : CapErr (x >>= f) := by
  cases x with
  | ok a => exact hf a
  | err e => intro e' h; cases h; exact hx e rfl
  | panic => intro e h; cases h

theorem capErr_option {α : Type} (x : Option α) (msg : String) : CapErr (Res.ofOption x (.CapacityOverflow msg)) := by
  cases x with
  | none => intro e h; cases h; exact ⟨_, rfl⟩
  | some a => intro e h; cases h

/-- Printing a matrix has no errors but capacity errors. -/
theorem toString_capErr (P : Platform) (F : NumFmt T) (o₁ o₂ : HashOrder) (m : SqMatrix T) (d : Nat) :
    CapErr (m.toStringWithPrecision P F o₁ o₂ d) := by
  unfold toStringWithPrecision
  split
  · intro e h; cases h
  have hadd : ∀ a b, CapErr (P.usizeAdd a b) := fun a b => (noErr_wrap P _ _).cap
  have hmul : ∀ a b, CapErr (P.usizeMul a b) := fun a b => (noErr_wrap P _ _).cap
  have hsub : ∀ a b, CapErr (P.usizeSub a b) := fun a b => (noErr_sub P _ _).cap
  have htail : ∀ es sm : Nat, CapErr (do
    let entryLeftPadding ← P.usizeSub es sm
    let charsPerEntry ← P.usizeAdd es 2
    let dimension ← Res.ofOption (P.usizeTryFrom m.dimension)
      (.CapacityOverflow "Matrix dimension does not fit in platform usize")
    let matrixEntryCount ← Res.ofOption (P.checkedMul dimension dimension)
      (.CapacityOverflow "Matrix string size overflowed")
    let bufferSize ← Res.ofOption
      ((P.checkedMul 4 dimension).bind fun rows =>
        ((P.checkedMul charsPerEntry matrixEntryCount).bind fun x => P.checkedAdd x rows).bind fun size =>
          checkedSub size 2)
      (.CapacityOverflow "Matrix string size overflowed")
    if !P.alloc bufferSize then .err (.CapacityOverflow "Unable to allocate matrix string")
    else do
      let buffer := List.replicate bufferSize (Char.ofNat 0)
      let buffer ← writeChars buffer 0
        ((List.range m.dimension).flatMap (templateRow m.dimension es entryLeftPadding))
      let x ← P.usizeMul dimension charsPerEntry
      let charsPerRow ← P.usizeAdd 4 x
      Res.foldl (writeEntry P F (extremes F o₁ m).1 (extremes F o₁ m).2 es d charsPerRow charsPerEntry)
        buffer (cells o₂ m) : Res (List Char)) := by
    intro es sm
    refine (hsub _ _).bind fun _ => (hadd _ _).bind fun _ => (capErr_option _ _).bind fun _ =>
      (capErr_option _ _).bind fun _ => (capErr_option _ _).bind fun _ => ?_
    split
    · intro e h; cases h; exact ⟨_, rfl⟩
    · exact ((noErr_writeChars _ _ _).cap).bind fun _ => (hmul _ _).bind fun _ => (hadd _ _).bind fun _ =>
        (noErr_foldl (fun _ _ => noErr_entry _ _ _ _ _ _ _ _ _ _) _ _).cap
  dsimp only
  cases F.hasDecimal || decide (d > 0) with
  | true =>
    simp only [if_true]
    exact (hadd _ _).bind fun _ => (hadd _ _).bind fun _ => (hadd _ _).bind fun _ => (hadd _ _).bind fun _ => htail _ _
  | false =>
    simp only [Bool.false_eq_true, if_false]
    exact CapErr.bind (fun e h => by cases h) fun _ => (hadd _ _).bind fun _ => htail _ _

/-- The steps after the widths are known fail exactly when there is no room. -/
theorem tail_err {P : Platform} {F : NumFmt T} (o : HashOrder) {m : SqMatrix T} {hi lo : T} {e pad c d : Nat}
    (hd : m.dimension ≠ 0) :
    (∃ msg, (do
      let dimension ← Res.ofOption (P.usizeTryFrom m.dimension)
        (.CapacityOverflow "Matrix dimension does not fit in platform usize")
      let matrixEntryCount ← Res.ofOption (P.checkedMul dimension dimension)
        (.CapacityOverflow "Matrix string size overflowed")
      let bufferSize ← Res.ofOption
        ((P.checkedMul 4 dimension).bind fun rows =>
          ((P.checkedMul c matrixEntryCount).bind fun x => P.checkedAdd x rows).bind fun size => checkedSub size 2)
        (.CapacityOverflow "Matrix string size overflowed")
      if !P.alloc bufferSize then .err (.CapacityOverflow "Unable to allocate matrix string")
      else do
        let buffer := List.replicate bufferSize (Char.ofNat 0)
        let buffer ← writeChars buffer 0
          ((List.range m.dimension).flatMap (templateRow m.dimension e pad))
        let x ← P.usizeMul dimension c
        let charsPerRow ← P.usizeAdd 4 x
        Res.foldl (writeEntry P F hi lo e d charsPerRow c) buffer (cells o m) : Res (List Char)) =
          .err (.CapacityOverflow msg)) ↔
    ¬ TextRoom P m.dimension c := by
  have hn1 : 1 ≤ m.dimension := by omega
  have hnn : m.dimension ≤ m.dimension * m.dimension := Nat.le_mul_of_pos_left _ (by omega)
  unfold TextRoom
  by_cases h1 : m.dimension ≤ P.usizeMax
  · have e1 : P.usizeTryFrom m.dimension = some m.dimension := by unfold Platform.usizeTryFrom; rw [if_pos h1]
    rw [e1]
    simp only [Res.ofOption, Res.bind_ok]
    by_cases h2 : m.dimension * m.dimension ≤ P.usizeMax
    · have e2 : P.checkedMul m.dimension m.dimension = some (m.dimension * m.dimension) := by
        unfold Platform.checkedMul; rw [if_pos h2]
      rw [e2]
      simp only [Res.bind_ok]
      by_cases h3 : 4 * m.dimension + c * (m.dimension * m.dimension) ≤ P.usizeMax
      · have a1 : P.checkedMul 4 m.dimension = some (4 * m.dimension) := by
          unfold Platform.checkedMul; rw [if_pos (by omega)]
        have a2 : P.checkedMul c (m.dimension * m.dimension) = some (c * (m.dimension * m.dimension)) := by
          unfold Platform.checkedMul; rw [if_pos (by omega)]
        have a3 : P.checkedAdd (c * (m.dimension * m.dimension)) (4 * m.dimension) =
            some (4 * m.dimension + c * (m.dimension * m.dimension)) := by
          unfold Platform.checkedAdd; rw [if_pos (by omega), Nat.add_comm]
        have a4 : checkedSub (4 * m.dimension + c * (m.dimension * m.dimension)) 2 =
            some (4 * m.dimension + c * (m.dimension * m.dimension) - 2) := by
          unfold checkedSub; rw [if_pos (by omega)]
        rw [a1, a2]
        simp only [Option.bind_some, a3, a4, Res.bind_ok]
        cases ha : P.alloc (4 * m.dimension + c * (m.dimension * m.dimension) - 2) with
        | false => simp
        | true =>
          simp only [h2, h3, Bool.not_true, Bool.false_eq_true, if_false, and_self, not_true_eq_false, iff_false]
          rintro ⟨msg, h⟩
          exact (noErr_writeChars _ _ _).bind (fun _ => (noErr_wrap _ _ _).bind fun _ => (noErr_wrap _ _ _).bind fun _ =>
            noErr_foldl (fun _ _ => noErr_entry _ _ _ _ _ _ _ _ _ _) _ _) _ h
      · have a : ((P.checkedMul 4 m.dimension).bind fun rows =>
            ((P.checkedMul c (m.dimension * m.dimension)).bind fun x => P.checkedAdd x rows).bind fun size =>
              checkedSub size 2) = none := by
          unfold Platform.checkedMul Platform.checkedAdd
          split
          · split
            · simp only [Option.bind_some]
              rw [if_neg (by omega)]; rfl
            · rfl
          · rfl
        rw [a]
        simp only [h3, false_and, and_false, not_false_eq_true, iff_true]
        exact ⟨_, rfl⟩
    · have e2 : P.checkedMul m.dimension m.dimension = none := by
        unfold Platform.checkedMul; rw [if_neg h2]
      rw [e2]
      simp only [h2, false_and, not_false_eq_true, iff_true]
      exact ⟨_, rfl⟩
  · have e1 : P.usizeTryFrom m.dimension = none := by unfold Platform.usizeTryFrom; rw [if_neg h1]
    have h2 : ¬ m.dimension * m.dimension ≤ P.usizeMax := by omega
    rw [e1]
    simp only [h2, false_and, not_false_eq_true, iff_true]
    exact ⟨_, rfl⟩

/-- When printing a matrix of doubles returns an error. -/
theorem f64Text_err {P : Platform} (o₁ o₂ : HashOrder) {m : SqMatrix F64} {d : Nat} :
    (∃ msg, m.toStringWithPrecision P f64Fmt o₁ o₂ d = .err (.CapacityOverflow msg)) ↔
      m.dimension ≠ 0 ∧
      (digitsOf f64Fmt (extremes f64Fmt o₁ m) + 1 + d + 2 ≤ P.usizeMax ∨ P.profile = .release) ∧
      ¬ TextRoom P m.dimension ((digitsOf f64Fmt (extremes f64Fmt o₁ m) + 1 + d + 2) % (P.usizeMax + 1)) := by
  obtain ⟨hk1, hk40⟩ := digitsOf_f64 (extremes f64Fmt o₁ m)
  by_cases hd : m.dimension = 0
  · simp only [hd, ne_eq, not_true_eq_false, false_and, iff_false]
    unfold toStringWithPrecision
    rw [if_pos hd]
    rintro ⟨_, h⟩; cases h
  simp only [hd, ne_eq, not_false_eq_true, true_and]
  by_cases hfit : digitsOf f64Fmt (extremes f64Fmt o₁ m) + 1 + d + 2 ≤ P.usizeMax
  · simp only [hfit, true_or, true_and]
    have hcw : cellWidth f64Fmt (extremes f64Fmt o₁ m) d = digitsOf f64Fmt (extremes f64Fmt o₁ m) + 1 + d := by
      unfold cellWidth; simp only [show f64Fmt.hasDecimal = true from rfl, Bool.true_or, if_true]; omega
    rw [toString_prefix P f64Fmt o₁ o₂ m d hd hk1 (by rw [hcw]; exact hfit)]
    simp only [hcw]
    rw [tail_err o₂ hd, Nat.mod_eq_of_lt (by omega)]
  simp only [hfit, false_or]
  have hmax : (if f64Fmt.digitCount (extremes f64Fmt o₁ m).1 > f64Fmt.digitCount (extremes f64Fmt o₁ m).2 then
      f64Fmt.digitCount (extremes f64Fmt o₁ m).1 else f64Fmt.digitCount (extremes f64Fmt o₁ m).2) =
      digitsOf f64Fmt (extremes f64Fmt o₁ m) := by
    unfold digitsOf; split <;> omega
  unfold toStringWithPrecision
  rw [if_neg hd]
  simp only [hmax, show f64Fmt.hasDecimal = true from rfl, Bool.true_or, if_true]
  generalize digitsOf f64Fmt (extremes f64Fmt o₁ m) = k at *
  cases hprof : P.profile with
  | debug =>
    simp only [reduceCtorEq, false_and, iff_false]
    rintro ⟨msg, h⟩
    by_cases h1 : 1 + d ≤ P.usizeMax
    · rw [Platform.usizeAdd_ok h1, Res.bind_ok] at h
      by_cases h2 : k + (1 + d) ≤ P.usizeMax
      · rw [Platform.usizeAdd_ok h2, Res.bind_ok, Res.bind_ok] at h
        by_cases h3 : 1 + (1 + d) ≤ P.usizeMax
        · rw [Platform.usizeAdd_ok h3, Res.bind_ok, Platform.usizeSub_ok (by omega), Res.bind_ok,
            Platform.usizeAdd_debug hprof (by omega)] at h
          cases h
        · rw [Platform.usizeAdd_debug hprof (by omega)] at h; cases h
      · rw [Platform.usizeAdd_debug hprof (by omega)] at h; cases h
    · rw [Platform.usizeAdd_debug hprof (by omega)] at h; cases h
  | release =>
    simp only [true_and]
    simp only [Platform.usizeAdd_release hprof, Res.bind_ok]
    obtain ⟨pad, hpad⟩ := Platform.usizeSub_release hprof ((k + (1 + d) % (P.usizeMax + 1)) % (P.usizeMax + 1))
      ((1 + (1 + d) % (P.usizeMax + 1)) % (P.usizeMax + 1))
    rw [hpad, Res.bind_ok]
    have he : (k + (1 + d) % (P.usizeMax + 1)) % (P.usizeMax + 1) = (k + 1 + d) % (P.usizeMax + 1) := by
      rw [Nat.add_mod_mod]; congr 1; omega
    have hc : ((k + 1 + d) % (P.usizeMax + 1) + 2) % (P.usizeMax + 1) = (k + 1 + d + 2) % (P.usizeMax + 1) :=
      Nat.mod_add_mod _ _ _
    rw [he, hc]
    have htail := tail_err (P := P) (F := f64Fmt) o₂ (m := m) (hi := (extremes f64Fmt o₁ m).1)
      (lo := (extremes f64Fmt o₁ m).2) (e := (k + 1 + d) % (P.usizeMax + 1)) (pad := pad)
      (c := (k + 1 + d + 2) % (P.usizeMax + 1)) (d := d) hd
    simp only [Platform.usizeAdd_release hprof, Res.bind_ok] at htail
    rw [htail]

/-- Printing a matrix of printable doubles with a width that `format!` accepts: a text if there is room, otherwise an error. -/
theorem f64Text_room {P : Platform} (o₁ o₂ : HashOrder) {m : SqMatrix F64} (hw : m.WF) (d : Nat)
    (hp : ∀ c r v, m.at? c r = some v → v.Printable) (hd : m.dimension ≠ 0) {w : Nat}
    (hcw : w = digitsOf f64Fmt (extremes f64Fmt o₁ m) + (1 + d)) (hf : w ≤ P.fmtMax) (hu : w + 2 ≤ P.usizeMax) :
    (∃ s, m.toStringWithPrecision P f64Fmt o₁ o₂ d = .ok s ∧ TextRoom P m.dimension (w + 2)) ∨
    (∃ e, m.toStringWithPrecision P f64Fmt o₁ o₂ d = .err e ∧ ¬ TextRoom P m.dimension (w + 2)) := by
  obtain ⟨h1, -⟩ := digitsOf_f64 (extremes f64Fmt o₁ m)
  have hcw' : w = cellWidth f64Fmt (extremes f64Fmt o₁ m) d := hcw
  by_cases hsize : 4 * m.dimension + (w + 2) * (m.dimension * m.dimension) ≤ P.usizeMax
  · obtain ⟨s, hs, h⟩ := toString_total (P := P) (F := f64Fmt) o₁ o₂ hw hd h1 hcw' hsize
      (text := fun v => padLeft w (f64Chars v d)) (by
        intro c r v hat
        have hlen := width_f64 o₁ d hat (hp c r v hat)
        refine ⟨?_, ?_⟩
        · unfold formatEntry
          change (if (!true && _) = true then _ else _) = _
          simp only [Bool.not_true, Bool.false_and, Bool.false_eq_true, if_false]
          rw [if_neg (by omega)]
          rfl
        · unfold padLeft
          simp only [List.length_append, List.length_replicate]
          omega)
    have hnn : m.dimension * m.dimension ≤ (w + 2) * (m.dimension * m.dimension) := Nat.le_mul_of_pos_left _ (by omega)
    rw [h]
    cases hal : P.alloc _ with
    | true => left; exact ⟨s, rfl, by omega, hsize, hal⟩
    | false => right; exact ⟨_, rfl, fun hr => by rw [hr.2.2] at hal; cases hal⟩
  · obtain ⟨msg, h⟩ := toString_tooLarge (P := P) (F := f64Fmt) o₁ o₂ hd h1 hcw' (by omega) hsize
    right
    exact ⟨_, h, fun hr => hsize hr.2.1⟩

end SqMatrix
end Verif
