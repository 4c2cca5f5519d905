import Verif.Lemmas.TextPanic
import Verif.Lemmas.TextWrong
import Verif.Spec.TextFloat

/-! Printing doubles that are longer than what is left of the text. -/

namespace Verif
open Spec

namespace SqMatrix

variable {T : Type}

theorem charsLeft_eq {n e c r : Nat} (hc : c < n) (hr : r < n) :
    r * (4 + n * (e + 2)) + 2 + (e + 2) * c + charsLeft n e c r = 4 * n + (e + 2) * (n * n) - 2 := by
  obtain ⟨x, rfl⟩ : ∃ x, n = c + x := ⟨n - c, by omega⟩
  obtain ⟨y, hy⟩ : ∃ y, c + x = r + 1 + y := ⟨c + x - 1 - r, by omega⟩
  unfold charsLeft
  rw [show c + x - c = x by omega, show c + x - 1 - r = y by omega]
  have : r * (4 + (c + x) * (e + 2)) + 2 + (e + 2) * c + (x * (e + 2) + y * ((c + x) * (e + 2) + 4)) + 2 =
      (r + 1 + y) * 4 + (r + 1 + y) * ((c + x) * (e + 2)) := by
    have h2 : (e + 2) * c + x * (e + 2) = (c + x) * (e + 2) := by ring
    calc _ = r * (4 + (c + x) * (e + 2)) + 4 + ((e + 2) * c + x * (e + 2)) + y * ((c + x) * (e + 2) + 4) := by ring
      _ = _ := by rw [h2]; ring
  have h3 : 4 * (c + x) + (e + 2) * ((c + x) * (c + x)) = (r + 1 + y) * 4 + (r + 1 + y) * ((c + x) * (e + 2)) := by
    rw [← hy]; ring
  omega

/-- Writing the numbers succeeds if all of them fit in what is left of the text, and panics otherwise. -/
theorem writeAll_spill {P : Platform} {F : NumFmt T} {highest lowest : T} {e d n : Nat} {text : T → List Char}
    (hsize : 4 * n + (e + 2) * (n * n) ≤ P.usizeMax) (l : List (Nat × Nat × T))
    (hl : ∀ x ∈ l, x.1 < n ∧ x.2.1 < n ∧ formatEntry P F highest lowest e d x.2.2 = .ok (text x.2.2)) :
    ∀ buffer : List Char, buffer.length = 4 * n + (e + 2) * (n * n) - 2 →
    (Res.foldl (writeEntry P F highest lowest e d (4 + n * (e + 2)) (e + 2)) buffer l = .panic ↔
      ∃ x ∈ l, charsLeft n e x.1 x.2.1 < (text x.2.2).length) := by
  induction l with
  | nil =>
    intro buffer _
    constructor
    · intro h; cases h
    · rintro ⟨x, hx, -⟩; cases hx
  | cons x l ih =>
    intro buffer hb
    obtain ⟨c, r, v⟩ := x
    obtain ⟨hc, hr, hf⟩ := hl (c, r, v) (by simp)
    simp only at hc hr hf
    have hleft := charsLeft_eq (e := e) hc hr
    have hnn : n ≤ n * n := Nat.le_mul_of_pos_left _ (by omega)
    have hend := cell_end (e := e) hc hr
    have hstep : writeEntry P F highest lowest e d (4 + n * (e + 2)) (e + 2) buffer (c, r, v) =
        writeChars buffer (r * (4 + n * (e + 2)) + 2 + (e + 2) * c) (text v) := by
      have ha1 : asUsize P r = r := Nat.mod_eq_of_lt (by omega)
      have ha2 : asUsize P c = c := Nat.mod_eq_of_lt (by omega)
      unfold writeEntry
      simp only [ha1, ha2]
      rw [Platform.usizeMul_ok (by omega), Res.bind_ok, Platform.usizeAdd_ok (by omega), Res.bind_ok,
        Platform.usizeMul_ok (by omega), Res.bind_ok, Platform.usizeAdd_ok (by omega), Res.bind_ok, hf, Res.bind_ok]
    change (writeEntry P F highest lowest e d (4 + n * (e + 2)) (e + 2) buffer (c, r, v) >>=
      fun b' => Res.foldl (writeEntry P F highest lowest e d (4 + n * (e + 2)) (e + 2)) b' l) = _ ↔ _
    rw [hstep]
    by_cases hfit : (text v).length ≤ charsLeft n e c r
    · obtain ⟨b, hw, hbl⟩ := writeChars_ok (text v) buffer (r * (4 + n * (e + 2)) + 2 + (e + 2) * c) (by omega)
      rw [hw, Res.bind_ok, ih (fun y hy => hl y (by simp [hy])) b (by omega)]
      simp only [List.mem_cons, exists_eq_or_imp]
      constructor
      · exact fun h => .inr h
      · rintro (h | h)
        · exact absurd h (by omega)
        · exact h
    · rw [writeChars_panic _ _ _ (by omega) (by omega)]
      simp only [List.mem_cons, exists_eq_or_imp]
      exact ⟨fun _ => .inl (by omega), fun _ => rfl⟩

/-- The template always fits if the size of the buffer was computed without overflow; then only formatting can panic, or a number that
is longer than what is left of the text. -/
theorem tail_spill {P : Platform} (o : HashOrder) {m : SqMatrix F64} (hw : m.WF) {hi lo : F64} {e pad d : Nat}
    (hd : m.dimension ≠ 0) (hr : TextRoom P m.dimension (e + 2)) :
    (do
      let buffer ← writeChars (List.replicate (4 * m.dimension + (e + 2) * (m.dimension * m.dimension) - 2) (Char.ofNat 0)) 0
        ((List.range m.dimension).flatMap (templateRow m.dimension e pad))
      let x ← P.usizeMul m.dimension (e + 2)
      let charsPerRow ← P.usizeAdd 4 x
      Res.foldl (writeEntry P f64Fmt hi lo e d charsPerRow (e + 2)) buffer (cells o m) : Res (List Char)) = .panic ↔
    ∃ c r v, m.at? c r = some v ∧
      (P.fmtMax < e ∨ P.fmtMax < d ∨ charsLeft m.dimension e c r < (f64Chars v d).length) := by
  obtain ⟨r1, r2, -⟩ := hr
  have hn1 : 1 ≤ m.dimension := by omega
  have hnn : m.dimension ≤ m.dimension * m.dimension := Nat.le_mul_of_pos_left _ (by omega)
  have hle3 : m.dimension * (e + 2) ≤ (e + 2) * (m.dimension * m.dimension) := by
    rw [Nat.mul_comm]; exact Nat.mul_le_mul_left _ hnn
  have hlen := template_length m.dimension e pad hd
  rw [writeChars_full _ _ (by rw [List.length_replicate]; omega), Res.bind_ok,
    Platform.usizeMul_ok (by omega), Res.bind_ok, Platform.usizeAdd_ok (by omega), Res.bind_ok]
  have hfe : ∀ v : F64, formatEntry P f64Fmt hi lo e d v =
      if e > P.fmtMax ∨ d > P.fmtMax then .panic else .ok (padLeft e (f64Chars v d)) := by
    intro v
    unfold formatEntry
    change (if (!true && _) = true then _ else _) = _
    simp only [Bool.not_true, Bool.false_and, Bool.false_eq_true, if_false]
    rfl
  have hcell : ∀ x : Nat × Nat × F64, x ∈ cells o m ↔ m.at? x.1 x.2.1 = some x.2.2 := by
    rintro ⟨c, r, v⟩
    exact ((flatO_perm o m.edgesTable).mem_iff).trans mem_flat
  by_cases hf : P.fmtMax < e ∨ P.fmtMax < d
  · constructor
    · intro h
      cases hc : cells o m with
      | nil => rw [hc] at h; cases h
      | cons x l =>
        exact ⟨x.1, x.2.1, x.2.2, (hcell x).1 (by rw [hc]; simp), by tauto⟩
    · rintro ⟨c, r, v, hat, -⟩
      exact foldl_panic (List.ne_nil_of_mem ((hcell (c, r, v)).2 hat)) (fun x _ => by rw [hfe, if_pos hf]) _
  · have hbound : ∀ c r v, m.at? c r = some v → c < m.dimension ∧ r < m.dimension := fun c r v hat =>
      hw.bound (c, r) (mem_keys.2 ⟨v, hat⟩)
    rw [writeAll_spill (P := P) (F := f64Fmt) (text := fun v => padLeft e (f64Chars v d)) (n := m.dimension) (e := e) r2
      (cells o m) (by
        rintro ⟨c, r, v⟩ hx
        have hb := hbound _ _ _ ((hcell _).1 hx)
        exact ⟨hb.1, hb.2, by rw [hfe, if_neg hf]⟩) _ (by omega)]
    have hpad : ∀ c r v, m.at? c r = some v →
        (charsLeft m.dimension e c r < (padLeft e (f64Chars v d)).length ↔
          charsLeft m.dimension e c r < (f64Chars v d).length) := by
      intro c r v hat
      have hb := hbound c r v hat
      have h1 := charsLeft_eq (e := e) hb.1 hb.2
      have h2 := cell_end (e := e) hb.1 hb.2
      unfold padLeft
      simp only [List.length_append, List.length_replicate]
      omega
    constructor
    · rintro ⟨⟨c, r, v⟩, hx, h⟩
      exact ⟨c, r, v, (hcell _).1 hx, .inr (.inr ((hpad _ _ _ ((hcell _).1 hx)).1 h))⟩
    · rintro ⟨c, r, v, hat, h⟩
      exact ⟨(c, r, v), (hcell _).2 hat, (hpad _ _ _ hat).2 (by tauto)⟩

/-- When printing a matrix of doubles panics. -/
theorem f64Text_panics {P : Platform} (hP : Usual P) (o₁ o₂ : HashOrder) {m : SqMatrix F64} (hw : m.WF) {d : Nat}
    (hdu : d ≤ P.usizeMax) :
    m.toStringWithPrecision P f64Fmt o₁ o₂ d = .panic ↔ m.dimension ≠ 0 ∧
      let w := digitsOf f64Fmt (extremes f64Fmt o₁ m) + 1 + d
      if w + 2 ≤ P.usizeMax then TextRoom P m.dimension (w + 2) ∧
        ∃ c r v, m.at? c r = some v ∧ (P.fmtMax < w ∨ charsLeft m.dimension w c r < (f64Chars v d).length)
      else P.profile = .debug ∨
        TextRoom P m.dimension ((w + 2) % (P.usizeMax + 1)) ∧ ((∃ c r v, m.at? c r = some v) ∨ w ≤ P.usizeMax) := by
  obtain ⟨hk1, hk40⟩ := digitsOf_f64 (extremes f64Fmt o₁ m)
  have hfm := hP.size
  by_cases hd : m.dimension = 0
  · simp only [hd, ne_eq, not_true_eq_false, false_and, iff_false]
    unfold toStringWithPrecision
    rw [if_pos hd]
    intro h; cases h
  simp only [hd, ne_eq, not_false_eq_true, true_and]
  by_cases hfit : digitsOf f64Fmt (extremes f64Fmt o₁ m) + 1 + d + 2 ≤ P.usizeMax
  · rw [if_pos hfit]
    have hcw : cellWidth f64Fmt (extremes f64Fmt o₁ m) d = digitsOf f64Fmt (extremes f64Fmt o₁ m) + 1 + d := by
      unfold cellWidth; simp only [show f64Fmt.hasDecimal = true from rfl, Bool.true_or, if_true]; omega
    rw [toString_prefix P f64Fmt o₁ o₂ m d hd hk1 (by rw [hcw]; exact hfit)]
    simp only [hcw]
    rw [tail_panic o₂ hd]
    refine and_congr_right fun hr => ?_
    rw [tail_spill o₂ hw hd hr]
    refine exists_congr fun c => exists_congr fun r => exists_congr fun v => and_congr_right fun _ => ?_
    constructor
    · rintro (h | h | h)
      · exact .inl h
      · exact .inl (by omega)
      · exact .inr h
    · rintro (h | h)
      · exact .inl h
      · exact .inr (.inr h)
  rw [if_neg hfit]
  have hmax : (if f64Fmt.digitCount (extremes f64Fmt o₁ m).1 > f64Fmt.digitCount (extremes f64Fmt o₁ m).2 then
      f64Fmt.digitCount (extremes f64Fmt o₁ m).1 else f64Fmt.digitCount (extremes f64Fmt o₁ m).2) =
      digitsOf f64Fmt (extremes f64Fmt o₁ m) := by
    unfold digitsOf; split <;> omega
  unfold toStringWithPrecision
  rw [if_neg hd]
  simp only [hmax, show f64Fmt.hasDecimal = true from rfl, Bool.true_or, if_true]
  generalize digitsOf f64Fmt (extremes f64Fmt o₁ m) = k at *
  cases hprof : P.profile with
  | debug =>
    simp only [true_or, iff_true]
    by_cases h1 : 1 + d ≤ P.usizeMax
    · rw [Platform.usizeAdd_ok h1, Res.bind_ok]
      by_cases h2 : k + (1 + d) ≤ P.usizeMax
      · rw [Platform.usizeAdd_ok h2, Res.bind_ok, Res.bind_ok]
        by_cases h3 : 1 + (1 + d) ≤ P.usizeMax
        · rw [Platform.usizeAdd_ok h3, Res.bind_ok, Platform.usizeSub_ok (by omega), Res.bind_ok,
            Platform.usizeAdd_debug hprof (by omega)]
          rfl
        · rw [Platform.usizeAdd_debug hprof (by omega)]; rfl
      · rw [Platform.usizeAdd_debug hprof (by omega)]; rfl
    · rw [Platform.usizeAdd_debug hprof (by omega)]; rfl
  | release =>
    simp only [reduceCtorEq, false_or]
    simp only [Platform.usizeAdd_release hprof, Res.bind_ok]
    obtain ⟨pad, hpad⟩ := Platform.usizeSub_release hprof ((k + (1 + d) % (P.usizeMax + 1)) % (P.usizeMax + 1))
      ((1 + (1 + d) % (P.usizeMax + 1)) % (P.usizeMax + 1))
    rw [hpad, Res.bind_ok]
    have he : (k + (1 + d) % (P.usizeMax + 1)) % (P.usizeMax + 1) = (k + 1 + d) % (P.usizeMax + 1) := by
      rw [Nat.add_mod_mod]; congr 1; omega
    have hc : ((k + 1 + d) % (P.usizeMax + 1) + 2) % (P.usizeMax + 1) = (k + 1 + d + 2) % (P.usizeMax + 1) :=
      Nat.mod_add_mod _ _ _
    rw [he, hc]
    have htail := tail_panic (P := P) (F := f64Fmt) o₂ (m := m) (hi := (extremes f64Fmt o₁ m).1)
      (lo := (extremes f64Fmt o₁ m).2) (e := (k + 1 + d) % (P.usizeMax + 1)) (pad := pad)
      (c := (k + 1 + d + 2) % (P.usizeMax + 1)) (d := d) hd
    simp only [Platform.usizeAdd_release hprof, Res.bind_ok] at htail
    rw [htail]
    refine and_congr_right fun hr => ?_
    by_cases hover : k + 1 + d ≤ P.usizeMax
    · -- the size of a cell fits, two more characters do not: the template is longer than the buffer
      simp only [hover, or_true, iff_true]
      have he' : (k + 1 + d) % (P.usizeMax + 1) = k + 1 + d := Nat.mod_eq_of_lt (by omega)
      have hlen := template_length m.dimension (k + 1 + d) pad hd
      have hle1 : (k + 1 + d + 2) * 1 ≤ (k + 1 + d + 2) * (m.dimension * m.dimension) :=
        Nat.mul_le_mul_left _ (Nat.mul_pos (by omega) (by omega))
      have hal := hP.alloc _ hr.2.2
      rw [he', writeChars_panic _ _ _ (by rw [List.length_replicate]; omega) (Nat.zero_le _)]
      rfl
    · simp only [hover, or_false]
      have hm1 : k + 1 + d - (P.usizeMax + 1) < P.usizeMax + 1 := by omega
      have he' : (k + 1 + d) % (P.usizeMax + 1) = k + 1 + d - (P.usizeMax + 1) := by
        rw [Nat.mod_eq_sub_mod (by omega), Nat.mod_eq_of_lt hm1]
      have hc' : (k + 1 + d + 2) % (P.usizeMax + 1) = k + 1 + d - (P.usizeMax + 1) + 2 := by
        rw [Nat.mod_eq_sub_mod (by omega), Nat.mod_eq_of_lt (by omega)]; omega
      rw [hc'] at hr ⊢
      rw [he']
      have hdf : P.fmtMax < d := by omega
      have := tail_spill (P := P) o₂ hw (hi := (extremes f64Fmt o₁ m).1) (lo := (extremes f64Fmt o₁ m).2)
        (e := k + 1 + d - (P.usizeMax + 1)) (pad := pad) (d := d) hd hr
      simp only [Platform.usizeAdd_release hprof, Res.bind_ok] at this
      rw [this]
      simp only [hdf, true_or, or_true, and_true]

/-- Text of a matrix of doubles all of whose numbers fit in the computed width; the limit of `format!` matters only if there is a number
to print. -/
theorem f64Text_ok {P : Platform} (o₁ o₂ : HashOrder) {m : SqMatrix F64} (hw : m.WF) (d : Nat) {j : Nat}
    (hj : digitsOf f64Fmt (extremes f64Fmt o₁ m) = j) (hj1 : 1 ≤ j) (hd : m.dimension ≠ 0) (hu : j + 1 + d + 2 ≤ P.usizeMax)
    (hlen : ∀ c r v, m.at? c r = some v → (f64Chars v d).length ≤ j + 1 + d) {s : List Char}
    (hs : m.toStringWithPrecision P f64Fmt o₁ o₂ d = .ok s) :
    s = grid m.dimension fun c r => rightAligned (j + 1 + d)
      (match m.at? c r with | some v => f64Chars v d | none => '0' :: '.' :: List.replicate d '0') := by
  have hcw : cellWidth f64Fmt (extremes f64Fmt o₁ m) d = j + (1 + d) := by
    unfold cellWidth
    rw [hj]; rfl
  rw [show j + 1 + d = j + (1 + d) by omega] at *
  obtain ⟨hsize, buffer, -, hfold⟩ := toString_ok_fold o₁ o₂ hd (by omega) hcw.symm (by omega) hs
  have hfe : ∀ v : F64, formatEntry P f64Fmt (extremes f64Fmt o₁ m).1 (extremes f64Fmt o₁ m).2 (j + (1 + d)) d v =
      if j + (1 + d) > P.fmtMax ∨ d > P.fmtMax then .panic else .ok (padLeft (j + (1 + d)) (f64Chars v d)) := by
    intro v
    unfold formatEntry
    change (if (!true && _) = true then _ else _) = _
    simp only [Bool.not_true, Bool.false_and, Bool.false_eq_true, if_false]
    rfl
  have hfm : ∀ c r v, m.at? c r = some v → j + (1 + d) ≤ P.fmtMax := by
    intro c r v hat
    by_contra hlt
    have hx : (c, r, v) ∈ cells o₂ m := ((flatO_perm o₂ m.edgesTable).mem_iff).2 (mem_flat.2 hat)
    rw [foldl_panic (List.ne_nil_of_mem hx) (fun x _ => by rw [hfe, if_pos (.inl (by omega))])] at hfold
    cases hfold
  rw [toString_ok (text := fun v => rightAligned (j + (1 + d)) (f64Chars v d)) o₁ o₂ hw hd (by omega) hcw.symm hsize (by
    intro c r v hat
    have := hfm c r v hat
    refine ⟨?_, rightAligned_length (hlen c r v hat)⟩
    rw [hfe, if_neg (by omega)]
    rfl)] at hs
  split at hs
  · rw [← Res.ok.inj hs]
    apply grid_congr
    intro c _ r _
    rw [hj]
    cases hat : m.at? c r with
    | none => exact zeroCell_dec _ _ hj1
    | some v => rfl
  · cases hs

end SqMatrix
end Verif
