import Verif.Lemmas.TextPanic
import Verif.Lemmas.TextWrong
import Verif.Lemmas.NoNul

/-! # Which characters a text can contain, for every matrix, platform and precision -/

namespace Verif
open Spec

namespace SqMatrix

variable {T : Type}

theorem writeChars_all {p : Char → Prop} (cs : List Char) (hc : ∀ c ∈ cs, p c) : ∀ (buffer b : List Char) (pos : Nat),
    (∀ c ∈ buffer, p c) → writeChars buffer pos cs = .ok b → ∀ c ∈ b, p c := by
  induction cs with
  | nil => intro buffer b pos h h'; cases h'; exact h
  | cons c cs ih =>
    intro buffer b pos h h'
    unfold writeChars at h'
    split at h'
    · refine ih (fun x hx => hc x (List.mem_cons_of_mem _ hx)) _ b _ (fun x hx => ?_) h'
      rcases List.mem_or_eq_of_mem_set hx with hx | rfl
      · exact h x hx
      · exact hc x (by simp)
    · cases h'

theorem formatEntry_all {P : Platform} {F : NumFmt T} {p : Char → Prop} (h1 : ∀ x w d, ∀ c ∈ F.fmt x w d, p c)
    (h2 : ∀ x w, ∀ c ∈ F.fmtW x w, p c) (hd : p '.') (h0 : p '0') {hi lo : T} {e d : Nat} {v : T} {s : List Char}
    (h : formatEntry P F hi lo e d v = .ok s) : ∀ c ∈ s, p c := by
  unfold formatEntry at h
  split at h
  · have key : ∃ w : Nat, (if w > P.fmtMax then Res.panic else Res.ok (F.fmtW v w ++ ['.'] ++ List.replicate d '0')) = .ok s := by
      dsimp only at h
      split at h <;> (obtain ⟨w, -, h⟩ := Res.bind_eq_ok.1 h; exact ⟨w, h⟩)
    obtain ⟨w, h⟩ := key
    split at h
    · cases h
    · cases h
      intro c hc
      simp only [List.mem_append, List.mem_singleton, List.mem_replicate] at hc
      rcases hc with (hc | rfl) | ⟨-, rfl⟩
      · exact h2 _ _ c hc
      · exact hd
      · exact h0
  · split at h
    · cases h
    · cases h; exact h1 _ _ _

theorem foldl_all {P : Platform} {F : NumFmt T} {p : Char → Prop} (h1 : ∀ x w d, ∀ c ∈ F.fmt x w d, p c)
    (h2 : ∀ x w, ∀ c ∈ F.fmtW x w, p c) (hd : p '.') (h0 : p '0') {hi lo : T} {e d cr ce : Nat} (l : List (Nat × Nat × T)) :
    ∀ (buffer b : List Char), (∀ c ∈ buffer, p c) →
      Res.foldl (writeEntry P F hi lo e d cr ce) buffer l = .ok b → ∀ c ∈ b, p c := by
  induction l with
  | nil => intro buffer b h h'; cases h'; exact h
  | cons x l ih =>
    intro buffer b h h'
    change (writeEntry P F hi lo e d cr ce buffer x >>= fun b' => Res.foldl _ b' l) = _ at h'
    obtain ⟨b', hb', h'⟩ := Res.bind_eq_ok.1 h'
    refine ih b' b ?_ h'
    unfold writeEntry at hb'
    obtain ⟨_, -, hb'⟩ := Res.bind_eq_ok.1 hb'
    obtain ⟨_, -, hb'⟩ := Res.bind_eq_ok.1 hb'
    obtain ⟨_, -, hb'⟩ := Res.bind_eq_ok.1 hb'
    obtain ⟨_, -, hb'⟩ := Res.bind_eq_ok.1 hb'
    obtain ⟨num, hn, hb'⟩ := Res.bind_eq_ok.1 hb'
    exact writeChars_all num (formatEntry_all h1 h2 hd h0 hn) _ _ _ h hb'

theorem templateRow_all {p : Char → Prop} (hp : ∀ c ∈ ['[', ']', ' ', ',', '.', '0', '\r', '\n'], p c) (n e pad r : Nat) :
    ∀ c ∈ templateRow n e pad r, p c := by
  intro c hc
  unfold templateRow at hc
  simp only [List.mem_append, List.mem_flatMap, templateCell, List.mem_map] at hc
  rcases hc with ((hc | ⟨x, -, (⟨y, -, hc⟩ | hc) | hc⟩) | hc) | hc
  · exact hp c (by simp at hc; rcases hc with rfl | rfl <;> simp)
  · refine hp c ?_
    rw [← hc]
    split
    · simp
    · split <;> simp
  · refine hp c ?_
    split at hc
    · simp at hc; simp [hc]
    · cases hc
  · exact hp c (by simp at hc; simp [hc])
  · exact hp c (by simp at hc; simp [hc])
  · refine hp c ?_
    split at hc
    · simp at hc; rcases hc with rfl | rfl <;> simp
    · cases hc

theorem Platform.usizeAdd_le {P : Platform} {a b c : Nat} (h : P.usizeAdd a b = .ok c) : c ≤ a + b := by
  unfold Platform.usizeAdd Platform.wrapTo at h
  split at h
  · cases h; exact Nat.le_refl _
  · cases hp : P.profile <;> rw [hp] at h
    · cases h
    · cases h; exact Nat.mod_le _ _

theorem ofOption_eq_ok {α : Type} {x : Option α} {e : GraphRoxError} {a : α} (h : Res.ofOption x e = .ok a) : x = some a := by
  cases x with
  | none => cases h
  | some b => cases h; rfl

/-- The steps after the widths are known: the buffer is never larger than the template. -/
theorem tail_all {P : Platform} {F : NumFmt T} {p : Char → Prop} (h1 : ∀ x w d, ∀ c ∈ F.fmt x w d, p c)
    (h2 : ∀ x w, ∀ c ∈ F.fmtW x w, p c) (hp : ∀ c ∈ ['[', ']', ' ', ',', '.', '0', '\r', '\n'], p c) {o : HashOrder}
    {m : SqMatrix T} (hd : m.dimension ≠ 0) {hi lo : T} {e sm d : Nat} {s : List Char}
    (h : (do
      let entryLeftPadding ← P.usizeSub e sm
      let charsPerEntry ← P.usizeAdd e 2
      let dimension ← Res.ofOption (P.usizeTryFrom m.dimension)
        (.CapacityOverflow "Matrix dimension does not fit in platform usize")
      let matrixEntryCount ← Res.ofOption (P.checkedMul dimension dimension)
        (.CapacityOverflow "Matrix string size overflowed")
      let bufferSize ← Res.ofOption
        ((P.checkedMul 4 dimension).bind fun rows =>
          ((P.checkedMul charsPerEntry matrixEntryCount).bind fun x => P.checkedAdd x rows).bind fun size => checkedSub size 2)
        (.CapacityOverflow "Matrix string size overflowed")
      if !P.alloc bufferSize then .err (.CapacityOverflow "Unable to allocate matrix string")
      else do
        let buffer := List.replicate bufferSize (Char.ofNat 0)
        let buffer ← writeChars buffer 0
          ((List.range m.dimension).flatMap (templateRow m.dimension e entryLeftPadding))
        let x ← P.usizeMul dimension charsPerEntry
        let charsPerRow ← P.usizeAdd 4 x
        Res.foldl (writeEntry P F hi lo e d charsPerRow charsPerEntry) buffer (cells o m) : Res (List Char)) = .ok s) :
    ∀ c ∈ s, p c := by
  obtain ⟨pad, -, h⟩ := Res.bind_eq_ok.1 h
  obtain ⟨ce, hce, h⟩ := Res.bind_eq_ok.1 h
  obtain ⟨n, hn, h⟩ := Res.bind_eq_ok.1 h
  obtain ⟨nn, hnn, h⟩ := Res.bind_eq_ok.1 h
  obtain ⟨size, hsize, hf⟩ := Res.bind_eq_ok.1 h
  clear h
  have hce := Platform.usizeAdd_le hce
  have hn := ofOption_eq_ok hn
  have hn : n = m.dimension := by unfold Platform.usizeTryFrom at hn; split at hn <;> cases hn; rfl
  subst hn
  have hnn := ofOption_eq_ok hnn
  have hnn : nn = m.dimension * m.dimension := by unfold Platform.checkedMul at hnn; split at hnn <;> cases hnn; rfl
  subst hnn
  have hsize := ofOption_eq_ok hsize
  obtain ⟨rows, hrows, hsize⟩ := Option.bind_eq_some_iff.1 hsize
  obtain ⟨sz, hsz, hsize⟩ := Option.bind_eq_some_iff.1 hsize
  obtain ⟨x, hx, hsz⟩ := Option.bind_eq_some_iff.1 hsz
  have hrows : rows = 4 * m.dimension := by unfold Platform.checkedMul at hrows; split at hrows <;> cases hrows; rfl
  have hx : x = ce * (m.dimension * m.dimension) := by unfold Platform.checkedMul at hx; split at hx <;> cases hx; rfl
  have hsz : sz = x + rows := by unfold Platform.checkedAdd at hsz; split at hsz <;> cases hsz; rfl
  have hsize : size = sz - 2 := by unfold checkedSub at hsize; split at hsize <;> cases hsize; rfl
  split at hf
  · cases hf
  · obtain ⟨b, hb, hf⟩ := Res.bind_eq_ok.1 hf
    obtain ⟨_, -, hf⟩ := Res.bind_eq_ok.1 hf
    obtain ⟨_, -, hf⟩ := Res.bind_eq_ok.1 hf
    refine foldl_all h1 h2 (hp _ (by simp)) (hp _ (by simp)) _ b s ?_ hf
    have hlen := template_length m.dimension e pad hd
    have hle : ce * (m.dimension * m.dimension) ≤ (e + 2) * (m.dimension * m.dimension) := Nat.mul_le_mul_right _ hce
    by_cases heq : size = ((List.range m.dimension).flatMap (templateRow m.dimension e pad)).length
    · rw [writeChars_full _ _ (by rw [List.length_replicate]; exact heq.symm)] at hb
      cases hb
      intro c hc
      obtain ⟨r, -, hc⟩ := List.mem_flatMap.1 hc
      exact templateRow_all hp _ _ _ _ c hc
    · rw [writeChars_panic _ _ _ (by rw [List.length_replicate]; omega) (by omega)] at hb
      cases hb

/-- Every character of a text comes from the template or from a formatted entry. -/
theorem toString_all {P : Platform} {F : NumFmt T} {p : Char → Prop} (h1 : ∀ x w d, ∀ c ∈ F.fmt x w d, p c)
    (h2 : ∀ x w, ∀ c ∈ F.fmtW x w, p c) (hp : ∀ c ∈ ['[', ']', ' ', ',', '.', '0', '\r', '\n'], p c) {o₁ o₂ : HashOrder}
    {m : SqMatrix T} {d : Nat} {s : List Char} (h : m.toStringWithPrecision P F o₁ o₂ d = .ok s) : ∀ c ∈ s, p c := by
  unfold toStringWithPrecision at h
  split at h
  · cases h; simp
  next hd =>
    simp only at h
    split at h
    · obtain ⟨_, -, h⟩ := Res.bind_eq_ok.1 h
      obtain ⟨e, -, h⟩ := Res.bind_eq_ok.1 h
      obtain ⟨_, -, h⟩ := Res.bind_eq_ok.1 h
      obtain ⟨sm, -, h⟩ := Res.bind_eq_ok.1 h
      exact tail_all h1 h2 hp hd h
    · obtain ⟨e, -, h⟩ := Res.bind_eq_ok.1 h
      obtain ⟨sm, -, h⟩ := Res.bind_eq_ok.1 h
      exact tail_all h1 h2 hp hd h

end SqMatrix

theorem digits_all {p : Char → Prop} (hp : ∀ c, c.isDigit = true → p c) (n : Nat) : ∀ c ∈ decChars n, p c := by
  rw [decChars_eq]
  intro c hc
  exact hp c (Nat.isDigit_of_mem_toDigits (by norm_num) (by norm_num) hc)

theorem intChars_all {p : Char → Prop} (hp : ∀ c, c.isDigit = true → p c) (hm : p '-') (z : Int) : ∀ c ∈ intChars z, p c := by
  intro c hc
  cases z with
  | ofNat n => exact digits_all hp n c hc
  | negSucc n =>
    rcases List.mem_cons.1 hc with rfl | hc
    · exact hm
    · exact digits_all hp _ c hc

theorem padLeft_all {p : Char → Prop} (hs : p ' ') {w : Nat} {s : List Char} (h : ∀ c ∈ s, p c) : ∀ c ∈ padLeft w s, p c := by
  intro c hc
  rcases List.mem_append.1 hc with hc | hc
  · rw [(List.mem_replicate.1 hc).2]; exact hs
  · exact h c hc

theorem f64Chars_all {p : Char → Prop} (hp : ∀ c, c.isDigit = true → p c) (ho : ∀ c ∈ ['-', '.', 'i', 'n', 'f', 'N', 'a'], p c)
    (x : F64) (d : Nat) : ∀ c ∈ f64Chars x d, p c := by
  intro c hc
  unfold f64Chars at hc
  cases x with
  | nan => exact ho c (by simp at hc ⊢; tauto)
  | inf neg => exact ho c (by cases neg <;> simp at hc ⊢ <;> tauto)
  | fin q =>
    rcases List.mem_append.1 hc with hc | hc
    · split at hc
      · exact ho c (by simp at hc; simp [hc])
      · cases hc
    · unfold fixedChars at hc
      rcases List.mem_append.1 hc with hc | hc
      · exact digits_all hp _ c hc
      · split at hc
        · cases hc
        · rcases List.mem_cons.1 hc with rfl | hc
          · exact ho _ (by simp)
          · rcases List.mem_append.1 hc with hc | hc
            · rw [(List.mem_replicate.1 hc).2]; exact hp _ (by decide)
            · exact digits_all hp _ c hc

theorem noNul_of_all {s : List Char} (h : ∀ c ∈ s, c ≠ Char.ofNat 0) : NoNul s := fun hc => h _ hc rfl

theorem isDigit_ne_nul (c : Char) (h : c.isDigit = true) : c ≠ Char.ofNat 0 := by
  rintro rfl
  revert h; decide

/-- No text of a pooled matrix contains the character 0, whatever the platform and the decimals. -/
theorem f64_noNul {m : SqMatrix F64} {P : Platform} {o₁ o₂ : HashOrder} {d : Nat} {s : List Char}
    (h : m.toStringWithPrecision P f64Fmt o₁ o₂ d = .ok s) : NoNul s :=
  noNul_of_all (SqMatrix.toString_all
    (fun x _ d => padLeft_all (by decide) (f64Chars_all isDigit_ne_nul (by decide) x d))
    (fun x _ => padLeft_all (by decide) (f64Chars_all isDigit_ne_nul (by decide) x 0)) (by decide) h)

theorem CGraph.matrixString_noNul {c : CGraph} {P : Platform} {o₁ o₂ : HashOrder} {s : List Char}
    (h : c.matrixString P o₁ o₂ = .ok s) : NoNul s :=
  noNul_of_all (SqMatrix.toString_all
    (fun x _ _ => padLeft_all (by decide) (digits_all isDigit_ne_nul x))
    (fun x _ => padLeft_all (by decide) (digits_all isDigit_ne_nul x)) (by decide) h)

end Verif
