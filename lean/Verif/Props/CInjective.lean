import Verif.Props.Congruence

/-!
# Compressed graphs with equal bytes or equal texts (C92, C93)
-/

namespace Verif.Props
open Verif Spec CGraph

/-! ## C92 -/

/-- The blocks written to a file fit in it. -/
theorem items_words {c : CGraph} (hc : c.OK) (o : HashOrder) : ∀ e ∈ c.adjacencyMatrix.items o,
    e.1 ≤ U64_MAX ∧ e.2.1 ≤ U64_MAX ∧ e.2.2 ≤ U64_MAX := by
  intro e he
  have hat : c.at? e.2.1 e.2.2 = some e.1 := (SqMatrix.mem_items hc.wf o).1 he
  have h1 := hc.wf.bound (e.2.1, e.2.2) (SqMatrix.mem_keys.2 ⟨e.1, hat⟩)
  have h2 := (hc.word _ _ _ hat).2
  have h3 := hc.wf.dim
  have hU : U64_MAX = 2 ^ 64 - 1 := by decide
  simp only at h1
  refine ⟨by omega, by omega, by omega⟩

/-- **C92.** Compressed graphs with equal bytes (written possibly on different platforms and in different orders) cannot be
told apart.  This includes compressed graphs whose own bytes `try_from` rejects (C35). -/
theorem C92_equal_bytes {c c' : CGraph} (hc : CReach c) (hc' : CReach c') {P P' : Platform} {o o' : HashOrder} {b : Bytes}
    (hP : P.usizeMax ≤ U64_MAX) (hP' : P'.usizeMax ≤ U64_MAX)
    (hb : c.toBytes P o = .ok b) (hb' : c'.toBytes P' o' = .ok b) : SameC c c' := by
  have key : ∀ {c : CGraph} {P : Platform} {o : HashOrder}, c.OK → P.usizeMax ≤ U64_MAX → c.toBytes P o = .ok b →
      field b 24 8 = c.edgeCount ∧ field b 32 8 = c.vertexCount ∧ field b 40 1 = (if c.isUndirected then 1 else 0) ∧
      field b 41 1 = c.compressionLevel ∧ listedBlocks b (field b 16 8) = c.adjacencyMatrix.items o := by
    intro c P o hc hP hb
    rw [ctoBytes_eq P o c hc.wf] at hb
    split at hb
    · cases hb
    split at hb
    swap
    · cases hb
    cases hb
    obtain ⟨_, _, _, f4, f5, f6, f7, f8, f9⟩ := compressedFile_fields c.isUndirected c.compressionLevel
      c.adjacencyMatrix.dimension c.edgeCount c.vertexCount (c.adjacencyMatrix.items o) hc.level.2 hc.wf.dim hc.ec hc.vc
      (by omega) (items_words hc o)
    exact ⟨f5, f6, f7, f8, by rw [f4, f9]⟩
  obtain ⟨a1, a2, a3, a4, a5⟩ := key hc.ok hP hb
  obtain ⟨b1, b2, b3, b4, b5⟩ := key hc'.ok hP' hb'
  refine sameC hc.ok hc'.ok ?_ (a4.symm.trans b4) (a2.symm.trans b2) (a1.symm.trans b1) ?_
  · have := a3.symm.trans b3
    revert this
    cases c.isUndirected <;> cases c'.isUndirected <;> simp
  · intro x y
    have hi := a5.symm.trans b5
    ext e
    rw [show c.at? x y = some e ↔ (e, x, y) ∈ c.adjacencyMatrix.items o from (SqMatrix.mem_items hc.ok.wf o).symm, hi]
    exact SqMatrix.mem_items hc'.ok.wf o'

/-- Two compressed graphs computed in different orders have the same bytes; written in the reverse order the bytes differ. -/
example : exP.usizeMax ≤ U64_MAX ∧ (okAnd (exC.compress exP .id .id 2) fun c => okAnd (exC.compress exP .rev .rev 2) fun c' =>
    okAnd (c.toBytes exP .id) fun b => okAnd (c'.toBytes exP .id) fun b' => okAnd (c.toBytes exP .rev) fun b'' =>
      b == b' && b != b'' && b.length == 90) := by decide +kernel

/-! ## C93 -/

theorem intercalate_count {a : Char} {sep : List Char} (hs : sep.count a = 1) :
    ∀ (ls : List (List Char)), ls ≠ [] → (∀ l ∈ ls, l.count a = 0) → (sep.intercalate ls).count a + 1 = ls.length
  | [], h, _ => absurd rfl h
  | [l], _, h => by simp [List.intercalate, h l (by simp)]
  | l :: l' :: ls, _, h => by
    have ih := intercalate_count hs (l' :: ls) (by simp) (fun x hx => h x (by simp [hx]))
    have e : sep.intercalate (l :: l' :: ls) = l ++ sep ++ sep.intercalate (l' :: ls) := by
      simp [List.intercalate, List.intersperse]
    rw [e, List.count_append, List.count_append, h l (by simp), hs, List.length_cons, ← ih]
    omega

theorem intercalate_count_zero {a : Char} {sep : List Char} (hs : sep.count a = 0) :
    ∀ (ls : List (List Char)), (∀ l ∈ ls, l.count a = 0) → (sep.intercalate ls).count a = 0
  | [], _ => by simp [List.intercalate]
  | [l], h => by simp [List.intercalate, h l (by simp)]
  | l :: l' :: ls, h => by
    have ih := intercalate_count_zero hs (l' :: ls) (fun x hx => h x (by simp [hx]))
    have e : sep.intercalate (l :: l' :: ls) = l ++ sep ++ sep.intercalate (l' :: ls) := by
      simp [List.intercalate, List.intersperse]
    rw [e, List.count_append, List.count_append, h l (by simp), hs, ih]

/-- The number of rows of a grid is its number of line ends plus one. -/
theorem grid_rows {n : Nat} (hn : n ≠ 0) {cell : Nat → Nat → List Char} (h : ∀ c r, (cell c r).count '\n' = 0) :
    (grid n cell).count '\n' + 1 = n := by
  unfold grid
  rw [intercalate_count (by decide) _ (by simpa using hn)]
  · simp
  · intro l hl
    obtain ⟨r, _, rfl⟩ := List.mem_map.1 hl
    rw [List.count_append, List.count_append, intercalate_count_zero (by decide)]
    · decide
    · intro x hx
      obtain ⟨c, _, rfl⟩ := List.mem_map.1 hx
      exact h c r

theorem cell_no_lf (w x : Nat) : (rightAligned w (numeral (x : Int) ++ zeros 0)).count '\n' = 0 := by
  rw [List.count_eq_zero]
  unfold rightAligned
  rw [numeral_natCast]
  simp only [zeros, if_true, List.append_nil, List.mem_append, List.mem_replicate]
  rintro (⟨_, h⟩ | h)
  · revert h; decide
  · have := Nat.isDigit_of_mem_toDigits (b := 10) (by norm_num) (by norm_num) h
    revert this; decide

/-- Right-aligned numerals in equally wide cells are equal only for equal numbers. -/
theorem aligned_inj {w x y : Nat} (h : rightAligned w (numeral (x : Int) ++ zeros 0) = rightAligned w (numeral (y : Int) ++ zeros 0)) :
    x = y := by
  have strip : ∀ z : Nat, (rightAligned w (numeral (z : Int) ++ zeros 0)).filter (· != ' ') = Nat.toDigits 10 z := by
    intro z
    unfold rightAligned
    rw [numeral_natCast]
    simp only [zeros, if_true, List.append_nil, List.filter_append]
    rw [List.filter_eq_nil_iff.2 (by intro a ha; rw [List.eq_of_mem_replicate ha]; decide), List.nil_append,
      List.filter_eq_self]
    intro a ha
    have := Nat.isDigit_of_mem_toDigits (b := 10) (by norm_num) (by norm_num) ha
    by_contra hne
    simp only [bne_iff_ne, ne_eq, not_not] at hne
    subst hne
    revert this; decide
  have := strip x
  rw [h, strip y] at this
  have h2 : numeral (y : Int) = numeral (x : Int) := by rw [numeral_natCast, numeral_natCast, this]
  have := numeral_inj h2
  omega

/-- **C93.** Compressed graphs with equal texts (printed possibly on different platforms) have matrices of the same dimension
with the same words, hence the same edges.  Direction, level and the exact vertex count are not in the text
(`C93_not_shown`). -/
theorem C93_text_injective {c c' : CGraph} (hc : CReach c) (hc' : CReach c') {P P' : Platform}
    (hP : 65535 ≤ P.usizeMax) (hf : 20 ≤ P.fmtMax) (hP' : 65535 ≤ P'.usizeMax) (hf' : 20 ≤ P'.fmtMax)
    {o₁ o₂ o₁' o₂' : HashOrder} {s : List Char}
    (h : c.matrixString P o₁ o₂ = .ok s) (h' : c'.matrixString P' o₁' o₂' = .ok s) :
    max 1 ((c.vertexCount + 7) / 8) = max 1 ((c'.vertexCount + 7) / 8) ∧
    (∀ x y, c.getCompressedMatrixEntry x y = c'.getCompressedMatrixEntry x y) ∧
    ∀ u v, c.doesEdgeExist u v = c'.doesEdgeExist u v := by
  have inv : ∀ {c : CGraph} {P : Platform} {o₁ o₂ : HashOrder}, CReach c → 65535 ≤ P.usizeMax → 20 ≤ P.fmtMax →
      c.matrixString P o₁ o₂ = .ok s → ∃ w, (∀ x y, (numeral ((c.getCompressedMatrixEntry x y : Nat) : Int) ++ zeros 0).length ≤ w) ∧
        s = grid (max 1 ((c.vertexCount + 7) / 8)) fun x y =>
          rightAligned w (numeral ((c.getCompressedMatrixEntry x y : Nat) : Int) ++ zeros 0) := by
    intro c P o₁ o₂ hc hP hf h
    obtain ⟨w, hw, _, hg⟩ := C51_compressed_matrix_string hc P hP hf
    have hg := (hg o₁ o₂).2
    have hn : max 1 ((c.vertexCount + 7) / 8) ≠ 0 := by omega
    refine ⟨w, hg.fits, ?_⟩
    by_cases hsz : 4 * max 1 ((c.vertexCount + 7) / 8) + (w + 2) *
        (max 1 ((c.vertexCount + 7) / 8) * max 1 ((c.vertexCount + 7) / 8)) ≤ P.usizeMax
    · cases hal : P.alloc (4 * max 1 ((c.vertexCount + 7) / 8) + (w + 2) *
        (max 1 ((c.vertexCount + 7) / 8) * max 1 ((c.vertexCount + 7) / 8)) - 2) with
      | true =>
        have e := hg.shows hn hsz hal
        rw [h] at e
        cases e
        rfl
      | false => obtain ⟨m, e⟩ := hg.noMemory hn hsz hal; rw [h] at e; cases e
    · obtain ⟨m, e⟩ := hg.tooLarge hn (by omega) (by omega); rw [h] at e; cases e
  obtain ⟨w, fw, e⟩ := inv hc hP hf h
  obtain ⟨w', fw', e'⟩ := inv hc' hP' hf' h'
  have hn : max 1 ((c.vertexCount + 7) / 8) ≠ 0 := by omega
  have hn' : max 1 ((c'.vertexCount + 7) / 8) ≠ 0 := by omega
  have r := grid_rows hn (cell := fun x y => rightAligned w (numeral ((c.getCompressedMatrixEntry x y : Nat) : Int) ++ zeros 0))
    fun _ _ => cell_no_lf _ _
  have r' := grid_rows hn' (cell := fun x y => rightAligned w' (numeral ((c'.getCompressedMatrixEntry x y : Nat) : Int) ++ zeros 0))
    fun _ _ => cell_no_lf _ _
  rw [← e] at r
  rw [← e'] at r'
  have hnn := r.symm.trans r'
  have l := grid_length _ w hn (fun x y => rightAligned w (numeral ((c.getCompressedMatrixEntry x y : Nat) : Int) ++ zeros 0))
    fun _ _ _ _ => rightAligned_length (fw _ _)
  have l' := grid_length _ w' hn' (fun x y => rightAligned w' (numeral ((c'.getCompressedMatrixEntry x y : Nat) : Int) ++ zeros 0))
    fun _ _ _ _ => rightAligned_length (fw' _ _)
  rw [← e] at l
  rw [← e', ← hnn] at l'
  have hww : w = w' := by
    have h1 := l.symm.trans l'
    have h2 : (w + 2) * (max 1 ((c.vertexCount + 7) / 8) * max 1 ((c.vertexCount + 7) / 8)) =
      (w' + 2) * (max 1 ((c.vertexCount + 7) / 8) * max 1 ((c.vertexCount + 7) / 8)) := Nat.add_left_cancel h1
    have := Nat.eq_of_mul_eq_mul_right (Nat.pos_of_ne_zero (Nat.mul_ne_zero hn hn)) h2
    omega
  subst hww
  rw [← hnn] at e'
  have cells := grid_inj _ w hn (fun _ _ _ _ => rightAligned_length (fw _ _)) (fun _ _ _ _ => rightAligned_length (fw' _ _))
    (e.symm.trans e')
  have hout : ∀ {c : CGraph}, c.OK → ∀ x y, ¬ (x < max 1 ((c.vertexCount + 7) / 8) ∧ y < max 1 ((c.vertexCount + 7) / 8)) →
      c.getCompressedMatrixEntry x y = 0 := by
    intro c hc x y hb
    rw [getEntry_at]
    cases hat : c.at? x y with
    | none => rfl
    | some v =>
      have h1 := hc.wf.bound (x, y) (SqMatrix.mem_keys.2 ⟨v, hat⟩)
      rw [hc.dim, dim_eq_ceil] at h1
      exact absurd h1 hb
  have hent : ∀ x y, c.getCompressedMatrixEntry x y = c'.getCompressedMatrixEntry x y := by
    intro x y
    by_cases hb : x < max 1 ((c.vertexCount + 7) / 8) ∧ y < max 1 ((c.vertexCount + 7) / 8)
    · exact aligned_inj (cells x hb.1 y hb.2)
    · rw [hout hc.ok x y hb, hout hc'.ok x y (by rw [← hnn]; exact hb)]
  exact ⟨hnn, hent, fun u v => by rw [doesEdgeExist_eq, doesEdgeExist_eq, hent]⟩

/-- The hypotheses are met. -/
example : 65535 ≤ exP.usizeMax ∧ 20 ≤ exP.fmtMax ∧ okAnd (exC.compress exP .id .id 2) fun c =>
    okAnd (c.matrixString exP .id .rev) fun s => s.length > 20 := by decide +kernel

/-- **C93**, limits: the text shows neither the exact vertex count nor the direction nor the level. -/
theorem C93_not_shown : ∃ c c' : CGraph, CReach c ∧ CReach c' ∧
    (∃ s, c.matrixString exP .id .id = .ok s ∧ c'.matrixString exP .id .id = .ok s) ∧
    c.vertexCount ≠ c'.vertexCount ∧ c.isUndirected ≠ c'.isUndirected ∧ c.compressionLevel ≠ c'.compressionLevel := by
  have h : okAnd ((Graph.newDirected.addVertex 2 none).compress exP .id .id 1) fun c =>
      okAnd ((Graph.newUndirected.addVertex 3 none).compress exP .id .id 2) fun c' =>
      okAnd (c.matrixString exP .id .id) fun s => okAnd (c'.matrixString exP .id .id) fun s' => s == s' &&
        c.vertexCount != c'.vertexCount && c.isUndirected != c'.isUndirected &&
        c.compressionLevel != c'.compressionLevel := by decide +kernel
  obtain ⟨c, hc, h⟩ := okAnd_elim h
  obtain ⟨c', hc', h⟩ := okAnd_elim h
  obtain ⟨s, hs, h⟩ := okAnd_elim h
  obtain ⟨s', hs', h⟩ := okAnd_elim h
  simp only [Bool.and_eq_true, beq_iff_eq, bne_iff_ne, ne_eq] at h
  obtain ⟨⟨⟨rfl, h1⟩, h2⟩, h3⟩ := h
  exact ⟨c, c', .compress _ _ _ _ (.addVertex _ _ .newDirected) hc, .compress _ _ _ _ (.addVertex _ _ .newUndirected) hc',
    ⟨s, hs, hs'⟩, h1, h2, h3⟩

end Verif.Props
