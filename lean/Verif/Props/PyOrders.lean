import Verif.Spec.PyOrders
import Verif.Props.Py
import Verif.Props.Congruence
import Verif.Props.Gc

/-!
# What Python programs can see of the order of hash tables: C135
-/

namespace Verif.Props
open Verif Spec

/-- Objects that differ only in the order of hash tables. -/
def ObjAlike : AObj → AObj → Prop
  | .graph g, .graph g' => Same g g'
  | .cgraph c, .cgraph c' => SameC c c'
  | .matrix m, .matrix m' => ∃ (g g' : Graph) (P : Platform) (o o' : HashOrder) (b : Nat), GReach g ∧ GReach g' ∧ Same g g' ∧
      effBlock g.vertexCount b < 2 ^ 32 ∧ g.findAvgPoolMatrix P o b = .ok m ∧ g'.findAvgPoolMatrix P o' b = .ok m'
  | .edges l, .edges l' => l.Perm l'
  | .vertices l, .vertices l' => l.Perm l'
  | .entries l, .entries l' => l.Perm l'
  | .iter l p, .iter l' p' => l = l' ∧ p = p'
  | _, _ => False

/-- Outcomes of methods that differ only in the order of hash tables. -/
def OutAlike (c : PyCall) : AOut → AOut → Prop
  | .val v, .val v' => SeenAlike c (.value v) (.value v')
  | .new y, .new y' => ObjAlike y y'
  | .step y v, .step y' v' => ObjAlike y y' ∧ SeenAlike c (.value v) (.value v')
  | .raises e, .raises e' => e = e'
  | .panics, .panics => True
  | _, _ => False

theorem outAlike_val (c : PyCall) {v v' : PyVal} (h : v = v') : OutAlike c (.val v) (.val v') := .inl (by rw [h])

theorem matrix_alike {m m' : SqMatrix F64} (h : ObjAlike (.matrix m) (.matrix m')) : SameMatrix m m' := by
  obtain ⟨g, g', P, o, o', b, hg, hg', hs, _, h1, h2⟩ := h
  have := (C85_graph_congruence hg hg' hs).2.1 P o o' b
  rw [h1, h2] at this
  exact this

theorem showsText_alike {P : Platform} {n w : Nat} {text : Nat → Nat → List Char} {r r' : Res (List Char)} (h : ShowsText P n w text r)
    (h' : ShowsText P n w text r') (hw : w + 2 ≤ P.usizeMax) : AOut.text r = AOut.text r' := by
  by_cases hn : n = 0
  · rw [h.empty hn, h'.empty hn]
  · by_cases hl : 4 * n + (w + 2) * (n * n) ≤ P.usizeMax
    · cases ha : P.alloc (4 * n + (w + 2) * (n * n) - 2) with
      | true => rw [h.shows hn hl ha, h'.shows hn hl ha]
      | false =>
        obtain ⟨_, e⟩ := h.noMemory hn hl ha
        obtain ⟨_, e'⟩ := h'.noMemory hn hl ha
        rw [e, e']; rfl
    · obtain ⟨_, e⟩ := h.tooLarge hn hw (by omega)
      obtain ⟨_, e'⟩ := h'.tooLarge hn hw (by omega)
      rw [e, e']; rfl

/-- Texts of matrices that differ only in the order of hash tables. -/
theorem text_shows {m m' : SqMatrix F64} (h : ObjAlike (.matrix m) (.matrix m')) (P : Platform) (o₁ o₂ o₁' o₂' : HashOrder) {d : Nat}
    (hf : d + 40 ≤ P.fmtMax) (hu : d + 42 ≤ P.usizeMax) :
    ∃ n w text, ShowsText P n w text (m.toStringWithPrecision P f64Fmt o₁ o₂ d) ∧
      ShowsText P n w text (m'.toStringWithPrecision P f64Fmt o₁' o₂' d) ∧ w + 2 ≤ P.usizeMax := by
  have hsm := matrix_alike h
  obtain ⟨g, g', P₀, o, o', b, hg, hg', hs, hb, h1, h2⟩ := h
  have hb' : effBlock g'.vertexCount b < 2 ^ 32 := by rw [← hs.vertexCount]; exact hb
  rw [pool_platform P₀ P o hb] at h1
  rw [pool_platform P₀ P o' hb'] at h2
  obtain ⟨m₁, e1, _, hz, t1⟩ := pooled_shows hg P o b hb d hf
  obtain ⟨m₂, e2, _, hz', t2⟩ := pooled_shows hg' P o' b hb' d hf
  rw [h1] at e1
  rw [h2] at e2
  cases e1
  cases e2
  have hat : ∀ c r, m.at? c r = m'.at? c r := by
    intro c r
    have := hsm.entry c r
    rw [SqMatrix.getEntry_eq, SqMatrix.getEntry_eq] at this
    cases ha : m.at? c r with
    | none =>
      cases ha' : m'.at? c r with
      | none => rfl
      | some v => rw [ha, ha'] at this; exact (hz' c r v ha' (this.symm.trans F64.lit_zero)).elim
    | some v =>
      cases ha' : m'.at? c r with
      | none => rw [ha, ha'] at this; exact (hz c r v ha (this.trans F64.lit_zero)).elim
      | some v' => rw [ha, ha'] at this; exact congrArg some this
  have s1 := t1 o₁ o₂
  have s2 := t2 o₁' o₂'
  rw [← hs.edgeCount, ← hsm.dimension] at s2
  simp only [← hat] at s2
  exact ⟨_, _, _, s1, s2, by split <;> omega⟩

theorem text_alike {m m' : SqMatrix F64} (h : ObjAlike (.matrix m) (.matrix m')) (P : Platform) (o₁ o₂ o₁' o₂' : HashOrder) {d : Nat}
    (hf : d + 40 ≤ P.fmtMax) (hu : d + 42 ≤ P.usizeMax) :
    AOut.text (m.toStringWithPrecision P f64Fmt o₁ o₂ d) = AOut.text (m'.toStringWithPrecision P f64Fmt o₁' o₂' d) := by
  obtain ⟨n, w, text, h1, h2, hw⟩ := text_shows h P o₁ o₂ o₁' o₂' hf hu
  exact showsText_alike h1 h2 hw

theorem graphFile_alike {u : Bool} {n : Nat} {l l' : List (Nat × Nat)} (h : l.Perm l') : Reordered (graphFile u n l) (graphFile u n l') := by
  unfold graphFile
  rw [h.length_eq]
  refine ⟨_, l.map fun e => beBytes 8 e.1 ++ beBytes 8 e.2, l'.map fun e => beBytes 8 e.1 ++ beBytes 8 e.2, h.map _, by rw [List.flatMap_def],
    by rw [List.flatMap_def], .inl ⟨?_, by simp [beBytes_length], ?_⟩⟩
  · simp only [List.append_assoc]
    exact Graph.field_beBytes _ _ _ (by decide)
  · intro r hr
    obtain ⟨x, -, rfl⟩ := List.mem_map.1 hr
    simp [beBytes_length]

theorem record_position {e : Nat × Nat × Nat} (h1 : e.2.1 ≤ U64_MAX) (h2 : e.2.2 ≤ U64_MAX) :
    (field (beBytes 8 e.1 ++ beBytes 8 e.2.1 ++ beBytes 8 e.2.2) 8 8, field (beBytes 8 e.1 ++ beBytes 8 e.2.1 ++ beBytes 8 e.2.2) 16 8) =
      (e.2.1, e.2.2) := by
  have hU : U64_MAX < 256 ^ 8 := by decide
  have f1 := Graph.field_beBytes 8 e.2.1 (beBytes 8 e.2.2) (by omega)
  have f2 := Graph.field_beBytes 8 e.2.2 [] (by omega)
  rw [List.append_nil] at f2
  rw [Prod.mk.injEq]
  constructor
  · rw [List.append_assoc, field_append_right _ _ _ _ (by rw [beBytes_length]), beBytes_length]
    exact f1
  · rw [field_append_right _ _ _ _ (by simp [beBytes_length])]
    simpa [beBytes_length] using f2

theorem compressedFile_alike {u : Bool} {a b c d : Nat} {l l' : List (Nat × Nat × Nat)} (h : l.Perm l')
    (hn : (l.map fun e => (e.2.1, e.2.2)).Nodup) (hl : ∀ e ∈ l, e.2.1 ≤ U64_MAX ∧ e.2.2 ≤ U64_MAX) :
    Reordered (compressedFile u a b c d l) (compressedFile u a b c d l') := by
  unfold compressedFile
  rw [h.length_eq]
  refine ⟨_, l.map fun e => beBytes 8 e.1 ++ beBytes 8 e.2.1 ++ beBytes 8 e.2.2, l'.map fun e => beBytes 8 e.1 ++ beBytes 8 e.2.1 ++ beBytes 8 e.2.2,
    h.map _, by rw [List.flatMap_def], by rw [List.flatMap_def], .inr ⟨?_, by simp [beBytes_length], ?_, ?_⟩⟩
  · simp only [List.append_assoc]
    exact Graph.field_beBytes _ _ _ (by decide)
  · intro r hr
    obtain ⟨x, -, rfl⟩ := List.mem_map.1 hr
    simp [beBytes_length]
  · rw [List.map_map]
    have := List.map_congr_left (f := (fun r => (field r 8 8, field r 16 8)) ∘ fun e : Nat × Nat × Nat => beBytes 8 e.1 ++ beBytes 8 e.2.1 ++ beBytes 8 e.2.2)
      (g := fun e => (e.2.1, e.2.2)) fun e he => record_position (hl e he).1 (hl e he).2
    rw [this]
    exact hn

theorem cbytes_alike {c c' : CGraph} (hc : CReach c) (hc' : CReach c') (hs : SameC c c') (P : Platform) (o o' : HashOrder) :
    ResRel Reordered (c.toBytes P o) (c'.toBytes P o') := by
  have hat := at_of_entry hc.ok hc'.ok hs.entry
  have hp : (c.adjacencyMatrix.items o).Perm (c'.adjacencyMatrix.items o') := by
    rw [List.perm_ext_iff_of_nodup (List.Nodup.of_map _ (SqMatrix.items_keys_nodup hc.ok.wf o))
      (List.Nodup.of_map _ (SqMatrix.items_keys_nodup hc'.ok.wf o'))]
    rintro ⟨v, x, y⟩
    rw [SqMatrix.mem_items hc.ok.wf, SqMatrix.mem_items hc'.ok.wf]
    exact Eq.congr_left (hat x y)
  have hb : ∀ e ∈ c.adjacencyMatrix.items o, e.2.1 ≤ U64_MAX ∧ e.2.2 ≤ U64_MAX := by
    rintro ⟨e, x, y⟩ he
    rw [SqMatrix.mem_items hc.ok.wf] at he
    have hb := CGraph.coord_bound hc.ok he
    have hd := hc.ok.wf.dim
    simp only
    omega
  rw [ctoBytes_eq P o c hc.ok.wf, ctoBytes_eq P o' c' hc'.ok.wf, ← hp.length_eq, hc'.ok.dim, ← hs.vertexCount, ← hs.edgeCount,
    ← hs.direction, ← hs.level, hc.ok.dim]
  split
  · rfl
  · split
    · exact compressedFile_alike hp (SqMatrix.items_keys_nodup hc.ok.wf o) hb
    · rfl

/-! ### Reading files with the same records -/

theorem drop_records {l : List Bytes} {n : Nat} (h : ∀ r ∈ l, r.length = n) (i : Nat) : l.flatten.drop (n * i) = (l.drop i).flatten := by
  induction l generalizing i with
  | nil => simp
  | cons r l ih =>
    cases i with
    | zero => simp
    | succ i =>
      have hr := h r (List.mem_cons_self ..)
      rw [List.flatten_cons, List.drop_append, List.drop_eq_nil_of_le (by rw [hr, Nat.mul_succ]; omega), List.nil_append, hr,
        show n * (i + 1) - n = n * i by rw [Nat.mul_succ]; omega, ih fun r hr => h r (List.mem_cons_of_mem _ hr)]
      rfl

theorem records_length {l : List Bytes} {n : Nat} (h : ∀ r ∈ l, r.length = n) : l.flatten.length = n * l.length := by
  induction l with
  | nil => rfl
  | cons r l ih =>
    rw [List.flatten_cons, List.length_append, h r (List.mem_cons_self ..), ih fun r hr => h r (List.mem_cons_of_mem _ hr), List.length_cons,
      Nat.mul_succ, Nat.add_comm]

theorem record_field {hd : Bytes} {l : List Bytes} {n : Nat} (h : ∀ r ∈ l, r.length = n) {i : Nat} (hi : i < l.length) {k m : Nat}
    (hk : k + m ≤ n) : field (hd ++ l.flatten) (hd.length + n * i + k) m = field l[i] k m := by
  rw [field_append_right _ _ _ _ (by omega), show hd.length + n * i + k - hd.length = n * i + k by omega]
  have hr := h _ (List.getElem_mem hi)
  rw [← field_append_left l[i] (l.drop (i + 1)).flatten k m (by omega)]
  unfold field
  rw [← List.drop_drop, drop_records h, List.drop_eq_getElem_cons hi, List.flatten_cons]

theorem listedEdges_records {hd : Bytes} {l : List Bytes} (hh : hd.length = 26) (h : ∀ r ∈ l, r.length = 16) :
    listedEdges (hd ++ l.flatten) l.length = l.map fun r => (field r 0 8, field r 8 8) := by
  refine List.ext_getElem (by simp [listedEdges]) fun i h1 h2 => ?_
  have hi : i < l.length := by simpa using h2
  have f1 := record_field (hd := hd) h hi (k := 0) (m := 8) (by omega)
  have f2 := record_field (hd := hd) h hi (k := 8) (m := 8) (by omega)
  rw [hh] at f1 f2
  simp only [listedEdges, List.getElem_map, List.getElem_range, listedEdge]
  rw [← f1, ← f2]
  rfl

theorem listedBlocks_records {hd : Bytes} {l : List Bytes} (hh : hd.length = 42) (h : ∀ r ∈ l, r.length = 24) :
    listedBlocks (hd ++ l.flatten) l.length = l.map fun r => (field r 0 8, field r 8 8, field r 16 8) := by
  refine List.ext_getElem (by simp [listedBlocks]) fun i h1 h2 => ?_
  have hi : i < l.length := by simpa using h2
  have f1 := record_field (hd := hd) h hi (k := 0) (m := 8) (by omega)
  have f2 := record_field (hd := hd) h hi (k := 8) (m := 8) (by omega)
  have f3 := record_field (hd := hd) h hi (k := 16) (m := 8) (by omega)
  rw [hh] at f1 f2 f3
  simp only [listedBlocks, List.getElem_map, List.getElem_range, listedBlock]
  rw [← f1, ← f2, ← f3]
  rfl

theorem reordered_symm {b b' : Bytes} (h : Reordered b b') : Reordered b' b := by
  obtain ⟨hd, l, l', hp, h1, h2, h3⟩ := h
  refine ⟨hd, l', l, hp.symm, h2, h1, ?_⟩
  rcases h3 with ⟨e1, e2, e3⟩ | ⟨e1, e2, e3, e4⟩
  · exact .inl ⟨e1, e2, fun r hr => e3 r (hp.mem_iff.2 hr)⟩
  · exact .inr ⟨e1, e2, fun r hr => e3 r (hp.mem_iff.2 hr), ((hp.map _).nodup_iff).1 e4⟩

theorem reordered_length {b b' : Bytes} (h : Reordered b b') : b'.length = b.length := by
  obtain ⟨hd, l, l', hp, rfl, rfl, _⟩ := h
  rw [List.length_append, List.length_append, hp.flatten.length_eq]

/-- The fields of graph files with the same records. -/
theorem reordered_graph {b b' : Bytes} (h : Reordered b b') (hv : ValidGraphFile b) :
    (∀ off k, off + k ≤ 26 → field b' off k = field b off k) ∧
      (listedEdges b (field b 16 8)).Perm (listedEdges b' (field b 16 8)) := by
  have hlen := hv.length
  obtain ⟨hd, l, l', hp, rfl, rfl, ⟨e1, e2, e3⟩ | ⟨e1, e2, e3, e4⟩⟩ := h
  · refine ⟨fun off k hk => by rw [field_append_left _ _ _ _ (by omega), field_append_left _ _ _ _ (by omega)], ?_⟩
    rw [List.length_append, records_length e3, e2] at hlen
    have hn : field (hd ++ l.flatten) 16 8 = l.length := by omega
    rw [hn]
    have h2 := listedEdges_records e2 fun r hr => e3 r (hp.mem_iff.2 hr)
    rw [← hp.length_eq] at h2
    rw [listedEdges_records e2 e3, h2]
    exact hp.map _
  · have := hv.magic
    rw [field_append_left _ _ _ _ (by omega), e1] at this
    cases this

theorem reordered_valid {b b' : Bytes} (h : Reordered b b') (hv : ValidGraphFile b) : ValidGraphFile b' := by
  obtain ⟨hf, hp⟩ := reordered_graph h hv
  have hm : ∀ u, meantEdges u (listedEdges b (field b 16 8)) = meantEdges u (listedEdges b' (field b 16 8)) := by
    intro u
    unfold meantEdges
    split
    · exact List.toFinset_eq_of_perm _ _ (hp.append (hp.map _))
    · exact List.toFinset_eq_of_perm _ _ hp
  constructor
  · rw [hf _ _ (by omega)]; exact hv.magic
  · rw [hf _ _ (by omega)]; exact hv.version
  · rw [hf _ _ (by omega)]; exact hv.direction
  · rw [hf _ _ (by omega)]; exact hv.unweighted
  · rw [hf _ _ (by omega), reordered_length h]; exact hv.length
  · rw [hf _ _ (by omega), hf _ _ (by omega)]
    exact fun e he => hv.inRange e (hp.mem_iff.2 he)
  · rw [hf _ _ (by omega), hf _ _ (by omega), ← hm]; exact hv.distinct

theorem read_alike {P : Platform} {b b' : Bytes} (hP : b.length ≤ P.usizeMax) (h : Reordered b b') :
    (∃ g g', Graph.tryFrom P b = .ok g ∧ Graph.tryFrom P b' = .ok g' ∧ Same g g') ∨
      ∃ e e', Graph.tryFrom P b = .err e ∧ Graph.tryFrom P b' = .err e' := by
  have hP' : b'.length ≤ P.usizeMax := by rw [reordered_length h]; exact hP
  rcases C16_decode_total P b hP with ⟨g, hg⟩ | ⟨e, he⟩
  · have hv := (C18_accepts_iff hP).1 ⟨g, hg⟩
    obtain ⟨g', hg'⟩ := (C18_accepts_iff hP').2 (reordered_valid h hv)
    obtain ⟨hf, hp⟩ := reordered_graph h hv
    obtain ⟨a1, a2, a3, a4, a5⟩ := C17_decoded_is_what_bytes_say hP hg
    obtain ⟨b1, b2, b3, b4, b5⟩ := C17_decoded_is_what_bytes_say hP' hg'
    rw [hf _ _ (by omega)] at b1 b3
    rw [hf 16 8 (by omega), hf 24 1 (by omega)] at b5
    refine .inl ⟨g, g', hg, hg', (C85_same_iff (.tryFrom _ _ hg) (.tryFrom _ _ hg')).2 ⟨?_, a1.trans b1.symm, fun u v => ?_⟩⟩
    · rw [Bool.eq_iff_iff, a3, b3]
    · rw [Bool.eq_iff_iff, a5, b5, hp.mem_iff, hp.mem_iff]
  · rcases C16_decode_total P b' hP' with ⟨g', hg'⟩ | ⟨e', he'⟩
    · obtain ⟨g, hg⟩ := (C18_accepts_iff hP).2 (reordered_valid (reordered_symm h) ((C18_accepts_iff hP').1 ⟨g', hg'⟩))
      rw [hg] at he
      cases he
    · exact .inr ⟨_, _, he, he'⟩

theorem reordered_compressed {b b' : Bytes} (h : Reordered b b') (hv : ValidCompressedFile b) :
    (∀ off k, off + k ≤ 42 → field b' off k = field b off k) ∧
      (listedBlocks b (field b 16 8)).Perm (listedBlocks b' (field b 16 8)) ∧ ((listedBlocks b (field b 16 8)).map Prod.snd).Nodup := by
  have hlen := hv.length
  obtain ⟨hd, l, l', hp, rfl, rfl, ⟨e1, e2, e3⟩ | ⟨e1, e2, e3, e4⟩⟩ := h
  · have := hv.magic
    rw [field_append_left _ _ _ _ (by omega), e1] at this
    cases this
  · refine ⟨fun off k hk => by rw [field_append_left _ _ _ _ (by omega), field_append_left _ _ _ _ (by omega)], ?_⟩
    rw [List.length_append, records_length e3, e2] at hlen
    have hn : field (hd ++ l.flatten) 16 8 = l.length := by omega
    rw [hn]
    have h2 := listedBlocks_records e2 fun r hr => e3 r (hp.mem_iff.2 hr)
    rw [← hp.length_eq] at h2
    rw [listedBlocks_records e2 e3, h2]
    exact ⟨hp.map _, by rw [List.map_map]; exact e4⟩

theorem reordered_cvalid {b b' : Bytes} (h : Reordered b b') (hv : ValidCompressedFile b) : ValidCompressedFile b' := by
  obtain ⟨hf, hp, _⟩ := reordered_compressed h hv
  constructor
  · rw [hf _ _ (by omega)]; exact hv.magic
  · rw [hf _ _ (by omega)]; exact hv.version
  · rw [hf _ _ (by omega)]; exact hv.direction
  · rw [hf _ _ (by omega)]; exact hv.level
  · rw [hf _ _ (by omega), hf _ _ (by omega)]; exact hv.dimension
  · rw [hf _ _ (by omega), reordered_length h]; exact hv.length
  · rw [hf _ _ (by omega)]
    exact fun e he => hv.nonzero e (hp.mem_iff.2 he)
  · rw [hf _ _ (by omega), hf _ _ (by omega)]
    exact fun e he => hv.inRange e (hp.mem_iff.2 he)
  · rw [hf _ _ (by omega), hf _ _ (by omega), ← (hp.map _).sum_eq]; exact hv.edgeCount

theorem find_perm {α : Type} {l l' : List α} (h : l.Perm l') {p : α → Bool} (hu : ∀ e ∈ l, ∀ e' ∈ l, p e = true → p e' = true → e = e') :
    l.find? p = l'.find? p := by
  cases h1 : l.find? p with
  | none =>
    symm
    rw [List.find?_eq_none] at h1 ⊢
    exact fun x hx => h1 x (h.mem_iff.2 hx)
  | some e =>
    have he := List.mem_of_find?_eq_some h1
    have hpe := List.find?_some h1
    cases h2 : l'.find? p with
    | none => exact absurd hpe (List.find?_eq_none.1 h2 e (h.mem_iff.1 he))
    | some e' => exact congrArg some (hu e he e' (h.mem_iff.2 (List.mem_of_find?_eq_some h2)) hpe (List.find?_some h2))

theorem cread_alike {P : Platform} {b b' : Bytes} (hP : b.length ≤ P.usizeMax) (h : Reordered b b') :
    (∃ g g', CGraph.tryFrom P b = .ok g ∧ CGraph.tryFrom P b' = .ok g' ∧ SameC g g') ∨
      ∃ e e', CGraph.tryFrom P b = .err e ∧ CGraph.tryFrom P b' = .err e' := by
  have hP' : b'.length ≤ P.usizeMax := by rw [reordered_length h]; exact hP
  rcases C33_decode_total P b hP with ⟨g, hg⟩ | ⟨e, he⟩
  · obtain ⟨hv, rfl⟩ := (CGraph.tryFrom_iff hP g).1 hg
    have hv' := reordered_cvalid h hv
    have hg' := (CGraph.tryFrom_iff hP' _).2 ⟨hv', rfl⟩
    obtain ⟨hf, hp, hn⟩ := reordered_compressed h hv
    obtain ⟨a1, a2, a3, a4, a5, a6⟩ := CGraph.decoded_spec hv
    obtain ⟨b1, b2, b3, b4, b5, b6⟩ := CGraph.decoded_spec hv'
    refine .inl ⟨_, _, hg, hg', sameC a1 b1 (by rw [a4, b4, hf _ _ (by omega)]) (by rw [a5, b5, hf _ _ (by omega)])
      (by rw [a2, b2, hf _ _ (by omega)]) (by rw [a3, b3, hf _ _ (by omega)]) fun x y => ?_⟩
    rw [a6, b6, hf 16 8 (by omega)]
    refine congrArg _ (find_perm ((List.reverse_perm _).trans (hp.trans (List.reverse_perm _).symm)) ?_)
    intro e he e' he' h1 h2
    rw [List.mem_reverse] at he he'
    rw [decide_eq_true_iff] at h1 h2
    exact List.inj_on_of_nodup_map hn he he' (Prod.ext (h1.1.trans h2.1.symm) (h1.2.trans h2.2.symm))
  · rcases C33_decode_total P b' hP' with ⟨g', hg'⟩ | ⟨e', he'⟩
    · have hv := reordered_cvalid (reordered_symm h) ((CGraph.tryFrom_iff hP' g').1 hg').1
      rw [(CGraph.tryFrom_iff hP _).2 ⟨hv, rfl⟩] at he
      cases he
    · exact .inr ⟨_, _, he, he'⟩

theorem bytes_alike {i : Nat} {r r' : Res Bytes} (h : ResRel Reordered r r') : OutAlike (.call i .bytes) (.bytes r) (.bytes r') := by
  cases r <;> cases r' <;> first | exact h.elim | skip
  · exact .inr ⟨_, _, rfl, rfl, h⟩
  · exact .inl rfl
  · trivial

theorem text_out (c : PyCall) {r r' : Res (List Char)} (h : AOut.text r = AOut.text r') : OutAlike c (.text r) (.text r') := by
  rw [h]
  cases r' with
  | ok s =>
    unfold AOut.text
    simp only
    split
    · exact rfl
    · exact .inl rfl
  | err e => exact rfl
  | panic => trivial

theorem made_alike (c : PyCall) {α : Type} {f : α → AObj} {r r' : Res α} (h : ResRel (fun x y => ObjAlike (f x) (f y)) r r') :
    OutAlike c (.made f r) (.made f r') := by
  cases r <;> cases r' <;> first | exact h.elim | skip
  · exact h
  · trivial
  · trivial

theorem resRel_mono {α β : Type} {R S : α → β → Prop} {r : Res α} {r' : Res β} (h : ResRel R r r') (hi : ∀ x y, r = .ok x → r' = .ok y → R x y → S x y) :
    ResRel S r r' := by
  cases r <;> cases r' <;> first | exact h.elim | skip
  · exact hi _ _ rfl rfl h
  · exact h
  · trivial

theorem items_alike {x x' : AObj} (h : ObjAlike x x') :
    (x.items = none ∧ x'.items = none) ∨
      ∃ xs xs', x.items = some xs ∧ x'.items = some xs' ∧ xs.Perm xs' ∧ (∀ v ∈ xs, IsElement v) ∧ ∀ v ∈ xs', IsElement v := by
  have el : ∀ {α : Type} (f : α → PyVal) (hf : ∀ a, IsElement (f a)) (l : List α), ∀ v ∈ l.map f, IsElement v := by
    intro α f hf l v hv
    obtain ⟨a, -, rfl⟩ := List.mem_map.1 hv
    exact hf a
  cases x <;> cases x' <;> first | exact h.elim | skip
  case graph.graph => exact .inl ⟨rfl, rfl⟩
  case cgraph.cgraph => exact .inl ⟨rfl, rfl⟩
  case matrix.matrix => exact .inl ⟨rfl, rfl⟩
  case iter.iter => exact .inl ⟨rfl, rfl⟩
  case edges.edges => refine .inr ⟨_, _, rfl, rfl, List.Perm.map _ h, ?_, ?_⟩ <;> (refine el _ ?_ _; exact fun _ => trivial)
  case vertices.vertices => refine .inr ⟨_, _, rfl, rfl, List.Perm.map _ h, ?_, ?_⟩ <;> (refine el _ ?_ _; exact fun _ => trivial)
  case entries.entries => refine .inr ⟨_, _, rfl, rfl, List.Perm.map _ h, ?_, ?_⟩ <;> (refine el _ ?_ _; exact fun _ => trivial)

theorem item_alike {i : Nat} {idx : Int} {xs xs' : List PyVal} (h : xs.length = xs'.length)
    (he : ∀ v ∈ xs, IsElement v) (he' : ∀ v ∈ xs', IsElement v) :
    OutAlike (.call i (.getitem idx)) (.item xs idx) (.item xs' idx) := by
  have key : ∀ n : Nat, OutAlike (.call i (.getitem idx)) ((xs[n]?).elim .panics .val) ((xs'[n]?).elim .panics .val) := by
    intro n
    by_cases hn : n < xs.length
    · rw [List.getElem?_eq_getElem hn, List.getElem?_eq_getElem (h ▸ hn)]
      exact .inr ⟨_, _, rfl, rfl, he _ (List.getElem_mem _), he' _ (List.getElem_mem _)⟩
    · rw [List.getElem?_eq_none (by omega), List.getElem?_eq_none (by omega)]
      trivial
  unfold AOut.item
  rw [← h]
  split
  · exact rfl
  · split
    · exact key _
    · split
      · exact rfl
      · exact key _

/-- Methods of lists. -/
theorem list_alike {E E' : Ctx} {a a' : AWorld} {i : Nat} {x x' : AObj} (h : ObjAlike x x')
    (m : Method) (hm : (∃ idx, m = .getitem idx) ∨ m = .len ∨ m = .iter) :
    OutAlike (.call i m) (x.means E a i m) (x'.means E' a' i m) := by
  have g1 : ∀ (E : Ctx) (a : AWorld) (x : AObj) idx, x.means E a i (.getitem idx) = match x.items with | some xs => .item xs idx | none => .raises .AttributeError := by
    intro E a x idx; cases x <;> rfl
  have g2 : ∀ (E : Ctx) (a : AWorld) (x : AObj), x.means E a i .len = match x.items with | some xs => .val (.int xs.length) | none => .raises .AttributeError := by
    intro E a x; cases x <;> rfl
  have g3 : ∀ (E : Ctx) (a : AWorld) (x : AObj), x.means E a i .iter = match x.items with | some _ => .new (.iter i 0) | none => .raises .AttributeError := by
    intro E a x; cases x <;> rfl
  rcases items_alike h with ⟨h1, h2⟩ | ⟨xs, xs', h1, h2, hp, he, he'⟩
  · rcases hm with ⟨idx, rfl⟩ | rfl | rfl
    · rw [g1, g1, h1, h2]; exact rfl
    · rw [g2, g2, h1, h2]; exact rfl
    · rw [g3, g3, h1, h2]; exact rfl
  · rcases hm with ⟨idx, rfl⟩ | rfl | rfl
    · rw [g1, g1, h1, h2]; exact item_alike hp.length_eq he he'
    · rw [g2, g2, h1, h2]; exact outAlike_val _ (by rw [hp.length_eq])
    · rw [g3, g3, h1, h2]; exact ⟨rfl, rfl⟩

theorem same_refl {g : Graph} (h : GReach g) : Same g g := (C85_same_iff h h).2 ⟨rfl, rfl, fun _ _ => rfl⟩

theorem sameC_refl {c : CGraph} (h : CReach c) : SameC c c := sameC h.ok h.ok rfl rfl rfl rfl fun _ _ => rfl

/-- Methods of objects that differ only in the order of hash tables. -/
theorem means_alike {E E' : Ctx} (hP : E'.P = E.P) {a a' : AWorld} {i : Nat} {x x' : AObj} (hg : GoodObj x) (hg' : GoodObj x')
    (h : ObjAlike x x') (hl : ∀ l p, x = .iter l p → (∃ y y', a[l]?.join = some y ∧ a'[l]?.join = some y' ∧ ObjAlike y y') ∨
      (a[l]?.join = none ∧ a'[l]?.join = none)) (m : Method) (hm : Moderate E (.call i m)) :
    OutAlike (.call i m) (x.means E a i m) (x'.means E' a' i m) := by
  obtain ⟨hu, hf, hm⟩ := hm
  have hlist : ((∃ idx, m = .getitem idx) ∨ m = .len ∨ m = .iter) → OutAlike (.call i m) (x.means E a i m) (x'.means E' a' i m) :=
    list_alike h m
  cases x with
  | graph g =>
    cases x' with
    | graph g' =>
      have hs : Same g g' := h
      have hc := C85_graph_congruence hg hg' hs
      cases m
      case bytes =>
        simp only [AObj.means, hP]
        exact bytes_alike (resRel_mono (hc.2.2.2.2.2 E.P E.o₁ E'.o₁) (by
          rintro b b' - - ⟨es, es', hp, rfl, rfl⟩
          exact graphFile_alike hp))
      case duplicate => exact hs
      case matrixString => simp only [AObj.means, hP, hc.2.2.2.2.1 E.P]; exact text_out _ rfl
      case isUndirected => exact outAlike_val _ (by rw [hs.direction])
      case vertexCount => exact outAlike_val _ (by rw [hs.vertexCount])
      case edgeCount => exact outAlike_val _ (by rw [hs.edgeCount])
      case doesEdgeExist u v => exact outAlike_val _ (by rw [hs.edge])
      case addVertex v tos => exact ⟨hc.1 [.addVertex (toId v) (tos.map (List.map toId))], .inl rfl⟩
      case addEdge u v => exact ⟨hc.1 [.addEdge (toId u) (toId v)], .inl rfl⟩
      case deleteEdge u v => exact ⟨hc.1 [.deleteEdge (toId u) (toId v)], .inl rfl⟩
      case findAvgPoolMatrix b =>
        simp only [AObj.means, hP]
        refine made_alike _ (resRel_mono (hc.2.1 E.P E.o₁ E'.o₁ (toId b)) fun m m' e e' _ => ?_)
        refine ⟨g, g', E.P, E.o₁, E'.o₁, toId b, hg, hg', hs, ?_, e, e'⟩
        have : toId b < 2 ^ 32 := hm
        unfold effBlock
        omega
      case approximate b t =>
        simp only [AObj.means, hP]
        exact made_alike _ (hc.2.2.1 E.P E.o₁ E.o₂ E'.o₁ E'.o₂ (toId b) t)
      case compress l =>
        simp only [AObj.means]
        obtain ⟨c, c', e, e', hcc⟩ := hc.2.2.2.1 E.P E'.P E.o₁ E.o₂ E'.o₁ E'.o₂ (clampLevel l)
        rw [e, e']
        exact hcc
      case edgeList => exact hs.items _ _
      case vertexInEdges v => exact hs.inEdges _ _ _
      case vertexOutEdges v => exact hs.outEdges _ _ _
      case vertexInDegree v => exact outAlike_val _ (by rw [hs.inDegree])
      case vertexOutDegree v => exact outAlike_val _ (by rw [hs.outDegree])
      case getitem idx => exact hlist (.inl ⟨_, rfl⟩)
      case len => exact hlist (.inr (.inl rfl))
      case iter => exact hlist (.inr (.inr rfl))
      all_goals exact rfl
    | _ => exact h.elim
  | cgraph c =>
    cases x' with
    | cgraph c' =>
      have hs : SameC c c' := h
      have hc := C85_compressed_congruence hg hg' hs
      cases m
      case bytes =>
        simp only [AObj.means, hP]
        exact bytes_alike (cbytes_alike hg hg' hs E.P E.o₁ E'.o₁)
      case duplicate => exact hs
      case matrixString =>
        simp only [AObj.means, hP]
        rcases hc.1 E.P E.o₁ E.o₂ E'.o₁ E'.o₂ hu (by omega) with ⟨s, e, e'⟩ | ⟨s, s', e, e'⟩
        · rw [e, e']; exact text_out _ rfl
        · rw [e, e']; exact rfl
      case decompress =>
        simp only [AObj.means]
        obtain ⟨d, d', e, e', hd⟩ := hc.2.2 E.P E'.P E.o₁ E'.o₁
        rw [e, e']
        exact hd
      case compressionLevel => exact outAlike_val _ (by rw [hs.level])
      case isUndirected => exact outAlike_val _ (by rw [hs.direction])
      case vertexCount => exact outAlike_val _ (by rw [hs.vertexCount])
      case edgeCount => exact outAlike_val _ (by rw [hs.edgeCount])
      case doesEdgeExist u v => exact outAlike_val _ (by rw [hs.edge])
      case getCompressedMatrixEntry u v => exact outAlike_val _ (by rw [hs.entry])
      case getitem idx => exact hlist (.inl ⟨_, rfl⟩)
      case len => exact hlist (.inr (.inl rfl))
      case iter => exact hlist (.inr (.inr rfl))
      all_goals exact rfl
    | _ => exact h.elim
  | matrix q =>
    cases x' with
    | matrix q' =>
      have hs := matrix_alike h
      have ht : ∀ n : Int, toSize E.P n + 40 ≤ E.P.fmtMax → toSize E.P n + 42 ≤ E.P.usizeMax →
          OutAlike (.call i m) (.text (q.toStringWithPrecision E.P f64Fmt E.o₁ E.o₂ (toSize E.P n)))
            (.text (q'.toStringWithPrecision E.P f64Fmt E'.o₁ E'.o₂ (toSize E.P n))) := fun n h1 h2 =>
        text_out _ (text_alike h E.P _ _ _ _ h1 h2)
      cases m
      case str =>
        simp only [AObj.means, hP]
        have h2 : toSize E.P 2 = 2 := by unfold toSize; rw [Int.emod_eq_of_lt (by omega) (by omega)]; rfl
        exact ht 2 (by omega) (by omega)
      case toString d => simp only [AObj.means, hP]; exact ht d hm.1 hm.2
      case duplicate => exact h
      case dimension => exact outAlike_val _ (by rw [hs.dimension])
      case entryCount => exact outAlike_val _ (by rw [hs.entryCount])
      case getEntry u v => exact outAlike_val _ (by rw [hs.entry])
      case entryList => exact hs.items _ _
      case getitem idx => exact hlist (.inl ⟨_, rfl⟩)
      case len => exact hlist (.inr (.inl rfl))
      case iter => exact hlist (.inr (.inr rfl))
      all_goals exact rfl
    | _ => exact h.elim
  | edges l =>
    cases x' with
    | edges l' =>
      cases m
      case getitem idx => exact hlist (.inl ⟨_, rfl⟩)
      case len => exact hlist (.inr (.inl rfl))
      case iter => exact hlist (.inr (.inr rfl))
      all_goals exact rfl
    | _ => exact h.elim
  | vertices l =>
    cases x' with
    | vertices l' =>
      cases m
      case getitem idx => exact hlist (.inl ⟨_, rfl⟩)
      case len => exact hlist (.inr (.inl rfl))
      case iter => exact hlist (.inr (.inr rfl))
      all_goals exact rfl
    | _ => exact h.elim
  | entries l =>
    cases x' with
    | entries l' =>
      cases m
      case getitem idx => exact hlist (.inl ⟨_, rfl⟩)
      case len => exact hlist (.inr (.inl rfl))
      case iter => exact hlist (.inr (.inr rfl))
      all_goals exact rfl
    | _ => exact h.elim
  | iter l p =>
    cases x' with
    | iter l' p' =>
      obtain ⟨rfl, rfl⟩ := h
      cases m
      case next =>
        simp only [AObj.means]
        rcases hl l p rfl with ⟨y, y', e, e', hy⟩ | ⟨e, e'⟩
        · rw [e, e']
          simp only [Option.bind_some]
          rcases items_alike hy with ⟨e1, e2⟩ | ⟨xs, xs', e1, e2, hp, he, he'⟩
          · rw [e1, e2]; trivial
          · rw [e1, e2]
            simp only
            by_cases hn : p < xs.length
            · rw [List.getElem?_eq_getElem hn, List.getElem?_eq_getElem (hp.length_eq ▸ hn)]
              exact ⟨⟨rfl, rfl⟩, .inr ⟨_, _, rfl, rfl, he _ (List.getElem_mem _), he' _ (List.getElem_mem _)⟩⟩
            · have := hp.length_eq
              rw [List.getElem?_eq_none (by omega), List.getElem?_eq_none (by omega)]
              exact rfl
        · rw [e, e']; trivial
      case getitem idx => exact hlist (.inl ⟨_, rfl⟩)
      case len => exact hlist (.inr (.inl rfl))
      case iter => exact hlist (.inr (.inr rfl))
      all_goals exact rfl
    | _ => exact h.elim

/-- The same of objects that are there or not. -/
def SlotAlike : Option AObj → Option AObj → Prop
  | some x, some x' => GoodObj x ∧ GoodObj x' ∧ ObjAlike x x'
  | none, none => True
  | _, _ => False

/-- Worlds that differ only in the order of hash tables. -/
structure WorldAlike (a a' : AWorld) : Prop where
  len : a'.length = a.length
  slot : ∀ i : Nat, SlotAlike a[i]?.join a'[i]?.join

theorem worldAlike_new {a a' : AWorld} (s : WorldAlike a a') {y y' : AObj} (h : SlotAlike (some y) (some y')) :
    WorldAlike (a ++ [some y]) (a' ++ [some y']) where
  len := by simp [s.len]
  slot i := by
    rw [List.getElem?_append, List.getElem?_append, s.len]
    split
    · exact s.slot i
    · cases i - a.length with
      | zero => exact h
      | succ n => trivial

theorem worldAlike_set {a a' : AWorld} (s : WorldAlike a a') {y y' : Option AObj} (h : SlotAlike y y') (i : Nat) :
    WorldAlike (a.set i y) (a'.set i y') where
  len := by simp [s.len]
  slot j := by
    rw [List.getElem?_set, List.getElem?_set, s.len]
    split
    · split
      · exact h
      · trivial
    · exact s.slot j

theorem worldAlike_iterated {a a' : AWorld} (s : WorldAlike a a') (i : Nat) : a.iterated i ↔ a'.iterated i := by
  constructor
  · rintro ⟨pos, h⟩
    obtain ⟨j, hj⟩ := List.mem_iff_getElem?.1 h
    have := s.slot j
    rw [hj] at this
    cases e : a'[j]?.join with
    | none => rw [e] at this; exact this.elim
    | some x =>
      rw [e] at this
      obtain ⟨_, _, h3⟩ := this
      cases x <;> first | exact h3.elim | skip
      obtain ⟨rfl, rfl⟩ := h3
      exact ⟨pos, List.mem_of_getElem? (Option.join_eq_some_iff.1 e)⟩
  · rintro ⟨pos, h⟩
    obtain ⟨j, hj⟩ := List.mem_iff_getElem?.1 h
    have := s.slot j
    rw [hj] at this
    cases e : a[j]?.join with
    | none => rw [e] at this; exact this.elim
    | some x =>
      rw [e] at this
      obtain ⟨_, _, h3⟩ := this
      cases x <;> first | exact h3.elim | skip
      obtain ⟨rfl, rfl⟩ := h3
      exact ⟨_, List.mem_of_getElem? (Option.join_eq_some_iff.1 e)⟩

/-- Steps that differ only in the order of hash tables. -/
def StepAlike (c : PyCall) : AStep → AStep → Prop
  | .ret v a, .ret v' a' => SeenAlike c (.value v) (.value v') ∧ WorldAlike a a'
  | .raises e a, .raises e' a' => e = e' ∧ WorldAlike a a'
  | .panics, .panics => True
  | _, _ => False

/-- The same call, perhaps with the records of a file in another order. -/
def CallAlike (c c' : PyCall) : Prop :=
  c' = c ∨ ∃ b b', Reordered b b' ∧ ((c = .graphFromBytes b ∧ c' = .graphFromBytes b') ∨ (c = .cgraphFromBytes b ∧ c' = .cgraphFromBytes b'))

theorem step_alike {a a' : AWorld} (s : WorldAlike a a') {E E' : Ctx} (hP : E'.P = E.P) {c c' : PyCall} (hm : Moderate E c)
    (hc : CallAlike c c') : StepAlike c (pyStep E c a) (pyStep E' c' a') := by
  rcases hc with rfl | ⟨b, b', hr, ⟨rfl, rfl⟩ | ⟨rfl, rfl⟩⟩
  rotate_left
  · simp only [pyStep, hP]
    rcases read_alike hm.2.2 hr with ⟨g, g', h1, h2, hs⟩ | ⟨e, e', h1, h2⟩
    · rw [h1, h2]
      exact ⟨.inl (by rw [s.len]), worldAlike_new s ⟨GReach.tryFrom _ _ h1, GReach.tryFrom _ _ h2, hs⟩⟩
    · rw [h1, h2]
      exact ⟨rfl, s⟩
  · simp only [pyStep, hP]
    rcases cread_alike hm.2.2 hr with ⟨g, g', h1, h2, hs⟩ | ⟨e, e', h1, h2⟩
    · rw [h1, h2]
      exact ⟨.inl (by rw [s.len]), worldAlike_new s ⟨CReach.tryFrom _ _ h1, CReach.tryFrom _ _ h2, hs⟩⟩
    · rw [h1, h2]
      exact ⟨rfl, s⟩
  rename PyCall => c
  have hn : ∀ x : AObj, GoodObj x → ObjAlike x x → StepAlike c ((AOut.new x).apply a a.length) ((AOut.new x).apply a' a'.length) :=
    fun x h1 h2 => ⟨.inl (by rw [s.len]), worldAlike_new s ⟨h1, h1, h2⟩⟩
  cases c with
  | newGraph u =>
    have hg : GReach (if u then Graph.newUndirected else Graph.newDirected) := by
      cases u
      · exact GReach.newDirected
      · exact GReach.newUndirected
    exact hn _ hg (same_refl hg)
  | graphFromBytes b =>
    simp only [pyStep, hP]
    cases hr : Graph.tryFrom E.P b with
    | ok g => exact hn _ (GReach.tryFrom _ _ hr) (same_refl (GReach.tryFrom _ _ hr))
    | err e => exact ⟨rfl, s⟩
    | panic => trivial
  | cgraphFromBytes b =>
    simp only [pyStep, hP]
    cases hr : CGraph.tryFrom E.P b with
    | ok g => exact hn _ (CReach.tryFrom _ _ hr) (sameC_refl (CReach.tryFrom _ _ hr))
    | err e => exact ⟨rfl, s⟩
    | panic => trivial
  | call i m =>
    have hs := s.slot i
    simp only [pyStep]
    cases hx : a[i]?.join with
    | none =>
      cases hx' : a'[i]?.join with
      | none => exact ⟨rfl, s⟩
      | some x' => rw [hx, hx'] at hs; exact hs.elim
    | some x =>
      cases hx' : a'[i]?.join with
      | none => rw [hx, hx'] at hs; exact hs.elim
      | some x' =>
        rw [hx, hx'] at hs
        obtain ⟨hg, hg', ho⟩ := hs
        have key := means_alike (E := E) (E' := E') hP (a := a) (a' := a') (i := i) hg hg' ho (by
          intro l p _
          have hl := s.slot l
          cases e : a[l]?.join with
          | none =>
            cases e' : a'[l]?.join with
            | none => exact .inr ⟨rfl, rfl⟩
            | some y' => rw [e, e'] at hl; exact hl.elim
          | some y =>
            cases e' : a'[l]?.join with
            | none => rw [e, e'] at hl; exact hl.elim
            | some y' => rw [e, e'] at hl; exact .inl ⟨y, y', rfl, rfl, hl.2.2⟩) m hm
        have hstep : ∀ {E : Ctx} {a : AWorld} {x y : AObj} {v : PyVal}, GoodObj x → x.means E a i m = .step y v → GoodObj y := by
          intro E a x y v hg hy
          rcases means_step hy with ⟨g, e, rfl, rfl, _⟩ | ⟨l, pos, _, rfl, _⟩
          · exact good_call hg e
          · trivial
        simp only
        cases h1 : x.means E a i m <;> cases h2 : x'.means E' a' i m <;> rw [h1, h2] at key <;> first | exact key.elim | skip
        · exact ⟨key, s⟩
        · exact ⟨.inl (by rw [s.len]), worldAlike_new s ⟨good_new hg h1, good_new hg' h2, key⟩⟩
        · exact ⟨key.2, worldAlike_set s (y := some _) (y' := some _) ⟨hstep hg h1, hstep hg' h2, key.1⟩ i⟩
        · exact ⟨key, s⟩
        · trivial
  | collect i =>
    have hs := s.slot i
    simp only [pyStep]
    cases hx : a[i]?.join with
    | none =>
      cases hx' : a'[i]?.join with
      | none => exact ⟨rfl, s⟩
      | some x' => rw [hx, hx'] at hs; exact hs.elim
    | some x =>
      cases hx' : a'[i]?.join with
      | none => rw [hx, hx'] at hs; exact hs.elim
      | some x' =>
        simp only
        by_cases hi : a.iterated i
        · rw [if_pos hi, if_pos ((worldAlike_iterated s i).1 hi)]
          exact ⟨.inl rfl, s⟩
        · rw [if_neg hi, if_neg (fun h => hi ((worldAlike_iterated s i).2 h))]
          exact ⟨.inl rfl, worldAlike_set s (y := none) (y' := none) trivial i⟩

theorem fileOf_alike {seen seen' : List Seen} (h : List.Forall₂ (fun s s' => ∃ c, SeenAlike c s s') seen seen') (j : Nat) :
    fileOf seen' j = fileOf seen j ∨ Reordered (fileOf seen j) (fileOf seen' j) := by
  induction h generalizing j with
  | nil => exact .inl rfl
  | @cons s s' l l' h _ ih =>
    cases j with
    | succ j => exact ih j
    | zero =>
      obtain ⟨c, h | h⟩ := h
      · left; rw [h]; rfl
      · have el : ∀ {v v' : PyVal}, IsElement v → IsElement v' → fileOf (.value v' :: l') 0 = fileOf (.value v :: l) 0 := by
          intro v v' h h'
          cases v <;> cases v' <;> first | exact h.elim | exact h'.elim | rfl
        cases c with
        | call i m =>
          cases m <;> first | exact h.elim | skip
          case bytes =>
            obtain ⟨b, b', rfl, rfl, h⟩ := h
            exact .inr h
          case getitem =>
            obtain ⟨v, v', rfl, rfl, h1, h2⟩ := h
            exact .inl (el h1 h2)
          case next =>
            obtain ⟨v, v', rfl, rfl, h1, h2⟩ := h
            exact .inl (el h1 h2)
        | _ => exact h.elim

theorem toCall_alike {seen seen' : List Seen} (h : List.Forall₂ (fun s s' => ∃ c, SeenAlike c s s') seen seen') (n : Next) :
    CallAlike (n.toCall seen) (n.toCall seen') := by
  cases n with
  | call c => exact .inl rfl
  | load j =>
    rcases fileOf_alike h j with e | e
    · exact .inl (congrArg PyCall.graphFromBytes e)
    · exact .inr ⟨_, _, e, .inl ⟨rfl, rfl⟩⟩
  | loadCompressed j =>
    rcases fileOf_alike h j with e | e
    · exact .inl (congrArg PyCall.cgraphFromBytes e)
    · exact .inr ⟨_, _, e, .inr ⟨rfl, rfl⟩⟩

theorem run_alike {a b a' : AWorld} {t : List (Ctx × PyCall × Seen)} (h : ARun a t b) (s : WorldAlike a a') (hm : ∀ x ∈ t, Moderate x.1 x.2.1)
    {seen seen' : List Seen} (hs : List.Forall₂ (fun s s' => ∃ c, SeenAlike c s s') seen seen') {p p' : List (Ctx × Next)}
    (hp : Obeys seen p t) (hq : SamePlatforms p p') :
    ∃ t' b', ARun a' t' b' ∧ Obeys seen' p' t' ∧ List.Forall₂ (fun x x' => SeenAlike x.2.1 x.2.2 x'.2.2) t t' ∧ WorldAlike b b' := by
  induction h generalizing a' seen seen' p p' with
  | nil =>
    cases p with
    | nil => cases hq; exact ⟨[], a', .nil, trivial, .nil, s⟩
    | cons x p => exact hp.elim
  | @ret a a₁ b E c v t h1 _ ih =>
    cases hq with
    | nil => exact hp.elim
    | @cons x y p p' h2 hq =>
      obtain ⟨E₀, n⟩ := x
      obtain ⟨E', n'⟩ := y
      obtain ⟨hP, rfl⟩ := h2
      simp only [Obeys] at hp
      obtain ⟨rfl, rfl, hp⟩ := hp
      have key := step_alike s (E' := E') hP (hm _ (List.mem_cons_self ..)) (toCall_alike hs n')
      simp only at h1 key
      rw [h1] at key
      cases h3 : pyStep E' (n'.toCall seen') a' <;> rw [h3] at key <;> first | exact key.elim | skip
      obtain ⟨t', b', r1, r2, r3, r4⟩ := ih key.2 (fun x hx => hm x (List.mem_cons_of_mem _ hx))
        (List.rel_append hs (.cons ⟨_, key.1⟩ .nil)) hp hq
      exact ⟨_, b', .ret h3 r1, ⟨rfl, rfl, r2⟩, .cons key.1 r3, r4⟩
  | @raises a a₁ b E c e t h1 _ ih =>
    cases hq with
    | nil => exact hp.elim
    | @cons x y p p' h2 hq =>
      obtain ⟨E₀, n⟩ := x
      obtain ⟨E', n'⟩ := y
      obtain ⟨hP, rfl⟩ := h2
      simp only [Obeys] at hp
      obtain ⟨rfl, rfl, hp⟩ := hp
      have key := step_alike s (E' := E') hP (hm _ (List.mem_cons_self ..)) (toCall_alike hs n')
      simp only at h1 key
      rw [h1] at key
      cases h3 : pyStep E' (n'.toCall seen') a' <;> rw [h3] at key <;> first | exact key.elim | skip
      have hsee : SeenAlike (n'.toCall seen) (.exception e) (.exception _) := .inl (congrArg Seen.exception key.1)
      obtain ⟨t', b', r1, r2, r3, r4⟩ := ih key.2 (fun x hx => hm x (List.mem_cons_of_mem _ hx))
        (List.rel_append hs (.cons ⟨_, hsee⟩ .nil)) hp hq
      exact ⟨_, b', .raises h3 r1, ⟨rfl, rfl, r2⟩, .cons hsee r3, r4⟩

/-- What a list shows determines its elements. -/
theorem pyList_unique {w : PyWorld} {i : Nat} {xs ys : List PyVal} (h : PyList w i xs) (h' : PyList w i ys) : xs = ys := by
  have hl : xs.length = ys.length := by
    obtain ⟨_, e⟩ := h.len exE
    obtain ⟨_, e'⟩ := h'.len exE
    rw [e] at e'
    injection e' with e' _
    injection e' with e'
  refine List.ext_getElem hl fun k h1 h2 => ?_
  obtain ⟨_, e⟩ := h.item exE k _ (List.getElem?_eq_getElem h1)
  obtain ⟨_, e'⟩ := h'.item exE k _ (List.getElem?_eq_getElem h2)
  rw [e] at e'
  injection e'

/-- What shows elements is a list. -/
theorem pyList_items {t} {w : PyWorld} {a : AWorld} (h : Reached t w a) {i : Nat} {xs : List PyVal} (hl : PyList w i xs) :
    ∃ x, a[i]?.join = some x ∧ x.items = some xs := by
  have hno : ∀ e b, pyStep exE (.call i .len) a ≠ .raises e b := by
    intro e b hp
    obtain ⟨_, h1, _⟩ := reached_raises h hp
    obtain ⟨_, h2⟩ := hl.len exE
    rw [h1] at h2
    cases h2
  cases hx : a[i]?.join with
  | none => exact absurd (by simp only [pyStep, hx]) (hno .NameError a)
  | some x =>
    have hi := Option.join_eq_some_iff.1 hx
    cases hy : x.items with
    | some ys => exact ⟨x, rfl, by rw [hy, pyList_unique hl (py_list h hi hy)]⟩
    | none =>
      refine absurd ?_ (hno .AttributeError a)
      rw [pyStep_call hi]
      cases x <;> first | rfl | cases hy

/-- **C135.** A Python program sees the same with any other hash orders and allocators: all values, texts and exceptions are the same,
files have the same records, perhaps in another order, and at the end all lists have the same elements, perhaps in another order. The program
may read the files that it has written. -/
theorem C135_programs {p p' : List (Ctx × Next)} (hp : SamePlatforms p p') {t : List (Ctx × PyCall × Seen)} {w : PyWorld}
    (ht : PyRun PyWorld.start t w) (hf : Obeys [] p t) (hm : ∀ x ∈ t, Moderate x.1 x.2.1) :
    ∃ t' w', PyRun PyWorld.start t' w' ∧ Obeys [] p' t' ∧ List.Forall₂ (fun x x' => SeenAlike x.2.1 x.2.2 x'.2.2) t t' ∧
      ∀ i xs, PyList w i xs → ∃ xs', PyList w' i xs' ∧ xs.Perm xs' := by
  obtain ⟨a, ha⟩ := (C72_traces t).1 ⟨w, ht⟩
  obtain ⟨t', b', h1, h2, h3, h4⟩ := run_alike ha (a' := []) ⟨rfl, fun _ => trivial⟩ hm .nil hf hp
  obtain ⟨w', hw'⟩ := reached_of_arun h1
  refine ⟨t', w', hw'.run, h2, h3, fun i xs hl => ?_⟩
  obtain ⟨x, hx, hi⟩ := pyList_items ⟨ht, ha⟩ hl
  have hs := h4.slot i
  rw [hx] at hs
  cases hx' : b'[i]?.join with
  | none => rw [hx'] at hs; exact hs.elim
  | some x' =>
    rw [hx'] at hs
    rcases items_alike hs.2.2 with ⟨e, _⟩ | ⟨ys, ys', e, e', hp, _⟩
    · rw [e] at hi; cases hi
    · rw [e] at hi
      cases hi
      exact ⟨ys', py_list hw' (Option.join_eq_some_iff.1 hx') e', hp⟩

theorem obeys_calls (seen : List Seen) (t : List (Ctx × PyCall × Seen)) : Obeys seen ((callsOf t).map fun x => (x.1, .call x.2)) t := by
  induction t generalizing seen with
  | nil => trivial
  | cons x t ih => exact ⟨rfl, rfl, ih _⟩

theorem calls_of_obeys {seen : List Seen} {q : List (Ctx × PyCall)} {t : List (Ctx × PyCall × Seen)}
    (h : Obeys seen (q.map fun x => (x.1, .call x.2)) t) : callsOf t = q := by
  induction q generalizing seen t with
  | nil =>
    cases t with
    | nil => rfl
    | cons => exact h.elim
  | cons x q ih =>
    cases t with
    | nil => exact h.elim
    | cons s t =>
      obtain ⟨h1, h2, h3⟩ := h
      have := ih h3
      unfold callsOf at this ⊢
      rw [List.map_cons, this]
      exact congrArg (· :: q) (Prod.ext h1 h2)

/-- **C135** for calls with given arguments. -/
theorem C135_orders {t : List (Ctx × PyCall × Seen)} {w : PyWorld} (ht : PyRun PyWorld.start t w) (hm : ∀ x ∈ t, Moderate x.1 x.2.1)
    {q : List (Ctx × PyCall)} (hq : SamePlatforms (callsOf t) q) :
    ∃ t' w', PyRun PyWorld.start t' w' ∧ callsOf t' = q ∧ List.Forall₂ (fun x x' => SeenAlike x.2.1 x.2.2 x'.2.2) t t' ∧
      ∀ i xs, PyList w i xs → ∃ xs', PyList w' i xs' ∧ xs.Perm xs' := by
  obtain ⟨t', w', h1, h2, h3⟩ := C135_programs (p := (callsOf t).map fun x => (x.1, .call x.2)) (p' := q.map fun x => (x.1, .call x.2)) (by
    unfold SamePlatforms at hq ⊢
    rw [List.forall₂_map_left_iff, List.forall₂_map_right_iff]
    exact hq.imp fun x y h => ⟨h.1, congrArg Next.call h.2⟩) ht (obeys_calls [] t) hm
  exact ⟨t', w', h1, calls_of_obeys h2, h3⟩

/-! ### Examples -/

/-- The environment of the examples with reversed hash tables. -/
def exErev : Ctx := { exE with o₁ := .rev, o₂ := .rev }

/-- A list is asked for its first element. -/
def exOrd : List (Ctx × PyCall × Seen) := exPyT ++ [(exE, .call 1 (.getitem 0), .value (.edge 0 1))]

/-- The same program with reversed hash tables. -/
def exOrdRev : List (Ctx × PyCall × Seen) :=
  [(exErev, .newGraph false, .value (.ref 0)), (exErev, .call 0 (.addEdge 1 2), .value .none),
    (exErev, .call 0 (.addEdge 0 1), .value .none), (exErev, .call 0 .edgeList, .value (.ref 1)),
    (exErev, .call 1 (.getitem 0), .value (.edge 1 2))]

theorem exOrd_run : ∃ w, PyRun PyWorld.start exOrd w :=
  (C72_traces _).2 ⟨exPyA, arun_append.2 ⟨_, exPy_arun, .ret rfl .nil⟩⟩

theorem exOrdRev_run : ∃ w, PyRun PyWorld.start exOrdRev w := by
  have hi : exPyG.items exErev.o₁ = [(1, 2), (0, 1)] := by
    show exPyG.items .rev = _
    decide +kernel
  have h : ARun [] (exOrdRev.take 4) [some (.graph exPyG), some (.edges (exPyG.items exErev.o₁))] :=
    .ret rfl (.ret rfl (.ret rfl (.ret rfl .nil)))
  rw [hi] at h
  have h' : ARun [some (.graph exPyG), some (.edges [(1, 2), (0, 1)])] [(exErev, .call 1 (.getitem 0), .value (.edge 1 2))]
      [some (.graph exPyG), some (.edges [(1, 2), (0, 1)])] := .ret rfl .nil
  exact (C72_traces _).2 ⟨_, (arun_append (t := exOrdRev.take 4)).2 ⟨_, h, h'⟩⟩

theorem exOrd_moderate : ∀ x ∈ exOrd, Moderate x.1 x.2.1 := by
  have h : 65535 ≤ exE.P.usizeMax ∧ 42 ≤ exE.P.fmtMax := by
    show 65535 ≤ exP.usizeMax ∧ 42 ≤ exP.fmtMax
    decide +kernel
  intro x hx
  simp only [exOrd, exPyT, List.cons_append, List.nil_append, List.mem_cons, List.not_mem_nil, or_false] at hx
  rcases hx with rfl | rfl | rfl | rfl | rfl <;> exact ⟨h.1, h.2, trivial⟩

theorem exOrd_platforms : SamePlatforms (callsOf exOrd) (callsOf exOrdRev) :=
  .cons ⟨rfl, rfl⟩ (.cons ⟨rfl, rfl⟩ (.cons ⟨rfl, rfl⟩ (.cons ⟨rfl, rfl⟩ (.cons ⟨rfl, rfl⟩ .nil))))

example : (∃ w, PyRun PyWorld.start exOrd w) ∧ (∀ x ∈ exOrd, Moderate x.1 x.2.1) ∧ SamePlatforms (callsOf exOrd) (callsOf exOrdRev) :=
  ⟨exOrd_run, exOrd_moderate, exOrd_platforms⟩

/-- A program that saves a graph and reads the file. -/
def exLoad (E : Ctx) : List (Ctx × Next) :=
  [(E, .call (.newGraph false)), (E, .call (.call 0 (.addEdge 1 2))), (E, .call (.call 0 (.addEdge 0 1))), (E, .call (.call 0 .bytes)), (E, .load 3)]

/-- The file that is written with hash tables in the order of insertion. -/
def exLoadFile : Bytes := graphFile false 3 [(0, 1), (1, 2)]

example : SamePlatforms (exLoad exE) (exLoad exErev) ∧ ∃ t w, PyRun PyWorld.start t w ∧ Obeys [] (exLoad exE) t ∧ (∀ x ∈ t, Moderate x.1 x.2.1) := by
  have hb : exPyG.toBytes exE.P exE.o₁ = .ok exLoadFile := by
    show exPyG.toBytes exP .id = _
    decide +kernel
  have hg : ∃ g, Graph.tryFrom exE.P exLoadFile = .ok g := by
    have : (match Graph.tryFrom exP exLoadFile with | .ok _ => true | _ => false) = true := by decide +kernel
    show ∃ g, Graph.tryFrom exP exLoadFile = .ok g
    revert this
    cases Graph.tryFrom exP exLoadFile with
    | ok g => exact fun _ => ⟨g, rfl⟩
    | err | panic => exact fun h => absurd h Bool.false_ne_true
  obtain ⟨g, hg⟩ := hg
  have h4 : pyStep exE (.call 0 .bytes) [some (.graph exPyG)] = .ret (.bytes exLoadFile) [some (.graph exPyG)] := by
    show (AOut.bytes (exPyG.toBytes exE.P exE.o₁)).apply _ 0 = _
    rw [hb]
    rfl
  have h5 : pyStep exE (.graphFromBytes exLoadFile) [some (.graph exPyG)] = .ret (.ref 1) [some (.graph exPyG), some (.graph g)] := by
    show (AOut.decoded .graph (Graph.tryFrom exE.P exLoadFile)).apply _ 0 = _
    rw [hg]
    rfl
  obtain ⟨w, hw⟩ := (C72_traces _).2 ⟨_, .ret (E := exE) (c := .newGraph false) rfl (.ret (E := exE) (c := .call 0 (.addEdge 1 2)) rfl
    (.ret (E := exE) (c := .call 0 (.addEdge 0 1)) rfl (.ret h4 (.ret h5 .nil))))⟩
  refine ⟨.cons ⟨rfl, rfl⟩ (.cons ⟨rfl, rfl⟩ (.cons ⟨rfl, rfl⟩ (.cons ⟨rfl, rfl⟩ (.cons ⟨rfl, rfl⟩ .nil)))), _, w, hw,
    ⟨rfl, rfl, rfl, rfl, rfl, rfl, rfl, rfl, rfl, rfl, trivial⟩, ?_⟩
  have h : 65535 ≤ exE.P.usizeMax ∧ 42 ≤ exE.P.fmtMax ∧ exLoadFile.length ≤ exE.P.usizeMax := by
    show 65535 ≤ exP.usizeMax ∧ 42 ≤ exP.fmtMax ∧ exLoadFile.length ≤ exP.usizeMax
    decide +kernel
  intro x hx
  simp only [List.mem_cons, List.not_mem_nil, or_false] at hx
  rcases hx with rfl | rfl | rfl | rfl | rfl <;> first | exact ⟨h.1, h.2.1, trivial⟩ | exact ⟨h.1, h.2.1, h.2.2⟩

/-- **C135.** The order of lists does show: the same calls with other hash tables give another element. -/
theorem C135_order_shows : ∃ t t' : List (Ctx × PyCall × Seen), (∃ w, PyRun PyWorld.start t w) ∧ (∃ w, PyRun PyWorld.start t' w) ∧
    (∀ x ∈ t, Moderate x.1 x.2.1) ∧ SamePlatforms (callsOf t) (callsOf t') ∧ t.map (·.2.2) ≠ t'.map (·.2.2) := by
  refine ⟨exOrd, exOrdRev, exOrd_run, exOrdRev_run, exOrd_moderate, exOrd_platforms, fun h => ?_⟩
  simp [exOrd, exOrdRev, exPyT] at h

end Verif.Props
