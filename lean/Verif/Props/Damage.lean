import Verif.Props.CCodec
import Verif.Props.DecodeErrors

/-!
# Damaged and confused files: C100–C102

What the decoders make of a file of the other kind, and of a file in which one byte has been changed.
-/

namespace Verif.Props
open Verif Spec

/-! ## Changing one byte of a field -/

theorem beValue_inj {a b : Bytes} (hl : a.length = b.length) (h : beValue a = beValue b) : a = b := by
  rw [← toBE_beValue a, ← toBE_beValue b, hl, h]

theorem field_set_out {b : Bytes} {i off k : Nat} (x : UInt8) (h : i < off ∨ off + k ≤ i) :
    field (b.set i x) off k = field b off k := by
  unfold field
  congr 1
  apply List.ext_getElem?
  intro j
  simp only [List.getElem?_take, List.getElem?_drop, List.getElem?_set]
  split
  · rw [if_neg (by omega)]
  · rfl

theorem field_set_in {b : Bytes} {i off k : Nat} {x : UInt8} (h1 : off ≤ i) (h2 : i < off + k) (hi : i < b.length)
    (hx : x ≠ b[i]) : field (b.set i x) off k ≠ field b off k := by
  intro h
  have h3 := beValue_inj (by simp) h
  have h4 : (((b.set i x).drop off).take k)[i - off]? = ((b.drop off).take k)[i - off]? := by rw [h3]
  simp only [List.getElem?_take, List.getElem?_drop, List.getElem?_set] at h4
  rw [if_pos (by omega), if_pos (by omega), if_pos (by omega), if_pos (by omega),
    show off + (i - off) = i by omega, List.getElem?_eq_getElem hi] at h4
  exact hx (Option.some.inj h4)

theorem field_set_one {b : Bytes} {i : Nat} {x : UInt8} (hi : i < b.length) : field (b.set i x) i 1 = x.toNat := by
  unfold field
  have : ((b.set i x).drop i).take 1 = [x] := by
    apply List.ext_getElem?
    intro j
    simp only [List.getElem?_take, List.getElem?_drop, List.getElem?_set]
    rcases j with _ | j
    · simp [hi]
    · simp
  rw [this]
  simp [beValue]

theorem field_one {b : Bytes} {i : Nat} (hi : i < b.length) : field b i 1 = b[i].toNat := by
  have := field_set_one (x := b[i]) hi
  rwa [List.set_getElem_self] at this

theorem listedEdges_set_out {b : Bytes} {i : Nat} (x : UInt8) (h : i < 26) (n : Nat) :
    listedEdges (b.set i x) n = listedEdges b n := by
  unfold listedEdges
  apply List.map_congr_left
  intro j _
  unfold listedEdge
  rw [field_set_out x (by omega), field_set_out x (by omega)]

theorem listedBlocks_set_out {b : Bytes} {i : Nat} (x : UInt8) (h : i < 42) (n : Nat) :
    listedBlocks (b.set i x) n = listedBlocks b n := by
  unfold listedBlocks
  apply List.map_congr_left
  intro j _
  unfold listedBlock
  rw [field_set_out x (by omega), field_set_out x (by omega), field_set_out x (by omega)]

/-- A byte changed in the edge list changes exactly one number of exactly one edge. -/
theorem listedEdges_set_in {b : Bytes} {i n : Nat} {x : UInt8} (h : 26 ≤ i) (hi : i < b.length)
    (hn : b.length = 26 + 16 * n) (hx : x ≠ b[i]) :
    ∃ (j : Nat) (hj : j < (listedEdges b n).length) (e : Nat × Nat),
      listedEdges (b.set i x) n = (listedEdges b n).set j e ∧
      ((e.1 ≠ (listedEdges b n)[j].1 ∧ e.2 = (listedEdges b n)[j].2) ∨
        (e.1 = (listedEdges b n)[j].1 ∧ e.2 ≠ (listedEdges b n)[j].2)) := by
  refine ⟨(i - 26) / 16, by simp [listedEdges]; omega, listedEdge (b.set i x) ((i - 26) / 16), ?_, ?_⟩
  · apply List.ext_getElem?
    intro j
    rw [List.getElem?_set]
    simp only [listedEdges, List.getElem?_map, List.length_map, List.length_range]
    split
    · next hj =>
      subst hj
      rw [if_pos (by omega), List.getElem?_range (by omega)]
      rfl
    · next hj =>
      by_cases hjn : j < n
      · rw [List.getElem?_range hjn]
        simp only [Option.map_some, Option.some.injEq]
        unfold listedEdge
        rw [field_set_out x (by omega), field_set_out x (by omega)]
      · rw [List.getElem?_eq_none (by simpa using hjn)]; rfl
  · simp only [listedEdges, List.getElem_map, List.getElem_range]
    unfold listedEdge
    simp only
    by_cases hh : i < 26 + 16 * ((i - 26) / 16) + 8
    · left
      exact ⟨field_set_in (by omega) hh hi hx, field_set_out x (by omega)⟩
    · right
      exact ⟨field_set_out x (by omega), field_set_in (by omega) (by omega) hi hx⟩

theorem mem_set_nodup {α : Type} {l : List α} (hn : l.Nodup) {j : Nat} (hj : j < l.length) (e a : α) :
    a ∈ l.set j e ↔ a = e ∨ (a ∈ l ∧ a ≠ l[j]) := by
  constructor
  · intro h
    obtain ⟨k, hk, rfl⟩ := List.mem_iff_getElem.1 h
    rw [List.length_set] at hk
    rw [List.getElem_set]
    split
    · exact .inl rfl
    · next hne =>
      refine .inr ⟨List.getElem_mem _, fun h => hne ?_⟩
      exact (hn.getElem_inj_iff.1 h).symm
  · rintro (rfl | ⟨h, hne⟩)
    · exact List.mem_set hj _
    · obtain ⟨k, hk, rfl⟩ := List.mem_iff_getElem.1 h
      have hjk : j ≠ k := fun h => hne (by subst h; rfl)
      exact List.mem_iff_getElem.2 ⟨k, by rwa [List.length_set], by rw [List.getElem_set_ne hjk]⟩

/-! ## C100 -/

/-- **C100.** A graph file is not a compressed graph file, and the decoder says so. -/
theorem C100_graph_file {P P' : Platform} {b : Bytes} {g : Graph} (hP : b.length ≤ P.usizeMax)
    (h : Graph.tryFrom P b = .ok g) (hP' : b.length ≤ P'.usizeMax) :
    CGraph.tryFrom P' b = .err (.InvalidFormat (if g.edgeCount = 0 then
      "Slice is too short to contain CompressedGraph header" else "Incorrect magic number")) := by
  have hv := ((accepted_iff hP g).1 h).1
  have hc := (C17_decoded_is_what_bytes_say hP h).2.1
  have hl := hv.length
  rw [C95_compressed_error hP']
  refine ⟨_, rfl, ?_⟩
  unfold compressedChecks
  simp only [List.cons_append, List.nil_append]
  rw [reports_cons, reports_cons, hv.magic]
  split
  · exact .inl ⟨by omega, rfl⟩
  · exact .inr ⟨by omega, .inl ⟨by decide, rfl⟩⟩

/-- **C100.** A compressed graph file is not a graph file, and the decoder says so. -/
theorem C100_compressed_file {P P' : Platform} {b : Bytes} {c : CGraph} (h : CGraph.tryFrom P b = .ok c)
    (hP' : b.length ≤ P'.usizeMax) :
    Graph.tryFrom P' b = .err (.InvalidFormat "Incorrect magic number") := by
  have hv := ((CGraph.tryFrom_iff (CGraph.tryFrom_length h) c).1 h).1
  have hl := hv.length
  rw [C95_graph_error hP']
  refine ⟨_, rfl, ?_⟩
  unfold graphChecks
  simp only [List.cons_append, List.nil_append]
  rw [reports_cons, reports_cons, hv.magic]
  exact .inr ⟨by omega, .inl ⟨by decide, rfl⟩⟩

example : okAnd (exD.toBytes exP .id) fun b => okAnd (Graph.tryFrom exP b) (fun g => g.edgeCount == 2) &&
    errIs (CGraph.tryFrom exP b) (.InvalidFormat "Incorrect magic number") := by decide +kernel

example : okAnd (CGraph.tryFrom exP exF) (fun _ => true) &&
    errIs (Graph.tryFrom exP exF) (.InvalidFormat "Incorrect magic number") := by decide +kernel

/-! ## C101 -/

/-- **C101.** One changed byte in the magic number, the version, the edge count or the weight flag is always noticed. -/
theorem C101_header {P P' : Platform} {b : Bytes} {g : Graph} (hP : b.length ≤ P.usizeMax)
    (h : Graph.tryFrom P b = .ok g) (hP' : b.length ≤ P'.usizeMax) {i : Nat} (hi : i < b.length) {x : UInt8}
    (hx : x ≠ b[i]'hi) (hpos : i < 8 ∨ (16 ≤ i ∧ i < 24) ∨ i = 25) :
    ∃ msg, Graph.tryFrom P' (b.set i x) = .err (.InvalidFormat msg) := by
  have hv := ((accepted_iff hP g).1 h).1
  have hP2 : (b.set i x).length ≤ P'.usizeMax := by rw [List.length_set]; exact hP'
  rcases C16_decode_total P' (b.set i x) hP2 with ⟨g', h'⟩ | h'
  swap
  · exact h'
  exfalso
  have hv' := ((accepted_iff hP2 g').1 h').1
  have hl := hv.length
  have hl' := hv'.length
  rw [List.length_set] at hl'
  rcases hpos with hpos | hpos | rfl
  · by_cases h4 : i < 4
    · exact field_set_in (off := 0) (k := 4) (by omega) (by omega) hi hx (hv'.magic.trans hv.magic.symm)
    · exact field_set_in (off := 4) (k := 4) (by omega) (by omega) hi hx (hv'.version.trans hv.version.symm)
  · exact field_set_in (off := 16) (k := 8) (by omega) (by omega) hi hx (by omega)
  · exact field_set_in (off := 25) (k := 1) (by omega) (by omega) hi hx
      (hv'.unweighted.trans hv.unweighted.symm)

/-- Each of these bytes of the file of a graph with two edges, replaced by 9, makes it unreadable. -/
example : okAnd (exD.toBytes exP .id) fun b => okAnd (Graph.tryFrom exP b) (fun _ => true) &&
    [0, 7, 16, 23, 25].all fun i => b[i]? != some 9 && !(okAnd (Graph.tryFrom exP (b.set i 9)) fun _ => true) := by
  decide +kernel

/-- **C101.** One changed byte in the vertex count changes the vertex count and nothing else; it is noticed exactly
when an edge falls outside. -/
theorem C101_vertex_count {P P' : Platform} {b : Bytes} {g : Graph} (hP : b.length ≤ P.usizeMax)
    (h : Graph.tryFrom P b = .ok g) (hP' : b.length ≤ P'.usizeMax) {i : Nat} (hi : i < b.length) {x : UInt8}
    (hx : x ≠ b[i]'hi) (hpos : 8 ≤ i ∧ i < 16) :
    ∃ n, n ≠ g.vertexCount ∧
      ((∃ g', Graph.tryFrom P' (b.set i x) = .ok g') ↔ ∀ u v, g.doesEdgeExist u v = true → u < n ∧ v < n) ∧
      ∀ g', Graph.tryFrom P' (b.set i x) = .ok g' →
        g'.vertexCount = n ∧ g'.isUndirected = g.isUndirected ∧
        ∀ u v, g'.doesEdgeExist u v = g.doesEdgeExist u v := by
  have hv := ((accepted_iff hP g).1 h).1
  have hP2 : (b.set i x).length ≤ P'.usizeMax := by rw [List.length_set]; exact hP'
  obtain ⟨c1, c2, c3, c4, c5⟩ := C17_decoded_is_what_bytes_say hP h
  have o1 : field (b.set i x) 0 4 = field b 0 4 := field_set_out x (by omega)
  have o2 : field (b.set i x) 4 4 = field b 4 4 := field_set_out x (by omega)
  have o3 : field (b.set i x) 16 8 = field b 16 8 := field_set_out x (by omega)
  have o4 : field (b.set i x) 24 1 = field b 24 1 := field_set_out x (by omega)
  have o5 : field (b.set i x) 25 1 = field b 25 1 := field_set_out x (by omega)
  have ol : listedEdges (b.set i x) (field b 16 8) = listedEdges b (field b 16 8) := listedEdges_set_out x (by omega) _
  refine ⟨field (b.set i x) 8 8, by rw [c1]; exact field_set_in (by omega) (by omega) hi hx, ?_, ?_⟩
  · rw [C18_accepts_iff hP2]
    constructor
    · intro hv' u v huv
      have := hv'.inRange
      rw [o3, ol] at this
      rcases (c5 u v).1 huv with h1 | ⟨_, h1⟩
      · exact this _ h1
      · exact (this _ h1).symm
    · intro hr
      exact ⟨o1.trans hv.magic, o2.trans hv.version, by rw [o4]; exact hv.direction, o5.trans hv.unweighted,
        by rw [List.length_set, o3]; exact hv.length,
        by rw [o3, ol]; exact fun e he => hr e.1 e.2 ((c5 _ _).2 (.inl he)),
        by rw [o3, o4, ol]; exact hv.distinct⟩
  · intro g' h'
    obtain ⟨d1, d2, d3, d4, d5⟩ := C17_decoded_is_what_bytes_say hP2 h'
    rw [o3, ol, o4] at d5
    refine ⟨d1, ?_, fun u v => ?_⟩
    · rw [Bool.eq_iff_iff, d3, c3, o4]
    · rw [Bool.eq_iff_iff, d5, c5]

/-- A vertex count of 3 changed to 9 is accepted, changed to 1 is not. -/
example : okAnd (exU.toBytes exP .id) fun b => okAnd (Graph.tryFrom exP b) (fun g => g.vertexCount == 3) &&
    okAnd (Graph.tryFrom exP (b.set 15 9)) (fun g => g.vertexCount == 9 && g.edgeCount == 5) &&
    !(okAnd (Graph.tryFrom exP (b.set 15 1)) fun _ => true) := by
  decide +kernel

/-- What a written file says, in terms of its fields. -/
theorem written_fields {g : Graph} (hg : GReach g) {P : Platform} {o : HashOrder} {b : Bytes}
    (hP : P.usizeMax ≤ U64_MAX) (hb : g.toBytes P o = .ok b) :
    field b 8 8 = g.vertexCount ∧ field b 16 8 = g.edgeCount ∧ field b 24 1 = (if g.isUndirected then 1 else 0) ∧
    b.length = 26 + 16 * g.edgeCount ∧ (listedEdges b g.edgeCount).Nodup ∧
    (∀ u v, (u, v) ∈ listedEdges b g.edgeCount ↔ g.doesEdgeExist u v = true) ∧ ValidGraphFile b := by
  obtain ⟨q1, q2, q3, q4⟩ := C14_graph_bytes_layout hg P o
  obtain ⟨hl, edges, hbe, hn, hlen, hm⟩ := q2 b hb
  have hsz := (q4.2 ⟨b, hb⟩).1
  have hbd : ∀ e ∈ edges, e.1 < g.vertexCount ∧ e.2 < g.vertexCount := fun e he =>
    hg.ok.wf.bound (e.1, e.2) (Graph.doesEdgeExist_iff.1 ((hm e.1 e.2).1 he))
  have hdim : g.vertexCount ≤ U64_MAX := hg.ok.wf.dim
  obtain ⟨f1, f2, f3, f4, f5, f6, f7⟩ := Graph.graphFile_fields g.isUndirected g.vertexCount edges hdim
    (by omega) (fun e he => by have := hbd e he; omega)
  have hlb : b.length ≤ (Platform.mk b.length (fun _ => true) .debug 0).usizeMax := le_refl _
  obtain ⟨g', hg', _⟩ := C15_round_trip hg hP hb hlb
  have hv := ((accepted_iff hlb g').1 hg').1
  subst hbe
  rw [hlen] at f4 f7
  exact ⟨f3, f4, f5, hl, by rw [f7]; exact hn, by rw [f7]; exact hm, hv⟩

/-- **C101.** A changed direction flag: a graph written as undirected becomes the directed graph with the same edges;
a graph written as directed is accepted as undirected exactly if it is symmetric. -/
theorem C101_direction {g : Graph} (hg : GReach g) {P P' : Platform} {o : HashOrder} {b : Bytes}
    (hP : P.usizeMax ≤ U64_MAX) (hb : g.toBytes P o = .ok b) (hP' : b.length ≤ P'.usizeMax) (hi : 24 < b.length)
    {x : UInt8} (hx : x ≠ b[24]'hi) :
    ((∃ g', Graph.tryFrom P' (b.set 24 x) = .ok g') ↔
      x = 0 ∨ (x = 1 ∧ ∀ u v, g.doesEdgeExist u v = g.doesEdgeExist v u)) ∧
    ∀ g', Graph.tryFrom P' (b.set 24 x) = .ok g' →
      g'.isUndirected = (!g.isUndirected) ∧ g'.vertexCount = g.vertexCount ∧
      ∀ u v, g'.doesEdgeExist u v = g.doesEdgeExist u v := by
  obtain ⟨w1, w2, w3, w4, w5, w6, hv⟩ := written_fields hg hP hb
  have hP2 : (b.set 24 x).length ≤ P'.usizeMax := by rw [List.length_set]; exact hP'
  have o1 : field (b.set 24 x) 0 4 = field b 0 4 := field_set_out x (by omega)
  have o2 : field (b.set 24 x) 4 4 = field b 4 4 := field_set_out x (by omega)
  have o3 : field (b.set 24 x) 8 8 = field b 8 8 := field_set_out x (by omega)
  have o4 : field (b.set 24 x) 16 8 = field b 16 8 := field_set_out x (by omega)
  have o5 : field (b.set 24 x) 25 1 = field b 25 1 := field_set_out x (by omega)
  have ol : listedEdges (b.set 24 x) g.edgeCount = listedEdges b g.edgeCount := listedEdges_set_out x (by omega) _
  have ox : field (b.set 24 x) 24 1 = x.toNat := field_set_one hi
  have hb24 : field b 24 1 = b[24].toNat := field_one hi
  have hne : x.toNat ≠ field b 24 1 := by
    rw [hb24]; exact fun h => hx (UInt8.toNat_inj.1 h)
  have hxz : x = 0 ↔ x.toNat = 0 := by rw [← UInt8.toNat_inj]; rfl
  have hxo : x = 1 ↔ x.toNat = 1 := by rw [← UInt8.toNat_inj]; rfl
  have hlen : (listedEdges b g.edgeCount).length = g.edgeCount := by simp [listedEdges]
  have hsub : (listedEdges b g.edgeCount).toFinset ⊆ meantEdges true (listedEdges b g.edgeCount) := by
    intro e he
    simp only [meantEdges, if_true, List.mem_toFinset, List.mem_append]
    exact .inl (List.mem_toFinset.1 he)
  have hcard0 : (listedEdges b g.edgeCount).toFinset.card = g.edgeCount := by
    rw [List.toFinset_card_of_nodup w5, hlen]
  have hcard : (meantEdges (x.toNat == 1) (listedEdges b g.edgeCount)).card = g.edgeCount ↔
      (x.toNat = 1 → ∀ u v, g.doesEdgeExist u v = g.doesEdgeExist v u) := by
    by_cases h1 : x.toNat = 1
    · rw [h1]
      simp only [beq_self_eq_true, forall_const]
      constructor
      · intro hc
        have heq := Finset.eq_of_subset_of_card_le hsub (by rw [hc, hcard0])
        have key : ∀ u v, g.doesEdgeExist u v = true → g.doesEdgeExist v u = true := by
          intro u v huv
          rw [← w6] at huv ⊢
          have : (v, u) ∈ meantEdges true (listedEdges b g.edgeCount) := by
            simp only [meantEdges, if_true, List.mem_toFinset, List.mem_append, List.mem_map]
            exact .inr ⟨(u, v), huv, rfl⟩
          rw [← heq] at this
          exact List.mem_toFinset.1 this
        intro u v
        rw [Bool.eq_iff_iff]
        exact ⟨key u v, key v u⟩
      · intro hs
        refine Eq.trans (congrArg Finset.card ?_) hcard0
        apply Finset.Subset.antisymm _ hsub
        rintro ⟨u, v⟩ he
        simp only [meantEdges, if_true, List.mem_toFinset, List.mem_append, List.mem_map] at he
        rw [List.mem_toFinset, w6]
        rcases he with he | ⟨⟨u', v'⟩, he, heq⟩
        · exact (w6 u v).1 he
        · cases heq
          rw [hs]; exact (w6 _ _).1 he
    · rw [show (x.toNat == 1) = false by simpa using h1]
      simp only [h1, false_imp_iff, iff_true]
      simp only [meantEdges, Bool.false_eq_true, if_false]
      exact hcard0
  constructor
  · rw [C18_accepts_iff hP2, hxz, hxo]
    constructor
    · intro hv'
      have hd := hv'.direction
      have hc := hv'.distinct
      rw [ox] at hd hc
      rw [o4, w2, ol, hcard] at hc
      rcases hd with hd | hd
      · exact .inl hd
      · exact .inr ⟨hd, hc hd⟩
    · intro hd
      refine ⟨o1.trans hv.magic, o2.trans hv.version, by rw [ox]; omega, o5.trans hv.unweighted,
        by rw [List.length_set, o4]; exact hv.length, ?_, ?_⟩
      · have := hv.inRange
        rw [w2] at this
        rw [o4, w2, ol, o3]; exact this
      · rw [o4, w2, ol, ox, hcard]
        intro h1
        rcases hd with hd | hd
        · omega
        · exact hd.2
  · intro g' h'
    obtain ⟨d1, d2, d3, d4, d5⟩ := C17_decoded_is_what_bytes_say hP2 h'
    rw [ox] at d3
    rw [ox, o4, w2, ol] at d5
    have hv' := ((accepted_iff hP2 g').1 h').1
    have hd := hv'.direction
    have hc := hv'.distinct
    rw [ox] at hd hc
    rw [o4, w2, ol, hcard] at hc
    refine ⟨?_, by rw [d1, o3, w1], fun u v => ?_⟩
    · rw [w3] at hne
      rw [Bool.eq_iff_iff, d3]
      cases hu : g.isUndirected <;> rw [hu] at hne <;> simp at hne ⊢ <;> omega
    · rw [Bool.eq_iff_iff, d5, w6, w6]
      constructor
      · rintro (h1 | ⟨h1, h2⟩)
        · exact h1
        · rw [hc h1]; exact h2
      · exact fun h1 => .inl h1

/-- An undirected graph read as directed. -/
example : GReach exU ∧ okAnd (exU.toBytes exP .id) fun b => b[24]? == some 1 &&
    okAnd (Graph.tryFrom exP (b.set 24 0)) (fun g => g.edgeCount == 5 && !g.isUndirected) :=
  ⟨exU_reach, by decide +kernel⟩

/-- A directed graph that is not symmetric is not read as undirected. -/
example : GReach exD ∧ okAnd (exD.toBytes exP .id) fun b => b[24]? == some 0 &&
    !(okAnd (Graph.tryFrom exP (b.set 24 1)) fun _ => true) :=
  ⟨exD_reach, by decide +kernel⟩

/-- **C101.** One changed byte in the edges of a directed graph is noticed, or replaces one edge by another. -/
theorem C101_directed_edge {P P' : Platform} {b : Bytes} {g : Graph} (hP : b.length ≤ P.usizeMax)
    (h : Graph.tryFrom P b = .ok g) (hd : g.isUndirected = false) (hP' : b.length ≤ P'.usizeMax) {i : Nat}
    (hi : i < b.length) {x : UInt8} (hx : x ≠ b[i]'hi) (hpos : 26 ≤ i) {g' : Graph}
    (h' : Graph.tryFrom P' (b.set i x) = .ok g') :
    g'.isUndirected = false ∧ g'.vertexCount = g.vertexCount ∧ g'.edgeCount = g.edgeCount ∧
    ∃ u v u' v', g.doesEdgeExist u v = true ∧ g.doesEdgeExist u' v' = false ∧
      ∀ s t, g'.doesEdgeExist s t = true ↔ ((s, t) = (u', v') ∨ (g.doesEdgeExist s t = true ∧ (s, t) ≠ (u, v))) := by
  have hv := ((accepted_iff hP g).1 h).1
  have hP2 : (b.set i x).length ≤ P'.usizeMax := by rw [List.length_set]; exact hP'
  obtain ⟨c1, c2, c3, c4, c5⟩ := C17_decoded_is_what_bytes_say hP h
  obtain ⟨d1, d2, d3, d4, d5⟩ := C17_decoded_is_what_bytes_say hP2 h'
  have hv' := ((accepted_iff hP2 g').1 h').1
  have o1 : field (b.set i x) 8 8 = field b 8 8 := field_set_out x (by omega)
  have o3 : field (b.set i x) 16 8 = field b 16 8 := field_set_out x (by omega)
  have o4 : field (b.set i x) 24 1 = field b 24 1 := field_set_out x (by omega)
  have h0 : field b 24 1 ≠ 1 := by
    intro h1; rw [c3.2 h1] at hd; cases hd
  have hb0 : (field b 24 1 == 1) = false := by simpa using h0
  obtain ⟨j, hj, e, hset, hne⟩ := listedEdges_set_in hpos hi hv.length hx
  have hdis := hv.distinct
  have hdis' := hv'.distinct
  rw [o3, o4, hset] at hdis'
  rw [hb0] at hdis hdis'
  simp only [meantEdges, Bool.false_eq_true, if_false] at hdis hdis'
  have hlen : (listedEdges b (field b 16 8)).length = field b 16 8 := by simp [listedEdges]
  have hn : (listedEdges b (field b 16 8)).Nodup := by
    rw [← List.dedup_eq_self]
    exact (List.dedup_sublist _).eq_of_length (by rw [← List.card_toFinset, hdis, hlen])
  have hn' : ((listedEdges b (field b 16 8)).set j e).Nodup := by
    rw [← List.dedup_eq_self]
    exact (List.dedup_sublist _).eq_of_length (by rw [← List.card_toFinset, hdis', List.length_set, hlen])
  have hene : e ≠ (listedEdges b (field b 16 8))[j] := by
    intro h1; rw [h1] at hne; simp at hne
  have hmem : ∀ s t, g.doesEdgeExist s t = true ↔ (s, t) ∈ listedEdges b (field b 16 8) := by
    intro s t; rw [c5]; simp [h0]
  rw [o3, o4, hset] at d5
  refine ⟨?_, by rw [d1, c1, o1], by rw [d2, c2, o3], (listedEdges b (field b 16 8))[j].1,
    (listedEdges b (field b 16 8))[j].2, e.1, e.2, ?_, ?_, ?_⟩
  · rw [Bool.eq_false_iff, Ne, d3, o4]; exact h0
  · rw [hmem]; exact List.getElem_mem _
  · rw [Bool.eq_false_iff, Ne, hmem]
    intro he
    obtain ⟨k, hk, hke⟩ := List.mem_iff_getElem.1 he
    have hjk : j ≠ k := fun h1 => hene (by subst h1; exact hke.symm)
    have h1 : ((listedEdges b (field b 16 8)).set j e)[k]'(by rwa [List.length_set]) =
        ((listedEdges b (field b 16 8)).set j e)[j]'(by rwa [List.length_set]) := by
      rw [List.getElem_set_ne hjk, List.getElem_set_self, hke]
    exact hjk (hn'.getElem_inj_iff.1 h1).symm
  · intro s t
    rw [d5, hmem, mem_set_nodup hn hj]
    simp [h0]

/-- The edge from 0 to 1 damaged to a loop. -/
example : okAnd ((Graph.newDirected.addEdge 0 1).toBytes exP .id) fun b =>
    okAnd (Graph.tryFrom exP b) (fun g => !g.isUndirected) && b[41]? == some 1 &&
    okAnd (Graph.tryFrom exP (b.set 41 0)) fun g => g.doesEdgeExist 0 0 && !g.doesEdgeExist 0 1 := by
  decide +kernel

/-- **C101.** One changed byte in the edges of an undirected graph is noticed, or does no harm. -/
theorem C101_undirected_edge {g : Graph} (hg : GReach g) (hu : g.isUndirected = true) {P P' : Platform}
    {o : HashOrder} {b : Bytes} (hP : P.usizeMax ≤ U64_MAX) (hb : g.toBytes P o = .ok b)
    (hP' : b.length ≤ P'.usizeMax) {i : Nat} (hi : i < b.length) {x : UInt8} (hx : x ≠ b[i]'hi) (hpos : 26 ≤ i)
    {g' : Graph} (h' : Graph.tryFrom P' (b.set i x) = .ok g') : Same g' g := by
  obtain ⟨w1, w2, w3, w4, w5, w6, hv⟩ := written_fields hg hP hb
  have hP2 : (b.set i x).length ≤ P'.usizeMax := by rw [List.length_set]; exact hP'
  obtain ⟨d1, d2, d3, d4, d5⟩ := C17_decoded_is_what_bytes_say hP2 h'
  have hv' := ((accepted_iff hP2 g').1 h').1
  have o1 : field (b.set i x) 8 8 = field b 8 8 := field_set_out x (by omega)
  have o3 : field (b.set i x) 16 8 = field b 16 8 := field_set_out x (by omega)
  have o4 : field (b.set i x) 24 1 = field b 24 1 := field_set_out x (by omega)
  rw [hu, if_pos rfl] at w3
  obtain ⟨j, hj, e, hset, hne⟩ := listedEdges_set_in hpos hi w4 hx
  have hdis := hv'.distinct
  rw [o3, o4, w3, w2, hset] at hdis
  simp only [beq_self_eq_true, meantEdges, if_true] at hdis
  have hlen : (listedEdges b g.edgeCount).length = g.edgeCount := by simp [listedEdges]
  have hsym : ∀ p, p ∈ listedEdges b g.edgeCount → p.swap ∈ listedEdges b g.edgeCount := by
    rintro ⟨u, v⟩ hp
    rw [w6] at hp
    have := Graph.edge_symm hg.ok hu u v
    rw [hp] at this
    exact (w6 v u).2 this.symm
  generalize hL : listedEdges b g.edgeCount = L at *
  have hcard0 : L.toFinset.card = g.edgeCount := by rw [List.toFinset_card_of_nodup w5, hlen]
  have hmem := mem_set_nodup w5 hj e
  have hmeant : ∀ p, p ∈ (L.set j e ++ (L.set j e).map Prod.swap).toFinset ↔
      (p = e ∨ p ∈ L ∧ p ≠ L[j]) ∨ (p.swap = e ∨ p.swap ∈ L ∧ p.swap ≠ L[j]) := by
    intro p
    rw [List.mem_toFinset, List.mem_append, hmem, List.mem_map]
    constructor
    · rintro (h1 | ⟨q, hq, rfl⟩)
      · exact .inl h1
      · rw [Prod.swap_swap]; exact .inr ((hmem q).1 hq)
    · rintro (h1 | h1)
      · exact .inl h1
      · exact .inr ⟨p.swap, (hmem _).2 h1, Prod.swap_swap p⟩
  have hene : e ≠ L[j] := by
    intro h1; rw [h1] at hne; simp at hne
  have heq : (L.set j e ++ (L.set j e).map Prod.swap).toFinset = L.toFinset := by
    by_cases hloop : L[j].1 = L[j].2
    · exfalso
      have hej : L[j].swap = L[j] := Prod.ext hloop.symm hloop
      have hes : e.swap ≠ e := by
        intro h1
        have : e.2 = e.1 := congrArg Prod.fst h1
        rcases hne with hne | hne <;> omega
      have hsne : ∀ p, p.swap ≠ L[j] ↔ p ≠ L[j] := by
        intro p
        constructor
        · rintro h1 rfl; exact h1 hej
        · intro h1 h2
          apply h1
          rw [← hej, ← h2, Prod.swap_swap]
      by_cases heL : e ∈ L
      · have hsub : (L.set j e ++ (L.set j e).map Prod.swap).toFinset ⊆ L.toFinset.erase L[j] := by
          intro p hp
          rw [hmeant] at hp
          rw [Finset.mem_erase, List.mem_toFinset]
          rcases hp with (rfl | hp) | (hp | hp)
          · exact ⟨hene, heL⟩
          · exact ⟨hp.2, hp.1⟩
          · rw [← Prod.swap_swap p, hp]
            exact ⟨(hsne e).2 hene, hsym e heL⟩
          · rw [← Prod.swap_swap p]
            exact ⟨(hsne _).2 hp.2, hsym _ hp.1⟩
        have h1 := Finset.card_le_card hsub
        rw [hdis, Finset.card_erase_of_mem (List.mem_toFinset.2 (List.getElem_mem _)), hcard0] at h1
        omega
      · have hsub : insert e (insert e.swap (L.toFinset.erase L[j])) ⊆
            (L.set j e ++ (L.set j e).map Prod.swap).toFinset := by
          intro p hp
          rw [hmeant]
          rw [Finset.mem_insert, Finset.mem_insert, Finset.mem_erase, List.mem_toFinset] at hp
          rcases hp with rfl | rfl | hp
          · exact .inl (.inl rfl)
          · exact .inr (.inl (Prod.swap_swap e))
          · exact .inl (.inr ⟨hp.2, hp.1⟩)
        have heL' : e.swap ∉ L := fun h1 => heL (by have := hsym _ h1; rwa [Prod.swap_swap] at this)
        have h1 := Finset.card_le_card hsub
        rw [hdis, Finset.card_insert_of_notMem, Finset.card_insert_of_notMem,
          Finset.card_erase_of_mem (List.mem_toFinset.2 (List.getElem_mem _)), hcard0] at h1
        · omega
        · rw [Finset.mem_erase, List.mem_toFinset]; exact fun h2 => heL' h2.2
        · rw [Finset.mem_insert, Finset.mem_erase, List.mem_toFinset]
          rintro (h2 | h2)
          · exact hes h2.symm
          · exact heL h2.2
    · symm
      apply Finset.eq_of_subset_of_card_le
      · intro p hp
        rw [List.mem_toFinset] at hp
        rw [hmeant]
        by_cases hpj : p = L[j]
        · right; right
          refine ⟨hsym p hp, ?_⟩
          rw [hpj]
          intro h1
          exact hloop (congrArg Prod.snd h1)
        · exact .inl (.inr ⟨hp, hpj⟩)
      · rw [hdis, hcard0]
  refine Graph.same (Graph.OK.tryFrom h') hg.ok ?_ (by rw [d1, o1, w1]) ?_
  · rw [hu, d3, o4, w3]
  · ext ⟨s, t⟩
    rw [← Graph.doesEdgeExist_iff, ← Graph.doesEdgeExist_iff, ← w6, d5, o3, o4, w3, w2, hset, ← List.mem_toFinset (l := L),
      ← heq, List.mem_toFinset, List.mem_append, List.mem_map]
    simp

/-- A file with one changed byte that is still accepted: the edge from 0 to 1 has become a second copy of the edge
from 0 to 2, and the edge from 1 to 0 implies it. -/
example : GReach ((Graph.newUndirected.addEdge 0 1).addEdge 0 2) ∧
    okAnd (((Graph.newUndirected.addEdge 0 1).addEdge 0 2).toBytes exP .id) fun b =>
      (List.range b.length).any fun i => decide (26 ≤ i) && b[i]? == some 1 &&
        okAnd (Graph.tryFrom exP (b.set i 2)) fun g => g.isUndirected :=
  ⟨.addEdge 0 2 (.addEdge 0 1 .newUndirected), by decide +kernel⟩

/-! ## C102 -/

/-- **C102.** One changed byte in the first 32 bytes of a compressed graph file (magic number, version, dimension, block
count, edge count) is always noticed. -/
theorem C102_header {P P' : Platform} {b : Bytes} {c : CGraph} (h : CGraph.tryFrom P b = .ok c)
    (hP' : b.length ≤ P'.usizeMax) {i : Nat} (hi : i < b.length) {x : UInt8} (hx : x ≠ b[i]'hi) (hpos : i < 32) :
    ∃ msg, CGraph.tryFrom P' (b.set i x) = .err (.InvalidFormat msg) := by
  have hv := ((CGraph.tryFrom_iff (CGraph.tryFrom_length h) c).1 h).1
  have hP2 : (b.set i x).length ≤ P'.usizeMax := by rw [List.length_set]; exact hP'
  rcases C33_decode_total P' (b.set i x) hP2 with ⟨c', h'⟩ | h'
  swap
  · exact h'
  exfalso
  have hv' := ((CGraph.tryFrom_iff hP2 c').1 h').1
  have hl := hv.length
  have hl' := hv'.length
  rw [List.length_set] at hl'
  have o1 : field (b.set i x) 32 8 = field b 32 8 := field_set_out x (by omega)
  by_cases h1 : i < 4
  · exact field_set_in (off := 0) (k := 4) (by omega) (by omega) hi hx (hv'.magic.trans hv.magic.symm)
  by_cases h2 : i < 8
  · exact field_set_in (off := 4) (k := 4) (by omega) (by omega) hi hx (hv'.version.trans hv.version.symm)
  by_cases h3 : i < 16
  · exact field_set_in (off := 8) (k := 8) (by omega) (by omega) hi hx
      (hv'.dimension.trans (by rw [o1]; exact hv.dimension.symm))
  by_cases h4 : i < 24
  · exact field_set_in (off := 16) (k := 8) (by omega) (by omega) hi hx (by omega)
  · have o2 : field (b.set i x) 16 8 = field b 16 8 := field_set_out x (by omega)
    refine field_set_in (off := 24) (k := 8) (by omega) (by omega) hi hx ?_
    rw [← hv'.edgeCount, ← hv.edgeCount, o2, listedBlocks_set_out x (by omega)]

/-- Each of these bytes, replaced by 9, makes the file unreadable. -/
example : okAnd (CGraph.tryFrom exP exF) (fun _ => true) &&
    [0, 7, 8, 15, 16, 23, 24, 31].all fun i => exF[i]? != some 9 &&
      !(okAnd (CGraph.tryFrom exP (exF.set i 9)) fun _ => true) := by
  decide +kernel

/-- Every query but the three about the header answers the same. -/
structure SameBlocks (c c' : CGraph) : Prop where
  edgeCount : c.edgeCount = c'.edgeCount
  entry : ∀ x y, c.getCompressedMatrixEntry x y = c'.getCompressedMatrixEntry x y
  edge : ∀ u v, c.doesEdgeExist u v = c'.doesEdgeExist u v

theorem sameBlocks_set {P P' : Platform} {b : Bytes} {c c' : CGraph} (h : CGraph.tryFrom P b = .ok c) {i : Nat}
    {x : UInt8} (h' : CGraph.tryFrom P' (b.set i x) = .ok c') (h1 : 32 ≤ i) (h2 : i < 42) : SameBlocks c' c := by
  obtain ⟨hv, rfl⟩ := (CGraph.tryFrom_iff (CGraph.tryFrom_length h) c).1 h
  obtain ⟨hv', rfl⟩ := (CGraph.tryFrom_iff (CGraph.tryFrom_length h') c').1 h'
  obtain ⟨_, _, e3, _, _, e6⟩ := CGraph.decoded_spec hv
  obtain ⟨_, _, d3, _, _, d6⟩ := CGraph.decoded_spec hv'
  have o1 : field (b.set i x) 24 8 = field b 24 8 := field_set_out x (by omega)
  have o2 : field (b.set i x) 16 8 = field b 16 8 := field_set_out x (by omega)
  have he : ∀ x' y, (CGraph.decoded (b.set i x)).getCompressedMatrixEntry x' y =
      (CGraph.decoded b).getCompressedMatrixEntry x' y := by
    intro x' y
    rw [CGraph.getEntry_at, CGraph.getEntry_at, d6, e6, o2, listedBlocks_set_out x h2]
  exact ⟨by rw [d3, e3, o1], he, fun u v => by rw [CGraph.doesEdgeExist_eq, CGraph.doesEdgeExist_eq, he]⟩

/-- **C102.** One changed byte in the vertex count of a compressed graph file is noticed, or changes the vertex count
and nothing else; it is accepted exactly if the number of blocks per side stays the same and no listed edge falls
outside. -/
theorem C102_vertex_count {P P' : Platform} {b : Bytes} {c : CGraph} (h : CGraph.tryFrom P b = .ok c)
    (hP' : b.length ≤ P'.usizeMax) {i : Nat} (hi : i < b.length) {x : UInt8} (hx : x ≠ b[i]'hi)
    (hpos : 32 ≤ i ∧ i < 40) :
    ∃ n, n ≠ c.vertexCount ∧
      ((∃ c', CGraph.tryFrom P' (b.set i x) = .ok c') ↔
        max 1 ((n + 7) / 8) = max 1 ((c.vertexCount + 7) / 8) ∧
        ∀ k < field b 16 8, ∀ u v, blockEdge (listedBlock b k) u v → u < n ∧ v < n) ∧
      ∀ c', CGraph.tryFrom P' (b.set i x) = .ok c' →
        c'.vertexCount = n ∧ c'.compressionLevel = c.compressionLevel ∧ c'.isUndirected = c.isUndirected ∧
        SameBlocks c' c := by
  have hv := ((CGraph.tryFrom_iff (CGraph.tryFrom_length h) c).1 h).1
  have hP2 : (b.set i x).length ≤ P'.usizeMax := by rw [List.length_set]; exact hP'
  obtain ⟨e1, e2, e3, _⟩ := C34_accepted_in_range h
  have o1 : field (b.set i x) 0 4 = field b 0 4 := field_set_out x (by omega)
  have o2 : field (b.set i x) 4 4 = field b 4 4 := field_set_out x (by omega)
  have o3 : field (b.set i x) 8 8 = field b 8 8 := field_set_out x (by omega)
  have o4 : field (b.set i x) 16 8 = field b 16 8 := field_set_out x (by omega)
  have o5 : field (b.set i x) 24 8 = field b 24 8 := field_set_out x (by omega)
  have o6 : field (b.set i x) 40 1 = field b 40 1 := field_set_out x (by omega)
  have o7 : field (b.set i x) 41 1 = field b 41 1 := field_set_out x (by omega)
  have ol : listedBlocks (b.set i x) (field b 16 8) = listedBlocks b (field b 16 8) :=
    listedBlocks_set_out x (by omega) _
  have hmem : ∀ e, e ∈ listedBlocks b (field b 16 8) ↔ ∃ k < field b 16 8, listedBlock b k = e := by
    intro e; simp [listedBlocks]
  refine ⟨field (b.set i x) 32 8, by rw [e1]; exact field_set_in (by omega) (by omega) hi hx, ?_, ?_⟩
  · rw [C66_accepts_iff hP2, e1, ← hv.dimension]
    constructor
    · intro hv'
      refine ⟨by rw [← hv'.dimension, o3], fun k hk => ?_⟩
      have := hv'.inRange
      rw [o4, ol] at this
      exact this _ ((hmem _).2 ⟨k, hk, rfl⟩)
    · rintro ⟨hd, hr⟩
      refine ⟨o1.trans hv.magic, o2.trans hv.version, by rw [o6]; exact hv.direction, by rw [o7]; exact hv.level,
        by rw [o3, hd], by rw [List.length_set, o4]; exact hv.length, by rw [o4, ol]; exact hv.nonzero, ?_,
        by rw [o4, ol, o5]; exact hv.edgeCount⟩
      rw [o4, ol]
      intro e he
      obtain ⟨k, hk, rfl⟩ := (hmem e).1 he
      exact hr k hk
  · intro c' h'
    obtain ⟨d1, d2, d3, _⟩ := C34_accepted_in_range h'
    exact ⟨d1, by rw [d2, e2, o7], by rw [Bool.eq_iff_iff, d3, e3, o6], sameBlocks_set h h' (by omega) (by omega)⟩

/-- Ten vertices changed to eleven are accepted, changed to nine or ninety are not. -/
example : okAnd (CGraph.tryFrom exP exF) (fun c => c.vertexCount == 10) &&
    okAnd (CGraph.tryFrom exP (exF.set 39 11)) (fun c => c.vertexCount == 11) &&
    !(okAnd (CGraph.tryFrom exP (exF.set 39 9)) fun _ => true) &&
    !(okAnd (CGraph.tryFrom exP (exF.set 39 90)) fun _ => true) := by decide +kernel

/-- **C102.** The direction flag of a compressed graph file: the other direction is always accepted, and changes
nothing else. -/
theorem C102_direction {P P' : Platform} {b : Bytes} {c : CGraph} (h : CGraph.tryFrom P b = .ok c)
    (hP' : b.length ≤ P'.usizeMax) (hi : 40 < b.length) {x : UInt8} (hx : x ≠ b[40]'hi) :
    ((∃ c', CGraph.tryFrom P' (b.set 40 x) = .ok c') ↔ x = 0 ∨ x = 1) ∧
    ∀ c', CGraph.tryFrom P' (b.set 40 x) = .ok c' →
      c'.isUndirected = (!c.isUndirected) ∧ c'.vertexCount = c.vertexCount ∧
      c'.compressionLevel = c.compressionLevel ∧ SameBlocks c' c := by
  have hv := ((CGraph.tryFrom_iff (CGraph.tryFrom_length h) c).1 h).1
  have hP2 : (b.set 40 x).length ≤ P'.usizeMax := by rw [List.length_set]; exact hP'
  obtain ⟨e1, e2, e3, _⟩ := C34_accepted_in_range h
  have o1 : field (b.set 40 x) 0 4 = field b 0 4 := field_set_out x (by omega)
  have o2 : field (b.set 40 x) 4 4 = field b 4 4 := field_set_out x (by omega)
  have o3 : field (b.set 40 x) 8 8 = field b 8 8 := field_set_out x (by omega)
  have o4 : field (b.set 40 x) 16 8 = field b 16 8 := field_set_out x (by omega)
  have o5 : field (b.set 40 x) 24 8 = field b 24 8 := field_set_out x (by omega)
  have o6 : field (b.set 40 x) 32 8 = field b 32 8 := field_set_out x (by omega)
  have o7 : field (b.set 40 x) 41 1 = field b 41 1 := field_set_out x (by omega)
  have ol : listedBlocks (b.set 40 x) (field b 16 8) = listedBlocks b (field b 16 8) :=
    listedBlocks_set_out x (by omega) _
  have ox : field (b.set 40 x) 40 1 = x.toNat := field_set_one hi
  have hne : x.toNat ≠ field b 40 1 := by
    rw [field_one hi]; exact fun h => hx (UInt8.toNat_inj.1 h)
  have hxz : x = 0 ↔ x.toNat = 0 := by rw [← UInt8.toNat_inj]; rfl
  have hxo : x = 1 ↔ x.toNat = 1 := by rw [← UInt8.toNat_inj]; rfl
  constructor
  · rw [C66_accepts_iff hP2, hxz, hxo, ← ox]
    constructor
    · exact fun hv' => hv'.direction
    · intro hd
      exact ⟨o1.trans hv.magic, o2.trans hv.version, hd, by rw [o7]; exact hv.level,
        by rw [o3, o6]; exact hv.dimension, by rw [List.length_set, o4]; exact hv.length,
        by rw [o4, ol]; exact hv.nonzero, by rw [o4, ol, o6]; exact hv.inRange,
        by rw [o4, ol, o5]; exact hv.edgeCount⟩
  · intro c' h'
    obtain ⟨d1, d2, d3, _⟩ := C34_accepted_in_range h'
    have hv' := ((CGraph.tryFrom_iff hP2 c').1 h').1
    have hd := hv.direction
    have hd' := hv'.direction
    rw [ox] at d3 hd'
    refine ⟨?_, by rw [d1, e1, o6], by rw [d2, e2, o7], sameBlocks_set h h' (by omega) (by omega)⟩
    cases hc : c.isUndirected
    · rw [hc] at e3
      simp only [Bool.false_eq_true, false_iff] at e3
      exact d3.2 (by omega)
    · rw [hc] at e3
      simp only [true_iff] at e3
      rw [Bool.not_true, Bool.eq_false_iff, Ne, d3]; omega

example : okAnd (CGraph.tryFrom exP exF) (fun c => !c.isUndirected) && exF[40]? == some 0 &&
    okAnd (CGraph.tryFrom exP (exF.set 40 1)) (fun c => c.isUndirected && c.edgeCount == 3) := by decide +kernel

/-- **C102.** The level of a compressed graph file: any other level from 1 to 64 is accepted, and changes nothing
else. -/
theorem C102_level {P P' : Platform} {b : Bytes} {c : CGraph} (h : CGraph.tryFrom P b = .ok c)
    (hP' : b.length ≤ P'.usizeMax) (hi : 41 < b.length) (x : UInt8) :
    ((∃ c', CGraph.tryFrom P' (b.set 41 x) = .ok c') ↔ 1 ≤ x.toNat ∧ x.toNat ≤ 64) ∧
    ∀ c', CGraph.tryFrom P' (b.set 41 x) = .ok c' →
      c'.compressionLevel = x.toNat ∧ c'.isUndirected = c.isUndirected ∧ c'.vertexCount = c.vertexCount ∧
      SameBlocks c' c := by
  have hv := ((CGraph.tryFrom_iff (CGraph.tryFrom_length h) c).1 h).1
  have hP2 : (b.set 41 x).length ≤ P'.usizeMax := by rw [List.length_set]; exact hP'
  obtain ⟨e1, e2, e3, _⟩ := C34_accepted_in_range h
  have o1 : field (b.set 41 x) 0 4 = field b 0 4 := field_set_out x (by omega)
  have o2 : field (b.set 41 x) 4 4 = field b 4 4 := field_set_out x (by omega)
  have o3 : field (b.set 41 x) 8 8 = field b 8 8 := field_set_out x (by omega)
  have o4 : field (b.set 41 x) 16 8 = field b 16 8 := field_set_out x (by omega)
  have o5 : field (b.set 41 x) 24 8 = field b 24 8 := field_set_out x (by omega)
  have o6 : field (b.set 41 x) 32 8 = field b 32 8 := field_set_out x (by omega)
  have o7 : field (b.set 41 x) 40 1 = field b 40 1 := field_set_out x (by omega)
  have ol : listedBlocks (b.set 41 x) (field b 16 8) = listedBlocks b (field b 16 8) :=
    listedBlocks_set_out x (by omega) _
  have ox : field (b.set 41 x) 41 1 = x.toNat := field_set_one hi
  constructor
  · rw [C66_accepts_iff hP2, ← ox]
    constructor
    · exact fun hv' => hv'.level
    · intro hd
      exact ⟨o1.trans hv.magic, o2.trans hv.version, by rw [o7]; exact hv.direction, hd,
        by rw [o3, o6]; exact hv.dimension, by rw [List.length_set, o4]; exact hv.length,
        by rw [o4, ol]; exact hv.nonzero, by rw [o4, ol, o6]; exact hv.inRange,
        by rw [o4, ol, o5]; exact hv.edgeCount⟩
  · intro c' h'
    obtain ⟨d1, d2, d3, _⟩ := C34_accepted_in_range h'
    exact ⟨by rw [d2, ox], by rw [Bool.eq_iff_iff, d3, e3, o7], by rw [d1, e1, o6],
      sameBlocks_set h h' (by omega) (by omega)⟩

example : okAnd (CGraph.tryFrom exP exF) (fun c => c.compressionLevel == 7) &&
    okAnd (CGraph.tryFrom exP (exF.set 41 64)) (fun c => c.compressionLevel == 64) &&
    !(okAnd (CGraph.tryFrom exP (exF.set 41 65)) fun _ => true) := by decide +kernel

/-! ### Changed blocks -/

/-- A byte changed in the blocks changes exactly one block. -/
theorem listedBlocks_set_in {b : Bytes} {i n : Nat} {x : UInt8} (h : 42 ≤ i) (hn : b.length = 42 + 24 * n) :
    listedBlocks (b.set i x) n = (listedBlocks b n).set ((i - 42) / 24) (listedBlock (b.set i x) ((i - 42) / 24)) := by
  apply List.ext_getElem?
  intro j
  rw [List.getElem?_set]
  simp only [listedBlocks, List.getElem?_map, List.length_map, List.length_range]
  split
  · next hj =>
    subst hj
    split
    · next hj => rw [List.getElem?_range hj]; rfl
    · next hj => rw [List.getElem?_eq_none (by simpa using hj)]; rfl
  · next hj =>
    by_cases hjn : j < n
    · rw [List.getElem?_range hjn]
      simp only [Option.map_some, Option.some.injEq]
      unfold listedBlock
      rw [field_set_out x (by omega), field_set_out x (by omega), field_set_out x (by omega)]
    · rw [List.getElem?_eq_none (by simpa using hjn)]; rfl

theorem find_reverse_set {α : Type} {p : α → Bool} {l : List α} {j : Nat} (hj : j < l.length) {e : α}
    (h1 : p l[j] = false) (h2 : p e = false) : (l.set j e).reverse.find? p = l.reverse.find? p := by
  rw [List.set_eq_take_append_cons_drop, if_pos hj]
  conv_rhs => rw [← List.take_append_drop j l, List.drop_eq_getElem_cons hj]
  simp only [List.reverse_append, List.reverse_cons, List.find?_append, List.find?_cons, List.find?_nil, h1, h2]

/-- **C102.** One changed byte in the blocks of a compressed graph file is noticed, or affects at most the block at the
old and the block at the new position; a changed byte of an entry affects only that block. -/
theorem C102_block {P P' : Platform} {b : Bytes} {c : CGraph} (h : CGraph.tryFrom P b = .ok c) {i : Nat}
    (hi : i < b.length) (hpos : 42 ≤ i) {x : UInt8} {c' : CGraph} (h' : CGraph.tryFrom P' (b.set i x) = .ok c') :
    c'.vertexCount = c.vertexCount ∧ c'.compressionLevel = c.compressionLevel ∧ c'.isUndirected = c.isUndirected ∧
    c'.edgeCount = c.edgeCount ∧
    ∃ p p' : Nat × Nat, (listedBlock b ((i - 42) / 24)).2 = p ∧ ((i - 42) % 24 < 8 → p' = p) ∧
      ∀ q : Nat × Nat, q ≠ p → q ≠ p' →
        c'.getCompressedMatrixEntry q.1 q.2 = c.getCompressedMatrixEntry q.1 q.2 := by
  obtain ⟨hv, hc⟩ := (CGraph.tryFrom_iff (CGraph.tryFrom_length h) c).1 h
  obtain ⟨hv', hc'⟩ := (CGraph.tryFrom_iff (CGraph.tryFrom_length h') c').1 h'
  obtain ⟨e1, e2, e3, e4, _⟩ := C34_accepted_in_range h
  obtain ⟨d1, d2, d3, d4, _⟩ := C34_accepted_in_range h'
  have o4 : field (b.set i x) 16 8 = field b 16 8 := field_set_out x (by omega)
  have o5 : field (b.set i x) 24 8 = field b 24 8 := field_set_out x (by omega)
  have o6 : field (b.set i x) 32 8 = field b 32 8 := field_set_out x (by omega)
  have o7 : field (b.set i x) 40 1 = field b 40 1 := field_set_out x (by omega)
  have o8 : field (b.set i x) 41 1 = field b 41 1 := field_set_out x (by omega)
  have hl := hv.length
  have hlen : (i - 42) / 24 < (listedBlocks b (field b 16 8)).length := by simp [listedBlocks]; omega
  refine ⟨by rw [d1, e1, o6], by rw [d2, e2, o8], by rw [Bool.eq_iff_iff, d3, e3, o7], by rw [d4, e4, o5],
    _, (listedBlock (b.set i x) ((i - 42) / 24)).2, rfl, ?_, ?_⟩
  · intro hm
    unfold listedBlock
    simp only
    rw [field_set_out x (by omega), field_set_out x (by omega)]
  · intro q h1 h2
    obtain ⟨_, _, _, _, _, s6⟩ := CGraph.decoded_spec hv
    obtain ⟨_, _, _, _, _, t6⟩ := CGraph.decoded_spec hv'
    rw [hc, hc', CGraph.getEntry_at, CGraph.getEntry_at, s6, t6, o4, listedBlocks_set_in hpos hl]
    rw [find_reverse_set hlen]
    · simp only [listedBlocks, List.getElem_map, List.getElem_range, decide_eq_false_iff_not]
      exact fun h3 => h1 (Prod.ext h3.1.symm h3.2.symm)
    · simp only [decide_eq_false_iff_not]
      exact fun h3 => h2 (Prod.ext h3.1.symm h3.2.symm)

/-- The block at column 0, row 1 moved to column 1, row 1, where it is lost because another block follows. -/
example : okAnd (CGraph.tryFrom exP (compressedFile false 7 2 2 10 [(1, 0, 1), (1, 1, 1)])) (fun c => c.doesEdgeExist 0 8) &&
    okAnd (CGraph.tryFrom exP ((compressedFile false 7 2 2 10 [(1, 0, 1), (1, 1, 1)]).set 57 1))
      (fun c => !c.doesEdgeExist 0 8 && c.edgeCount == 2) := by decide +kernel

theorem ones_split {m k a r : Nat} (hr : r < 2 ^ m) :
    ((Finset.range (m + k)).filter fun i => (a * 2 ^ m + r).testBit i = true).card =
      ((Finset.range m).filter fun i => r.testBit i = true).card +
      ((Finset.range k).filter fun i => a.testBit i = true).card := by
  simp only [Finset.card_filter]
  rw [Finset.sum_range_add]
  congr 1
  · apply Finset.sum_congr rfl
    intro i hi
    rw [Finset.mem_range] at hi
    rw [mul_comm a, Nat.testBit_two_pow_mul_add _ hr, if_pos hi]
  · apply Finset.sum_congr rfl
    intro i _
    rw [mul_comm a, Nat.testBit_two_pow_mul_add _ hr, if_neg (show ¬ m + i < m by omega), Nat.add_sub_cancel_left]

theorem ones_byte (x : UInt8) : ones x.toNat = ((Finset.range 8).filter fun i => x.toNat.testBit i = true).card := by
  have := ones_split (m := 8) (k := 56) (a := 0) (r := x.toNat) x.toNat_lt
  rw [zero_mul, zero_add] at this
  unfold ones
  rw [show 64 = 8 + 56 from rfl, this]
  simp

/-- The ones of a number are the ones of its bytes. -/
theorem ones_beValue (l : Bytes) :
    ((Finset.range (8 * l.length)).filter fun i => (beValue l).testBit i = true).card =
      (l.map fun x => ones x.toNat).sum := by
  induction l with
  | nil => rfl
  | cons x l ih =>
    rw [beValue, show 256 ^ l.length = 2 ^ (8 * l.length) by rw [pow_mul]; rfl, List.length_cons,
      show 8 * (l.length + 1) = 8 * l.length + 8 by ring, ones_split, ih, List.map_cons, List.sum_cons, ones_byte,
      Nat.add_comm]
    have := beValue_lt l
    rwa [show 256 ^ l.length = 2 ^ (8 * l.length) by rw [pow_mul]; rfl] at this

theorem ones_field {b : Bytes} {off : Nat} (h : off + 8 ≤ b.length) :
    ones (field b off 8) = (((b.drop off).take 8).map fun x => ones x.toNat).sum := by
  have hl : ((b.drop off).take 8).length = 8 := by simp; omega
  rw [← ones_beValue, hl]
  rfl

theorem sum_set {l : List Nat} {j : Nat} (hj : j < l.length) (y : Nat) : (l.set j y).sum + l[j] = l.sum + y := by
  induction l generalizing j with
  | nil => simp at hj
  | cons a l ih =>
    cases j with
    | zero => simp; omega
    | succ j =>
      have := ih (j := j) (by simpa using hj)
      simp only [List.set_cons_succ, List.sum_cons, List.getElem_cons_succ]
      omega

/-- **C102.** A byte of an entry changed to one with another number of ones — in particular, with one bit flipped — is
always noticed. -/
theorem C102_entry {P P' : Platform} {b : Bytes} {c : CGraph} (h : CGraph.tryFrom P b = .ok c)
    (hP' : b.length ≤ P'.usizeMax) {i : Nat} (hi : i < b.length) (hpos : 42 ≤ i) (hent : (i - 42) % 24 < 8) {x : UInt8}
    (hx : ones x.toNat ≠ ones (b[i]'hi).toNat) :
    ∃ msg, CGraph.tryFrom P' (b.set i x) = .err (.InvalidFormat msg) := by
  have hv := ((CGraph.tryFrom_iff (CGraph.tryFrom_length h) c).1 h).1
  have hP2 : (b.set i x).length ≤ P'.usizeMax := by rw [List.length_set]; exact hP'
  rcases C33_decode_total P' (b.set i x) hP2 with ⟨c', h'⟩ | h'
  swap
  · exact h'
  exfalso
  have hv' := ((CGraph.tryFrom_iff hP2 c').1 h').1
  have hl := hv.length
  have o4 : field (b.set i x) 16 8 = field b 16 8 := field_set_out x (by omega)
  have o5 : field (b.set i x) 24 8 = field b 24 8 := field_set_out x (by omega)
  have h1 := hv.edgeCount
  have h2 := hv'.edgeCount
  rw [o4, o5, listedBlocks_set_in hpos hl, List.map_set, ← h1] at h2
  have hlen : (i - 42) / 24 < ((listedBlocks b (field b 16 8)).map fun e => ones e.1).length := by
    simp [listedBlocks]; omega
  have h3 := sum_set hlen (ones (listedBlock (b.set i x) ((i - 42) / 24)).1)
  rw [h2] at h3
  have h4 : ones (listedBlock b ((i - 42) / 24)).1 = ones (listedBlock (b.set i x) ((i - 42) / 24)).1 := by
    simp only [listedBlocks, List.getElem_map, List.getElem_range] at h3
    omega
  unfold listedBlock at h4
  simp only at h4
  rw [ones_field (by omega), ones_field (by rw [List.length_set]; omega)] at h4
  have hset : ((b.set i x).drop (42 + 24 * ((i - 42) / 24))).take 8 =
      ((b.drop (42 + 24 * ((i - 42) / 24))).take 8).set (i - (42 + 24 * ((i - 42) / 24))) x := by
    rw [List.drop_set, if_neg (by omega), List.take_set]
  have hj : i - (42 + 24 * ((i - 42) / 24)) <
      (((b.drop (42 + 24 * ((i - 42) / 24))).take 8).map fun x => ones x.toNat).length := by
    simp; omega
  rw [hset, List.map_set] at h4
  have h5 := sum_set hj (ones x.toNat)
  rw [← h4] at h5
  apply hx
  simp only [List.getElem_map, List.getElem_take, List.getElem_drop] at h5
  have h6 : 42 + 24 * ((i - 42) / 24) + (i - (42 + 24 * ((i - 42) / 24))) = i := by omega
  simp only [h6] at h5
  omega

/-- A flipped bit in an entry is noticed; two ones moved within the same byte are not. -/
example : okAnd (CGraph.tryFrom exP exF) (fun c => c.doesEdgeExist 1 9) && exF[48]? == some 2 &&
    errIs (CGraph.tryFrom exP (exF.set 48 3)) (.InvalidFormat "CompressedGraph edge count does not match header") &&
    okAnd (CGraph.tryFrom exP (exF.set 48 1)) (fun c => c.doesEdgeExist 0 9 && !c.doesEdgeExist 1 9) := by
  decide +kernel

/-- **C102.** Flipping one bit changes the number of ones. -/
theorem C102_flip (y : UInt8) (k : Nat) (hk : k < 8) : ones (y ^^^ UInt8.ofNat (2 ^ k)).toNat ≠ ones y.toNat := by
  have : ∀ y : Fin 256, ∀ k : Fin 8, ones (UInt8.ofNat y.1 ^^^ UInt8.ofNat (2 ^ k.1)).toNat ≠ ones (UInt8.ofNat y.1).toNat := by
    decide +kernel
  have h1 := this ⟨y.toNat, y.toNat_lt⟩ ⟨k, hk⟩
  simpa using h1

end Verif.Props
