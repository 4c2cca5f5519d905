import Verif.Props.Queries

/-!
# Properties of the byte format of graphs: C14–C18, C20, and the graph half of C19

`P` is the platform.  A slice in memory always satisfies `b.length ≤ P.usizeMax`, and `usize` is at
most 64 bits wide (`P.usizeMax ≤ U64_MAX`).
-/

namespace Verif.Props
open Verif Spec Graph

/-- A 64-bit platform with unlimited memory, for the examples. -/
def exP : Platform := ⟨U64_MAX, fun _ => true, .debug, U64_MAX⟩

/-- Used in examples: the result is a success that passes the test. -/
def okAnd {α : Type} (x : Res α) (p : α → Bool) : Bool :=
  match x with
  | .ok a => p a
  | _ => false

theorem okAnd_elim {α : Type} {x : Res α} {p : α → Bool} (h : okAnd x p = true) : ∃ a, x = .ok a ∧ p a = true := by
  cases x with
  | ok a => exact ⟨a, rfl, h⟩
  | err e => simp [okAnd] at h
  | panic => simp [okAnd] at h

/-- Used in examples: the result is this error. -/
def errIs {α : Type} (x : Res α) (e : GraphRoxError) : Bool :=
  match x with
  | .err e' => e' == e
  | _ => false

/-! ## C14 -/

/-- **C14.** Layout, size and failures of `to_bytes`. -/
theorem C14_graph_bytes_layout {g : Graph} (hg : GReach g) (P : Platform) (o : HashOrder) :
    g.toBytes P o ≠ .panic ∧
    (∀ b, g.toBytes P o = .ok b →
      b.length = 26 + 16 * g.edgeCount ∧
      ∃ edges : List (Nat × Nat), b = graphFile g.isUndirected g.vertexCount edges ∧ edges.Nodup ∧
        edges.length = g.edgeCount ∧ ∀ u v, (u, v) ∈ edges ↔ g.doesEdgeExist u v = true) ∧
    (∀ e, g.toBytes P o = .err e → (∃ msg, e = .CapacityOverflow msg) ∧
      (P.usizeMax < 26 + 16 * g.edgeCount ∨ P.alloc (26 + 16 * g.edgeCount) = false)) ∧
    ((26 + 16 * g.edgeCount ≤ P.usizeMax ∧ P.alloc (26 + 16 * g.edgeCount) = true) ↔ ∃ b, g.toBytes P o = .ok b) := by
  obtain ⟨hn, hm, hl, _⟩ := C09_iteration_exactly_once hg o
  rw [toBytes_eq P o g hg.ok]
  split
  · next h => exact ⟨by simp, by simp, fun e he => by cases he; exact ⟨⟨_, rfl⟩, .inl h⟩,
      fun h' => absurd h'.1 (by omega), fun ⟨_, h'⟩ => nomatch h'⟩
  · next h =>
    split
    · next ha =>
      refine ⟨by simp, ?_, by simp, fun _ => ⟨_, rfl⟩, fun _ => ⟨by omega, ha⟩⟩
      intro b hb
      cases hb
      exact ⟨by rw [graphFile_length, hl], g.items o, rfl, hn, hl, hm⟩
    · next ha =>
      exact ⟨by simp, by simp, fun e he => by cases he; exact ⟨⟨_, rfl⟩, .inr (by simpa using ha)⟩,
        fun h => absurd h.2 ha, fun ⟨_, h'⟩ => nomatch h'⟩

/-- A concrete file: an undirected graph with 3 vertices and 5 entries. -/
example : GReach exU ∧ okAnd (exU.toBytes exP .id) fun b => b.length == 106 &&
    b.take 26 == [0x7a, 0xe7, 0x1f, 0xfd, 0, 0, 0, 1, 0, 0, 0, 0, 0, 0, 0, 3, 0, 0, 0, 0, 0, 0, 0, 5, 1, 0] :=
  ⟨exU_reach, by decide +kernel⟩

/-! ## C18, C17 -/

theorem meantEdges_eq (u : Bool) (l : List (Nat × Nat)) (hl : ∀ e ∈ l, e.1 < U64_MAX ∧ e.2 < U64_MAX) :
    (buildFrom u l).pairs = meantEdges u l := by
  ext ⟨x, y⟩
  rw [mem_buildFrom_pairs u l hl]
  unfold meantEdges
  cases u <;> simp

theorem inRange_lt {b : Bytes} {l : List (Nat × Nat)} (h : ∀ e ∈ l, e.1 < field b 8 8 ∧ e.2 < field b 8 8) :
    ∀ e ∈ l, e.1 < U64_MAX ∧ e.2 < U64_MAX := by
  intro e he
  have := h e he
  have h2 : field b 8 8 < 256 ^ 8 := field_lt
  have : U64_MAX = 256 ^ 8 - 1 := by decide
  omega

theorem accepted_iff {P : Platform} {b : Bytes} (hP : b.length ≤ P.usizeMax) (g : Graph) :
    Graph.tryFrom P b = .ok g ↔ ValidGraphFile b ∧
      g = if field b 8 8 > 0 then
          (buildFrom (field b 24 1 == 1) (listedEdges b (field b 16 8))).addVertex (field b 8 8 - 1) none
        else buildFrom (field b 24 1 == 1) (listedEdges b (field b 16 8)) := by
  by_cases h26 : 26 ≤ b.length
  swap
  · constructor
    · intro h
      unfold Graph.tryFrom at h
      rw [if_pos (by unfold HEADER_SIZE; omega)] at h
      cases h
    · rintro ⟨h, _⟩
      have := h.length
      omega
  rw [tryFrom_eq h26 hP]
  by_cases h1 : field b 0 4 ≠ MAGIC
  · rw [if_pos h1]; exact ⟨by simp, fun h => absurd h.1.magic h1⟩
  rw [if_neg h1]
  by_cases h2 : field b 4 4 ≠ VERSION
  · rw [if_pos h2]; exact ⟨by simp, fun h => absurd h.1.version h2⟩
  rw [if_neg h2]
  by_cases h3 : field b 24 1 > 1
  · rw [if_pos h3]; exact ⟨by simp, fun h => by have := h.1.direction; omega⟩
  rw [if_neg h3]
  by_cases h4 : field b 25 1 ≠ 0
  · rw [if_pos h4]; exact ⟨by simp, fun h => absurd h.1.unweighted h4⟩
  rw [if_neg h4]
  by_cases h5 : field b 8 8 = 0 ∧ field b 16 8 ≠ 0
  · rw [if_pos h5]
    refine ⟨by simp, fun h => ?_⟩
    have := h.1.inRange (listedEdge b 0) (by
      unfold listedEdges
      exact List.mem_map.2 ⟨0, List.mem_range.2 (by omega), rfl⟩)
    omega
  rw [if_neg h5]
  by_cases h6 : P.usizeMax < 26 + 16 * field b 16 8
  · rw [if_pos h6]; exact ⟨by simp, fun h => by have := h.1.length; omega⟩
  rw [if_neg h6]
  by_cases h7 : b.length < 26 + 16 * field b 16 8
  · rw [if_pos h7]; exact ⟨by simp, fun h => by have := h.1.length; omega⟩
  rw [if_neg h7]
  by_cases h8 : b.length > 26 + 16 * field b 16 8
  · rw [if_pos h8]; exact ⟨by simp, fun h => by have := h.1.length; omega⟩
  rw [if_neg h8]
  by_cases h9 : ∀ e ∈ listedEdges b (field b 16 8), e.1 < field b 8 8 ∧ e.2 < field b 8 8
  swap
  · rw [if_pos h9]; exact ⟨by simp, fun h => absurd h.1.inRange h9⟩
  rw [if_neg (not_not.2 h9)]
  have hcard : (buildFrom (field b 24 1 == 1) (listedEdges b (field b 16 8))).edgeCount =
      (meantEdges (field b 24 1 == 1) (listedEdges b (field b 16 8))).card := by
    rw [edgeCount_eq (OK.buildFrom _ _), meantEdges_eq _ _ (inRange_lt h9)]
  rw [hcard]
  by_cases h10 : (meantEdges (field b 24 1 == 1) (listedEdges b (field b 16 8))).card ≠ field b 16 8
  · rw [if_pos h10]; exact ⟨by simp, fun h => absurd h.1.distinct h10⟩
  rw [if_neg h10]
  have hv : ValidGraphFile b :=
    { magic := not_not.1 h1, version := not_not.1 h2, direction := by omega, unweighted := not_not.1 h4,
      length := by omega, inRange := h9, distinct := not_not.1 h10 }
  simp only [hv, true_and]
  split
  · rw [Res.ok.injEq]; exact eq_comm
  · rw [Res.ok.injEq]; exact eq_comm

/-- **C18.** Which byte slices `Graph::try_from` accepts. -/
theorem C18_accepts_iff {P : Platform} {b : Bytes} (hP : b.length ≤ P.usizeMax) :
    (∃ g, Graph.tryFrom P b = .ok g) ↔ ValidGraphFile b := by
  simp only [accepted_iff hP]
  exact ⟨fun ⟨_, h, _⟩ => h, fun h => ⟨_, h, rfl⟩⟩

/-- The bytes of the example are a valid file. -/
example : okAnd (exD.toBytes exP .id) fun b => okAnd (Graph.tryFrom exP b) fun g => g.edgeCount == 2 := by
  decide +kernel

/-- **C17.** A decoded graph is exactly what the bytes say. -/
theorem C17_decoded_is_what_bytes_say {P : Platform} {b : Bytes} (hP : b.length ≤ P.usizeMax) {g : Graph}
    (h : Graph.tryFrom P b = .ok g) :
    g.vertexCount = field b 8 8 ∧ g.edgeCount = field b 16 8 ∧ (g.isUndirected = true ↔ field b 24 1 = 1) ∧
    (∀ u v, g.doesEdgeExist u v = true → u < g.vertexCount ∧ v < g.vertexCount) ∧
    (∀ u v, g.doesEdgeExist u v = true ↔
      (u, v) ∈ listedEdges b (field b 16 8) ∨
      (field b 24 1 = 1 ∧ (v, u) ∈ listedEdges b (field b 16 8))) := by
  obtain ⟨hv, hgdef⟩ := (accepted_iff hP g).1 h
  have hlt := inRange_lt hv.inRange
  have hmeant := meantEdges_eq (field b 24 1 == 1) _ hlt
  have hOK := OK.buildFrom (field b 24 1 == 1) (listedEdges b (field b 16 8))
  have hdir := buildFrom_isUndirected (field b 24 1 == 1) (listedEdges b (field b 16 8))
  have hU : U64_MAX = 256 ^ 8 - 1 := by decide
  have hf : field b 8 8 < 256 ^ 8 := field_lt
  have hvc : (buildFrom (field b 24 1 == 1) (listedEdges b (field b 16 8))).vertexCount ≤ field b 8 8 := by
    unfold buildFrom
    refine (foldl_addEdge_vertexCount _ hlt _ _ hv.inRange ?_).1
    cases (field b 24 1 == 1) <;> simp [vertexCount, newDirected, newUndirected, AdjMatrix.new]
  have hgp : g.pairs = meantEdges (field b 24 1 == 1) (listedEdges b (field b 16 8)) ∧
      g.vertexCount = field b 8 8 ∧ g.isUndirected = (field b 24 1 == 1) := by
    rw [hgdef]
    split
    · next hpos =>
      rw [addVertex_none, touch_pairs, touch_vertexCount, touch_isUndirected, if_pos (by omega)]
      exact ⟨hmeant, by omega, hdir⟩
    · next hpos => exact ⟨hmeant, by omega, hdir⟩
  have hgOK : g.OK := OK.tryFrom h
  refine ⟨hgp.2.1, ?_, ?_, ?_, ?_⟩
  · rw [edgeCount_eq hgOK, hgp.1, hv.distinct]
  · rw [hgp.2.2]; simp
  · intro u v huv; exact hgOK.wf.bound (u, v) (doesEdgeExist_iff.1 huv)
  · intro u v
    rw [doesEdgeExist_iff, hgp.1, ← hmeant, mem_buildFrom_pairs _ _ hlt]
    simp

example : okAnd (exU.toBytes exP .id) fun b => decide (b.length ≤ exP.usizeMax) &&
    okAnd (Graph.tryFrom exP b) fun g => g.vertexCount == 3 && g.edgeCount == 5 && g.isUndirected := by
  decide +kernel

/-! ## C15 -/

theorem decode_encode {g : Graph} (hg : g.OK) {P P' : Platform} {o : HashOrder} {b : Bytes}
    (hP : P.usizeMax ≤ U64_MAX) (hb : g.toBytes P o = .ok b) (hP' : b.length ≤ P'.usizeMax) :
    ∃ g', Graph.tryFrom P' b = .ok g' ∧ Same g' g := by
  have hitems : (g.items o).length = g.edgeCount := AdjMatrix.items_length hg.wf o
  rw [toBytes_eq P o g hg] at hb
  split at hb
  · cases hb
  next hsz =>
  split at hb
  swap
  · cases hb
  cases hb
  have hdim : g.vertexCount ≤ U64_MAX := hg.wf.dim
  have hbd : ∀ e ∈ g.items o, e.1 < g.vertexCount ∧ e.2 < g.vertexCount := by
    intro e he
    exact hg.wf.bound e ((mem_items hg o).1 he)
  obtain ⟨f1, f2, f3, f4, f5, f6, f7⟩ := graphFile_fields g.isUndirected g.vertexCount (g.items o) hdim
    (by omega) (fun e he => by have := hbd e he; omega)
  have hdir : (field (graphFile g.isUndirected g.vertexCount (g.items o)) 24 1 == 1) = g.isUndirected := by
    rw [f5]; cases g.isUndirected <;> rfl
  have hlt : ∀ e ∈ g.items o, e.1 < U64_MAX ∧ e.2 < U64_MAX := fun e he => by have := hbd e he; omega
  have hmeant : meantEdges g.isUndirected (g.items o) = g.pairs := by
    ext ⟨x, y⟩
    unfold meantEdges
    cases hd : g.isUndirected with
    | false => simp [mem_items hg o]
    | true =>
      simp only [if_true, List.mem_toFinset, List.mem_append, List.mem_map, mem_items hg o, Prod.exists,
        Prod.swap_prod_mk, Prod.mk.injEq]
      constructor
      · rintro (h | ⟨a, c, h, rfl, rfl⟩)
        · exact h
        · exact hg.sym hd _ _ h
      · exact fun h => .inl h
  have hvalid : ValidGraphFile (graphFile g.isUndirected g.vertexCount (g.items o)) :=
    { magic := f1, version := f2
      direction := by rw [f5]; cases g.isUndirected <;> simp
      unweighted := f6
      length := by rw [graphFile_length, f4]
      inRange := by rw [f4, f7, f3]; exact hbd
      distinct := by rw [f4, f7, hdir, hmeant, ← edgeCount_eq hg, hitems] }
  obtain ⟨g', hg'⟩ := (C18_accepts_iff hP').2 hvalid
  refine ⟨g', hg', ?_⟩
  obtain ⟨c1, c2, c3, c4, c5⟩ := C17_decoded_is_what_bytes_say hP' hg'
  refine Graph.same (OK.tryFrom hg') hg ?_ (by rw [c1, f3]) ?_
  · rw [Bool.eq_iff_iff, c3, f5]; cases g.isUndirected <;> simp
  · ext ⟨x, y⟩
    rw [← doesEdgeExist_iff, c5, f4, f7, f5, mem_items hg, mem_items hg]
    constructor
    · rintro (h | ⟨h, h'⟩)
      · exact h
      · cases hd : g.isUndirected with
        | false => rw [hd] at h; simp at h
        | true => exact hg.sym hd _ _ h'
    · exact fun h => .inl h

/-- **C15.** Round trip: decoding the bytes of `g` (possibly on another machine) gives a graph that no query can tell
apart from `g`. -/
theorem C15_round_trip {g : Graph} (hg : GReach g) {P P' : Platform} {o : HashOrder} {b : Bytes}
    (hP : P.usizeMax ≤ U64_MAX) (hb : g.toBytes P o = .ok b) (hP' : b.length ≤ P'.usizeMax) :
    ∃ g', Graph.tryFrom P' b = .ok g' ∧ Same g' g :=
  decode_encode hg.ok hP hb hP'

example : GReach exU ∧ exP.usizeMax ≤ U64_MAX ∧
    okAnd (exU.toBytes exP .rev) fun b => decide (b.length ≤ exP.usizeMax) :=
  ⟨exU_reach, by decide, by decide +kernel⟩

/-! ## C16 -/

/-- **C16.** Decoding never panics and only fails with `InvalidFormat`. -/
theorem C16_decode_total (P : Platform) (b : Bytes) (hP : b.length ≤ P.usizeMax) :
    (∃ g, Graph.tryFrom P b = .ok g) ∨ (∃ msg, Graph.tryFrom P b = .err (.InvalidFormat msg)) := by
  by_cases h26 : 26 ≤ b.length
  swap
  · right
    unfold Graph.tryFrom
    rw [if_pos (by unfold HEADER_SIZE; omega)]
    exact ⟨_, rfl⟩
  rw [tryFrom_eq h26 hP]
  have key : ∀ (c : Prop) [Decidable c] (x y : Res Graph),
      ((∃ g, x = .ok g) ∨ ∃ msg, x = .err (.InvalidFormat msg)) →
      ((∃ g, y = .ok g) ∨ ∃ msg, y = .err (.InvalidFormat msg)) →
      ((∃ g, (if c then x else y) = .ok g) ∨ ∃ msg, (if c then x else y) = .err (.InvalidFormat msg)) := by
    intro c _ x y hx hy
    split
    · exact hx
    · exact hy
  iterate 10 refine key _ _ _ (.inr ⟨_, rfl⟩) ?_
  exact key _ _ _ (.inl ⟨_, rfl⟩) (.inl ⟨_, rfl⟩)

example : errIs (Graph.tryFrom exP (List.replicate 30 7)) (.InvalidFormat "Incorrect magic number") := by
  decide +kernel

/-! ## C19, graphs -/

/-- **C19** for graphs: accepted bytes have no accepted proper extension. -/
theorem C19_graph_extension {P P' : Platform} {b x : Bytes} (hx : x ≠ []) (hP : (b ++ x).length ≤ P.usizeMax)
    (hP' : b.length ≤ P'.usizeMax) (g : Graph) (h : Graph.tryFrom P' b = .ok g) :
    ∃ msg, Graph.tryFrom P (b ++ x) = .err (.InvalidFormat msg) := by
  have h1 := ((accepted_iff hP' g).1 h).1.length
  rcases C16_decode_total P (b ++ x) hP with ⟨g', h'⟩ | h'
  · exfalso
    have h2 := ((accepted_iff hP g').1 h').1.length
    rw [field_append_left _ _ _ _ (by omega), List.length_append] at h2
    have : x.length ≠ 0 := fun h => hx (List.length_eq_zero_iff.1 h)
    omega
  · exact h'

/-- **C19** for graphs: every proper prefix of accepted bytes is rejected. -/
theorem C19_graph_prefix {P P' : Platform} {b : Bytes} (hP : b.length ≤ P.usizeMax) (g : Graph)
    (h : Graph.tryFrom P b = .ok g) (k : Nat) (hk : k < b.length) (hP' : k ≤ P'.usizeMax) :
    ∃ msg, Graph.tryFrom P' (b.take k) = .err (.InvalidFormat msg) := by
  have hl : (b.take k).length ≤ P'.usizeMax := by rw [List.length_take]; omega
  rcases C16_decode_total P' (b.take k) hl with ⟨g', h'⟩ | h'
  · exfalso
    have hx : b.drop k ≠ [] := by
      intro h0
      rw [List.drop_eq_nil_iff] at h0; omega
    obtain ⟨msg, hm⟩ := C19_graph_extension (P := P) (x := b.drop k) hx
      (by rw [List.take_append_drop]; exact hP) hl g' h'
    rw [List.take_append_drop, h] at hm
    cases hm
  · exact h'

example : okAnd (exD.toBytes exP .id) fun b => b.length == 58 && okAnd (Graph.tryFrom exP b) fun _ => true := by
  decide +kernel

/-! ## C20 -/

theorem Same.symm' {g g' : Graph} (h : Same g g') : Same g' g :=
  ⟨h.direction.symm, h.vertexCount.symm, h.edgeCount.symm, fun u v => (h.edge u v).symm,
    fun o o' v => (h.outEdges o' o v).symm, fun o o' v => (h.inEdges o' o v).symm,
    fun v => (h.outDegree v).symm, fun v => (h.inDegree v).symm, fun o o' => (h.items o' o).symm⟩

theorem Same.trans' {g g' g'' : Graph} (h : Same g g') (h' : Same g' g'') : Same g g'' :=
  ⟨h.direction.trans h'.direction, h.vertexCount.trans h'.vertexCount, h.edgeCount.trans h'.edgeCount,
    fun u v => (h.edge u v).trans (h'.edge u v),
    fun o o' v => (h.outEdges o o' v).trans (h'.outEdges o' o' v),
    fun o o' v => (h.inEdges o o' v).trans (h'.inEdges o' o' v),
    fun v => (h.outDegree v).trans (h'.outDegree v), fun v => (h.inDegree v).trans (h'.inDegree v),
    fun o o' => (h.items o o').trans (h'.items o' o')⟩

/-- **C20.** Equal bytes mean equal graphs. -/
theorem C20_equal_bytes {g g' : Graph} (hg : GReach g) (hg' : GReach g') {P P' : Platform} {o o' : HashOrder}
    {b : Bytes} (hP : P.usizeMax ≤ U64_MAX) (hP' : P'.usizeMax ≤ U64_MAX)
    (hb : g.toBytes P o = .ok b) (hb' : g'.toBytes P' o' = .ok b) : Same g g' := by
  have hQ : b.length ≤ (Platform.mk b.length (fun _ => true) .debug 0).usizeMax := le_refl _
  obtain ⟨x, hx, sx⟩ := C15_round_trip hg hP hb hQ
  obtain ⟨y, hy, sy⟩ := C15_round_trip hg' hP' hb' hQ
  rw [hx] at hy
  cases hy
  exact Same.trans' (Same.symm' sx) sy

/-- Two differently built graphs with the same bytes. -/
example : okAnd (((Graph.newDirected.addEdge 0 1).addEdge 2 1).toBytes exP .id) fun b =>
    okAnd (((Graph.newDirected.addEdge 2 1).addEdge 0 1).toBytes exP .rev) fun b' => b == b' := by decide +kernel

end Verif.Props
