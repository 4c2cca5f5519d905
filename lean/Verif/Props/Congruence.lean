import Verif.Spec.ResRel
import Verif.Props.Strings
import Verif.Props.Pooling
import Verif.Props.PyCompress

/-!
# C85: results depend only on what can be observed, not on history or hash order
-/

namespace Verif.Props
open Verif Spec

/-- Two pooled matrices that no query can tell apart. -/
structure SameMatrix (m m' : SqMatrix F64) : Prop where
  dimension : m.dimension = m'.dimension
  entry : ∀ c r, m.getEntry f64Numeric c r = m'.getEntry f64Numeric c r
  entryCount : m.entryCount = m'.entryCount
  items : ∀ o o', (m.items o).Perm (m'.items o')

theorem sameMatrix {m m' : SqMatrix F64} (h : m.WF) (h' : m'.WF) (hd : m.dimension = m'.dimension)
    (hat : ∀ c r, m.at? c r = m'.at? c r) : SameMatrix m m' := by
  have hp : ∀ o o', (m.items o).Perm (m'.items o') := by
    intro o o'
    rw [List.perm_ext_iff_of_nodup (List.Nodup.of_map _ (SqMatrix.items_keys_nodup h o))
      (List.Nodup.of_map _ (SqMatrix.items_keys_nodup h' o'))]
    rintro ⟨v, c, r⟩
    rw [SqMatrix.mem_items h, SqMatrix.mem_items h', hat]
  refine ⟨hd, fun c r => by rw [SqMatrix.getEntry_eq, SqMatrix.getEntry_eq, hat], ?_, hp⟩
  rw [← SqMatrix.items_length h .id, ← SqMatrix.items_length h' .id]
  exact (hp .id .id).length_eq

theorem same_of_obs {g g' : Graph} (h : g.OK) (h' : g'.OK) (hd : g.isUndirected = g'.isUndirected)
    (hv : g.vertexCount = g'.vertexCount) (he : ∀ u v, g.doesEdgeExist u v = g'.doesEdgeExist u v) : Same g g' :=
  Graph.same h h' hd hv (Graph.pairs_eq_of_edge he)

theorem same_edits {g g' : Graph} (hg : g.OK) (hg' : g'.OK) (hs : Same g g') (h : List Edit) :
    Same (h.foldl Edit.call g) (h.foldl Edit.call g') := by
  have habs : g.abs = g'.abs := by
    unfold Graph.abs
    rw [hs.direction, hs.vertexCount, Graph.pairs_eq_of_edge hs.edge]
  have h1 := Graph.abs_foldl h g
  rw [habs, ← Graph.abs_foldl h g'] at h1
  have hok := Graph.OK.foldl _ (fun _ e hg => Graph.OK.call hg e) h g hg
  have hok' := Graph.OK.foldl _ (fun _ e hg => Graph.OK.call hg e) h g' hg'
  exact Graph.same hok hok' (congrArg AGraph.undirected h1) (congrArg AGraph.n h1) (congrArg AGraph.E h1)

theorem same_pool {g g' : Graph} (hg : g.OK) (hg' : g'.OK) (hs : Same g g') (P : Platform) (o o' : HashOrder) (b : Nat) :
    ResRel SameMatrix (g.findAvgPoolMatrix P o b) (g'.findAvgPoolMatrix P o' b) := by
  have hedge : g.doesEdgeExist = g'.doesEdgeExist := by funext u v; exact hs.edge u v
  by_cases hn : g.vertexCount = 0
  · unfold Graph.findAvgPoolMatrix
    rw [if_pos hn, if_pos (hs.vertexCount ▸ hn)]
    exact sameMatrix SqMatrix.WF.new SqMatrix.WF.new rfl fun _ _ => rfl
  · obtain ⟨m, hwf, hdim, hat, h⟩ := Graph.pool_general hg P o b hn
    obtain ⟨m', hwf', hdim', hat', h'⟩ := Graph.pool_general hg' P o' b (hs.vertexCount ▸ hn)
    rw [← hs.vertexCount] at hdim' hat' h'
    rw [← hedge] at hat'
    rw [h, h']
    cases P.u64Mul (Graph.clampBlockDimension g.vertexCount b) (Graph.clampBlockDimension g.vertexCount b) with
    | panic => trivial
    | err e => rfl
    | ok sq =>
      refine sameMatrix (hwf.multiplyEntriesBy _) (hwf'.multiplyEntriesBy _) (hdim.trans hdim'.symm) fun c r => ?_
      rw [SqMatrix.multiplyEntriesBy_at, SqMatrix.multiplyEntriesBy_at, hat, hat']

theorem same_approximate {g g' : Graph} (hg : g.OK) (hg' : g'.OK) (hs : Same g g') (P : Platform)
    (o₁ o₂ o₁' o₂' : HashOrder) (b : Nat) (t : F64) :
    ResRel Same (g.approximate P o₁ o₂ b t) (g'.approximate P o₁' o₂' b t) := by
  by_cases hsm : b ≤ 1 ∨ g.vertexCount ≤ 1
  · rw [C43_copy g P o₁ o₂ b t hsm, C43_copy g' P o₁' o₂' b t (by rwa [← hs.vertexCount])]
    exact hs
  · push Not at hsm
    have hp := same_pool hg hg' hs P o₁ o₁' b
    have hn' : 2 ≤ g'.vertexCount := by rw [← hs.vertexCount]; omega
    cases hm : g.findAvgPoolMatrix P o₁ b with
    | ok m =>
      cases hm' : g'.findAvgPoolMatrix P o₁' b with
      | ok m' =>
        rw [hm, hm'] at hp
        obtain ⟨a, ha, hok, hu, hv, he⟩ := Graph.approximate_spec hg o₂ t (by omega) (by omega) hm
        obtain ⟨a', ha', hok', hu', hv', he'⟩ :=
          Graph.approximate_spec hg' o₂' t (by omega) hn' hm'
        rw [ha, ha']
        refine same_of_obs hok hok' (by rw [hu, hu', hs.direction]) (by rw [hv, hv', hs.vertexCount]) fun u v => ?_
        rw [Bool.eq_iff_iff, he, he']
        have hat : m.at? u v = m'.at? u v := by
          have h1 := (Graph.pool_any hg hm).1
          have h2 := (Graph.pool_any hg' hm').1
          ext x
          rw [← SqMatrix.mem_items h1 .id, ← SqMatrix.mem_items h2 .id]
          exact (hp.items .id .id).mem_iff
        rw [hat]
      | err e => rw [hm, hm'] at hp; exact hp.elim
      | panic => rw [hm, hm'] at hp; exact hp.elim
    | err e =>
      cases hm' : g'.findAvgPoolMatrix P o₁' b with
      | err e' =>
        rw [hm, hm'] at hp
        rw [Graph.approximate_eq P o₁ o₂ t (by omega) (by omega), Graph.approximate_eq P o₁' o₂' t (by omega) hn', hm, hm']
        exact hp
      | ok m' => rw [hm, hm'] at hp; exact hp.elim
      | panic => rw [hm, hm'] at hp; exact hp.elim
    | panic =>
      cases hm' : g'.findAvgPoolMatrix P o₁' b with
      | panic =>
        rw [Graph.approximate_eq P o₁ o₂ t (by omega) (by omega), Graph.approximate_eq P o₁' o₂' t (by omega) hn', hm, hm']
        trivial
      | ok m' => rw [hm, hm'] at hp; exact hp.elim
      | err e => rw [hm, hm'] at hp; exact hp.elim

theorem same_compress {g g' : Graph} (hg : g.OK) (hg' : g'.OK) (hs : Same g g') (P P' : Platform)
    (o₁ o₂ o₁' o₂' : HashOrder) (l : Nat) :
    ∃ c c', g.compress P o₁ o₂ l = .ok c ∧ g'.compress P' o₁' o₂' l = .ok c' ∧ SameC c c' := by
  have hedge : g.doesEdgeExist = g'.doesEdgeExist := by funext u v; exact hs.edge u v
  obtain ⟨c, hc, hok, hu, hv, hl, hat, hec⟩ := Graph.compress_spec hg P o₁ o₂ l
  obtain ⟨c', hc', hok', hu', hv', hl', hat', hec'⟩ := Graph.compress_spec hg' P' o₁' o₂' l
  rw [← hedge, ← hs.vertexCount] at hat'
  have hat2 : ∀ x y, c.at? x y = c'.at? x y := fun x y => by
    ext e; rw [hat, hat']
  have hvc : c.vertexCount = c'.vertexCount := by rw [hv, hv', hs.vertexCount]
  refine ⟨c, c', hc, hc', sameC hok hok' (by rw [hu, hu', hs.direction]) (hl.trans hl'.symm) hvc ?_ hat2⟩
  rw [hec, hec']
  unfold CGraph.pairs
  have : c.doesEdgeExist = c'.doesEdgeExist := by
    funext u v
    rw [CGraph.doesEdgeExist_eq, CGraph.doesEdgeExist_eq, CGraph.getEntry_at, CGraph.getEntry_at, hat2]
  rw [this, hvc]

theorem same_bytes {g g' : Graph} (hg : g.OK) (hg' : g'.OK) (hs : Same g g') (P : Platform) (o o' : HashOrder) :
    ResRel (fun b b' => ∃ es es' : List (Nat × Nat), es.Perm es' ∧ b = graphFile g.isUndirected g.vertexCount es ∧
      b' = graphFile g.isUndirected g.vertexCount es') (g.toBytes P o) (g'.toBytes P o') := by
  rw [Graph.toBytes_eq P o g hg, Graph.toBytes_eq P o' g' hg', ← hs.edgeCount, ← hs.direction, ← hs.vertexCount]
  split
  · rfl
  · split
    · exact ⟨_, _, hs.items o o', rfl, rfl⟩
    · rfl

theorem same_string {g g' : Graph} (hs : Same g g') (P : Platform) : g.matrixString P = g'.matrixString P := by
  have hent : ∀ u v, g.adjacencyMatrix.getEntry u v = 0 ↔ g'.adjacencyMatrix.getEntry u v = 0 := by
    intro u v
    have := hs.edge u v
    unfold Graph.doesEdgeExist at this
    rw [Bool.eq_iff_iff, bne_iff_ne, bne_iff_ne] at this
    exact not_iff_not.1 this
  have hd : g.adjacencyMatrix.dimension = g'.adjacencyMatrix.dimension := hs.vertexCount
  have hrow : g.adjacencyMatrix.rowChars = g'.adjacencyMatrix.rowChars := by
    funext r; unfold AdjMatrix.rowChars; simp only [hent, hd]
  unfold Graph.matrixString AdjMatrix.tryToString
  rw [hd, hrow]

/-! compressed graphs -/

theorem at_of_entry {c c' : CGraph} (h : c.OK) (h' : c'.OK)
    (he : ∀ x y, c.getCompressedMatrixEntry x y = c'.getCompressedMatrixEntry x y) (x y : Nat) : c.at? x y = c'.at? x y := by
  have := he x y
  rw [CGraph.getEntry_at, CGraph.getEntry_at] at this
  cases h1 : c.at? x y with
  | none =>
    cases h2 : c'.at? x y with
    | none => rfl
    | some e => rw [h1, h2] at this; exact absurd this.symm (h'.word _ _ _ h2).1
  | some e =>
    cases h2 : c'.at? x y with
    | none => rw [h1, h2] at this; exact absurd this (h.word _ _ _ h1).1
    | some e' => rw [h1, h2] at this; exact congrArg some this

theorem uint_extremes_congr {max : Nat} {m m' : SqMatrix Nat} (hat : ∀ c r, m.at? c r = m'.at? c r)
    (hb : ∀ c r v, m.at? c r = some v → v ≤ max) (o o' : HashOrder) :
    SqMatrix.extremes (uintFmt max) o m = SqMatrix.extremes (uintFmt max) o' m' := by
  obtain ⟨a1, a2, a3⟩ := SqMatrix.extremes_spec (uintFmt_isInt max).lt (uintFmt_isInt max).gt m
    (fun c r v h => ⟨Nat.zero_le _, hb c r v h⟩) o
  obtain ⟨b1, b2, b3⟩ := SqMatrix.extremes_spec (uintFmt_isInt max).lt (uintFmt_isInt max).gt m'
    (fun c r v h => ⟨Nat.zero_le _, hb c r v (hat c r ▸ h)⟩) o'
  by_cases h : ∃ c r v, m.at? c r = some v
  · obtain ⟨⟨c1, r1, e1⟩, ⟨c2, r2, e2⟩⟩ := a2 h
    obtain ⟨⟨c3, r3, e3⟩, ⟨c4, r4, e4⟩⟩ := b2 (by simpa only [hat] using h)
    rw [hat] at e1 e2
    rw [← hat] at e3 e4
    apply Prod.ext
    · exact le_antisymm (b1 _ _ _ e1).2 (a1 _ _ _ e3).2
    · exact le_antisymm (a1 _ _ _ e4).1 (b1 _ _ _ e2).1
  · have hnone : ∀ c r, m.at? c r = none := by
      intro c r
      cases hat : m.at? c r with
      | none => rfl
      | some v => exact absurd ⟨c, r, v, hat⟩ h
    rw [a3 hnone, b3 (by simpa only [hat] using hnone)]
    split <;> split <;> rfl

theorem same_ctext {c c' : CGraph} (hc : CReach c) (hc' : CReach c') (hs : SameC c c') (P : Platform)
    (hP : 65535 ≤ P.usizeMax) (hf : 20 ≤ P.fmtMax) (o₁ o₂ o₁' o₂' : HashOrder) :
    (∃ s, c.matrixString P o₁ o₂ = .ok s ∧ c'.matrixString P o₁' o₂' = .ok s) ∨
    (∃ m m', c.matrixString P o₁ o₂ = .err (.CapacityOverflow m) ∧
      c'.matrixString P o₁' o₂' = .err (.CapacityOverflow m')) := by
  have hat := at_of_entry hc.ok hc'.ok hs.entry
  have hb : ∀ i j v, c.adjacencyMatrix.at? i j = some v → v ≤ U64_MAX := by
    intro i j v h
    have := (hc.ok.word i j v h).2
    unfold U64_MAX; omega
  have hb' : ∀ i j v, c'.adjacencyMatrix.at? i j = some v → v ≤ U64_MAX := by
    intro i j v h
    have := (hc'.ok.word i j v h).2
    unfold U64_MAX; omega
  have h20 : (numeral U64_MAX).length ≤ 20 := by
    rw [numeral_natCast]; exact toDigits_u64_length (Nat.le_refl _)
  have hw20 : uintWidth U64_MAX c.adjacencyMatrix 0 ≤ 20 := by
    rw [uintWidth_eq]
    have := uint_digits_le hb HashOrder.id
    simp only [zeros, if_true, List.length_nil]
    omega
  have hww : uintWidth U64_MAX c'.adjacencyMatrix 0 = uintWidth U64_MAX c.adjacencyMatrix 0 := by
    unfold uintWidth
    rw [uint_extremes_congr (m := c.adjacencyMatrix) (m' := c'.adjacencyMatrix) hat hb .id .id]
  have h1 := uint_text hc.ok.wf hb P (h20.trans hf) 0 o₁ o₂
  have h2 := uint_text hc'.ok.wf hb' P (h20.trans hf) 0 o₁' o₂'
  have hdim : c'.adjacencyMatrix.dimension = c.adjacencyMatrix.dimension := by
    rw [hc.ok.dim, hc'.ok.dim, hs.vertexCount]
  rw [hww, hdim] at h2
  have hent : ∀ i j, c'.adjacencyMatrix.getEntry (uintFmt U64_MAX).toNumeric i j =
      c.adjacencyMatrix.getEntry (uintFmt U64_MAX).toNumeric i j := by
    intro i j
    rw [SqMatrix.getEntry_eq, SqMatrix.getEntry_eq]
    exact congrArg (fun x => Option.getD x _) (hat i j).symm
  simp only [hent] at h2
  change (∃ s, c.adjacencyMatrix.toStringWithPrecision P (uintFmt U64_MAX) o₁ o₂ 0 = .ok s ∧
      c'.adjacencyMatrix.toStringWithPrecision P (uintFmt U64_MAX) o₁' o₂' 0 = .ok s) ∨
    (∃ m m', c.adjacencyMatrix.toStringWithPrecision P (uintFmt U64_MAX) o₁ o₂ 0 = .err (.CapacityOverflow m) ∧
      c'.adjacencyMatrix.toStringWithPrecision P (uintFmt U64_MAX) o₁' o₂' 0 = .err (.CapacityOverflow m'))
  by_cases hn : c.adjacencyMatrix.dimension = 0
  · exact .inl ⟨_, h1.empty hn, h2.empty hn⟩
  · by_cases hsz : 4 * c.adjacencyMatrix.dimension + (uintWidth U64_MAX c.adjacencyMatrix 0 + 2) *
          (c.adjacencyMatrix.dimension * c.adjacencyMatrix.dimension) ≤ P.usizeMax
    · cases hal : P.alloc (4 * c.adjacencyMatrix.dimension + (uintWidth U64_MAX c.adjacencyMatrix 0 + 2) *
          (c.adjacencyMatrix.dimension * c.adjacencyMatrix.dimension) - 2) with
      | true => exact .inl ⟨_, h1.shows hn hsz hal, h2.shows hn hsz hal⟩
      | false =>
        obtain ⟨m, e⟩ := h1.noMemory hn hsz hal
        obtain ⟨m', e'⟩ := h2.noMemory hn hsz hal
        exact .inr ⟨m, m', e, e'⟩
    · obtain ⟨m, e⟩ := h1.tooLarge hn (by omega) (by omega)
      obtain ⟨m', e'⟩ := h2.tooLarge hn (by omega) (by omega)
      exact .inr ⟨m, m', e, e'⟩

theorem same_cbytes {c c' : CGraph} (hc : c.OK) (hc' : c'.OK) (hs : SameC c c') (P : Platform) (o o' : HashOrder) :
    ResRel (fun b b' => ∃ bs bs' : List (Nat × Nat × Nat), bs.Perm bs' ∧
      b = compressedFile c.isUndirected c.compressionLevel (max 1 (ceilDiv c.vertexCount 8)) c.edgeCount c.vertexCount bs ∧
      b' = compressedFile c.isUndirected c.compressionLevel (max 1 (ceilDiv c.vertexCount 8)) c.edgeCount c.vertexCount bs')
      (c.toBytes P o) (c'.toBytes P o') := by
  have hat := at_of_entry hc hc' hs.entry
  have hp : (c.adjacencyMatrix.items o).Perm (c'.adjacencyMatrix.items o') := by
    rw [List.perm_ext_iff_of_nodup (List.Nodup.of_map _ (SqMatrix.items_keys_nodup hc.wf o))
      (List.Nodup.of_map _ (SqMatrix.items_keys_nodup hc'.wf o'))]
    rintro ⟨v, x, y⟩
    rw [SqMatrix.mem_items hc.wf, SqMatrix.mem_items hc'.wf]
    exact Eq.congr_left (hat x y)
  rw [ctoBytes_eq P o c hc.wf, ctoBytes_eq P o' c' hc'.wf, ← hp.length_eq, hc'.dim, ← hs.vertexCount, ← hs.edgeCount,
    ← hs.direction, ← hs.level, hc.dim, CGraph.dim_eq_ceil]
  split
  · rfl
  · split
    · exact ⟨_, _, hp, rfl, rfl⟩
    · rfl

/-! ## C85 -/

/-- **C85**, graphs. If no query tells `g` from `g'` then no operation does: the results of any further edits, of
pooling, approximation, compression, printing and saving are again the same (saved files up to the order of the
edges), or fail in the same way, whatever the order in which the hash maps are traversed. -/
theorem C85_graph_congruence {g g' : Graph} (hg : GReach g) (hg' : GReach g') (hs : Same g g') :
    (∀ h : List Edit, Same (h.foldl Edit.call g) (h.foldl Edit.call g')) ∧
    (∀ P o o' b, ResRel SameMatrix (g.findAvgPoolMatrix P o b) (g'.findAvgPoolMatrix P o' b)) ∧
    (∀ P o₁ o₂ o₁' o₂' b t, ResRel Same (g.approximate P o₁ o₂ b t) (g'.approximate P o₁' o₂' b t)) ∧
    (∀ P P' o₁ o₂ o₁' o₂' l, ∃ c c', g.compress P o₁ o₂ l = .ok c ∧ g'.compress P' o₁' o₂' l = .ok c' ∧ SameC c c') ∧
    (∀ P, g.matrixString P = g'.matrixString P) ∧
    (∀ P o o', ResRel (fun b b' => ∃ es es' : List (Nat × Nat), es.Perm es' ∧
      b = graphFile g.isUndirected g.vertexCount es ∧ b' = graphFile g.isUndirected g.vertexCount es')
      (g.toBytes P o) (g'.toBytes P o')) :=
  ⟨same_edits hg.ok hg'.ok hs, same_pool hg.ok hg'.ok hs, same_approximate hg.ok hg'.ok hs,
    same_compress hg.ok hg'.ok hs, same_string hs, same_bytes hg.ok hg'.ok hs⟩

/-- **C85**, compressed graphs. -/
theorem C85_compressed_congruence {c c' : CGraph} (hc : CReach c) (hc' : CReach c') (hs : SameC c c') :
    (∀ P o₁ o₂ o₁' o₂', 65535 ≤ P.usizeMax → 20 ≤ P.fmtMax →
      (∃ s, c.matrixString P o₁ o₂ = .ok s ∧ c'.matrixString P o₁' o₂' = .ok s) ∨
      (∃ m m', c.matrixString P o₁ o₂ = .err (.CapacityOverflow m) ∧
        c'.matrixString P o₁' o₂' = .err (.CapacityOverflow m'))) ∧
    (∀ P o o', ResRel (fun b b' => ∃ bs bs' : List (Nat × Nat × Nat), bs.Perm bs' ∧
      b = compressedFile c.isUndirected c.compressionLevel (max 1 (ceilDiv c.vertexCount 8)) c.edgeCount c.vertexCount bs ∧
      b' = compressedFile c.isUndirected c.compressionLevel (max 1 (ceilDiv c.vertexCount 8)) c.edgeCount c.vertexCount bs')
      (c.toBytes P o) (c'.toBytes P o')) ∧
    (∀ P P' o o', ∃ d d', c.decompress P o = .ok d ∧ c'.decompress P' o' = .ok d' ∧ Same d d') :=
  ⟨fun P o₁ o₂ o₁' o₂' hP hf => same_ctext hc hc' hs P hP hf o₁ o₂ o₁' o₂', same_cbytes hc.ok hc'.ok hs,
    hs.decompress⟩

/-- **C85**, graphs with one vertex count, one direction and the same edges are the same; in particular a graph and
itself, so that every result above is independent of the hash order. -/
theorem C85_same_iff {g g' : Graph} (hg : GReach g) (hg' : GReach g') :
    Same g g' ↔ g.isUndirected = g'.isUndirected ∧ g.vertexCount = g'.vertexCount ∧
      ∀ u v, g.doesEdgeExist u v = g'.doesEdgeExist u v :=
  ⟨fun h => ⟨h.direction, h.vertexCount, h.edge⟩, fun h => same_of_obs hg.ok hg'.ok h.1 h.2.1 h.2.2⟩

/-- Two graphs with different histories (and different tables inside) that are the same. -/
example : let g := ((Graph.newDirected.addEdge 5 0).addEdge 0 1)
    Same exD g ∧ exD.adjacencyMatrix.edgesTable.entries.length ≠ g.adjacencyMatrix.edgesTable.entries.length := by
  refine ⟨same_of_obs exD_reach.ok (GReach.ok (.addEdge _ _ (.addEdge _ _ .newDirected))) rfl rfl fun u v => ?_, by decide⟩
  rw [Bool.eq_iff_iff, Graph.doesEdgeExist_iff, Graph.doesEdgeExist_iff]
  have : exD.pairs = ((Graph.newDirected.addEdge 5 0).addEdge 0 1).pairs := by decide
  rw [this]

end Verif.Props
