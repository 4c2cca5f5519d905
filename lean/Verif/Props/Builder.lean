import Verif.Props.CCodec

/-!
# C91: what any use of `CompressedGraphBuilder` can do, correct or not
-/

namespace Verif.Props
open Verif Spec CGraph

/-- The non-zero blocks stored at `(x, y)` by a list of builder calls, in order; calls with the coordinate `u64::MAX` are
ignored. -/
def written (l : List (Nat × Nat × Nat × Option Nat)) (x y : Nat) : List Nat :=
  (l.filter fun e => e.1 ≠ 0 ∧ e.2.1 = x ∧ e.2.2.1 = y ∧ x < U64_MAX ∧ y < U64_MAX).map fun e => e.1

/-- The total of the weights claimed or computed by the calls. -/
def claimed (l : List (Nat × Nat × Nat × Option Nat)) : Nat := (l.map fun e => e.2.2.2.getD (ones e.1)).sum

/-- What is true of every builder. -/
structure BuilderInv (u : Bool) (n lv : Nat) (l : List (Nat × Nat × Nat × Option Nat)) (g : CGraph) : Prop where
  wf : g.adjacencyMatrix.WF
  at_ : ∀ x y, g.at? x y = (written l x y).getLast?
  direction : g.isUndirected = u
  vertexCount : g.vertexCount = n
  level : g.compressionLevel = clampCompressionLevel lv
  edgeCount : g.edgeCount = min (claimed l) U64_MAX

theorem builderInv (u : Bool) {n : Nat} (hn : n ≤ U64_MAX) (lv : Nat) (l : List (Nat × Nat × Nat × Option Nat)) :
    BuilderInv u n lv l (buildWith (builderNew u n lv) l) := by
  induction l using List.reverseRecOn with
  | nil =>
    obtain ⟨b1, _, b3⟩ := builderNew_at u hn lv
    exact ⟨b3, fun x y => by rw [show buildWith (builderNew u n lv) [] = builderNew u n lv from rfl, b1]; rfl,
      rfl, rfl, rfl, by simp [claimed, buildWith, builderNew]⟩
  | append_singleton l e ih =>
    have hstep : buildWith (builderNew u n lv) (l ++ [e]) =
        (buildWith (builderNew u n lv) l).builderAdd e.1 e.2.1 e.2.2.1 e.2.2.2 := by
      unfold buildWith; rw [List.foldl_append]; rfl
    rw [hstep]
    generalize buildWith (builderNew u n lv) l = g at ih
    refine ⟨ih.wf.setEntry _ _ _ _, fun x y => ?_, ih.direction, ih.vertexCount, ih.level, ?_⟩
    · have hw : written (l ++ [e]) x y = written l x y ++ written [e] x y := by
        unfold written; rw [List.filter_append, List.map_append]
      rw [hw]
      change (g.adjacencyMatrix.setEntry u64Fmt.toNumeric e.1 e.2.1 e.2.2.1).at? x y = _
      have ihx : g.adjacencyMatrix.at? x y = (written l x y).getLast? := ih.at_ x y
      by_cases hb : e.2.1 < U64_MAX ∧ e.2.2.1 < U64_MAX
      · by_cases h0 : e.1 = 0
        · rw [SqMatrix.setEntry_zero hb.1 hb.2 (by rw [h0]; rfl)]
          have : written [e] x y = [] := by unfold written; simp [h0]
          rw [this, List.append_nil]
          exact ihx
        · rw [SqMatrix.setEntry_at hb.1 hb.2 (by rw [u64_eq_zero]; simpa using h0)]
          by_cases hxy : x = e.2.1 ∧ y = e.2.2.1
          · rw [if_pos hxy]
            have : written [e] x y = [e.1] := by
              unfold written
              rw [List.filter_cons_of_pos (by
                simp only [decide_eq_true_eq]
                exact ⟨h0, hxy.1.symm, hxy.2.symm, by omega, by omega⟩)]
              rfl
            rw [this, List.getLast?_concat]
          · rw [if_neg hxy]
            have : written [e] x y = [] := by
              unfold written
              rw [List.filter_cons_of_neg (by
                simp only [decide_eq_true_eq]
                rintro ⟨_, h1, h2, _⟩; exact hxy ⟨h1.symm, h2.symm⟩)]
              rfl
            rw [this, List.append_nil]
            exact ihx
      · rw [SqMatrix.setEntry_overflow hb]
        have : written [e] x y = [] := by
          unfold written
          rw [List.filter_cons_of_neg (by
            simp only [decide_eq_true_eq]
            rintro ⟨_, h1, h2, h3, h4⟩; exact hb ⟨by omega, by omega⟩)]
          rfl
        rw [this, List.append_nil]
        exact ihx
    · have hc : claimed (l ++ [e]) = claimed l + e.2.2.2.getD (ones e.1) := by
        unfold claimed; rw [List.map_append, List.sum_append]; simp
      have hadd : (g.builderAdd e.1 e.2.1 e.2.2.1 e.2.2.2).edgeCount =
          saturatingAdd g.edgeCount (e.2.2.2.getD (ones e.1)) := by
        unfold builderAdd
        cases h : e.2.2.2 with
        | none => simp only [Option.getD_none, ones_eq]
        | some w => rfl
      rw [hadd, hc, ih.edgeCount]
      unfold saturatingAdd
      split <;> omega

theorem written_word {l : List (Nat × Nat × Nat × Option Nat)} (hw : ∀ e ∈ l, e.1 < 2 ^ 64) {x y e : Nat}
    (h : (written l x y).getLast? = some e) : e ≠ 0 ∧ e < 2 ^ 64 := by
  have hm := List.mem_of_getLast? h
  unfold written at hm
  obtain ⟨z, hz, rfl⟩ := List.mem_map.1 hm
  obtain ⟨h1, h2⟩ := List.mem_filter.1 hz
  simp only [decide_eq_true_eq] at h2
  exact ⟨h2.1, hw z h1⟩

/-- **C91.** Whatever calls are made to a builder (repeated blocks, wrong weights, coordinates outside the graph), the
finished graph stores at each place the last non-zero block written there and counts the claimed weights, and `to_bytes`
writes its blocks into a buffer of exactly the needed size or reports a capacity error; it never panics. -/
theorem C91_any_builder (u : Bool) {n : Nat} (hn : n ≤ U64_MAX) (lv : Nat) (l : List (Nat × Nat × Nat × Option Nat))
    (P : Platform) (o : HashOrder) :
    let c := buildWith (builderNew u n lv) l
    c.isUndirected = u ∧ c.vertexCount = n ∧ c.compressionLevel = max 1 (min lv 64) ∧
    c.edgeCount = min (claimed l) U64_MAX ∧
    (∀ x y, c.getCompressedMatrixEntry x y = (written l x y).getLast?.getD 0) ∧
    (∀ s t, c.doesEdgeExist s t = true ↔ ∃ e, (written l (s / 8) (t / 8)).getLast? = some e ∧
      e.testBit (8 * (t % 8) + s % 8) = true) ∧
    ∃ blocks : List (Nat × Nat × Nat), (blocks.map fun e => (e.2.1, e.2.2)).Nodup ∧
      (∀ e x y, (e, x, y) ∈ blocks ↔ (written l x y).getLast? = some e) ∧
      (42 + 24 * blocks.length ≤ P.usizeMax ∧ P.alloc (42 + 24 * blocks.length) = true →
        ∃ d, c.toBytes P o = .ok (compressedFile u (max 1 (min lv 64)) d (min (claimed l) U64_MAX) n blocks) ∧
          (compressedFile u (max 1 (min lv 64)) d (min (claimed l) U64_MAX) n blocks).length = 42 + 24 * blocks.length) ∧
      (¬ (42 + 24 * blocks.length ≤ P.usizeMax ∧ P.alloc (42 + 24 * blocks.length) = true) →
        ∃ msg, c.toBytes P o = .err (.CapacityOverflow msg)) := by
  intro c
  have hi : BuilderInv u n lv l c := builderInv u hn lv l
  have hlv : c.compressionLevel = max 1 (min lv 64) := by rw [hi.level, clampLevel_eq]
  refine ⟨hi.direction, hi.vertexCount, hlv, hi.edgeCount, fun x y => by rw [getEntry_at, hi.at_],
    fun s t => by rw [doesEdgeExist_iff, hi.at_], c.adjacencyMatrix.items o, SqMatrix.items_keys_nodup hi.wf o,
    fun e x y => ?_, ?_, ?_⟩
  · rw [SqMatrix.mem_items hi.wf, ← hi.at_]; rfl
  · rintro ⟨h1, h2⟩
    refine ⟨c.adjacencyMatrix.dimension, ?_, compressedFile_length _ _ _ _ _ _⟩
    rw [ctoBytes_eq P o c hi.wf, if_neg (by omega), if_pos h2, hi.direction, hlv, hi.edgeCount, hi.vertexCount]
  · intro h
    rw [ctoBytes_eq P o c hi.wf]
    split
    · exact ⟨_, rfl⟩
    · split
      · next h1 h2 => exact absurd ⟨by omega, h2⟩ h
      · exact ⟨_, rfl⟩

/-- **C91**, loading: the bytes of a graph from any builder are accepted by `try_from` exactly if the graph is right: the
size fits, every edge is inside the graph and the edge count is the number of edges. An accepted graph is the one that was
built; otherwise `InvalidFormat` is returned. -/
theorem C91_loading (u : Bool) {n : Nat} (hn : n ≤ U64_MAX) (lv : Nat) (l : List (Nat × Nat × Nat × Option Nat))
    (hword : ∀ e ∈ l, e.1 < 2 ^ 64) {P P' : Platform} {o : HashOrder} {b : Bytes} (hP : P.usizeMax ≤ U64_MAX)
    (hb : (buildWith (builderNew u n lv) l).toBytes P o = .ok b) (hP' : b.length ≤ P'.usizeMax) :
    let c := buildWith (builderNew u n lv) l
    ((∃ c', CGraph.tryFrom P' b = .ok c') ↔
      c.adjacencyMatrix.dimension = max 1 (ceilDiv n 8) ∧
      (∀ s t, c.doesEdgeExist s t = true → s < n ∧ t < n) ∧
      c.edgeCount = ((Finset.range n ×ˢ Finset.range n).filter fun p => c.doesEdgeExist p.1 p.2 = true).card) ∧
    (∀ c', CGraph.tryFrom P' b = .ok c' → SameC c' c) ∧
    ((¬ ∃ c', CGraph.tryFrom P' b = .ok c') → ∃ msg, CGraph.tryFrom P' b = .err (.InvalidFormat msg)) := by
  intro c
  have hi : BuilderInv u n lv l c := builderInv u hn lv l
  have hb : c.toBytes P o = .ok b := hb
  have hU : U64_MAX = 2 ^ 64 - 1 := by decide
  have mkOK : c.adjacencyMatrix.dimension = max 1 (ceilDiv n 8) →
      (∀ s t, c.doesEdgeExist s t = true → s < n ∧ t < n) → c.OK := fun hd hr =>
    { wf := hi.wf
      dim := by rw [hd, hi.vertexCount, dim_eq_ceil]
      word := fun x y e h => written_word hword ((hi.at_ x y).symm.trans h)
      range := by rw [hi.vertexCount]; exact hr
      level := by rw [hi.level, clampLevel_eq]; omega
      vc := by rw [hi.vertexCount]; exact hn
      ec := by rw [hi.edgeCount]; omega }
  have hpairs : c.pairs = ((Finset.range n ×ˢ Finset.range n).filter fun p => c.doesEdgeExist p.1 p.2 = true) := by
    unfold CGraph.pairs; rw [hi.vertexCount]
  have good : (∃ c', CGraph.tryFrom P' b = .ok c') → c.adjacencyMatrix.dimension = max 1 (ceilDiv n 8) ∧
      (∀ s t, c.doesEdgeExist s t = true → s < n ∧ t < n) ∧ c.edgeCount = c.pairs.card := by
    rw [C66_accepts_iff hP']
    intro hv
    have hb' := hb
    rw [ctoBytes_eq P o c hi.wf] at hb'
    split at hb'
    · cases hb'
    next hsz =>
    split at hb'
    swap
    · cases hb'
    cases hb'
    have hitem : ∀ e ∈ c.adjacencyMatrix.items o, c.at? e.2.1 e.2.2 = some e.1 := fun e he =>
      (SqMatrix.mem_items hi.wf o).1 he
    have hbnd : ∀ e ∈ c.adjacencyMatrix.items o,
        e.2.1 < c.adjacencyMatrix.dimension ∧ e.2.2 < c.adjacencyMatrix.dimension := fun e he =>
      hi.wf.bound (e.2.1, e.2.2) (SqMatrix.mem_keys.2 ⟨e.1, hitem e he⟩)
    have hdU := hi.wf.dim
    obtain ⟨_, _, f3, f4, f5, f6, _, _, f9⟩ := compressedFile_fields c.isUndirected c.compressionLevel
      c.adjacencyMatrix.dimension c.edgeCount c.vertexCount (c.adjacencyMatrix.items o)
      (by rw [hi.level, clampLevel_eq]; omega) hdU (by rw [hi.edgeCount]; omega) (by rw [hi.vertexCount]; exact hn)
      (by omega) (by
        intro e he
        have h1 := hbnd e he
        have h2 := (written_word hword ((hi.at_ _ _).symm.trans (hitem e he))).2
        refine ⟨by omega, by omega, by omega⟩)
    have hd := hv.dimension
    rw [f3, f6, hi.vertexCount] at hd
    have hr : ∀ s t, c.doesEdgeExist s t = true → s < n ∧ t < n := by
      intro s t hst
      obtain ⟨e, he, hbit⟩ := doesEdgeExist_iff.1 hst
      have h := hv.inRange
      rw [f4, f9, f6, hi.vertexCount] at h
      exact h (e, s / 8, t / 8) ((SqMatrix.mem_items hi.wf o).2 he) s t ⟨rfl, rfl, hbit⟩
    have hok := mkOK hd hr
    refine ⟨hd, hr, ?_⟩
    have he := hv.edgeCount
    rw [f4, f9, f5] at he
    simp only [ones_eq] at he
    rw [sum_items hi.wf, sum_keys hok] at he
    exact he.symm
  have bad : ∀ (hd : c.adjacencyMatrix.dimension = max 1 (ceilDiv n 8))
      (hr : ∀ s t, c.doesEdgeExist s t = true → s < n ∧ t < n), c.edgeCount = c.pairs.card →
      ∃ c', CGraph.tryFrom P' b = .ok c' ∧ SameC c' c := fun hd hr he => cdecode_encode (mkOK hd hr) he hP hb hP'
  refine ⟨?_, ?_, ?_⟩
  · rw [← hpairs]
    exact ⟨good, fun ⟨h1, h2, h3⟩ => let ⟨c', h, _⟩ := bad h1 h2 h3; ⟨c', h⟩⟩
  · intro c' hc'
    obtain ⟨h1, h2, h3⟩ := good ⟨c', hc'⟩
    obtain ⟨c'', h, hs⟩ := bad h1 h2 h3
    rw [hc'] at h
    cases h
    exact hs
  · intro hn'
    rcases C33_decode_total P' b hP' with h | h
    · exact absurd h hn'
    · exact h

/-- A block written twice, a wrong weight and a block outside the graph: all are written and rejected on loading. -/
example : okAnd ((buildWith (builderNew false 10 5) [(1, 0, 0, none), (3, 0, 0, none)]).toBytes exP .id)
      (fun b => decide (b.length ≤ exP.usizeMax) && b.length == 66 && !okAnd (CGraph.tryFrom exP b) fun _ => true) ∧
    okAnd ((buildWith (builderNew false 10 5) [(1, 0, 0, some 2)]).toBytes exP .id)
      (fun b => !okAnd (CGraph.tryFrom exP b) fun _ => true) ∧
    okAnd ((buildWith (builderNew false 10 5) [(1, 7, 0, none)]).toBytes exP .id)
      (fun b => !okAnd (CGraph.tryFrom exP b) fun _ => true) ∧
    okAnd ((buildWith (builderNew false 10 5) [(2 ^ 9 + 1, 0, 1, none), (1, 1, 1, some 1)]).toBytes exP .id)
      (fun b => okAnd (CGraph.tryFrom exP b) fun _ => true) := by
  refine ⟨?_, ?_, ?_, ?_⟩ <;> decide +kernel

end Verif.Props
