import Verif.Props.Compress

/-!
# Properties of the byte format of compressed graphs: C31–C37, the compressed half of C19, and C66
-/

namespace Verif.Props
open Verif Spec CGraph

/-! ## Writing -/

theorem ctoBytes_eq (P : Platform) (o : HashOrder) (g : CGraph) (h : g.adjacencyMatrix.WF) :
    g.toBytes P o =
      if P.usizeMax < 42 + 24 * (g.adjacencyMatrix.items o).length then
        .err (.CapacityOverflow "CompressedGraph byte size overflowed")
      else if P.alloc (42 + 24 * (g.adjacencyMatrix.items o).length) then
        .ok (compressedFile g.isUndirected g.compressionLevel g.adjacencyMatrix.dimension g.edgeCount g.vertexCount
          (g.adjacencyMatrix.items o))
      else .err (.CapacityOverflow "Unable to allocate compressed graph bytes") := by
  have hitems : (g.adjacencyMatrix.items o).length = g.adjacencyMatrix.entryCount := SqMatrix.items_length h o
  have hfile : compressedFile g.isUndirected g.compressionLevel g.adjacencyMatrix.dimension g.edgeCount g.vertexCount
          (g.adjacencyMatrix.items o) =
      toBE 4 MAGIC ++ toBE 4 VERSION ++ toBE 8 g.adjacencyMatrix.dimension ++
      toBE 8 g.adjacencyMatrix.entryCount ++ toBE 8 g.edgeCount ++ toBE 8 g.vertexCount ++
      [if g.isUndirected then 1 else 0] ++ [UInt8.ofNat g.compressionLevel] ++
      (g.adjacencyMatrix.items o).flatMap (fun e => toBE 8 e.1 ++ toBE 8 e.2.1 ++ toBE 8 e.2.2) := by
    unfold compressedFile
    simp only [toBE_eq_beBytes, hitems]
    simp only [List.append_assoc, List.cons_append, List.nil_append]
    rfl
  rw [hfile, hitems]
  unfold toBytes
  generalize toBE 4 MAGIC ++ toBE 4 VERSION ++ toBE 8 g.adjacencyMatrix.dimension ++
      toBE 8 g.adjacencyMatrix.entryCount ++ toBE 8 g.edgeCount ++ toBE 8 g.vertexCount ++
      [if g.isUndirected then 1 else 0] ++ [UInt8.ofNat g.compressionLevel] ++
      (g.adjacencyMatrix.items o).flatMap (fun e => toBE 8 e.1 ++ toBE 8 e.2.1 ++ toBE 8 e.2.2) = out
  generalize g.adjacencyMatrix.entryCount = c
  unfold Platform.usizeTryFrom Platform.checkedMul Platform.checkedAdd
  have hh : HEADER_SIZE = 42 := rfl
  by_cases h1 : c ≤ P.usizeMax
  · by_cases h2 : c * 3 ≤ P.usizeMax
    · by_cases h3 : c * 3 * 8 ≤ P.usizeMax
      · by_cases h4 : HEADER_SIZE + c * 3 * 8 ≤ P.usizeMax
        · rw [if_neg (show ¬ P.usizeMax < 42 + 24 * c by omega)]
          simp only [h1, h2, h3, h4, if_true, Option.bind_some, Res.ofOption, Res.bind_ok]
          rw [show HEADER_SIZE + c * 3 * 8 = 42 + 24 * c by omega]
        · rw [if_pos (show P.usizeMax < 42 + 24 * c by omega)]
          simp only [h1, h2, h3, h4, if_true, if_false, Option.bind_some, Res.ofOption, Res.bind_ok, Res.bind_err]
      · rw [if_pos (show P.usizeMax < 42 + 24 * c by omega)]
        simp only [h1, h2, h3, if_true, if_false, Option.bind_some, Res.ofOption, Res.bind_err]
    · rw [if_pos (show P.usizeMax < 42 + 24 * c by omega)]
      simp only [h1, h2, if_true, if_false, Option.bind_some, Option.bind_none, Res.ofOption, Res.bind_err]
  · rw [if_pos (show P.usizeMax < 42 + 24 * c by omega)]
    simp only [h1, if_false, Option.bind_none, Res.ofOption, Res.bind_err]

theorem flatMap_length24 (l : List (Nat × Nat × Nat)) :
    (l.flatMap (fun e => beBytes 8 e.1 ++ beBytes 8 e.2.1 ++ beBytes 8 e.2.2)).length = 24 * l.length := by
  induction l with
  | nil => rfl
  | cons e l ih => simp only [List.flatMap_cons, List.length_append, ih, beBytes_length, List.length_cons]; omega

theorem compressedFile_length (u : Bool) (lv d ec n : Nat) (l : List (Nat × Nat × Nat)) :
    (compressedFile u lv d ec n l).length = 42 + 24 * l.length := by
  unfold compressedFile
  simp only [List.length_append, flatMap_length24, beBytes_length, List.length_cons, List.length_nil]

theorem listedBlock_flatMap (l : List (Nat × Nat × Nat)) (hl : ∀ e ∈ l, e.1 ≤ U64_MAX ∧ e.2.1 ≤ U64_MAX ∧ e.2.2 ≤ U64_MAX)
    (i : Nat) (hi : i < l.length) :
    (field (l.flatMap (fun e => beBytes 8 e.1 ++ beBytes 8 e.2.1 ++ beBytes 8 e.2.2)) (24 * i) 8,
     field (l.flatMap (fun e => beBytes 8 e.1 ++ beBytes 8 e.2.1 ++ beBytes 8 e.2.2)) (24 * i + 8) 8,
     field (l.flatMap (fun e => beBytes 8 e.1 ++ beBytes 8 e.2.1 ++ beBytes 8 e.2.2)) (24 * i + 16) 8) = l[i] := by
  induction l generalizing i with
  | nil => simp at hi
  | cons e l ih =>
    have he := hl e (by simp)
    rw [List.flatMap_cons, List.append_assoc, List.append_assoc]
    have hU := U64_eq
    match i with
    | 0 =>
      rw [Graph.field_beBytes _ _ _ (by omega), Graph.field_skip _ _ _ _ _ (by omega),
        Graph.field_skip _ _ _ (24 * 0 + 16) _ (by omega), Graph.field_skip _ _ _ (24 * 0 + 16 - 8) _ (by omega)]
      rw [show 24 * 0 + 8 - 8 = 0 from rfl, Graph.field_beBytes _ _ _ (by omega),
        Graph.field_beBytes _ _ _ (by omega)]
      rfl
    | i + 1 =>
      rw [Graph.field_skip _ _ _ (24 * (i + 1)) _ (by omega), Graph.field_skip _ _ _ (24 * (i + 1) - 8) _ (by omega),
        Graph.field_skip _ _ _ (24 * (i + 1) - 8 - 8) _ (by omega),
        Graph.field_skip _ _ _ (24 * (i + 1) + 8) _ (by omega),
        Graph.field_skip _ _ _ (24 * (i + 1) + 8 - 8) _ (by omega),
        Graph.field_skip _ _ _ (24 * (i + 1) + 8 - 8 - 8) _ (by omega),
        Graph.field_skip _ _ _ (24 * (i + 1) + 16) _ (by omega),
        Graph.field_skip _ _ _ (24 * (i + 1) + 16 - 8) _ (by omega),
        Graph.field_skip _ _ _ (24 * (i + 1) + 16 - 8 - 8) _ (by omega)]
      have := ih (fun e h => hl e (List.mem_cons_of_mem _ h)) i (by simpa using hi)
      rw [show 24 * (i + 1) - 8 - 8 - 8 = 24 * i by omega, show 24 * (i + 1) + 8 - 8 - 8 - 8 = 24 * i + 8 by omega,
        show 24 * (i + 1) + 16 - 8 - 8 - 8 = 24 * i + 16 by omega]
      rw [this]; simp

/-- The fields of a compressed file. -/
theorem compressedFile_fields (u : Bool) (lv d ec n : Nat) (l : List (Nat × Nat × Nat)) (hlv : lv ≤ 64)
    (hd : d ≤ U64_MAX) (hec : ec ≤ U64_MAX) (hn : n ≤ U64_MAX) (hl : l.length ≤ U64_MAX)
    (he : ∀ e ∈ l, e.1 ≤ U64_MAX ∧ e.2.1 ≤ U64_MAX ∧ e.2.2 ≤ U64_MAX) :
    field (compressedFile u lv d ec n l) 0 4 = MAGIC ∧ field (compressedFile u lv d ec n l) 4 4 = VERSION ∧
    field (compressedFile u lv d ec n l) 8 8 = d ∧ field (compressedFile u lv d ec n l) 16 8 = l.length ∧
    field (compressedFile u lv d ec n l) 24 8 = ec ∧ field (compressedFile u lv d ec n l) 32 8 = n ∧
    field (compressedFile u lv d ec n l) 40 1 = (if u then 1 else 0) ∧
    field (compressedFile u lv d ec n l) 41 1 = lv ∧
    listedBlocks (compressedFile u lv d ec n l) l.length = l := by
  have hU := U64_eq
  unfold compressedFile
  simp only [List.append_assoc, List.cons_append, List.nil_append]
  have s : ∀ (k x : Nat) (rest : Bytes) (off k' : Nat), k ≤ off →
    field (beBytes k x ++ rest) off k' = field rest (off - k) k' := Graph.field_skip
  refine ⟨?_, ?_, ?_, ?_, ?_, ?_, ?_, ?_, ?_⟩
  · exact Graph.field_beBytes _ _ _ (by decide)
  · rw [s _ _ _ _ _ (by omega)]; exact Graph.field_beBytes _ _ _ (by decide)
  · rw [s _ _ _ _ _ (by omega), s _ _ _ _ _ (by omega)]; exact Graph.field_beBytes _ _ _ (by omega)
  · rw [s _ _ _ _ _ (by omega), s _ _ _ _ _ (by omega), s _ _ _ _ _ (by omega)]
    exact Graph.field_beBytes _ _ _ (by omega)
  · rw [s _ _ _ _ _ (by omega), s _ _ _ _ _ (by omega), s _ _ _ _ _ (by omega), s _ _ _ _ _ (by omega)]
    exact Graph.field_beBytes _ _ _ (by omega)
  · rw [s _ _ _ _ _ (by omega), s _ _ _ _ _ (by omega), s _ _ _ _ _ (by omega), s _ _ _ _ _ (by omega),
      s _ _ _ _ _ (by omega)]
    exact Graph.field_beBytes _ _ _ (by omega)
  · rw [s _ _ _ _ _ (by omega), s _ _ _ _ _ (by omega), s _ _ _ _ _ (by omega), s _ _ _ _ _ (by omega),
      s _ _ _ _ _ (by omega), s _ _ _ _ _ (by omega), Graph.field_cons_one]
    cases u <;> rfl
  · rw [s _ _ _ _ _ (by omega), s _ _ _ _ _ (by omega), s _ _ _ _ _ (by omega), s _ _ _ _ _ (by omega),
      s _ _ _ _ _ (by omega), s _ _ _ _ _ (by omega), Graph.field_skip_cons, Graph.field_cons_one]
    simp only [UInt8.toNat_ofNat']
    omega
  · unfold listedBlocks
    apply List.ext_getElem
    · simp
    · intro i h1 h2
      rw [List.getElem_map, List.getElem_range]
      rw [← listedBlock_flatMap l he i h2]
      unfold listedBlock
      have hs : ∀ off k', 42 ≤ off → field (beBytes 4 1912568557 ++
        (beBytes 4 2 ++ (beBytes 8 d ++ (beBytes 8 l.length ++ (beBytes 8 ec ++ (beBytes 8 n ++
          (if u = true then 1 else 0) :: UInt8.ofNat lv ::
          List.flatMap (fun e => beBytes 8 e.1 ++ (beBytes 8 e.2.1 ++ beBytes 8 e.2.2)) l)))))) off k' =
          field (List.flatMap (fun e => beBytes 8 e.1 ++ (beBytes 8 e.2.1 ++ beBytes 8 e.2.2)) l) (off - 42) k' := by
        intro off k' ho
        rw [s _ _ _ _ _ (by omega), s _ _ _ _ _ (by omega), s _ _ _ _ _ (by omega), s _ _ _ _ _ (by omega),
          s _ _ _ _ _ (by omega), s _ _ _ _ _ (by omega)]
        obtain ⟨j, rfl⟩ : ∃ j, off = j + 42 := ⟨off - 42, by omega⟩
        rw [show j + 42 - 4 - 4 - 8 - 8 - 8 - 8 = j + 1 + 1 by omega, Graph.field_skip_cons, Graph.field_skip_cons]
        congr 1
      rw [hs _ _ (by omega), hs _ _ (by omega), hs _ _ (by omega)]
      simp only [List.append_assoc]
      rw [show 42 + 24 * i - 42 = 24 * i by omega, show 42 + 24 * i + 8 - 42 = 24 * i + 8 by omega,
        show 42 + 24 * i + 16 - 42 = 24 * i + 16 by omega]

/-! ## C31 -/

/-- **C31.** Layout, size and failures of `CompressedGraph::to_bytes`. -/
theorem C31_compressed_bytes_layout {c : CGraph} (hc : CReach c) (P : Platform) (o : HashOrder) :
    ∃ blocks : List (Nat × Nat × Nat), (blocks.map fun e => (e.2.1, e.2.2)).Nodup ∧
      (∀ e x y, (e, x, y) ∈ blocks ↔ e ≠ 0 ∧ c.getCompressedMatrixEntry x y = e) ∧
      (∀ b, c.toBytes P o = .ok b → b.length = 42 + 24 * blocks.length ∧
        b = compressedFile c.isUndirected c.compressionLevel (max 1 (ceilDiv c.vertexCount 8)) c.edgeCount
          c.vertexCount blocks) ∧
      c.toBytes P o ≠ .panic ∧
      (∀ e, c.toBytes P o = .err e → (∃ msg, e = .CapacityOverflow msg) ∧
        (P.usizeMax < 42 + 24 * blocks.length ∨ P.alloc (42 + 24 * blocks.length) = false)) ∧
      ((42 + 24 * blocks.length ≤ P.usizeMax ∧ P.alloc (42 + 24 * blocks.length) = true) ↔
        ∃ b, c.toBytes P o = .ok b) := by
  have hwf := hc.ok.wf
  refine ⟨c.adjacencyMatrix.items o, SqMatrix.items_keys_nodup hwf o, ?_, ?_⟩
  · intro e x y
    rw [SqMatrix.mem_items hwf, getEntry_at]
    constructor
    · intro h
      exact ⟨(hc.ok.word x y e h).1, by unfold CGraph.at?; rw [h]; rfl⟩
    · rintro ⟨h0, h⟩
      unfold CGraph.at? at h
      cases hx : c.adjacencyMatrix.at? x y with
      | none => rw [hx] at h; exact absurd h.symm h0
      | some e' => rw [hx] at h; exact congrArg some h
  · rw [ctoBytes_eq P o c hwf]
    split
    · next h => exact ⟨by simp, by simp, fun e he => by cases he; exact ⟨⟨_, rfl⟩, .inl h⟩,
        fun h' => absurd h'.1 (by omega), fun ⟨_, h'⟩ => nomatch h'⟩
    · next h =>
      split
      · next ha =>
        refine ⟨?_, by simp, by simp, fun _ => ⟨_, rfl⟩, fun _ => ⟨by omega, ha⟩⟩
        intro b hb
        cases hb
        exact ⟨compressedFile_length _ _ _ _ _ _, by rw [hc.ok.dim, dim_eq_ceil]⟩
      · next ha =>
        exact ⟨by simp, by simp, fun e he => by cases he; exact ⟨⟨_, rfl⟩, .inr (by simpa using ha)⟩,
          fun h => absurd h.2 ha, fun ⟨_, h'⟩ => nomatch h'⟩

example : ∃ c, CReach c ∧ okAnd (c.toBytes exP .id) (fun b => b.length == 42 + 24 * 3) := by
  obtain ⟨c, hc, h⟩ := okAnd_elim (show okAnd (exC.compress exP .id .id 1)
    (fun c => okAnd (c.toBytes exP .id) (fun b => b.length == 42 + 24 * 3)) = true by decide +kernel)
  exact ⟨c, .compress _ _ _ _ exC_reach hc, h⟩

/-! ## C33, C66 -/

/-- **C33.** Decoding never panics and only fails with `InvalidFormat`. -/
theorem C33_decode_total (P : Platform) (b : Bytes) (hP : b.length ≤ P.usizeMax) :
    (∃ c, CGraph.tryFrom P b = .ok c) ∨ (∃ msg, CGraph.tryFrom P b = .err (.InvalidFormat msg)) := by
  rcases tryFrom_eq hP with ⟨h, _⟩ | ⟨h, _⟩
  · exact .inl ⟨_, h⟩
  · exact .inr h

example : errIs (CGraph.tryFrom exP (List.replicate 50 7)) (.InvalidFormat "Incorrect magic number") := by
  decide +kernel

/-- **C66.** Which byte slices `CompressedGraph::try_from` accepts. -/
theorem C66_accepts_iff {P : Platform} {b : Bytes} (hP : b.length ≤ P.usizeMax) :
    (∃ c, CGraph.tryFrom P b = .ok c) ↔ ValidCompressedFile b := by
  simp only [tryFrom_iff hP]
  exact ⟨fun ⟨_, h, _⟩ => h, fun h => ⟨_, h, rfl⟩⟩

/-- A file with ten vertices and two blocks. -/
def exF : Bytes := compressedFile false 7 2 3 10 [(2 ^ 9 + 1, 0, 1), (1, 1, 1)]

example : ValidCompressedFile exF := (C66_accepts_iff (P := exP) (by decide +kernel)).1
  (by obtain ⟨c, h, _⟩ := okAnd_elim (show okAnd (CGraph.tryFrom exP exF) (fun _ => true) = true by decide +kernel)
      exact ⟨c, h⟩)

/-! ## C34 -/

/-- **C34.** What is known of an accepted compressed graph. -/
theorem C34_accepted_in_range {P : Platform} {b : Bytes} {c : CGraph} (h : CGraph.tryFrom P b = .ok c) :
    c.vertexCount = field b 32 8 ∧ c.compressionLevel = field b 41 1 ∧ (c.isUndirected = true ↔ field b 40 1 = 1) ∧
    c.edgeCount = field b 24 8 ∧
    (∀ u v, c.doesEdgeExist u v = true → u < c.vertexCount ∧ v < c.vertexCount) ∧
    c.adjacencyMatrix.dimension = max 1 (ceilDiv c.vertexCount 8) ∧
    (∀ u v, c.doesEdgeExist u v = true → ∃ e ∈ listedBlocks b (field b 16 8), blockEdge e u v) ∧
    ∀ P' o, ∃ d, c.decompress P' o = .ok d ∧ d.vertexCount = c.vertexCount := by
  obtain ⟨hv, rfl⟩ := (tryFrom_iff (tryFrom_length h) c).1 h
  obtain ⟨hok, h1, h2, h3, h4, h5⟩ := decoded_spec hv
  refine ⟨h1, h4, by rw [h3]; simp, h2, hok.range, hok.dim.trans dim_eq_ceil, ?_, fun P' o => ?_⟩
  · intro u v he
    rw [doesEdgeExist_iff] at he
    obtain ⟨e, he, hb⟩ := he
    rw [h5, Option.map_eq_some_iff] at he
    obtain ⟨x, hx, rfl⟩ := he
    have hm := List.mem_reverse.1 (List.mem_of_find?_eq_some hx)
    have hc := List.find?_some hx
    simp only [decide_eq_true_eq] at hc
    exact ⟨x, hm, hc.1.symm, hc.2.symm, hb⟩
  · obtain ⟨d, hd, _, _, hdv, _⟩ := decompress_spec hok P' o
    exact ⟨d, hd, hdv⟩

/-- The last block listed at a position. -/
theorem last_listed {b : Bytes} {n x y : Nat} :
    (∃ i < n, (listedBlock b i).2 = (x, y) ∧ (∀ j, i < j → j < n → (listedBlock b j).2 ≠ (x, y)) ∧
      ((listedBlocks b n).reverse.find? fun e => decide (e.2.1 = x ∧ e.2.2 = y)) = some (listedBlock b i)) ∨
    ((∀ i < n, (listedBlock b i).2 ≠ (x, y)) ∧
      ((listedBlocks b n).reverse.find? fun e => decide (e.2.1 = x ∧ e.2.2 = y)) = none) := by
  have hl : (listedBlocks b n).length = n := by simp [listedBlocks]
  have hg : ∀ i (h : i < (listedBlocks b n).length), (listedBlocks b n)[i] = listedBlock b i := by
    intro i h; simp [listedBlocks]
  cases hf : (listedBlocks b n).reverse.find? fun e => decide (e.2.1 = x ∧ e.2.2 = y) with
  | none =>
    right
    refine ⟨fun i hi hp => ?_, rfl⟩
    rw [List.find?_eq_none] at hf
    have := hf (listedBlock b i) (by
      rw [List.mem_reverse]; exact List.mem_map.2 ⟨i, List.mem_range.2 hi, rfl⟩)
    exact this (by rw [hp]; simp)
  | some e =>
    left
    obtain ⟨hp, k, hk, hke, hj⟩ := List.find?_eq_some_iff_getElem.1 hf
    rw [List.length_reverse, hl] at hk
    rw [List.getElem_reverse, hg] at hke
    simp only [hl] at hke
    simp only [decide_eq_true_eq] at hp
    refine ⟨n - 1 - k, by omega, by rw [hke]; exact Prod.ext hp.1 hp.2, fun j h1 h2 h3 => ?_, by rw [hke]⟩
    have := hj (n - 1 - j) (by omega)
    rw [List.getElem_reverse, hg] at this
    simp only [hl] at this
    rw [show n - 1 - (n - 1 - j) = j by omega, h3] at this
    simp at this

/-- **C34.** An accepted compressed graph consists of the listed blocks; of several blocks listed for the same
position, the last one counts. -/
theorem C34_contents {P : Platform} {b : Bytes} {c : CGraph} (h : CGraph.tryFrom P b = .ok c) :
    (∀ i < field b 16 8, (∀ j, i < j → j < field b 16 8 → (listedBlock b j).2 ≠ (listedBlock b i).2) →
      c.getCompressedMatrixEntry (listedBlock b i).2.1 (listedBlock b i).2.2 = (listedBlock b i).1) ∧
    (∀ x y, (∀ i < field b 16 8, (listedBlock b i).2 ≠ (x, y)) → c.getCompressedMatrixEntry x y = 0) ∧
    ∀ u v, c.doesEdgeExist u v = (c.getCompressedMatrixEntry (u / 8) (v / 8)).testBit (8 * (v % 8) + u % 8) := by
  obtain ⟨hv, rfl⟩ := (tryFrom_iff (tryFrom_length h) c).1 h
  obtain ⟨hok, h1, h2, h3, h4, h5⟩ := decoded_spec hv
  refine ⟨?_, ?_, ?_⟩
  · intro i hi hlast
    rw [getEntry_at, h5]
    rcases last_listed (b := b) (n := field b 16 8) (x := (listedBlock b i).2.1) (y := (listedBlock b i).2.2) with
      ⟨k, hk, hp, hl, hf⟩ | ⟨hn, _⟩
    · have : k = i := by
        rcases Nat.lt_trichotomy k i with h | h | h
        · exact absurd rfl (hl i h hi)
        · exact h
        · exact absurd hp (hlast k h hk)
      rw [hf, this]; rfl
    · exact absurd rfl (hn i hi)
  · intro x y hn
    rw [getEntry_at, h5]
    rcases last_listed (b := b) (n := field b 16 8) (x := x) (y := y) with ⟨k, hk, hp, _⟩ | ⟨_, hf⟩
    · exact absurd hp (hn k hk)
    · rw [hf]; rfl
  · intro u v
    rw [doesEdgeExist_eq]

example : okAnd (CGraph.tryFrom exP exF) (fun c => c.vertexCount == 10 && c.doesEdgeExist 1 9 && c.edgeCount == 3 &&
    c.getCompressedMatrixEntry 0 1 == 2 ^ 9 + 1 && c.getCompressedMatrixEntry 1 0 == 0) := by
  decide +kernel

/-! ## C19, compressed graphs -/

/-- **C19** for compressed graphs: accepted bytes have no accepted proper extension. -/
theorem C19_compressed_extension {P P' : Platform} {b x : Bytes} (hx : x ≠ []) (hP : (b ++ x).length ≤ P.usizeMax)
    (c : CGraph) (h : CGraph.tryFrom P' b = .ok c) :
    ∃ msg, CGraph.tryFrom P (b ++ x) = .err (.InvalidFormat msg) := by
  have h1 := ((tryFrom_iff (tryFrom_length h) c).1 h).1.length
  rcases C33_decode_total P (b ++ x) hP with ⟨c', h'⟩ | h'
  · exfalso
    have h2 := ((tryFrom_iff hP c').1 h').1.length
    rw [field_append_left _ _ _ _ (by omega), List.length_append] at h2
    have : x.length ≠ 0 := fun h => hx (List.length_eq_zero_iff.1 h)
    omega
  · exact h'

/-- **C19** for compressed graphs: every proper prefix of accepted bytes is rejected. -/
theorem C19_compressed_prefix {P P' : Platform} {b : Bytes} (c : CGraph)
    (h : CGraph.tryFrom P b = .ok c) (k : Nat) (hk : k < b.length) (hP' : k ≤ P'.usizeMax) :
    ∃ msg, CGraph.tryFrom P' (b.take k) = .err (.InvalidFormat msg) := by
  have hl : (b.take k).length ≤ P'.usizeMax := by rw [List.length_take]; omega
  rcases C33_decode_total P' (b.take k) hl with ⟨c', h'⟩ | h'
  · exfalso
    have hx : b.drop k ≠ [] := by
      intro h0
      rw [List.drop_eq_nil_iff] at h0; omega
    obtain ⟨msg, hm⟩ := C19_compressed_extension (P := P) (x := b.drop k) hx
      (by rw [List.take_append_drop]; exact tryFrom_length h) c' h'
    rw [List.take_append_drop, h] at hm
    cases hm
  · exact h'

example : okAnd (CGraph.tryFrom exP exF) (fun _ => true) ∧ exF.length = 90 := by decide +kernel

/-! ## C32 -/

/-- No query can tell the two compressed graphs apart. -/
structure SameC (c c' : CGraph) : Prop where
  direction : c.isUndirected = c'.isUndirected
  level : c.compressionLevel = c'.compressionLevel
  vertexCount : c.vertexCount = c'.vertexCount
  edgeCount : c.edgeCount = c'.edgeCount
  entry : ∀ x y, c.getCompressedMatrixEntry x y = c'.getCompressedMatrixEntry x y
  edge : ∀ u v, c.doesEdgeExist u v = c'.doesEdgeExist u v
  decompress : ∀ P P' o o', ∃ d d', c.decompress P o = .ok d ∧ c'.decompress P' o' = .ok d' ∧ Same d d'

theorem sameC {c c' : CGraph} (h : c.OK) (h' : c'.OK) (hd : c.isUndirected = c'.isUndirected)
    (hl : c.compressionLevel = c'.compressionLevel) (hv : c.vertexCount = c'.vertexCount)
    (he : c.edgeCount = c'.edgeCount) (hat : ∀ x y, c.at? x y = c'.at? x y) : SameC c c' := by
  have hent : ∀ x y, c.getCompressedMatrixEntry x y = c'.getCompressedMatrixEntry x y := by
    intro x y; rw [getEntry_at, getEntry_at, hat]
  have hedge : ∀ u v, c.doesEdgeExist u v = c'.doesEdgeExist u v := by
    intro u v; rw [doesEdgeExist_eq, doesEdgeExist_eq, hent]
  refine ⟨hd, hl, hv, he, hent, hedge, ?_⟩
  intro P P' o o'
  obtain ⟨d, hd1, hd2, hd3, hd4, hd5⟩ := decompress_spec h P o
  obtain ⟨d', hd1', hd2', hd3', hd4', hd5'⟩ := decompress_spec h' P' o'
  refine ⟨d, d', hd1, hd1', Graph.same hd2 hd2' (by rw [hd3, hd3', hd]) (by rw [hd4, hd4', hv]) ?_⟩
  ext ⟨u, v⟩
  rw [← Graph.doesEdgeExist_iff, ← Graph.doesEdgeExist_iff, hd5, hd5', hd, hedge, hedge]

/-- The bytes written for a compressed graph have every property of a valid file, except perhaps the edge count. -/
structure AllButCount (b : Bytes) : Prop where
  magic : field b 0 4 = 0x71ff7aed
  version : field b 4 4 = 2
  direction : field b 40 1 = 0 ∨ field b 40 1 = 1
  level : 1 ≤ field b 41 1 ∧ field b 41 1 ≤ 64
  dimension : field b 8 8 = max 1 ((field b 32 8 + 7) / 8)
  length : b.length = 42 + 24 * field b 16 8
  nonzero : ∀ e ∈ listedBlocks b (field b 16 8), e.1 ≠ 0
  bound : ∀ e ∈ listedBlocks b (field b 16 8), e.2.1 < field b 8 8 ∧ e.2.2 < field b 8 8
  inRange : ∀ e ∈ listedBlocks b (field b 16 8), ∀ u v, blockEdge e u v → u < field b 32 8 ∧ v < field b 32 8

theorem encoded_all {c : CGraph} (hc : c.OK) {P : Platform} {o : HashOrder} {b : Bytes}
    (hP : P.usizeMax ≤ U64_MAX) (hb : c.toBytes P o = .ok b) :
    AllButCount b ∧ ((listedBlocks b (field b 16 8)).map fun e => ones e.1).sum = c.pairs.card ∧
      field b 24 8 = c.edgeCount ∧ field b 32 8 = c.vertexCount ∧ field b 40 1 = (if c.isUndirected then 1 else 0) ∧
      field b 41 1 = c.compressionLevel ∧ listedBlocks b (field b 16 8) = c.adjacencyMatrix.items o := by
  have hwf := hc.wf
  rw [ctoBytes_eq P o c hwf] at hb
  split at hb
  · cases hb
  next hsz =>
  split at hb
  swap
  · cases hb
  cases hb
  have hU : U64_MAX = 2 ^ 64 - 1 := by decide
  have hdimU : c.adjacencyMatrix.dimension ≤ U64_MAX := hwf.dim
  have hitem : ∀ e ∈ c.adjacencyMatrix.items o, c.at? e.2.1 e.2.2 = some e.1 := fun e he =>
    (SqMatrix.mem_items hwf o).1 he
  have hbnd : ∀ e ∈ c.adjacencyMatrix.items o,
      e.2.1 < c.adjacencyMatrix.dimension ∧ e.2.2 < c.adjacencyMatrix.dimension := fun e he =>
    hwf.bound (e.2.1, e.2.2) (SqMatrix.mem_keys.2 ⟨e.1, hitem e he⟩)
  obtain ⟨f1, f2, f3, f4, f5, f6, f7, f8, f9⟩ := compressedFile_fields c.isUndirected c.compressionLevel
    c.adjacencyMatrix.dimension c.edgeCount c.vertexCount (c.adjacencyMatrix.items o) hc.level.2 hdimU hc.ec hc.vc
    (by omega) (by
      intro e he
      have h1 := hbnd e he
      have h2 := (hc.word _ _ _ (hitem e he)).2
      refine ⟨by omega, by omega, by omega⟩)
  generalize hF : compressedFile c.isUndirected c.compressionLevel c.adjacencyMatrix.dimension c.edgeCount c.vertexCount
    (c.adjacencyMatrix.items o) = F at *
  refine ⟨?_, ?_, f5, f6, f7, f8, by rw [f4, f9]⟩
  · exact
    { magic := f1, version := f2
      direction := by rw [f7]; cases c.isUndirected <;> simp
      level := by rw [f8]; exact hc.level
      dimension := by rw [f3, f6, hc.dim, dim_eq_ceil]; rfl
      length := by rw [← hF, compressedFile_length, hF, f4]
      nonzero := by rw [f4, f9]; exact fun e he => (hc.word _ _ _ (hitem e he)).1
      bound := by rw [f4, f9, f3]; exact hbnd
      inRange := by
        rw [f4, f9, f6]
        rintro e he u v ⟨h1, h2, h3⟩
        apply hc.range u v
        rw [doesEdgeExist_iff, h1, h2]
        exact ⟨e.1, hitem e he, h3⟩ }
  · rw [f4, f9]
    simp only [ones_eq]
    rw [sum_items hwf, sum_keys hc]

theorem encoded_facts {c : CGraph} (hc : c.OK) {P : Platform} {o : HashOrder} {b : Bytes}
    (hP : P.usizeMax ≤ U64_MAX) (hb : c.toBytes P o = .ok b) :
    AllButCount b ∧ ((listedBlocks b (field b 16 8)).map fun e => ones e.1).sum = c.pairs.card ∧
      field b 24 8 = c.edgeCount :=
  let ⟨h1, h2, h3, _⟩ := encoded_all hc hP hb
  ⟨h1, h2, h3⟩

/-- Decoding undoes encoding when the edge count is exact. -/
theorem cdecode_encode {c : CGraph} (hc : c.OK) (hcard : c.edgeCount = c.pairs.card) {P P' : Platform} {o : HashOrder}
    {b : Bytes} (hP : P.usizeMax ≤ U64_MAX) (hb : c.toBytes P o = .ok b) (hP' : b.length ≤ P'.usizeMax) :
    ∃ c', CGraph.tryFrom P' b = .ok c' ∧ SameC c' c := by
  obtain ⟨ha, hsum, f5, f6, f7, f8, f9⟩ := encoded_all hc hP hb
  have hvalid : ValidCompressedFile b :=
    { magic := ha.magic, version := ha.version, direction := ha.direction, level := ha.level
      dimension := ha.dimension, length := ha.length, nonzero := ha.nonzero, inRange := ha.inRange
      edgeCount := by rw [hsum, f5, hcard] }
  obtain ⟨hok', g1, g2, g3, g4, g5⟩ := decoded_spec hvalid
  refine ⟨decoded b, (tryFrom_iff hP' _).2 ⟨hvalid, rfl⟩, sameC hok' hc ?_ (by rw [g4, f8]) (by rw [g1, f6])
    (by rw [g2, f5]) ?_⟩
  · rw [g3, f7]; cases c.isUndirected <;> rfl
  · intro x y
    rw [g5, f9]
    have hfind := find_of_nodup (SqMatrix.items_keys_nodup hc.wf o) x y
    ext e
    rw [hfind]
    exact SqMatrix.mem_items hc.wf o

/-- **C32.** Round trip of compressed graphs. (In the code `g.edge_count()` is a `u64`.) -/
theorem C32_round_trip {g : Graph} (hg : GReach g) (hE : g.edgeCount ≤ U64_MAX) {P P' P'' : Platform}
    {o₁ o₂ o : HashOrder} {l : Nat} {c : CGraph} {b : Bytes} (hc : g.compress P o₁ o₂ l = .ok c)
    (hP : P'.usizeMax ≤ U64_MAX) (hb : c.toBytes P' o = .ok b) (hP' : b.length ≤ P''.usizeMax) :
    ∃ c', CGraph.tryFrom P'' b = .ok c' ∧ SameC c' c :=
  cdecode_encode (CReach.compress _ _ _ _ hg hc).ok (C25_edge_count_exact hg hE P o₁ o₂ l hc).1 hP hb hP'

example : GReach exC ∧ exC.edgeCount ≤ U64_MAX ∧ okAnd (exC.compress exP .id .id 2) fun c =>
    okAnd (c.toBytes exP .rev) fun b => decide (b.length ≤ exP.usizeMax) && okAnd (CGraph.tryFrom exP b) fun c' =>
      c'.edgeCount == 5 :=
  ⟨exC_reach, by decide +kernel, by decide +kernel⟩

/-! ## C35 -/

/-- The full statement of C35. -/
def C35_full : Prop :=
  ∀ (P : Platform) (b : Bytes) (c : CGraph), CGraph.tryFrom P b = .ok c →
    c.edgeCount = ((Finset.range c.vertexCount ×ˢ Finset.range c.vertexCount).filter
      fun p => c.doesEdgeExist p.1 p.2 = true).card

/-- One vertex with a loop, the only block listed twice. -/
def dupF : Bytes := compressedFile false 1 1 2 1 [(1, 0, 0), (1, 0, 0)]

/-- **C35 is false**: a block listed twice is counted twice. -/
theorem C35_full_false : ¬ C35_full := by
  intro h
  obtain ⟨c, hc, hx⟩ := okAnd_elim (show okAnd (CGraph.tryFrom exP dupF)
    (fun c => c.edgeCount == 2 && c.vertexCount == 1) = true by decide +kernel)
  simp only [Bool.and_eq_true, beq_iff_eq] at hx
  have h1 := h exP dupF c hc
  have h2 : ((Finset.range c.vertexCount ×ˢ Finset.range c.vertexCount).filter
      fun p => c.doesEdgeExist p.1 p.2 = true).card ≤ (Finset.range c.vertexCount ×ˢ Finset.range c.vertexCount).card :=
    Finset.card_filter_le _ _
  rw [← h1, hx.1, hx.2] at h2
  simp at h2

theorem pairs_of_distinct {P : Platform} {b : Bytes} {c : CGraph} (h : CGraph.tryFrom P b = .ok c)
    (hd : ((listedBlocks b (field b 16 8)).map fun e => (e.2.1, e.2.2)).Nodup) : c.edgeCount = c.pairs.card := by
  obtain ⟨hv, rfl⟩ := (tryFrom_iff (tryFrom_length h) c).1 h
  obtain ⟨hok, h1, h2, h3, h4, h5⟩ := decoded_spec hv
  rw [h2, ← hv.edgeCount, ← sum_keys hok, ← sum_items hok.wf HashOrder.id]
  simp only [ones_eq]
  apply List.Perm.sum_eq
  apply List.Perm.map
  rw [List.perm_ext_iff_of_nodup]
  · rintro ⟨e, x, y⟩
    rw [SqMatrix.mem_items hok.wf]
    have := h5 x y
    unfold CGraph.at? at this
    rw [this, find_of_nodup hd]
  · exact List.Nodup.of_map _ hd
  · exact List.Nodup.of_map _ (SqMatrix.items_keys_nodup hok.wf HashOrder.id)

/-- A sublist with the same sum of positive summands is the whole list. -/
theorem sublist_eq_of_sum {α : Type*} (f : α → Nat) {l l' : List α} (hs : l'.Sublist l) (hpos : ∀ a ∈ l, 0 < f a)
    (h : (l.map f).sum ≤ (l'.map f).sum) : l' = l := by
  induction hs with
  | slnil => rfl
  | @cons l₁ l₂ a hs ih =>
    exfalso
    have h1 := (hs.map f).sum_le_sum fun _ _ => Nat.zero_le _
    have h2 := hpos a (by simp)
    simp only [List.map_cons, List.sum_cons] at h
    omega
  | @cons_cons l₁ l₂ a hs ih =>
    simp only [List.map_cons, List.sum_cons] at h
    rw [ih (fun b hb => hpos b (by simp [hb])) (by omega)]

theorem items_subperm {b : Bytes} (hv : ValidCompressedFile b) :
    ((decoded b).adjacencyMatrix.items HashOrder.id).Subperm (listedBlocks b (field b 16 8)) := by
  obtain ⟨hok, h1, h2, h3, h4, h5⟩ := decoded_spec hv
  apply List.subperm_of_subset (List.Nodup.of_map _ (SqMatrix.items_keys_nodup hok.wf HashOrder.id))
  rintro ⟨e, x, y⟩ he
  rw [SqMatrix.mem_items hok.wf] at he
  have h6 := h5 x y
  unfold CGraph.at? at h6
  rw [he] at h6
  obtain ⟨z, hz, hz1⟩ := Option.map_eq_some_iff.1 h6.symm
  have hm := List.mem_reverse.1 (List.mem_of_find?_eq_some hz)
  have hc := List.find?_some hz
  simp only [decide_eq_true_eq] at hc
  obtain ⟨z1, z2, z3⟩ := z
  simp only at hz1 hc
  rw [← hz1, ← hc.1, ← hc.2]; exact hm

theorem pairs_le {P : Platform} {b : Bytes} {c : CGraph} (h : CGraph.tryFrom P b = .ok c) :
    c.pairs.card ≤ c.edgeCount := by
  obtain ⟨hv, rfl⟩ := (tryFrom_iff (tryFrom_length h) c).1 h
  obtain ⟨hok, h1, h2, h3, h4, h5⟩ := decoded_spec hv
  rw [h2, ← hv.edgeCount, ← sum_keys hok, ← sum_items hok.wf HashOrder.id]
  simp only [ones_eq]
  obtain ⟨l', hp, hs⟩ := items_subperm hv
  rw [← (hp.map fun e => popCount e.1).sum_eq]
  exact (hs.map fun e => popCount e.1).sum_le_sum fun _ _ => Nat.zero_le _

theorem pairs_eq_iff {P : Platform} {b : Bytes} {c : CGraph} (h : CGraph.tryFrom P b = .ok c) :
    c.edgeCount = c.pairs.card ↔ ((listedBlocks b (field b 16 8)).map fun e => (e.2.1, e.2.2)).Nodup := by
  refine ⟨fun he => ?_, pairs_of_distinct h⟩
  obtain ⟨hv, rfl⟩ := (tryFrom_iff (tryFrom_length h) c).1 h
  obtain ⟨hok, h1, h2, h3, h4, h5⟩ := decoded_spec hv
  rw [h2, ← hv.edgeCount, ← sum_keys hok, ← sum_items hok.wf HashOrder.id] at he
  simp only [ones_eq] at he
  obtain ⟨l', hp, hs⟩ := items_subperm hv
  rw [← (hp.map fun e => popCount e.1).sum_eq] at he
  have hl : l' = listedBlocks b (field b 16 8) := by
    refine sublist_eq_of_sum (fun e => popCount e.1) hs ?_ he.le
    intro e hm
    have h0 := hv.nonzero e hm
    have hlt : e.1 < 2 ^ 64 := by
      obtain ⟨i, -, rfl⟩ := List.mem_map.1 hm
      have : field b (42 + 24 * i) 8 < 256 ^ 8 := field_lt
      exact lt_of_lt_of_le this (by norm_num)
    exact popCount_pos hlt h0
  rw [← hl]
  exact (hp.map _).nodup_iff.2 (SqMatrix.items_keys_nodup hok.wf HashOrder.id)

/-- **C35, the part that holds** (`C35_full` is false): the count is exact when, and only when, no block is listed
twice; otherwise it is too large. -/
theorem C35_decoded_edge_count_partial {P : Platform} {b : Bytes} {c : CGraph} (h : CGraph.tryFrom P b = .ok c) :
    (c.edgeCount = ((Finset.range c.vertexCount ×ˢ Finset.range c.vertexCount).filter
        fun p => c.doesEdgeExist p.1 p.2 = true).card ↔
      ((listedBlocks b (field b 16 8)).map fun e => (e.2.1, e.2.2)).Nodup) ∧
    ((Finset.range c.vertexCount ×ˢ Finset.range c.vertexCount).filter
        fun p => c.doesEdgeExist p.1 p.2 = true).card ≤ c.edgeCount :=
  ⟨pairs_eq_iff h, pairs_le h⟩

example : okAnd (CGraph.tryFrom exP exF) (fun c => c.edgeCount == 3) ∧
    ((listedBlocks exF (field exF 16 8)).map fun e => (e.2.1, e.2.2)).Nodup := by decide +kernel

/-! ## C36 -/

/-- The full statement of C36. -/
def C36_full : Prop :=
  ∀ (P : Platform) (b : Bytes) (c : CGraph), CGraph.tryFrom P b = .ok c → c.isUndirected = true →
    ∀ u v, c.doesEdgeExist u v = c.doesEdgeExist v u

/-- Two vertices, undirected, only the bit for the edge from 1 to 0. -/
def asymF : Bytes := compressedFile true 1 1 1 2 [(2, 0, 0)]

/-- **C36 is false**: the decoder accepts an undirected file with an asymmetric block. -/
theorem C36_full_false : ¬ C36_full := by
  intro h
  obtain ⟨c, hc, hx⟩ := okAnd_elim (show okAnd (CGraph.tryFrom exP asymF)
    (fun c => c.isUndirected && c.doesEdgeExist 1 0 && !c.doesEdgeExist 0 1) = true by decide +kernel)
  simp only [Bool.and_eq_true, Bool.not_eq_true'] at hx
  have := h exP asymF c hc hx.1.1 1 0
  rw [hx.1.2, hx.2] at this
  cases this

/-- **C36, the exact rule** (`C36_full` is false): decompression gives exactly the symmetric closure, so it gives the edges of the
compressed graph if and only if those are symmetric. -/
theorem C36_decoded_undirected_partial {P : Platform} {b : Bytes} {c : CGraph} (h : CGraph.tryFrom P b = .ok c)
    (hu : c.isUndirected = true) (P' : Platform) (o : HashOrder) :
    ∃ d, c.decompress P' o = .ok d ∧ d.isUndirected = true ∧ d.vertexCount = c.vertexCount ∧
      (∀ u v, d.doesEdgeExist u v = true ↔ c.doesEdgeExist u v = true ∨ c.doesEdgeExist v u = true) ∧
      (d.doesEdgeExist = c.doesEdgeExist ↔ ∀ u v, c.doesEdgeExist u v = c.doesEdgeExist v u) := by
  obtain ⟨d, hd, hdok, hdu, hdv, he⟩ := decompress_spec (CReach.tryFrom P b h).ok P' o
  have hiff : ∀ u v, d.doesEdgeExist u v = true ↔ c.doesEdgeExist u v = true ∨ c.doesEdgeExist v u = true := by
    intro u v
    rw [he u v]
    exact or_congr Iff.rfl ⟨fun h => h.2, fun h => ⟨hu, h⟩⟩
  refine ⟨d, hd, hdu.trans hu, hdv, hiff, fun heq u v => ?_, fun hs => ?_⟩
  · have := Graph.edge_symm hdok (hdu.trans hu) u v
    rwa [heq] at this
  · funext u v
    rw [Bool.eq_iff_iff, hiff, hs v u, or_self]

example : okAnd (CGraph.tryFrom exP asymF) fun c => c.isUndirected && okAnd (c.decompress exP .id) fun d =>
    d.edgeCount == 2 := by decide +kernel

/-! ## C37 -/

/-- The full statement of C37. -/
def C37_full : Prop :=
  ∀ (P P' P'' : Platform) (o : HashOrder) (b b' : Bytes) (c : CGraph), P'.usizeMax ≤ U64_MAX →
    CGraph.tryFrom P b = .ok c → c.toBytes P' o = .ok b' → b'.length ≤ P''.usizeMax →
    ∃ c', CGraph.tryFrom P'' b' = .ok c' ∧ SameC c' c

/-- **C37 is false**: after reading a file with a duplicate block, the bytes written are rejected. -/
theorem C37_full_false : ¬ C37_full := by
  intro h
  obtain ⟨c, hc, hx⟩ := okAnd_elim (show okAnd (CGraph.tryFrom exP dupF)
    (fun c => okAnd (c.toBytes exP .id) fun b' => decide (b'.length ≤ exP.usizeMax) &&
      errIs (CGraph.tryFrom exP b') (.InvalidFormat "CompressedGraph edge count does not match header")) = true by
        decide +kernel)
  obtain ⟨b', hb', hx⟩ := okAnd_elim hx
  simp only [Bool.and_eq_true, decide_eq_true_eq] at hx
  obtain ⟨c', hc', _⟩ := h exP exP exP .id dupF b' c le_rfl hc hb' hx.1
  rw [hc'] at hx
  simp [errIs] at hx

/-- **C37, the part that holds** (`C37_full` is false): a file can be read and saved again when, and only when, it
lists no block twice; otherwise what is saved is rejected. -/
theorem C37_resave_partial {P P' P'' : Platform} {o : HashOrder} {b b' : Bytes} {c : CGraph}
    (h : CGraph.tryFrom P b = .ok c)
    (hP : P'.usizeMax ≤ U64_MAX) (hb : c.toBytes P' o = .ok b') (hP' : b'.length ≤ P''.usizeMax) :
    (((listedBlocks b (field b 16 8)).map fun e => (e.2.1, e.2.2)).Nodup →
      ∃ c', CGraph.tryFrom P'' b' = .ok c' ∧ SameC c' c) ∧
    (¬ ((listedBlocks b (field b 16 8)).map fun e => (e.2.1, e.2.2)).Nodup →
      ∃ msg, CGraph.tryFrom P'' b' = .err (.InvalidFormat msg)) := by
  refine ⟨fun hd => cdecode_encode (CReach.tryFrom P b h).ok (pairs_of_distinct h hd) hP hb hP', fun hd => ?_⟩
  rcases C33_decode_total P'' b' hP' with ⟨c', h'⟩ | h'
  · exfalso
    apply hd
    rw [← pairs_eq_iff h]
    have hv := ((tryFrom_iff hP' c').1 h').1
    obtain ⟨-, hs, he⟩ := encoded_facts (CReach.tryFrom P b h).ok hP hb
    rw [← he, ← hs, hv.edgeCount]
  · exact h'

example : okAnd (CGraph.tryFrom exP dupF) (fun c => okAnd (c.toBytes exP .id) fun b' => b'.length == 66) ∧
    ¬ ((listedBlocks dupF (field dupF 16 8)).map fun e => (e.2.1, e.2.2)).Nodup := by
  decide +kernel

example : okAnd (CGraph.tryFrom exP exF) (fun c => okAnd (c.toBytes exP .id) fun b' => b'.length == 90) := by
  decide +kernel

end Verif.Props
