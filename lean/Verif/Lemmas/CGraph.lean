import Mathlib.Algebra.BigOperators.Group.Finset.Sigma
import Mathlib.Algebra.BigOperators.Group.List.Basic
import Verif.Lemmas.Bits
import Verif.Lemmas.SqMatrix

/-! Lemmas about compressed graphs: builder, queries, decompression. -/

namespace Verif
open Spec

namespace CGraph

/-- The stored word of a block, if any. -/
def at? (g : CGraph) (c r : Nat) : Option Nat := g.adjacencyMatrix.at? c r

theorem getEntry_at (g : CGraph) (c r : Nat) : g.getCompressedMatrixEntry c r = (g.at? c r).getD 0 := by
  unfold getCompressedMatrixEntry
  rw [SqMatrix.getEntry_eq]; rfl

/-- `does_edge_exist` reads one bit. -/
theorem doesEdgeExist_eq (g : CGraph) (u v : Nat) :
    g.doesEdgeExist u v = (g.getCompressedMatrixEntry (u / 8) (v / 8)).testBit (8 * (v % 8) + u % 8) := by
  unfold doesEdgeExist
  change (if g.getCompressedMatrixEntry (u / 8) (v / 8) = 0 then false else _) = _
  by_cases h : g.getCompressedMatrixEntry (u / 8) (v / 8) = 0
  · rw [if_pos h, h, Nat.zero_testBit]
  · rw [if_neg h, Bool.eq_iff_iff, decide_eq_true_eq]
    exact shift_and_one _ _

theorem doesEdgeExist_iff {g : CGraph} {u v : Nat} :
    g.doesEdgeExist u v = true ↔
      ∃ e, g.at? (u / 8) (v / 8) = some e ∧ e.testBit (8 * (v % 8) + u % 8) = true := by
  rw [doesEdgeExist_eq, getEntry_at]
  cases g.at? (u / 8) (v / 8) <;> simp

/-- Bits of a stored word are edges. -/
theorem doesEdgeExist_block (g : CGraph) (c r j : Nat) (hj : j < 64) :
    g.doesEdgeExist (c * 8 + j % 8) (r * 8 + j / 8) = (g.getCompressedMatrixEntry c r).testBit j := by
  rw [doesEdgeExist_eq]
  have e1 : (c * 8 + j % 8) / 8 = c := by omega
  have e2 : (r * 8 + j / 8) / 8 = r := by omega
  have e3 : 8 * ((r * 8 + j / 8) % 8) + (c * 8 + j % 8) % 8 = j := by omega
  rw [e1, e2, e3]

theorem blockCount_eq (g : CGraph) (c r : Nat) :
    blockCount g.doesEdgeExist 8 c r = popCount (g.getCompressedMatrixEntry c r) := by
  rw [← countOf_blockBits, popCount_eq, countOf_card, countOf_card]
  congr 1
  apply Finset.filter_congr
  intro j hj
  rw [Finset.mem_range] at hj
  unfold blockBits
  rw [doesEdgeExist_block g c r j hj]

/-! ## Builder -/

theorem dim_pos (n : Nat) : 0 < compressedMatrixDimension n := by
  unfold compressedMatrixDimension COMPRESSION_BLOCK_DIMENSION; simp only; split <;> omega

theorem dim_le {n : Nat} (h : n ≤ U64_MAX) : compressedMatrixDimension n ≤ U64_MAX := by
  unfold compressedMatrixDimension COMPRESSION_BLOCK_DIMENSION at *; simp only
  have : (8 : Nat) < U64_MAX := by decide
  split <;> omega

theorem dim_le_pow {n : Nat} (h : n ≤ U64_MAX) : compressedMatrixDimension n ≤ 2 ^ 61 := by
  unfold compressedMatrixDimension COMPRESSION_BLOCK_DIMENSION U64_MAX at *; simp only
  split <;> omega

theorem div8_lt_dim {n x : Nat} (h : x < n) : x / 8 < compressedMatrixDimension n := by
  unfold compressedMatrixDimension COMPRESSION_BLOCK_DIMENSION; simp only
  split <;> omega

theorem dim_eq_ceil {n : Nat} : compressedMatrixDimension n = max 1 (ceilDiv n 8) := by
  unfold compressedMatrixDimension COMPRESSION_BLOCK_DIMENSION ceilDiv; simp only
  split <;> omega

theorem u64_eq_zero (e : Nat) : u64Fmt.eq e u64Fmt.zero = (e == 0) := rfl

theorem builderNew_at (u : Bool) {n : Nat} (hn : n ≤ U64_MAX) (l : Nat) :
    (∀ c r, (builderNew u n l).at? c r = none) ∧
    (builderNew u n l).adjacencyMatrix.dimension = compressedMatrixDimension n ∧
    (builderNew u n l).adjacencyMatrix.WF := by
  have h8 : (8 : Nat) < U64_MAX := by decide
  have hcc : (if n % 8 = 0 ∧ n / 8 ≠ 0 then n / 8 - 1 else n / 8) < U64_MAX := by split <;> omega
  have he : u64Fmt.toNumeric.eq 0 u64Fmt.toNumeric.zero = true := rfl
  have hm := SqMatrix.setEntry_zero (m := SqMatrix.new) hcc (by decide : 0 < U64_MAX) he
  unfold builderNew COMPRESSION_BLOCK_DIMENSION at?
  simp only
  refine ⟨?_, ?_, SqMatrix.WF.new.setEntry _ _ _ _⟩
  · intro c r; rw [hm]; exact SqMatrix.new_at c r
  · rw [hm]
    simp only [SqMatrix.new]
    unfold compressedMatrixDimension COMPRESSION_BLOCK_DIMENSION; simp only
    split <;> split <;> omega

/-- Adding blocks with their true weight. -/
def addBlocks (g : CGraph) (l : List (Nat × Nat × Nat)) : CGraph :=
  l.foldl (fun g e => g.builderAdd e.1 e.2.1 e.2.2 (some (popCount e.1))) g

theorem addBlocks_nil (g : CGraph) : g.addBlocks [] = g := rfl

theorem addBlocks_append (g : CGraph) (l l' : List (Nat × Nat × Nat)) :
    g.addBlocks (l ++ l') = (g.addBlocks l).addBlocks l' := by
  unfold addBlocks; rw [List.foldl_append]

theorem addBlocks_cons (g : CGraph) (e : Nat × Nat × Nat) (l : List (Nat × Nat × Nat)) :
    g.addBlocks (e :: l) = (g.builderAdd e.1 e.2.1 e.2.2 (some (popCount e.1))).addBlocks l := rfl

@[simp] theorem addBlocks_vertexCount (g : CGraph) (l) : (g.addBlocks l).vertexCount = g.vertexCount := by
  induction l generalizing g with
  | nil => rfl
  | cons e l ih => rw [addBlocks_cons, ih]; rfl
@[simp] theorem addBlocks_isUndirected (g : CGraph) (l) : (g.addBlocks l).isUndirected = g.isUndirected := by
  induction l generalizing g with
  | nil => rfl
  | cons e l ih => rw [addBlocks_cons, ih]; rfl
@[simp] theorem addBlocks_level (g : CGraph) (l) : (g.addBlocks l).compressionLevel = g.compressionLevel := by
  induction l generalizing g with
  | nil => rfl
  | cons e l ih => rw [addBlocks_cons, ih]; rfl

theorem addBlocks_edgeCount {g : CGraph} (h : g.edgeCount ≤ U64_MAX) (l : List (Nat × Nat × Nat)) :
    (g.addBlocks l).edgeCount = min U64_MAX (g.edgeCount + (l.map fun e => popCount e.1).sum) := by
  induction l generalizing g with
  | nil => rw [addBlocks_nil]; simp; exact h
  | cons e l ih =>
    rw [addBlocks_cons, ih]
    · simp only [builderAdd, saturatingAdd, List.map_cons, List.sum_cons]
      split <;> omega
    · simp only [builderAdd, saturatingAdd]
      split <;> omega

/-- Blocks that may be added to a matrix of dimension `d`. -/
def Fits (d : Nat) (e : Nat × Nat × Nat) : Prop := e.1 ≠ 0 ∧ e.2.1 < d ∧ e.2.2 < d

theorem addBlocks_matrix {g : CGraph} (hwf : g.adjacencyMatrix.WF) (l : List (Nat × Nat × Nat))
    (hl : ∀ e ∈ l, Fits g.adjacencyMatrix.dimension e) :
    (g.addBlocks l).adjacencyMatrix.WF ∧
    (g.addBlocks l).adjacencyMatrix.dimension = g.adjacencyMatrix.dimension ∧
    ∀ c r, (g.addBlocks l).at? c r =
      ((l.reverse.find? (fun e => decide (e.2.1 = c ∧ e.2.2 = r))).map Prod.fst).or (g.at? c r) := by
  induction l generalizing g with
  | nil => exact ⟨hwf, rfl, fun c r => by simp [addBlocks_nil]⟩
  | cons e l ih =>
    obtain ⟨h0, hc, hr⟩ := hl e (by simp)
    have hd := hwf.dim
    have hcU : e.2.1 < U64_MAX := by omega
    have hrU : e.2.2 < U64_MAX := by omega
    have he : u64Fmt.toNumeric.eq e.1 u64Fmt.toNumeric.zero = false := by
      rw [u64_eq_zero]; simpa using h0
    have hdim := SqMatrix.setEntry_dimension (N := u64Fmt.toNumeric) (m := g.adjacencyMatrix) (e := e.1) hcU hrU
    have hat := SqMatrix.setEntry_at (m := g.adjacencyMatrix) hcU hrU he
    have hdim' : (g.builderAdd e.1 e.2.1 e.2.2 (some (popCount e.1))).adjacencyMatrix.dimension =
        g.adjacencyMatrix.dimension := by
      change (g.adjacencyMatrix.setEntry u64Fmt.toNumeric e.1 e.2.1 e.2.2).dimension = _
      rw [hdim]; omega
    obtain ⟨h1, h2, h3⟩ := ih (g := g.builderAdd e.1 e.2.1 e.2.2 (some (popCount e.1))) (hwf.setEntry _ _ _ _)
      (by rw [hdim']; intro e' he'; exact hl e' (by simp [he']))
    rw [addBlocks_cons]
    refine ⟨h1, h2.trans hdim', fun c r => ?_⟩
    rw [h3, List.reverse_cons, List.find?_append]
    have hat' : (g.builderAdd e.1 e.2.1 e.2.2 (some (popCount e.1))).at? c r =
        if c = e.2.1 ∧ r = e.2.2 then some e.1 else g.at? c r := hat c r
    rw [hat']
    cases l.reverse.find? (fun e => decide (e.2.1 = c ∧ e.2.2 = r)) with
    | some x => simp
    | none =>
      simp only [Option.map_none, Option.none_or, List.find?_singleton, decide_eq_true_eq]
      by_cases hcr : c = e.2.1 ∧ r = e.2.2
      · rw [if_pos hcr, if_pos ⟨hcr.1.symm, hcr.2.symm⟩]; rfl
      · rw [if_neg hcr, if_neg (fun h => hcr ⟨h.1.symm, h.2.symm⟩)]; rfl

/-- With distinct coordinates the matrix is exactly the list. -/
theorem find_of_nodup {l : List (Nat × Nat × Nat)} (hn : (l.map fun e => (e.2.1, e.2.2)).Nodup) (c r x : Nat) :
    (l.reverse.find? (fun e => decide (e.2.1 = c ∧ e.2.2 = r))).map Prod.fst = some x ↔ (x, c, r) ∈ l := by
  rw [Option.map_eq_some_iff]
  constructor
  · rintro ⟨⟨x', c', r'⟩, h, rfl⟩
    have h1 := List.find?_some h
    have h2 := List.mem_of_find?_eq_some h
    simp only [decide_eq_true_eq] at h1
    obtain ⟨rfl, rfl⟩ := h1
    exact List.mem_reverse.1 h2
  · intro h
    cases hf : l.reverse.find? (fun e => decide (e.2.1 = c ∧ e.2.2 = r)) with
    | none =>
      rw [List.find?_eq_none] at hf
      exact absurd (decide_eq_true ⟨rfl, rfl⟩) (hf (x, c, r) (List.mem_reverse.2 h))
    | some y =>
      obtain ⟨x', c', r'⟩ := y
      have h1 := List.find?_some hf
      have h2 := List.mem_reverse.1 (List.mem_of_find?_eq_some hf)
      simp only [decide_eq_true_eq] at h1
      obtain ⟨rfl, rfl⟩ := h1
      have := List.inj_on_of_nodup_map hn h h2 rfl
      simp only [Prod.mk.injEq] at this
      exact ⟨_, rfl, this.1.symm⟩

theorem addBlocks_new_at {u : Bool} {n lv : Nat} (hn : n ≤ U64_MAX) {l : List (Nat × Nat × Nat)}
    (hl : ∀ e ∈ l, Fits (compressedMatrixDimension n) e) (hd : (l.map fun e => (e.2.1, e.2.2)).Nodup) (c r x : Nat) :
    ((builderNew u n lv).addBlocks l).at? c r = some x ↔ (x, c, r) ∈ l := by
  obtain ⟨h1, h2, h3⟩ := builderNew_at u hn lv
  obtain ⟨_, _, h⟩ := addBlocks_matrix h3 l (by rw [h2]; exact hl)
  rw [h, h1, Option.or_none, find_of_nodup hd]

/-! ## Invariant -/

/-- What holds of every compressed graph obtainable through the safe API. -/
structure OK (g : CGraph) : Prop where
  wf : g.adjacencyMatrix.WF
  dim : g.adjacencyMatrix.dimension = compressedMatrixDimension g.vertexCount
  word : ∀ c r e, g.at? c r = some e → e ≠ 0 ∧ e < 2 ^ 64
  range : ∀ u v, g.doesEdgeExist u v = true → u < g.vertexCount ∧ v < g.vertexCount
  level : 1 ≤ g.compressionLevel ∧ g.compressionLevel ≤ 64
  vc : g.vertexCount ≤ U64_MAX
  ec : g.edgeCount ≤ U64_MAX

/-- Existing edges as a set. -/
def pairs (g : CGraph) : Finset (Nat × Nat) :=
  (Finset.range g.vertexCount ×ˢ Finset.range g.vertexCount).filter fun p => g.doesEdgeExist p.1 p.2 = true

theorem mem_pairs {g : CGraph} (h : g.OK) {u v : Nat} : (u, v) ∈ g.pairs ↔ g.doesEdgeExist u v = true := by
  unfold pairs
  rw [Finset.mem_filter, Finset.mem_product, Finset.mem_range, Finset.mem_range]
  exact ⟨fun x => x.2, fun x => ⟨h.range u v x, x⟩⟩

/-- The stored words account for every edge. -/
theorem sum_keys {g : CGraph} (h : g.OK) :
    ∑ p ∈ g.adjacencyMatrix.keys, popCount (g.getCompressedMatrixEntry p.1 p.2) = g.pairs.card := by
  rw [Finset.card_eq_sum_card_fiberwise (f := fun p : Nat × Nat => (p.1 / 8, p.2 / 8)) (t := g.adjacencyMatrix.keys)]
  · apply Finset.sum_congr rfl
    rintro ⟨c, r⟩ _
    rw [← blockCount_eq]
    unfold blockCount
    refine Finset.card_bij (fun p _ => (c * 8 + p.1, r * 8 + p.2)) ?_ ?_ ?_
    · rintro ⟨i, j⟩ hp
      rw [Finset.mem_filter, Finset.mem_product, Finset.mem_range, Finset.mem_range] at hp
      rw [Finset.mem_filter, mem_pairs h]
      refine ⟨hp.2, ?_⟩
      simp only [Prod.mk.injEq]; omega
    · rintro ⟨i, j⟩ _ ⟨i', j'⟩ _ heq
      simp only [Prod.mk.injEq] at heq ⊢
      omega
    · rintro ⟨u, v⟩ hp
      rw [Finset.mem_filter, mem_pairs h] at hp
      obtain ⟨he, hd⟩ := hp
      simp only [Prod.mk.injEq] at hd
      refine ⟨(u % 8, v % 8), ?_, ?_⟩
      · rw [Finset.mem_filter, Finset.mem_product, Finset.mem_range, Finset.mem_range]
        refine ⟨⟨Nat.mod_lt _ (by norm_num), Nat.mod_lt _ (by norm_num)⟩, ?_⟩
        have e1 : c * 8 + u % 8 = u := by omega
        have e2 : r * 8 + v % 8 = v := by omega
        simp only [e1, e2]; exact he
      · simp only [Prod.mk.injEq]; omega
  · rintro ⟨u, v⟩ hp
    rw [Finset.mem_coe, mem_pairs h, doesEdgeExist_iff] at hp
    obtain ⟨e, he, _⟩ := hp
    exact SqMatrix.mem_keys.2 ⟨e, he⟩

theorem sum_items {g : CGraph} (hwf : g.adjacencyMatrix.WF) (o : HashOrder) :
    ((g.adjacencyMatrix.items o).map fun e => popCount e.1).sum =
      ∑ p ∈ g.adjacencyMatrix.keys, popCount (g.getCompressedMatrixEntry p.1 p.2) := by
  have hk : g.adjacencyMatrix.keys = ((g.adjacencyMatrix.items o).map fun e => (e.2.1, e.2.2)).toFinset := by
    ext ⟨c, r⟩
    rw [SqMatrix.mem_keys, List.mem_toFinset, List.mem_map]
    constructor
    · rintro ⟨v, hv⟩; exact ⟨(v, c, r), (SqMatrix.mem_items hwf o).2 hv, rfl⟩
    · rintro ⟨⟨v, c', r'⟩, h, heq⟩
      simp only [Prod.mk.injEq] at heq
      obtain ⟨rfl, rfl⟩ := heq
      exact ⟨v, (SqMatrix.mem_items hwf o).1 h⟩
  rw [hk, List.sum_toFinset _ (SqMatrix.items_keys_nodup hwf o), List.map_map]
  congr 1
  apply List.map_congr_left
  rintro ⟨v, c, r⟩ h
  rw [SqMatrix.mem_items hwf] at h
  simp only [Function.comp]
  rw [getEntry_at]
  unfold at?
  rw [h]; rfl

/-! ## Decompression -/

/-- Edges of one stored word, in bit order. -/
def wordEdges (e c r : Nat) : List (Nat × Nat) :=
  ((List.range 64).filter fun i => e.testBit i).map fun i => (c * 8 + i % 8, r * 8 + i / 8)

theorem decompress_word (P : Platform) (e c r : Nat) (hc : c * 8 + 7 ≤ U64_MAX) (hr : r * 8 + 7 ≤ U64_MAX) (g : Graph) :
    Res.foldl (decompressBit P e c r) (g, 1) (List.range 64) =
      .ok ((wordEdges e c r).foldl (fun g e => g.addEdge e.1 e.2) g, 2 ^ 64 % (U64_MAX + 1)) := by
  have key : ∀ n ≤ 64, Res.foldl (decompressBit P e c r) (g, 1) (List.range n) =
      .ok ((((List.range n).filter fun i => e.testBit i).map fun i => (c * 8 + i % 8, r * 8 + i / 8)).foldl
        (fun g e => g.addEdge e.1 e.2) g, 2 ^ n % (U64_MAX + 1)) := by
    intro n
    induction n with
    | zero => intro _; rfl
    | succ n ih =>
      intro hn
      rw [List.range_succ, Res.foldl_append, ih (by omega)]
      have hmod : 2 ^ n % (U64_MAX + 1) = 2 ^ n := by
        apply Nat.mod_eq_of_lt
        have : (2 : Nat) ^ n ≤ 2 ^ 63 := Nat.pow_le_pow_right (by norm_num) (by omega)
        unfold U64_MAX; omega
      rw [hmod]
      change (decompressBit P e c r (_, 2 ^ n) n).bind _ = _
      have h1 : P.u64Mul c 8 = .ok (c * 8) := by
        unfold Platform.u64Mul Platform.wrapTo; rw [if_pos (by omega)]
      have h2 : P.u64Mul r 8 = .ok (r * 8) := by
        unfold Platform.u64Mul Platform.wrapTo; rw [if_pos (by omega)]
      have h3 : P.u64Add (c * 8) (n % 8) = .ok (c * 8 + n % 8) := by
        unfold Platform.u64Add Platform.wrapTo; rw [if_pos (by omega)]
      have h4 : P.u64Add (r * 8) (n / 8) = .ok (r * 8 + n / 8) := by
        unfold Platform.u64Add Platform.wrapTo; rw [if_pos (by omega)]
      have hpow : 2 ^ n <<< 1 % (U64_MAX + 1) = 2 ^ (n + 1) % (U64_MAX + 1) := by
        rw [Nat.shiftLeft_eq, pow_one, ← pow_succ]
      rw [List.filter_append, List.map_append, List.foldl_append]
      unfold decompressBit COMPRESSION_BLOCK_DIMENSION
      by_cases hb : e.testBit n = true
      · rw [if_pos ((and_two_pow e n).2 hb)]
        simp only [h1, h2, h3, h4, Res.bind_ok, hpow, List.filter_cons, hb, if_true, List.filter_nil]
        rfl
      · rw [if_neg (fun h => hb ((and_two_pow e n).1 h))]
        simp only [Res.bind_ok, hpow, List.filter_cons, hb, List.filter_nil, Bool.false_eq_true, if_false]
        rfl
  exact key 64 le_rfl

/-- The graph with `n` vertices and no edges that `decompress` starts from. -/
def start (g : CGraph) : Graph :=
  let graph := if g.isUndirected then Graph.newUndirected else Graph.newDirected
  if g.vertexCount > 0 then graph.addVertex (g.vertexCount - 1) none else graph

theorem coord_bound {g : CGraph} (h : g.OK) {c r e : Nat} (he : g.at? c r = some e) :
    c * 8 + 7 ≤ U64_MAX ∧ r * 8 + 7 ≤ U64_MAX := by
  have hb := h.wf.bound (c, r) (SqMatrix.mem_keys.2 ⟨e, he⟩)
  rw [h.dim] at hb
  have hv := h.vc
  have hd := dim_le_pow hv
  simp only at hb
  unfold U64_MAX; omega

theorem decompress_eq {g : CGraph} (h : g.OK) (P : Platform) (o : HashOrder) :
    g.decompress P o = .ok
      (((g.adjacencyMatrix.items o).flatMap fun x => wordEdges x.1 x.2.1 x.2.2).foldl
        (fun g e => g.addEdge e.1 e.2) g.start) := by
  unfold decompress
  change Res.foldl _ g.start _ = _
  rw [List.foldl_flatMap]
  apply Res.foldl_ok
  rintro b ⟨e, c, r⟩ hx
  rw [SqMatrix.mem_items h.wf] at hx
  obtain ⟨hc, hr⟩ := coord_bound h hx
  simp only
  rw [decompress_word P e c r hc hr]; rfl

theorem mem_wordEdges {g : CGraph} (h : g.OK) (o : HashOrder) (u v : Nat) :
    (u, v) ∈ ((g.adjacencyMatrix.items o).flatMap fun x => wordEdges x.1 x.2.1 x.2.2) ↔
      g.doesEdgeExist u v = true := by
  rw [List.mem_flatMap, doesEdgeExist_iff]
  constructor
  · rintro ⟨⟨e, c, r⟩, hx, hm⟩
    rw [SqMatrix.mem_items h.wf] at hx
    unfold wordEdges at hm
    rw [List.mem_map] at hm
    obtain ⟨i, hi, heq⟩ := hm
    rw [List.mem_filter, List.mem_range] at hi
    simp only [Prod.mk.injEq] at heq
    obtain ⟨rfl, rfl⟩ := heq
    have e1 : (c * 8 + i % 8) / 8 = c := by omega
    have e2 : (r * 8 + i / 8) / 8 = r := by omega
    have e3 : 8 * ((r * 8 + i / 8) % 8) + (c * 8 + i % 8) % 8 = i := by omega
    rw [e1, e2, e3]
    exact ⟨e, hx, hi.2⟩
  · rintro ⟨e, he, hb⟩
    refine ⟨(e, u / 8, v / 8), (SqMatrix.mem_items h.wf o).2 he, ?_⟩
    unfold wordEdges
    rw [List.mem_map]
    refine ⟨8 * (v % 8) + u % 8, ?_, ?_⟩
    · rw [List.mem_filter, List.mem_range]; exact ⟨by omega, hb⟩
    · simp only [Prod.mk.injEq]; omega

theorem start_spec {g : CGraph} (h : g.OK) :
    g.start.pairs = ∅ ∧ g.start.isUndirected = g.isUndirected ∧ g.start.vertexCount = g.vertexCount := by
  have hv := h.vc
  have h0 : (if g.isUndirected then Graph.newUndirected else Graph.newDirected).pairs = ∅ ∧
      (if g.isUndirected then Graph.newUndirected else Graph.newDirected).isUndirected = g.isUndirected ∧
      (if g.isUndirected then Graph.newUndirected else Graph.newDirected).vertexCount = 0 := by
    cases g.isUndirected <;> exact ⟨rfl, rfl, rfl⟩
  unfold start
  simp only
  generalize (if g.isUndirected then Graph.newUndirected else Graph.newDirected) = x at *
  split
  · next hp =>
    rw [Graph.addVertex_none, Graph.touch_pairs, Graph.touch_isUndirected, Graph.touch_vertexCount,
      if_pos (by omega), h0.2.2]
    exact ⟨h0.1, h0.2.1, by omega⟩
  · exact ⟨h0.1, h0.2.1, by rw [h0.2.2]; omega⟩

theorem foldl_isUndirected (l : List (Nat × Nat)) (g : Graph) :
    (l.foldl (fun g e => g.addEdge e.1 e.2) g).isUndirected = g.isUndirected := by
  induction l generalizing g with
  | nil => rfl
  | cons e l ih => rw [List.foldl_cons, ih]; rfl

/-- Decompression of any graph that satisfies the invariant. -/
theorem decompress_spec {g : CGraph} (h : g.OK) (P : Platform) (o : HashOrder) :
    ∃ d, g.decompress P o = .ok d ∧ d.OK ∧ d.isUndirected = g.isUndirected ∧ d.vertexCount = g.vertexCount ∧
      ∀ u v, d.doesEdgeExist u v = true ↔
        (g.doesEdgeExist u v = true ∨ (g.isUndirected = true ∧ g.doesEdgeExist v u = true)) := by
  obtain ⟨h0, h1, h2⟩ := start_spec h
  have heq := decompress_eq h P o
  have hr : ∀ e ∈ (g.adjacencyMatrix.items o).flatMap fun x => wordEdges x.1 x.2.1 x.2.2,
      e.1 < g.vertexCount ∧ e.2 < g.vertexCount := fun e he => h.range _ _ ((mem_wordEdges h o e.1 e.2).1 he)
  have hU : ∀ e ∈ (g.adjacencyMatrix.items o).flatMap fun x => wordEdges x.1 x.2.1 x.2.2,
      e.1 < U64_MAX ∧ e.2 < U64_MAX := fun e he => by have := hr e he; have := h.vc; omega
  refine ⟨_, heq, decompress_OK heq, ?_, ?_, ?_⟩
  · rw [foldl_isUndirected, h1]
  · have := Graph.foldl_addEdge_vertexCount _ hU g.start g.vertexCount hr h2.le
    rw [h2] at this
    omega
  · intro u v
    rw [Graph.doesEdgeExist_iff, Graph.foldl_addEdge_pairs _ hU, h0, h1]
    rw [mem_wordEdges h o, mem_wordEdges h o]
    simp

end CGraph
end Verif
