import Verif.Props.CCodec
import Mathlib.Algebra.BigOperators.Group.Finset.Basic
import Mathlib.Algebra.Order.BigOperators.Group.Finset

/-! # C82: the size of compressed files -/

namespace Verif.Props
open Verif Spec

/-- Counting edges block by block. -/
theorem blocks_le_edges {c : CGraph} (blocks : List (Nat × Nat × Nat)) (hn : (blocks.map fun e => (e.2.1, e.2.2)).Nodup)
    (hm : ∀ e x y, (e, x, y) ∈ blocks ↔ e ≠ 0 ∧ c.getCompressedMatrixEntry x y = e) (hc : CReach c) (F : Finset (Nat × Nat))
    (hF : ∀ u v, (u, v) ∈ F ↔ c.doesEdgeExist u v = true) (L : Nat)
    (hL : ∀ x y, c.getCompressedMatrixEntry x y ≠ 0 → L ≤ (F.filter fun p => (p.1 / 8, p.2 / 8) = (x, y)).card) :
    blocks.length * L ≤ F.card := by
  have hbits := (C24_bit_layout hc).1
  set T := (blocks.map fun e => (e.2.1, e.2.2)).toFinset with hT
  have hTc : T.card = blocks.length := by rw [hT, List.toFinset_card_of_nodup hn, List.length_map]
  have hmT : ∀ x y, (x, y) ∈ T ↔ c.getCompressedMatrixEntry x y ≠ 0 := by
    intro x y
    rw [hT, List.mem_toFinset, List.mem_map]
    constructor
    · rintro ⟨⟨e, x', y'⟩, h, h'⟩
      obtain ⟨h1, h2⟩ := (hm _ _ _).1 h
      cases h'
      rw [h2]; exact h1
    · intro h
      exact ⟨(_, x, y), (hm _ _ _).2 ⟨h, rfl⟩, rfl⟩
  rw [Finset.card_eq_sum_card_fiberwise (f := fun p => (p.1 / 8, p.2 / 8)) (t := T) (fun p hp => ?_), ← hTc]
  · exact Finset.card_nsmul_le_sum _ _ _ fun q hq => hL q.1 q.2 ((hmT _ _).1 hq)
  · have := (hF p.1 p.2).1 hp
    rw [hbits] at this
    refine Finset.mem_coe.2 ((hmT _ _).2 fun h0 => ?_)
    rw [h0, Nat.zero_testBit] at this
    cases this

/-- **C82.** The size of the file of a compressed graph: at most 24 bytes for each edge that was kept, in addition to the header; with at
least 8 vertices at most 24 bytes for each `L` edges of the original graph, `L` being the level. -/
theorem C82_size {g : Graph} (hg : GReach g) (hE : g.edgeCount ≤ U64_MAX) (P P' : Platform) (o₁ o₂ o : HashOrder) (l : Nat) {c : CGraph}
    (hc : g.compress P o₁ o₂ l = .ok c) :
    ∃ B, B ≤ c.edgeCount ∧ (8 ≤ g.vertexCount → B * max 1 (min l 64) ≤ g.edgeCount) ∧
      (∀ b, c.toBytes P' o = .ok b → b.length = 42 + 24 * B) ∧
      (42 + 24 * B ≤ P'.usizeMax ∧ P'.alloc (42 + 24 * B) = true ↔ ∃ b, c.toBytes P' o = .ok b) := by
  have hcr : CReach c := .compress _ _ _ _ hg hc
  obtain ⟨hec, hrange, hle, _⟩ := C25_edge_count_exact hg hE P o₁ o₂ l hc
  obtain ⟨blocks, hn, hm, hlen, _, _, hok⟩ := C31_compressed_bytes_layout hcr P' o
  obtain ⟨hbits, hword⟩ := C24_bit_layout hcr
  set F := (Finset.range c.vertexCount ×ˢ Finset.range c.vertexCount).filter fun p => c.doesEdgeExist p.1 p.2 = true with hFd
  have hF : ∀ u v, (u, v) ∈ F ↔ c.doesEdgeExist u v = true := by
    intro u v
    rw [hFd, Finset.mem_filter, Finset.mem_product, Finset.mem_range, Finset.mem_range]
    exact ⟨fun h => h.2, fun h => ⟨hrange u v h, h⟩⟩
  have key := fun L => blocks_le_edges blocks hn hm hcr F hF L
  refine ⟨blocks.length, ?_, ?_, fun b hb => (hlen b hb).1, hok⟩
  · have := key 1 fun x y h => ?_
    · omega
    · rw [Nat.one_le_iff_ne_zero, ← Nat.pos_iff_ne_zero, Finset.card_pos]
      obtain ⟨k, hk⟩ := Nat.exists_testBit_of_ne_zero h
      have hk64 : k < 64 := by
        by_contra hk64
        rw [Nat.testBit_lt_two_pow ((hword x y).trans_le (Nat.pow_le_pow_right (by omega) (by omega)))] at hk
        cases hk
      refine ⟨(8 * x + k % 8, 8 * y + k / 8), ?_⟩
      rw [Finset.mem_filter, hF, hbits]
      have e1 : (8 * x + k % 8) / 8 = x := by omega
      have e2 : (8 * y + k / 8) / 8 = y := by omega
      have e3 : 8 * ((8 * y + k / 8) % 8) + (8 * x + k % 8) % 8 = k := by omega
      simp only [e1, e2, e3, hk, and_self]
  · intro h8
    refine le_trans (key _ fun x y h => ?_) (hec ▸ hle)
    obtain ⟨c', hc', hk⟩ := C22_keeps_blocks hg h8 P o₁ o₂ l
    rw [hc] at hc'; cases hc'
    obtain ⟨h1, h2⟩ := hk x y
    have hL : max 1 (min l 64) ≤ blockCount g.doesEdgeExist 8 x y := by
      by_contra hlt
      exact h (h2 (by omega))
    refine hL.trans ?_
    unfold blockCount
    refine Finset.card_le_card_of_injOn (fun p => (x * 8 + p.1, y * 8 + p.2)) (fun p hp => ?_) (fun p _ q _ hpq => ?_)
    · rw [Finset.mem_coe, Finset.mem_filter, Finset.mem_product, Finset.mem_range, Finset.mem_range] at hp
      obtain ⟨⟨hp1, hp2⟩, he⟩ := hp
      have := h1 hL p.1 hp1 p.2 hp2
      have e1 : (x * 8 + p.1) / 8 = x := by omega
      have e2 : (y * 8 + p.2) / 8 = y := by omega
      have e3 : 8 * ((y * 8 + p.2) % 8) + (x * 8 + p.1) % 8 = 8 * p.2 + p.1 := by omega
      rw [Finset.mem_coe, Finset.mem_filter, hF, hbits]
      simp only [e1, e2, e3]
      rw [this, Nat.mul_comm 8 x, Nat.mul_comm 8 y]
      exact ⟨he, trivial⟩
    · simp only [Prod.mk.injEq] at hpq
      ext <;> omega

/-- **C82.** From level 2 on, for graphs with at least 8 vertices and 4 edges, the compressed file is not larger than the file of the
graph itself. -/
theorem C82_not_larger {g : Graph} (hg : GReach g) (hE : g.edgeCount ≤ U64_MAX) (h8 : 8 ≤ g.vertexCount) (h4 : 4 ≤ g.edgeCount)
    (P P' P'' : Platform) (o₁ o₂ o o' : HashOrder) (l : Nat) (hl : 2 ≤ l) {c : CGraph} (hc : g.compress P o₁ o₂ l = .ok c) {b b' : Bytes}
    (hb : c.toBytes P' o = .ok b) (hb' : g.toBytes P'' o' = .ok b') : b.length ≤ b'.length := by
  obtain ⟨B, -, h1, h2, -⟩ := C82_size hg hE P P' o₁ o₂ o l hc
  rw [h2 b hb, ((C14_graph_bytes_layout hg P'' o').2.1 b' hb').1]
  have := h1 h8
  have : B * 2 ≤ B * max 1 (min l 64) := Nat.mul_le_mul_left _ (by omega)
  omega

/-- The example graph of 20 vertices and 6 edges. -/
example : GReach exC ∧ exC.edgeCount ≤ U64_MAX ∧ 8 ≤ exC.vertexCount ∧ 4 ≤ exC.edgeCount ∧
    okAnd (exC.compress exP .id .id 2) (fun c => okAnd (c.toBytes exP .id) fun b => okAnd (exC.toBytes exP .id) fun b' =>
      b.length == 90 && b'.length == 122) = true := ⟨exC_reach, by decide +kernel, by decide +kernel, by decide +kernel, by decide +kernel⟩

end Verif.Props
