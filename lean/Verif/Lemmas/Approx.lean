import Verif.Lemmas.PoolVal
import Verif.Lemmas.Reach

/-! Characterisation of pooling (block dimension below `2^32`) and of `approximate`. -/

namespace Verif
open Spec

namespace Graph

theorem clamp_pos {n b : Nat} (hn : n ≠ 0) : 0 < clampBlockDimension n b := by
  unfold clampBlockDimension; split
  · omega
  · split <;> omega

theorem clamp_le {n b : Nat} (hn : n ≠ 0) : clampBlockDimension n b ≤ n := by
  unfold clampBlockDimension; split
  · omega
  · split <;> omega

theorem clamp_min {n b : Nat} (hb : 1 ≤ b) : clampBlockDimension n b = min b n := by
  unfold clampBlockDimension
  rw [if_neg (by omega)]
  split <;> omega

theorem sq_le_U64 {b : Nat} (h : b < 2 ^ 32) : b * b ≤ U64_MAX := by
  have : b * b ≤ (2 ^ 32 - 1) * (2 ^ 32 - 1) := Nat.mul_le_mul (by omega) (by omega)
  exact this.trans (by norm_num [U64_MAX])

theorem blockCount_le (edge : Nat → Nat → Bool) (b c r : Nat) : blockCount edge b c r ≤ b * b := by
  unfold blockCount
  refine (Finset.card_filter_le _ _).trans ?_
  rw [Finset.card_product, Finset.card_range]

theorem blockCount_symm {edge : Nat → Nat → Bool} (h : ∀ u v, edge u v = edge v u) (b c r : Nat) :
    blockCount edge b c r = blockCount edge b r c := by
  unfold blockCount
  refine Finset.card_bij (fun p _ => (p.2, p.1)) ?_ ?_ ?_
  · rintro ⟨i, j⟩ hp
    rw [Finset.mem_filter, Finset.mem_product] at hp ⊢
    exact ⟨⟨hp.1.2, hp.1.1⟩, by rw [h]; exact hp.2⟩
  · rintro ⟨i, j⟩ _ ⟨i', j'⟩ _ heq
    simp only [Prod.mk.injEq] at heq ⊢
    exact ⟨heq.2, heq.1⟩
  · rintro ⟨i, j⟩ hp
    rw [Finset.mem_filter, Finset.mem_product] at hp
    refine ⟨(j, i), ?_, rfl⟩
    rw [Finset.mem_filter, Finset.mem_product]
    exact ⟨⟨hp.1.2, hp.1.1⟩, by rw [h]; exact hp.2⟩

/-- Pooling below `2^32`. -/
theorem pool_ok {g : Graph} (hg : g.OK) (P : Platform) (o : HashOrder) (b : Nat) (hn : g.vertexCount ≠ 0)
    (hb : clampBlockDimension g.vertexCount b < 2 ^ 32) :
    ∃ m : SqMatrix F64, g.findAvgPoolMatrix P o b = .ok m ∧ m.WF ∧
      m.dimension = ceilDiv g.vertexCount (clampBlockDimension g.vertexCount b) ∧
      (∀ c r, m.at? c r =
        if blockCount g.doesEdgeExist (clampBlockDimension g.vertexCount b) c r = 0 then none
        else some (F64.fin (F64.poolQ (clampBlockDimension g.vertexCount b * clampBlockDimension g.vertexCount b)
          (blockCount g.doesEdgeExist (clampBlockDimension g.vertexCount b) c r)))) := by
  obtain ⟨m, hwf, hdim, hat, h⟩ := pool_general hg P o b hn
  have hpos := clamp_pos (b := b) hn
  generalize clampBlockDimension g.vertexCount b = b' at *
  have hsq := sq_le_U64 hb
  have h1 : 1 ≤ b' * b' := Nat.mul_pos hpos hpos
  have hmul : P.u64Mul b' b' = .ok (b' * b') := by
    unfold Platform.u64Mul Platform.wrapTo; rw [if_pos hsq]
  rw [hmul] at h
  refine ⟨_, h, hwf.multiplyEntriesBy _, hdim, ?_⟩
  intro c r
  rw [SqMatrix.multiplyEntriesBy_at, hat, F64.div_eq_recip h1 hsq]
  split
  · rfl
  · rw [Option.map_some, F64.mul_cnt_recip h1 hsq]

/-- Pooling of any graph: what matters is which block count an entry has. -/
theorem pool_any {g : Graph} (hg : g.OK) {P : Platform} {o : HashOrder} {b : Nat} {m : SqMatrix F64}
    (hm : g.findAvgPoolMatrix P o b = .ok m) :
    m.WF ∧ ∃ f : Nat → Option F64, f 0 = none ∧
      ∀ c r, m.at? c r = f (blockCount g.doesEdgeExist (clampBlockDimension g.vertexCount b) c r) := by
  by_cases hn : g.vertexCount = 0
  · unfold findAvgPoolMatrix at hm
    rw [if_pos hn] at hm
    cases hm
    exact ⟨SqMatrix.WF.new, fun _ => none, rfl, fun c r => SqMatrix.new_at c r⟩
  · obtain ⟨m', hwf, hdim, hat, h⟩ := pool_general hg P o b hn
    rw [h, Res.map_eq_ok] at hm
    obtain ⟨sq, _, rfl⟩ := hm
    refine ⟨hwf.multiplyEntriesBy _,
      fun k => if k = 0 then none else some (F64.mul (F64.cnt k) (F64.div (F64.lit 1) (F64.ofNat sq))), rfl, ?_⟩
    intro c r
    rw [SqMatrix.multiplyEntriesBy_at, hat]
    simp only
    split <;> rfl

theorem edge_symm {g : Graph} (hg : g.OK) (hu : g.isUndirected = true) (u v : Nat) :
    g.doesEdgeExist u v = g.doesEdgeExist v u := by
  rw [doesEdgeExist_eq, doesEdgeExist_eq]
  exact decide_eq_decide.2 ⟨hg.sym hu u v, hg.sym hu v u⟩

/-- A conditional `add_edge` over pooled items is `add_edge` over the selected coordinates. -/
theorem foldl_select (t : F64) (l : List (F64 × Nat × Nat)) (g : Graph) :
    l.foldl (fun ag (x : F64 × Nat × Nat) => if F64.le t x.1 then ag.addEdge x.2.1 x.2.2 else ag) g =
      ((l.filter (fun x => F64.le t x.1)).map (fun x => (x.2.1, x.2.2))).foldl
        (fun g e => g.addEdge e.1 e.2) g := by
  induction l generalizing g with
  | nil => rfl
  | cons x l ih =>
    rw [List.foldl_cons, ih]
    by_cases h : F64.le t x.1 = true
    · rw [if_pos h, List.filter_cons_of_pos (p := fun x : F64 × Nat × Nat => F64.le t x.1) h]; rfl
    · rw [if_neg h, List.filter_cons_of_neg (p := fun x : F64 × Nat × Nat => F64.le t x.1) h]

theorem findAvgPool_clamp (P : Platform) (o : HashOrder) (g : Graph) {b : Nat} (hb : 1 ≤ b) :
    g.findAvgPoolMatrix P o (if b > g.vertexCount then g.vertexCount else b) = g.findAvgPoolMatrix P o b := by
  unfold findAvgPoolMatrix
  by_cases hn : g.vertexCount = 0
  · rw [if_pos hn, if_pos hn]
  · rw [if_neg hn, if_neg hn]
    have : clampBlockDimension g.vertexCount (if b > g.vertexCount then g.vertexCount else b) =
        clampBlockDimension g.vertexCount b := by
      split
      · rw [clamp_min (by omega), clamp_min hb]; omega
      · rfl
    rw [this]

/-- `approximate` for two or more vertices and block dimension two or more. -/
theorem approximate_eq {g : Graph} (P : Platform) (o₁ o₂ : HashOrder) {b : Nat} (t : F64)
    (hb : 2 ≤ b) (hn : 2 ≤ g.vertexCount) :
    g.approximate P o₁ o₂ b t = (g.findAvgPoolMatrix P o₁ b).map (fun m =>
      ((((m.items o₂).filter (fun x => F64.le (clampThreshold t) x.1)).map (fun x => (x.2.1, x.2.2))).foldl
        (fun g e => g.addEdge e.1 e.2)
        ((if g.isUndirected then newUndirected else newDirected).addVertex
          (ceilDiv g.vertexCount (min b g.vertexCount) - 1) none))) := by
  unfold approximate
  rw [if_neg (by omega)]
  simp only [findAvgPool_clamp P o₁ g (b := b) (by omega), foldl_select]
  have hpos : 0 < min b g.vertexCount := by omega
  have he : (if b > g.vertexCount then g.vertexCount else b) = min b g.vertexCount := by
    split <;> omega
  rw [he, blocksPerRow_eq _ _ hpos]
  cases g.findAvgPoolMatrix P o₁ b <;> rfl

/-- What `approximate` returns, in terms of the pooled matrix. -/
theorem approximate_spec {g : Graph} (hg : g.OK) {P : Platform} {o₁ : HashOrder} (o₂ : HashOrder) {b : Nat} (t : F64)
    (hb : 2 ≤ b) (hn : 2 ≤ g.vertexCount) {m : SqMatrix F64} (hm : g.findAvgPoolMatrix P o₁ b = .ok m) :
    ∃ a, g.approximate P o₁ o₂ b t = .ok a ∧ a.OK ∧ a.isUndirected = g.isUndirected ∧
      a.vertexCount = ceilDiv g.vertexCount (min b g.vertexCount) ∧
      ∀ c r, a.doesEdgeExist c r = true ↔ ∃ v, m.at? c r = some v ∧ F64.le (clampThreshold t) v = true := by
  have hpos : 0 < min b g.vertexCount := by omega
  obtain ⟨hwf, f, hf0, hf⟩ := pool_any hg hm
  rw [approximate_eq P o₁ o₂ t hb hn, hm]
  refine ⟨_, rfl, ?_, ?_, ?_, ?_⟩
  · exact OK.foldl (fun g (e : Nat × Nat) => g.addEdge e.1 e.2) (fun g e h => h.addEdge _ _) _ _
      ((OK.empty _).addVertex _ _)
  all_goals
    simp only
    generalize hl : ((m.items o₂).filter (fun x => F64.le (clampThreshold t) x.1)).map (fun x => (x.2.1, x.2.2)) = l
  all_goals
    have hmem : ∀ c r, (c, r) ∈ l ↔ ∃ v, m.at? c r = some v ∧ F64.le (clampThreshold t) v = true := by
      intro c r
      rw [← hl, List.mem_map]
      constructor
      · rintro ⟨⟨v, c', r'⟩, h, heq⟩
        rw [List.mem_filter, SqMatrix.mem_items hwf] at h
        simp only [Prod.mk.injEq] at heq
        obtain ⟨rfl, rfl⟩ := heq
        exact ⟨v, h.1, h.2⟩
      · rintro ⟨v, h1, h2⟩
        exact ⟨(v, c, r), by rw [List.mem_filter, SqMatrix.mem_items hwf]; exact ⟨h1, h2⟩, rfl⟩
  · rw [addVertex_none]
    have : ∀ (l : List (Nat × Nat)) (g : Graph),
        (l.foldl (fun g e => g.addEdge e.1 e.2) g).isUndirected = g.isUndirected := by
      intro l; induction l with
      | nil => intro g; rfl
      | cons e l ih => intro g; rw [List.foldl_cons, ih]; rfl
    rw [this, touch_isUndirected]
    cases g.isUndirected <;> rfl
  · have hkey : ∀ c r, (c, r) ∈ l → c < ceilDiv g.vertexCount (min b g.vertexCount) ∧
        r < ceilDiv g.vertexCount (min b g.vertexCount) := by
      intro c r h
      obtain ⟨v, hv, _⟩ := (hmem c r).1 h
      obtain ⟨m', hwf', hdim', hat', h'⟩ := pool_general hg P o₁ b (by omega)
      rw [h', Res.map_eq_ok] at hm
      obtain ⟨sq, _, rfl⟩ := hm
      rw [clamp_min (by omega)] at hdim'
      have hk : (c, r) ∈ (m'.multiplyEntriesBy (F64.div (F64.lit 1) (F64.ofNat sq))).keys :=
        SqMatrix.mem_keys.2 ⟨v, hv⟩
      have := hwf.bound _ hk
      have hd : (m'.multiplyEntriesBy (F64.div (F64.lit 1) (F64.ofNat sq))).dimension = m'.dimension := rfl
      rw [hd, hdim'] at this
      exact this
    have hle : ceilDiv g.vertexCount (min b g.vertexCount) ≤ U64_MAX := (ceilDiv_le hpos).trans hg.wf.dim
    have hcp : 0 < ceilDiv g.vertexCount (min b g.vertexCount) := ceilDiv_pos hpos (by omega)
    have hv0 : (((if g.isUndirected then newUndirected else newDirected).addVertex
          (ceilDiv g.vertexCount (min b g.vertexCount) - 1) none)).vertexCount =
        ceilDiv g.vertexCount (min b g.vertexCount) := by
      rw [addVertex_none, touch_vertexCount, if_pos (by omega)]
      have : (if g.isUndirected then newUndirected else newDirected).vertexCount = 0 := by
        cases g.isUndirected <;> rfl
      rw [this]; omega
    have := foldl_addEdge_vertexCount l (fun e he => by have := hkey e.1 e.2 he; omega) _
      (ceilDiv g.vertexCount (min b g.vertexCount)) (fun e he => hkey e.1 e.2 he) hv0.le
    rw [hv0] at this
    omega
  · intro c r
    rw [doesEdgeExist_iff, foldl_addEdge_pairs l]
    · have h0 : (c, r) ∉ ((if g.isUndirected then newUndirected else newDirected).addVertex
          (ceilDiv g.vertexCount (min b g.vertexCount) - 1) none).pairs := by
        rw [addVertex_none, touch_pairs]
        cases g.isUndirected <;> simp [pairs, newUndirected, newDirected, AdjMatrix.new_pairs]
      have hu : ((if g.isUndirected then newUndirected else newDirected).addVertex
          (ceilDiv g.vertexCount (min b g.vertexCount) - 1) none).isUndirected = g.isUndirected := by
        rw [addVertex_none, touch_isUndirected]
        cases g.isUndirected <;> rfl
      rw [hu, hmem c r, hmem r c]
      constructor
      · rintro (h | h | ⟨hu, h⟩)
        · exact absurd h h0
        · exact h
        · rw [hf] at h ⊢
          rwa [blockCount_symm (edge_symm hg hu)]
      · intro h; exact Or.inr (Or.inl h)
    · rintro ⟨c, r⟩ h
      obtain ⟨v, hv, _⟩ := (hmem c r).1 h
      have := hwf.bound (c, r) (SqMatrix.mem_keys.2 ⟨v, hv⟩)
      have := hwf.dim
      simp only at *
      omega

end Graph
end Verif
