import Verif.Spec.Orders
import Verif.Props.Codec
import Verif.Props.CCodec
import Verif.Props.Damage

/-!
# C123: exactly which files a graph can be written as
-/

namespace Verif.Props
open Verif Spec

/-! ### Grouped lists -/

theorem grouped_append {A B : List Nat} {c : Nat} (hA : ∀ x ∈ A, x = c) (hB : c ∉ B) (hg : Grouped B) : Grouped (A ++ B) := by
  intro i j k x y hij hjk hi hj hk
  by_cases h1 : i < A.length
  · rw [List.getElem?_append_left h1] at hi
    have hx := hA x (List.mem_of_getElem? hi)
    by_cases h3 : k < A.length
    · rw [List.getElem?_append_left (by omega)] at hj
      rw [hx, hA y (List.mem_of_getElem? hj)]
    · rw [List.getElem?_append_right (by omega)] at hk
      exact absurd (List.mem_of_getElem? hk) (hx ▸ hB)
  · rw [List.getElem?_append_right (by omega)] at hi hj hk
    exact hg _ _ _ x y (by omega) (by omega) hi hj hk

theorem grouped_flatMap {α : Type} (L : List (Nat × α)) (n : Nat × α → Nat) (h : (L.map Prod.fst).Nodup) :
    Grouped (L.flatMap fun e => List.replicate (n e) e.1) := by
  induction L with
  | nil => intro i j k c d _ _ hi; simp at hi
  | cons e L ih =>
    simp only [List.map_cons, List.nodup_cons] at h
    rw [List.flatMap_cons]
    refine grouped_append (c := e.1) (fun x hx => (List.mem_replicate.1 hx).2) ?_ (ih h.2)
    intro hm
    obtain ⟨e', he', hx⟩ := List.mem_flatMap.1 hm
    exact h.1 (List.mem_map.2 ⟨e', he', (List.mem_replicate.1 hx).2.symm⟩)

theorem grouped_reverse {l : List Nat} (h : Grouped l) : Grouped l.reverse := by
  intro i j k c d hij hjk hi hj hk
  have hkl : k < l.length := by simpa using (List.getElem?_eq_some_iff.1 hk).1
  rw [List.getElem?_reverse (by omega)] at hi hj hk
  exact h (l.length - 1 - k) (l.length - 1 - j) (l.length - 1 - i) c d (by omega) (by omega) hk hj hi

/-! ### Hash orders -/

/-- The order that sorts columns and rows by given ranks. -/
def rankOrder (rc : Nat → Nat) (rr : Nat → Nat → Nat) : HashOrder where
  cols l := l.mergeSort fun a b => decide (rc a.1 ≤ rc b.1)
  rows c _ l := l.mergeSort fun a b => decide (rr c a.1 ≤ rr c b.1)
  cols_perm l := List.mergeSort_perm l _
  rows_perm _ _ l := List.mergeSort_perm l _

variable {V : Type}

theorem flatO_grouped (o : HashOrder) (t : HMap (HMap V)) : Grouped ((flatO o t).map Prod.fst) := by
  have : (flatO o t).map Prod.fst = (o.cols t.entries).flatMap fun e => List.replicate (o.rows e.1 e.2.entries).length e.1 := by
    unfold flatO
    rw [List.map_flatMap]
    refine List.flatMap_congr fun e _ => ?_
    rw [List.map_map]
    exact List.map_const' ..
  rw [this]
  exact grouped_flatMap _ _ (((o.cols_perm t.entries).map Prod.fst).nodup_iff.2 t.nodup)

/-- Every grouped order of the entries of a table is the order of some hash function. -/
theorem flatO_iff {t : HMap (HMap V)} {l : List (Nat × Nat × V)} :
    (∃ o, flatO o t = l) ↔ l.Perm (flat t) ∧ Grouped (l.map Prod.fst) := by
  constructor
  · rintro ⟨o, rfl⟩
    exact ⟨flatO_perm o t, flatO_grouped o t⟩
  · rintro ⟨hp, hg⟩
    let ks := l.map fun x => (x.1, x.2.1)
    have hkn : ks.Nodup := (hp.map _).nodup_iff.2 (flat_keys_nodup t)
    let rc : Nat → Nat := fun c => (l.map Prod.fst).idxOf c
    let rr : Nat → Nat → Nat := fun c r => ks.idxOf (c, r)
    refine ⟨rankOrder rc rr, ?_⟩
    let R : Nat × Nat × V → Nat × Nat × V → Prop := fun x y => rr x.1 x.2.1 ≤ rr y.1 y.2.1
    have hidx : ∀ x ∈ l, ∃ i, l[i]? = some x ∧ rr x.1 x.2.1 = i := by
      intro x hx
      obtain ⟨i, hi⟩ := List.mem_iff_getElem?.1 hx
      refine ⟨i, hi, ?_⟩
      obtain ⟨hlt, he⟩ := List.getElem?_eq_some_iff.1 hi
      have hlt' : i < ks.length := by simpa [ks] using hlt
      have : ks[i] = (x.1, x.2.1) := by simp [ks, he]
      change ks.idxOf (x.1, x.2.1) = i
      rw [← this]
      exact hkn.idxOf_getElem i hlt'
    have hperm : (flatO (rankOrder rc rr) t).Perm l := (flatO_perm _ t).trans hp.symm
    have hl : l.Pairwise R := by
      rw [List.pairwise_iff_getElem]
      intro i j hi hj hij
      obtain ⟨i', hi', e1⟩ := hidx l[i] (List.getElem_mem hi)
      obtain ⟨j', hj', e2⟩ := hidx l[j] (List.getElem_mem hj)
      have hln : l.Nodup := List.Nodup.of_map _ hkn
      have := (List.getElem?_inj hi hln).1 ((List.getElem?_eq_getElem hi).trans hi'.symm)
      have := (List.getElem?_inj hj hln).1 ((List.getElem?_eq_getElem hj).trans hj'.symm)
      change rr _ _ ≤ rr _ _
      omega
    have ho : (flatO (rankOrder rc rr) t).Pairwise R := by
      unfold flatO
      rw [List.pairwise_flatMap]
      constructor
      · intro e _
        rw [List.pairwise_map]
        have := List.pairwise_mergeSort (le := fun a b : Nat × V => decide (rr e.1 a.1 ≤ rr e.1 b.1))
          (by intro a b c; simp; omega) (by intro a b; simp; omega) e.2.entries
        exact this.imp fun h => of_decide_eq_true h
      · have h1 := List.pairwise_mergeSort (le := fun a b : Nat × HMap V => decide (rc a.1 ≤ rc b.1))
          (by intro a b c; simp; omega) (by intro a b; simp; omega) t.entries
        have h2 : ((rankOrder rc rr).cols t.entries).Pairwise fun a b => a.1 ≠ b.1 := by
          rw [← List.pairwise_map]
          exact (((rankOrder rc rr).cols_perm t.entries).map Prod.fst).nodup_iff.2 t.nodup
        refine (List.pairwise_and_iff.2 ⟨h1, h2⟩).imp_of_mem ?_
        rintro a b ha hb ⟨hab, hne⟩ x hx y hy
        have hab := of_decide_eq_true hab
        have hxl : x ∈ l := by
          refine hperm.mem_iff.1 (List.mem_flatMap.2 ⟨a, ha, hx⟩)
        have hyl : y ∈ l := hperm.mem_iff.1 (List.mem_flatMap.2 ⟨b, hb, hy⟩)
        obtain ⟨_, _, rfl⟩ := List.mem_map.1 hx
        obtain ⟨_, _, rfl⟩ := List.mem_map.1 hy
        obtain ⟨i, hi, e1⟩ := hidx _ hxl
        obtain ⟨j, hj, e2⟩ := hidx _ hyl
        change rr _ _ ≤ rr _ _
        rw [e1, e2]
        by_contra hlt
        push Not at hlt
        -- the first place of the column of `x` is before the place of `y`, which is before the place of `x`
        have hfa : (l.map Prod.fst)[rc a.1]? = some a.1 := by
          have hm : a.1 ∈ l.map Prod.fst := List.mem_map.2 ⟨_, hxl, rfl⟩
          rw [List.getElem?_eq_getElem (List.idxOf_lt_length_iff.2 hm)]
          simp
        have hja : (l.map Prod.fst)[j]? = some b.1 := by rw [List.getElem?_map, hj]; rfl
        have hia : (l.map Prod.fst)[i]? = some a.1 := by rw [List.getElem?_map, hi]; rfl
        have hbj : rc b.1 ≤ j := by
          obtain ⟨hjl, he⟩ := List.getElem?_eq_some_iff.1 hja
          by_contra hlt
          push Not at hlt
          have := List.not_of_lt_findIdx (p := (· == b.1)) (xs := l.map Prod.fst) (i := j) hlt
          simp [he] at this
        have hne' : rc a.1 ≠ j := by
          intro e
          rw [e, hja] at hfa
          exact hne (Option.some.inj hfa).symm
        exact hne (hg (rc a.1) j i a.1 b.1 (by omega) hlt hfa hja hia).symm
    refine hperm.eq_of_pairwise ?_ ho hl
    intro x y hx hy h1 h2
    obtain ⟨i, hi, e1⟩ := hidx x (hperm.mem_iff.1 hx)
    obtain ⟨j, hj, e2⟩ := hidx y hy
    have : i = j := by
      change rr _ _ ≤ rr _ _ at h1 h2
      omega
    subst this
    rw [hi] at hj
    exact Option.some.inj hj

/-! ### Orders of iteration -/

theorem AdjMatrix.items_iff {m : AdjMatrix} (h : m.WF) {l : List (Nat × Nat)} :
    (∃ o, m.items o = l) ↔ l.Perm ((flat m.edgesTable).map fun x => (x.1, x.2.1)) ∧ Grouped (l.map Prod.fst) := by
  constructor
  · rintro ⟨o, rfl⟩
    refine ⟨AdjMatrix.items_perm h o, ?_⟩
    unfold AdjMatrix.items
    rw [TableIter.collect_eq_pending, List.map_map]
    by_cases hd : m.dimension = 0
    · simp only [TableIter.pending, AdjMatrix.intoIter, hd]
      intro i j k c d _ _ hi
      simp at hi
    · rw [AdjMatrix.intoIter_pending o m hd]
      exact flatO_grouped o _
  · rintro ⟨hp, hg⟩
    have hl : (l.map fun e => (e.1, e.2, ())).Perm (flat m.edgesTable) := by
      have := hp.map fun e : Nat × Nat => (e.1, e.2, ())
      rwa [List.map_map, show ((fun e : Nat × Nat => (e.1, e.2, ())) ∘ fun x : Nat × Nat × Unit => (x.1, x.2.1)) = id from rfl,
        List.map_id] at this
    obtain ⟨o, ho⟩ := flatO_iff.2 ⟨hl, by rw [List.map_map]; exact hg⟩
    refine ⟨o, ?_⟩
    unfold AdjMatrix.items
    rw [TableIter.collect_eq_pending]
    by_cases hd : m.dimension = 0
    · have hn : l = [] := by
        cases l with
        | nil => rfl
        | cons e l =>
          have : e ∈ m.pairs := (AdjMatrix.mem_items h .id).1 ((AdjMatrix.items_perm h .id).mem_iff.2 (hp.mem_iff.1 (by simp)))
          have := (h.bound e this).1
          omega
      subst hn
      simp [TableIter.pending, AdjMatrix.intoIter, hd]
    · rw [AdjMatrix.intoIter_pending o m hd, ho, List.map_map]
      exact List.map_id _

theorem SqMatrix.items_iff {T : Type} {m : SqMatrix T} (h : m.WF) {l : List (T × Nat × Nat)} :
    (∃ o, m.items o = l) ↔
      l.Perm ((flat m.edgesTable).map fun x => (x.2.2, x.1, x.2.1)) ∧ Grouped (l.map fun e => e.2.1) := by
  have hpend : ∀ o, m.dimension ≠ 0 → (m.intoIter o).pending = flatO o m.edgesTable := by
    intro o hd
    unfold SqMatrix.intoIter TableIter.pending flatO
    simp [hd]
  constructor
  · rintro ⟨o, rfl⟩
    refine ⟨SqMatrix.items_perm h o, ?_⟩
    unfold SqMatrix.items
    rw [TableIter.collect_eq_pending, List.map_map]
    by_cases hd : m.dimension = 0
    · simp only [TableIter.pending, SqMatrix.intoIter, hd]
      intro i j k c d _ _ hi
      simp at hi
    · rw [hpend o hd]
      exact flatO_grouped o _
  · rintro ⟨hp, hg⟩
    have hl : (l.map fun e => (e.2.1, e.2.2, e.1)).Perm (flat m.edgesTable) := by
      have := hp.map fun e : T × Nat × Nat => (e.2.1, e.2.2, e.1)
      rwa [List.map_map, show ((fun e : T × Nat × Nat => (e.2.1, e.2.2, e.1)) ∘ fun x : Nat × Nat × T => (x.2.2, x.1, x.2.1)) = id
        from rfl, List.map_id] at this
    obtain ⟨o, ho⟩ := flatO_iff.2 ⟨hl, by rw [List.map_map]; exact hg⟩
    refine ⟨o, ?_⟩
    unfold SqMatrix.items
    rw [TableIter.collect_eq_pending]
    by_cases hd : m.dimension = 0
    · have hn : l = [] := by
        cases l with
        | nil => rfl
        | cons e l =>
          obtain ⟨v, c, r⟩ := e
          have : m.at? c r = some v := (SqMatrix.mem_items h .id).1 ((SqMatrix.items_perm h .id).mem_iff.2 (hp.mem_iff.1 (by simp)))
          have := (h.bound (c, r) (SqMatrix.mem_keys.2 (by simp [this]))).1
          omega
      subst hn
      simp [TableIter.pending, SqMatrix.intoIter, hd]
    · rw [hpend o hd, ho, List.map_map]
      exact List.map_id _

/-! ## C123 -/

/-- **C123.** The files a graph can be written as: its edges, each once, in any order in which the edges from the same
vertex stand together, and in no other order. -/
theorem C123_graph {g : Graph} (hg : GReach g) (P : Platform) (b : Bytes) :
    (∃ o, g.toBytes P o = .ok b) ↔
      (26 + 16 * g.edgeCount ≤ P.usizeMax ∧ P.alloc (26 + 16 * g.edgeCount) = true) ∧
      ∃ edges : List (Nat × Nat), edges.Nodup ∧ (∀ u v, (u, v) ∈ edges ↔ g.doesEdgeExist u v = true) ∧
        Grouped (edges.map Prod.fst) ∧ b = graphFile g.isUndirected g.vertexCount edges := by
  have hwf := hg.ok.wf
  constructor
  · rintro ⟨o, ho⟩
    refine ⟨(C14_graph_bytes_layout hg P o).2.2.2.2 ⟨b, ho⟩, g.items o, Graph.items_nodup hg.ok o, fun u v => ?_,
      ((AdjMatrix.items_iff hwf).1 ⟨o, rfl⟩).2, ?_⟩
    · rw [Graph.mem_items hg.ok, Graph.doesEdgeExist_iff]
    · rw [Graph.toBytes_eq P o g hg.ok] at ho
      split at ho
      · cases ho
      · split at ho
        · cases ho; rfl
        · cases ho
  · rintro ⟨⟨h1, h2⟩, l, hn, hm, hgr, rfl⟩
    have hp : l.Perm ((flat g.adjacencyMatrix.edgesTable).map fun x => (x.1, x.2.1)) := by
      refine List.Perm.trans ?_ (AdjMatrix.items_perm hwf .id)
      refine (List.perm_ext_iff_of_nodup hn (AdjMatrix.items_nodup hwf .id)).2 ?_
      rintro ⟨u, v⟩
      rw [hm, Graph.doesEdgeExist_iff]
      exact (AdjMatrix.mem_items hwf .id).symm
    obtain ⟨o, ho⟩ := (AdjMatrix.items_iff hwf).2 ⟨hp, hgr⟩
    refine ⟨o, ?_⟩
    rw [Graph.toBytes_eq P o g hg.ok, if_neg (by omega), if_pos h2]
    unfold Graph.items
    rw [ho]

/-- **C123.** The same for compressed graphs: the blocks of the same column stand together. -/
theorem C123_compressed {c : CGraph} (hc : CReach c) (P : Platform) (b : Bytes) :
    (∃ o, c.toBytes P o = .ok b) ↔
      ∃ blocks : List (Nat × Nat × Nat), (blocks.map fun e => (e.2.1, e.2.2)).Nodup ∧
        (∀ e x y, (e, x, y) ∈ blocks ↔ e ≠ 0 ∧ c.getCompressedMatrixEntry x y = e) ∧
        Grouped (blocks.map fun e => e.2.1) ∧
        42 + 24 * blocks.length ≤ P.usizeMax ∧ P.alloc (42 + 24 * blocks.length) = true ∧
        b = compressedFile c.isUndirected c.compressionLevel (max 1 (ceilDiv c.vertexCount 8)) c.edgeCount c.vertexCount
          blocks := by
  have hwf := hc.ok.wf
  have hmem : ∀ (o : HashOrder) e x y, (e, x, y) ∈ c.adjacencyMatrix.items o ↔ e ≠ 0 ∧ c.getCompressedMatrixEntry x y = e := by
    intro o e x y
    rw [SqMatrix.mem_items hwf, CGraph.getEntry_at]
    constructor
    · intro h
      exact ⟨(hc.ok.word x y e h).1, by unfold CGraph.at?; rw [h]; rfl⟩
    · rintro ⟨h0, h⟩
      unfold CGraph.at? at h
      cases hx : c.adjacencyMatrix.at? x y with
      | none => rw [hx] at h; exact absurd h.symm h0
      | some e' => rw [hx] at h; exact congrArg some h
  have hdim : c.adjacencyMatrix.dimension = max 1 (ceilDiv c.vertexCount 8) := by rw [hc.ok.dim, CGraph.dim_eq_ceil]
  constructor
  · rintro ⟨o, ho⟩
    rw [ctoBytes_eq P o c hwf] at ho
    split at ho
    · cases ho
    next h1 =>
    split at ho
    swap
    · cases ho
    next h2 =>
    cases ho
    exact ⟨_, SqMatrix.items_keys_nodup hwf o, hmem o, ((SqMatrix.items_iff hwf).1 ⟨o, rfl⟩).2, by omega, h2, by rw [hdim]⟩
  · rintro ⟨l, hn, hm, hgr, h1, h2, rfl⟩
    have hp : l.Perm ((flat c.adjacencyMatrix.edgesTable).map fun x => (x.2.2, x.1, x.2.1)) := by
      refine List.Perm.trans ?_ (SqMatrix.items_perm hwf .id)
      refine (List.perm_ext_iff_of_nodup (List.Nodup.of_map _ hn) (List.Nodup.of_map _ (SqMatrix.items_keys_nodup hwf .id))).2 ?_
      rintro ⟨e, x, y⟩
      rw [hm, hmem]
    obtain ⟨o, ho⟩ := (SqMatrix.items_iff hwf).2 ⟨hp, hgr⟩
    refine ⟨o, ?_⟩
    rw [ctoBytes_eq P o c hwf, ho, if_neg (by omega), if_pos h2, hdim]

theorem listed_written {g : Graph} (hg : GReach g) {P : Platform} (hP : P.usizeMax ≤ U64_MAX) {l : List (Nat × Nat)}
    (hs : 26 + 16 * g.edgeCount ≤ P.usizeMax) (hn : l.Nodup) (hm : ∀ u v, (u, v) ∈ l ↔ g.doesEdgeExist u v = true) :
    l.length = g.edgeCount ∧
    field (graphFile g.isUndirected g.vertexCount l) 16 8 = l.length ∧
      listedEdges (graphFile g.isUndirected g.vertexCount l) l.length = l := by
  have hlen : l.length = g.edgeCount := by
    rw [Graph.edgeCount_eq hg.ok, ← List.toFinset_card_of_nodup hn]
    congr 1
    ext ⟨u, v⟩
    rw [List.mem_toFinset, hm, Graph.doesEdgeExist_iff]
  have hb : ∀ e ∈ l, e.1 < g.vertexCount ∧ e.2 < g.vertexCount := fun e he =>
    hg.ok.wf.bound e (Graph.doesEdgeExist_iff.1 ((hm e.1 e.2).1 he))
  have hd : g.vertexCount ≤ U64_MAX := hg.ok.wf.dim
  obtain ⟨_, _, _, f4, _, _, f7⟩ := Graph.graphFile_fields g.isUndirected g.vertexCount l hd (by omega)
    (fun e he => by have := hb e he; omega)
  exact ⟨hlen, f4, f7⟩

/-- **C123.** Two runs are certain to write the same bytes exactly when the graph has at most one edge. -/
theorem C123_deterministic {g : Graph} (hg : GReach g) {P : Platform} (hP : P.usizeMax ≤ U64_MAX)
    (hs : 26 + 16 * g.edgeCount ≤ P.usizeMax) (ha : P.alloc (26 + 16 * g.edgeCount) = true) :
    (∀ o o' b b', g.toBytes P o = .ok b → g.toBytes P o' = .ok b' → b = b') ↔ g.edgeCount ≤ 1 := by
  constructor
  · intro h
    obtain ⟨b, hb⟩ := (C14_graph_bytes_layout hg P .id).2.2.2.1 ⟨hs, ha⟩
    obtain ⟨_, l, hn, hm, hgr, rfl⟩ := (C123_graph hg P b).1 ⟨_, hb⟩
    have hn' : l.reverse.Nodup := List.nodup_reverse.2 hn
    have hm' : ∀ u v, (u, v) ∈ l.reverse ↔ g.doesEdgeExist u v = true := fun u v => by rw [List.mem_reverse, hm]
    obtain ⟨o', ho'⟩ := (C123_graph hg P (graphFile g.isUndirected g.vertexCount l.reverse)).2
      ⟨⟨hs, ha⟩, l.reverse, hn', hm', by rw [List.map_reverse]; exact grouped_reverse hgr, rfl⟩
    have he := h _ _ _ _ hb ho'
    obtain ⟨hlen, _, h1⟩ := listed_written hg hP hs hn hm
    obtain ⟨_, _, h2⟩ := listed_written hg hP hs hn' hm'
    rw [← he, List.length_reverse, h1] at h2
    by_contra hc
    have hl : 1 < l.length := by omega
    have h3 : l[0] = l.reverse[0]'(by simp; omega) := by congr 1
    rw [List.getElem_reverse] at h3
    have := (List.Nodup.getElem_inj_iff hn).1 h3
    omega
  · intro h o o' b b' hb hb'
    obtain ⟨_, l, hn, hm, _, rfl⟩ := (C123_graph hg P b).1 ⟨o, hb⟩
    obtain ⟨_, l', hn', hm', _, rfl⟩ := (C123_graph hg P b').1 ⟨o', hb'⟩
    have hlen := (listed_written hg hP hs hn hm).1
    have hp : l.Perm l' := (List.perm_ext_iff_of_nodup hn hn').2 fun e => by rw [hm e.1 e.2, ← hm' e.1 e.2]
    rcases l with _ | ⟨e, _ | ⟨e', l⟩⟩
    · rw [List.nil_perm.1 hp]
    · rw [List.singleton_perm.1 hp]
    · simp at hlen; omega

theorem drop_field {b : Bytes} {off k : Nat} (h : off + k ≤ b.length) :
    b.drop off = beBytes k (field b off k) ++ b.drop (off + k) := by
  have h1 : ((b.drop off).take k).length = k := by rw [List.length_take, List.length_drop]; omega
  have h2 := toBE_beValue ((b.drop off).take k)
  rw [h1, toBE_eq_beBytes] at h2
  unfold field
  rw [h2, ← List.drop_drop, List.take_append_drop]

theorem drop_edges {b : Bytes} (m i : Nat) (h : b.length = 26 + 16 * (i + m)) :
    b.drop (26 + 16 * i) = ((List.range' i m).map (listedEdge b)).flatMap fun e => beBytes 8 e.1 ++ beBytes 8 e.2 := by
  induction m generalizing i with
  | zero => simp [h]
  | succ m ih =>
    rw [List.range'_succ, List.map_cons, List.flatMap_cons, ← ih (i + 1) (by omega),
      drop_field (k := 8) (by omega), drop_field (b := b) (off := 26 + 16 * i + 8) (k := 8) (by omega)]
    simp only [listedEdge, List.append_assoc]
    rw [show 26 + 16 * i + 8 + 8 = 26 + 16 * (i + 1) by omega]

/-- A valid file is the file of its own fields. -/
theorem graphFile_self {b : Bytes} (h : ValidGraphFile b) :
    b = graphFile (field b 24 1 == 1) (field b 8 8) (listedEdges b (field b 16 8)) := by
  have hl := h.length
  have h0 : b = b.drop 0 := rfl
  have hone : ∀ x : Nat, beBytes 1 x = [UInt8.ofNat x] := by
    intro x
    simp [beBytes, beByte]
  have he := drop_edges (b := b) (field b 16 8) 0 (by omega)
  have hlen : (listedEdges b (field b 16 8)).length = field b 16 8 := by simp [listedEdges]
  unfold graphFile
  rw [hlen]
  conv_lhs => rw [h0, drop_field (k := 4) (by omega), drop_field (off := 0 + 4) (k := 4) (by omega),
    drop_field (off := 0 + 4 + 4) (k := 8) (by omega), drop_field (off := 0 + 4 + 4 + 8) (k := 8) (by omega),
    drop_field (off := 0 + 4 + 4 + 8 + 8) (k := 1) (by omega), drop_field (off := 0 + 4 + 4 + 8 + 8 + 1) (k := 1) (by omega)]
  norm_num only
  rw [h.magic, h.version, h.unweighted, hone, hone]
  rw [show b.drop 26 = _ from he]
  simp only [List.append_assoc, List.cons_append, List.nil_append, listedEdges, List.range_eq_range']
  rcases h.direction with h | h <;> simp [h]

/-- **C123.** The files that some graph is written as, among the files the decoder accepts: those that list no edge twice
and list the edges from the same vertex together. -/
theorem C123_written {P : Platform} (hP : P.usizeMax ≤ U64_MAX) {b : Bytes} :
    (∃ g o, GReach g ∧ g.toBytes P o = .ok b) ↔
      b.length ≤ P.usizeMax ∧ P.alloc b.length = true ∧ (∃ g, Graph.tryFrom P b = .ok g) ∧
      (listedEdges b (field b 16 8)).Nodup ∧ Grouped ((listedEdges b (field b 16 8)).map Prod.fst) := by
  constructor
  · rintro ⟨g, o, hg, hb⟩
    obtain ⟨⟨hs, ha⟩, l, hn, hm, hgr, rfl⟩ := (C123_graph hg P b).1 ⟨o, hb⟩
    obtain ⟨hlen, f4, f7⟩ := listed_written hg hP hs hn hm
    have hl : (graphFile g.isUndirected g.vertexCount l).length = 26 + 16 * g.edgeCount := by
      rw [Graph.graphFile_length, hlen]
    obtain ⟨g', hg', _⟩ := decode_encode hg.ok hP hb (P' := P) (by omega)
    rw [f4, f7, hl]
    exact ⟨hs, ha, ⟨g', hg'⟩, hn, hgr⟩
  · rintro ⟨hl, ha, ⟨g, hg⟩, hn, hgr⟩
    have hv := (C18_accepts_iff hl).1 ⟨g, hg⟩
    obtain ⟨h1, h2, h3, _, h5⟩ := C17_decoded_is_what_bytes_say hl hg
    have hr := GReach.tryFrom P b hg
    have hlen : b.length = 26 + 16 * g.edgeCount := by rw [h2]; exact hv.length
    have hu : g.isUndirected = (field b 24 1 == 1) := by rw [Bool.eq_iff_iff, h3]; simp
    have hm : ∀ u v, (u, v) ∈ listedEdges b (field b 16 8) ↔ g.doesEdgeExist u v = true := by
      intro u v
      -- as many edges are meant as are listed, so all that are meant are listed
      have hsub : (listedEdges b (field b 16 8)).toFinset ⊆ meantEdges (field b 24 1 == 1) (listedEdges b (field b 16 8)) := by
        intro e he
        unfold meantEdges
        split
        · simp only [List.toFinset_append, Finset.mem_union]; exact .inl he
        · exact he
      have hcard : (listedEdges b (field b 16 8)).toFinset.card = field b 16 8 := by
        rw [List.toFinset_card_of_nodup hn]; simp [listedEdges]
      have heq := Finset.eq_of_subset_of_card_le hsub (by rw [hv.distinct, hcard])
      rw [h5]
      constructor
      · exact .inl
      · rintro (h | ⟨hd, h⟩)
        · exact h
        · rw [← List.mem_toFinset, heq]
          unfold meantEdges
          rw [if_pos (by simpa using hd), List.mem_toFinset, List.mem_append, List.mem_map]
          exact .inr ⟨(v, u), h, rfl⟩
    obtain ⟨o, ho⟩ := (C123_graph hr P b).2 ⟨by rw [← hlen]; exact ⟨hl, ha⟩, _, hn, hm, hgr, by
      rw [h1, hu]; exact graphFile_self hv⟩
    exact ⟨g, o, hr, ho⟩

theorem drop_blocks {b : Bytes} (m i : Nat) (h : b.length = 42 + 24 * (i + m)) :
    b.drop (42 + 24 * i) = ((List.range' i m).map (listedBlock b)).flatMap fun e =>
      beBytes 8 e.1 ++ beBytes 8 e.2.1 ++ beBytes 8 e.2.2 := by
  induction m generalizing i with
  | zero => simp [h]
  | succ m ih =>
    rw [List.range'_succ, List.map_cons, List.flatMap_cons, ← ih (i + 1) (by omega),
      drop_field (k := 8) (by omega), drop_field (b := b) (off := 42 + 24 * i + 8) (k := 8) (by omega),
      drop_field (b := b) (off := 42 + 24 * i + 8 + 8) (k := 8) (by omega)]
    simp only [listedBlock, List.append_assoc]
    rw [show 42 + 24 * i + 8 + 8 + 8 = 42 + 24 * (i + 1) by omega]

/-- A valid compressed file is the file of its own fields. -/
theorem compressedFile_self {b : Bytes} (h : ValidCompressedFile b) :
    b = compressedFile (field b 40 1 == 1) (field b 41 1) (field b 8 8) (field b 24 8) (field b 32 8)
      (listedBlocks b (field b 16 8)) := by
  have hl := h.length
  have h0 : b = b.drop 0 := rfl
  have hone : ∀ x : Nat, beBytes 1 x = [UInt8.ofNat x] := by
    intro x
    simp [beBytes, beByte]
  have he := drop_blocks (b := b) (field b 16 8) 0 (by omega)
  have hlen : (listedBlocks b (field b 16 8)).length = field b 16 8 := by simp [listedBlocks]
  unfold compressedFile
  rw [hlen]
  conv_lhs => rw [h0, drop_field (k := 4) (by omega), drop_field (off := 0 + 4) (k := 4) (by omega),
    drop_field (off := 0 + 4 + 4) (k := 8) (by omega), drop_field (off := 0 + 4 + 4 + 8) (k := 8) (by omega),
    drop_field (off := 0 + 4 + 4 + 8 + 8) (k := 8) (by omega), drop_field (off := 0 + 4 + 4 + 8 + 8 + 8) (k := 8) (by omega),
    drop_field (off := 0 + 4 + 4 + 8 + 8 + 8 + 8) (k := 1) (by omega),
    drop_field (off := 0 + 4 + 4 + 8 + 8 + 8 + 8 + 1) (k := 1) (by omega)]
  norm_num only
  rw [h.magic, h.version, hone, hone]
  rw [show b.drop 42 = _ from he]
  simp only [List.append_assoc, List.cons_append, List.nil_append, listedBlocks, List.range_eq_range']
  rcases h.direction with h | h <;> simp [h]

/-- **C123.** The accepted files that some compressed graph is written as: those that list no block twice and list the
blocks of the same column together. -/
theorem C123_written_compressed {P : Platform} (hP : P.usizeMax ≤ U64_MAX) {b : Bytes} {c₀ : CGraph}
    (h₀ : CGraph.tryFrom P b = .ok c₀) :
    (∃ c o, CReach c ∧ c.toBytes P o = .ok b) ↔
      P.alloc b.length = true ∧ ((listedBlocks b (field b 16 8)).map fun e => (e.2.1, e.2.2)).Nodup ∧
      Grouped ((listedBlocks b (field b 16 8)).map fun e => e.2.1) := by
  constructor
  · rintro ⟨c, o, hc, hb⟩
    obtain ⟨ha, _, _, _, _, _, f9⟩ := encoded_all hc.ok hP hb
    rw [f9]
    refine ⟨?_, SqMatrix.items_keys_nodup hc.ok.wf o, ((SqMatrix.items_iff hc.ok.wf).1 ⟨o, rfl⟩).2⟩
    rw [ctoBytes_eq P o c hc.ok.wf] at hb
    split at hb
    · cases hb
    split at hb
    · next h => cases hb; rw [compressedFile_length]; exact h
    · cases hb
  · rintro ⟨ha, hn, hgr⟩
    have hl := CGraph.tryFrom_length h₀
    obtain ⟨hv, rfl⟩ := (CGraph.tryFrom_iff hl c₀).1 h₀
    obtain ⟨hok, h1, h2, h3, h4, h5⟩ := CGraph.decoded_spec hv
    have hr := CReach.tryFrom P b h₀
    have hlen : (listedBlocks b (field b 16 8)).length = field b 16 8 := by simp [listedBlocks]
    obtain ⟨o, ho⟩ := (C123_compressed hr P b).2 ⟨_, hn, by
        intro e x y
        have hx := h5 x y
        rw [CGraph.getEntry_at, hx]
        have := CGraph.find_of_nodup hn x y
        constructor
        · intro he
          have hne := hv.nonzero _ he
          exact ⟨hne, by rw [(this e).2 he]; rfl⟩
        · rintro ⟨hne, he⟩
          cases hf : ((listedBlocks b (field b 16 8)).reverse.find? fun e => decide (e.2.1 = x ∧ e.2.2 = y)).map Prod.fst with
          | none => rw [hf] at he; exact absurd he.symm hne
          | some e' => rw [hf] at he; rw [← this e, hf]; exact congrArg some he, hgr, by
        rw [hlen, ← hv.length]; exact hl, by rw [hlen, ← hv.length]; exact ha, by
        rw [h1, h2, h3, h4]
        conv_lhs => rw [compressedFile_self hv, hv.dimension]
        rfl⟩
    exact ⟨_, o, hr, ho⟩

/-! ### Examples -/

theorem grouped_of {l : List Nat} (h : ∀ k < l.length, ∀ j < k, ∀ i < j, l[i]? = l[k]? → l[j]? = l[k]?) : Grouped l := by
  intro i j k c d hij hjk hi hj hk
  have := h k (List.getElem?_eq_some_iff.1 hk).1 j hjk i hij (hi.trans hk.symm)
  rw [hj, hk] at this
  exact Option.some.inj this

/-- Three vertices, the edges `0 → 1`, `0 → 2` and `1 → 0`. -/
def exO : Graph := ((Graph.newDirected.addEdge 0 1).addEdge 0 2).addEdge 1 0

theorem exO_reach : GReach exO := .addEdge _ _ (.addEdge _ _ (.addEdge _ _ .newDirected))

/-- The four files `exO` can be written as. -/
example : ∀ l ∈ [[(0, 1), (0, 2), (1, 0)], [(0, 2), (0, 1), (1, 0)], [(1, 0), (0, 1), (0, 2)], [(1, 0), (0, 2), (0, 1)]],
    ∃ o, exO.toBytes exP o = .ok (graphFile false 3 l) := by
  intro l hl
  refine (C123_graph exO_reach exP _).2 ⟨by decide +kernel, l, ?_, ?_, ?_, by
    rw [show exO.isUndirected = false by decide +kernel, show exO.vertexCount = 3 by decide +kernel]⟩
  · revert l; decide
  · intro u v
    rw [Graph.doesEdgeExist_iff, show exO.pairs = {(0, 1), (0, 2), (1, 0)} by decide +kernel, ← List.mem_toFinset]
    have : l.toFinset = {(0, 1), (0, 2), (1, 0)} := by revert l; decide
    rw [this]
  · apply grouped_of
    revert l; decide

/-- A file that is accepted, but that no graph is written as: the edges from vertex 0 do not stand together. -/
def interleaved : Bytes := graphFile false 3 [(0, 1), (1, 0), (0, 2)]

theorem C123_interleaved : (∃ g, Graph.tryFrom exP interleaved = .ok g) ∧
    ¬ ∃ g o, GReach g ∧ g.toBytes exP o = .ok interleaved := by
  constructor
  · obtain ⟨g, h, _⟩ := okAnd_elim (show okAnd (Graph.tryFrom exP interleaved) (fun _ => true) = true by decide +kernel)
    exact ⟨g, h⟩
  · intro h
    have hg := ((C123_written (P := exP) (le_refl _)).1 h).2.2.2.2
    have : (listedEdges interleaved (field interleaved 16 8)).map Prod.fst = [0, 1, 0] := by decide +kernel
    rw [this] at hg
    exact absurd (hg 0 1 2 0 1 (by decide) (by decide) rfl rfl rfl) (by decide)

/-- Two of its three edges stand in the same column, so the file may begin with either column. -/
example : exO.edgeCount = 3 ∧ 26 + 16 * exO.edgeCount ≤ exP.usizeMax ∧ exP.usizeMax ≤ U64_MAX := by decide +kernel

/-- Some compressed graph is written as `exF`. -/
example : ∃ c o, CReach c ∧ c.toBytes exP o = .ok exF := by
  obtain ⟨c, h, _⟩ := okAnd_elim (show okAnd (CGraph.tryFrom exP exF) (fun _ => true) = true by decide +kernel)
  exact (C123_written_compressed (le_refl _) h).2 ⟨rfl, by decide +kernel, grouped_of (by decide +kernel)⟩

/-- A compressed file that is accepted, but that no compressed graph is written as. -/
def interleavedC : Bytes := compressedFile false 7 2 3 10 [(1, 0, 0), (1, 1, 1), (1, 0, 1)]

theorem C123_interleaved_compressed : (∃ c, CGraph.tryFrom exP interleavedC = .ok c) ∧
    ¬ ∃ c o, CReach c ∧ c.toBytes exP o = .ok interleavedC := by
  obtain ⟨c, h, _⟩ := okAnd_elim (show okAnd (CGraph.tryFrom exP interleavedC) (fun _ => true) = true by decide +kernel)
  refine ⟨⟨c, h⟩, fun hw => ?_⟩
  have hg := ((C123_written_compressed (le_refl _) h).1 hw).2.2
  have : (listedBlocks interleavedC (field interleavedC 16 8)).map (fun e => e.2.1) = [0, 1, 0] := by decide +kernel
  rw [this] at hg
  exact absurd (hg 0 1 2 0 1 (by decide) (by decide) rfl rfl rfl) (by decide)

end Verif.Props
