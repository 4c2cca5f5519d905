import Verif.Spec.Storage
import Verif.Props.Matrices
import Verif.Props.Codec
import Verif.Props.CCodec
import Verif.Props.CSize

/-!
# C121: what is kept in memory
-/

namespace Verif.Props
open Verif Spec

/-! ### Tables -/

section
variable {V : Type} {t : HMap (HMap V)}

theorem mem_tables {u k : Nat} : (u, k) ∈ tables t ↔ ∃ rows, t.get? u = some rows ∧ rows.entries.length = k := by
  unfold tables
  rw [List.mem_map]
  constructor
  · rintro ⟨⟨c, rows⟩, hm, he⟩
    cases he
    exact ⟨rows, HMap.mem_entries_iff.1 hm, rfl⟩
  · rintro ⟨rows, hg, rfl⟩
    exact ⟨(u, rows), HMap.mem_entries_iff.2 hg, rfl⟩

theorem cells_eq_flat : cells t = (flat t).length := by
  unfold cells tables flat
  rw [List.length_flatMap, List.map_map]
  congr 1
  refine List.map_congr_left fun e _ => ?_
  simp

theorem tables_keys_nodup : ((tables t).map Prod.fst).Nodup := by
  unfold tables
  rw [List.map_map]
  exact t.nodup

theorem noEmpty_iff : NoEmptyTable t ↔ ∀ u, t.get? u ≠ none → ∃ r, get2 t u r ≠ none := by
  constructor
  · intro h u hu
    obtain ⟨rows, hr⟩ := Option.ne_none_iff_exists'.1 hu
    have h1 := h _ (mem_tables.2 ⟨rows, hr, rfl⟩)
    obtain ⟨⟨r, x⟩, hx⟩ := List.exists_mem_of_length_pos (Nat.pos_of_ne_zero h1)
    exact ⟨r, by unfold get2; rw [hr]; simp [HMap.mem_entries_iff.1 hx]⟩
  · rintro h ⟨u, k⟩ hm hk
    obtain ⟨rows, hr, rfl⟩ := mem_tables.1 hm
    obtain ⟨r, hx⟩ := h u (by simp [hr])
    unfold get2 at hx
    rw [hr] at hx
    obtain ⟨x, hx⟩ := Option.ne_none_iff_exists'.1 hx
    have := HMap.mem_entries_iff.2 (show rows.get? r = some x from hx)
    simp only [List.length_eq_zero_iff] at hk
    rw [hk] at this
    cases this

theorem tables_le_cells (h : NoEmptyTable t) : (tables t).length ≤ cells t := by
  unfold cells
  unfold NoEmptyTable at h
  generalize tables t = l at h
  induction l with
  | nil => exact le_rfl
  | cons e l ih =>
    have h1 := h e (List.mem_cons_self ..)
    have := ih fun e he => h e (List.mem_cons_of_mem _ he)
    simp only [List.length_cons, List.map_cons, List.sum_cons]
    omega

/-- Putting an entry into a table. -/
theorem noEmpty_put (h : NoEmptyTable t) (c r : Nat) (x : V) :
    NoEmptyTable (t.insert c (((t.get? c).getD HMap.empty).insert r x)) := by
  rw [noEmpty_iff] at h ⊢
  intro u hu
  by_cases hc : u = c
  · subst hc
    exact ⟨r, by rw [get2_insert]; simp [HMap.get?_insert]⟩
  · rw [HMap.get?_insert, if_neg hc] at hu
    obtain ⟨r', hr'⟩ := h u hu
    exact ⟨r', by rw [get2_insert, if_neg hc]; exact hr'⟩

theorem noEmpty_empty : NoEmptyTable (HMap.empty : HMap (HMap V)) := by
  intro e he
  cases he
end

/-! ### Graphs -/

theorem set_table (m : AdjMatrix) (e c r : Nat) :
    (m.setEntry e c r).edgesTable = m.edgesTable ∨
    (m.setEntry e c r).edgesTable = m.edgesTable.insert c (((m.edgesTable.get? c).getD HMap.empty).insert r ()) := by
  unfold AdjMatrix.setEntry
  cases checkedAdd c 1 with
  | none => exact .inl rfl
  | some x =>
    cases checkedAdd r 1 with
    | none => exact .inl rfl
    | some y =>
      simp only
      split
      · exact .inl rfl
      · exact .inr rfl

theorem noEmpty_set {m : AdjMatrix} (h : NoEmptyTable m.edgesTable) (e c r : Nat) :
    NoEmptyTable (m.setEntry e c r).edgesTable := by
  rcases set_table m e c r with he | he <;> rw [he]
  · exact h
  · exact noEmpty_put h c r ()

theorem noEmpty_addEdge {g : Graph} (h : NoEmptyTable g.table) (u v : Nat) : NoEmptyTable (g.addEdge u v).table := by
  unfold Graph.addEdge Graph.table
  simp only
  split
  · exact noEmpty_set (noEmpty_set h _ _ _) _ _ _
  · exact noEmpty_set h _ _ _

theorem noEmpty_addEdges (l : List (Nat × Nat)) {g : Graph} (h : NoEmptyTable g.table) :
    NoEmptyTable (l.foldl (fun g e => g.addEdge e.1 e.2) g).table := by
  induction l generalizing g with
  | nil => exact h
  | cons e l ih => exact ih (noEmpty_addEdge h e.1 e.2)

theorem touch_table (g : Graph) (v : Nat) : (g.touch v).table = g.table := by
  rw [Graph.touch_eq]; rfl

theorem noEmpty_addVertex {g : Graph} (h : NoEmptyTable g.table) (v : Nat) (ts : Option (List Nat)) :
    NoEmptyTable (g.addVertex v ts).table := by
  match ts with
  | none => rw [Graph.addVertex_none, touch_table]; exact h
  | some [] => rw [Graph.addVertex_nil, touch_table]; exact h
  | some (t :: ts) =>
    rw [Graph.addVertex_cons]
    have := noEmpty_addEdges ((t :: ts).map fun t => (v, t)) h
    rwa [List.foldl_map] at this

/-- What an edit does to the tables. -/
theorem table_call (g : Graph) (e : Edit) (u : Nat) :
    (e.call g).table.get? u ≠ none ↔ g.table.get? u ≠ none ∨ ∃ v, (u, v) ∈ (e.call g).pairs := by
  have hp : ∀ {g : Graph} {v}, (u, v) ∈ g.pairs → g.table.get? u ≠ none := by
    intro g v hm
    have h2 := AdjMatrix.mem_pairs.1 hm
    unfold get2 at h2
    intro hc
    unfold Graph.table at hc
    simp only [hc] at h2
    cases h2
  have hadd : ∀ (g : Graph) (x y : Nat), (g.addEdge x y).table.get? u ≠ none ↔
      g.table.get? u ≠ none ∨ ∃ v, (u, v) ∈ (g.addEdge x y).pairs := by
    intro g x y
    refine ⟨fun h => ?_, ?_⟩
    · by_contra hc
      push Not at hc
      obtain ⟨h0, h1⟩ := hc
      by_cases hb : x < U64_MAX ∧ y < U64_MAX
      · have hs : ∀ (m : AdjMatrix) (a b : Nat), (m.setEntry 1 a b).edgesTable.get? u ≠ none → m.edgesTable.get? u = none → u = a := by
          intro m a b h hn
          rcases set_table m 1 a b with he | he <;> rw [he] at h
          · exact absurd hn h
          · by_contra hne
            rw [HMap.get?_insert, if_neg hne] at h
            exact h hn
        have hpr := Graph.addEdge_pairs (g := g) hb.1 hb.2
        unfold Graph.table Graph.addEdge at h
        simp only at h
        cases hu : g.isUndirected with
        | false =>
          rw [hu] at h
          have := hs _ _ _ h h0
          subst this
          refine h1 y ?_
          rw [hpr, hu]
          simp [Graph.newPairs]
        | true =>
          rw [hu, if_pos rfl] at h
          by_cases hq : (g.adjacencyMatrix.setEntry 1 x y).edgesTable.get? u = none
          · have := hs _ _ _ h hq
            subst this
            refine h1 x ?_
            rw [hpr, hu]
            simp [Graph.newPairs]
          · have := hs _ _ _ hq h0
            subst this
            refine h1 y ?_
            rw [hpr, hu]
            simp [Graph.newPairs]
      · rw [Graph.addEdge_overflow hb] at h
        exact h h0
    · rintro (h | ⟨v, hv⟩)
      · unfold Graph.table Graph.addEdge
        have hs : ∀ (m : AdjMatrix) (a b : Nat), m.edgesTable.get? u ≠ none → (m.setEntry 1 a b).edgesTable.get? u ≠ none := by
          intro m a b h
          rcases set_table m 1 a b with he | he <;> rw [he]
          · exact h
          · rw [HMap.get?_insert]
            split
            · simp
            · exact h
        simp only
        split
        · exact hs _ _ _ (hs _ _ _ h)
        · exact hs _ _ _ h
      · exact hp hv
  cases e with
  | addEdge x y => exact hadd g x y
  | addVertex x ts =>
    have htouch : (g.touch x).table.get? u ≠ none ↔ g.table.get? u ≠ none ∨ ∃ v, (u, v) ∈ (g.touch x).pairs := by
      rw [touch_table, Graph.touch_pairs]
      exact ⟨Or.inl, fun h => h.elim id fun ⟨v, hv⟩ => hp hv⟩
    match ts with
    | none => change (g.addVertex x none).table.get? u ≠ none ↔ _ ∨ ∃ v, _ ∈ (g.addVertex x none).pairs
              rw [Graph.addVertex_none]; exact htouch
    | some [] => change (g.addVertex x (some [])).table.get? u ≠ none ↔ _ ∨ ∃ v, _ ∈ (g.addVertex x (some [])).pairs
                 rw [Graph.addVertex_nil]; exact htouch
    | some (y :: ts) =>
      change (g.addVertex x (some (y :: ts))).table.get? u ≠ none ↔ _ ∨ ∃ v, _ ∈ (g.addVertex x (some (y :: ts))).pairs
      rw [Graph.addVertex_cons]
      generalize y :: ts = l
      induction l generalizing g with
      | nil => exact ⟨Or.inl, fun h => h.elim id fun ⟨v, hv⟩ => hp hv⟩
      | cons y l ih =>
        rw [List.foldl_cons, ih (g.addEdge x y) (by
          rw [touch_table, Graph.touch_pairs]
          exact ⟨Or.inl, fun h => h.elim id fun ⟨v, hv⟩ => hp hv⟩), hadd]
        have hmono : ∀ (l : List Nat) (g : Graph) p, p ∈ g.pairs → p ∈ (l.foldl (fun g t => g.addEdge x t) g).pairs := by
          intro l
          induction l with
          | nil => intro g p h; exact h
          | cons z l ih =>
            intro g p h
            refine ih _ _ ?_
            by_cases hb : x < U64_MAX ∧ z < U64_MAX
            · rw [Graph.addEdge_pairs hb.1 hb.2]; exact Finset.mem_union_right _ h
            · change p ∈ (g.addEdge x z).pairs
              rw [Graph.addEdge_overflow hb]; exact h
        constructor
        · rintro ((h | ⟨v, hv⟩) | h)
          · exact .inl h
          · exact .inr ⟨v, hmono l _ _ hv⟩
          · exact .inr h
        · rintro (h | h)
          · exact .inl (.inl h)
          · exact .inr h
  | deleteEdge x y =>
    have hz : ∀ (m : AdjMatrix) (a b : Nat), (m.zeroEntry a b).edgesTable.get? u ≠ none ↔ m.edgesTable.get? u ≠ none := by
      intro m a b
      unfold AdjMatrix.zeroEntry
      cases ha : m.edgesTable.get? a with
      | none => exact Iff.rfl
      | some rows =>
        simp only
        rw [HMap.get?_insert]
        split
        · next hc => subst hc; simp [ha]
        · exact Iff.rfl
    have : (g.deleteEdge x y).table.get? u ≠ none ↔ g.table.get? u ≠ none := by
      unfold Graph.deleteEdge Graph.table
      simp only
      split
      · rw [hz, hz]
      · rw [hz]
    refine ⟨fun h => .inl (this.1 h), ?_⟩
    rintro (h | ⟨v, hv⟩)
    · exact this.2 h
    · exact hp hv

theorem table_history (d : Bool) (h : List Edit) (u : Nat) : (runCode d h).table.get? u ≠ none ↔ EverLeft d h u := by
  induction h using List.reverseRecOn with
  | nil =>
    constructor
    · intro hh
      refine absurd ?_ hh
      cases d <;> rfl
    · rintro ⟨i, v, hm⟩
      rw [List.take_nil] at hm
      cases hm
  | append_singleton h e ih =>
    have hr : runCode d (h ++ [e]) = e.call (runCode d h) := by
      unfold runCode; rw [List.foldl_append]; rfl
    have ha : (runCode d (h ++ [e])).pairs = ((h ++ [e]).foldl AGraph.applyActual (AGraph.empty d)).E := by
      rw [← Graph.abs_runCode]; rfl
    rw [hr, table_call, ih, ← hr, ha]
    constructor
    · rintro (⟨i, v, hm⟩ | ⟨v, hv⟩)
      · refine ⟨min i h.length, v, ?_⟩
        rw [List.take_append_of_le_length (min_le_right _ _)]
        rwa [show h.take (min i h.length) = h.take i by rw [← List.take_take, List.take_length]]
      · exact ⟨(h ++ [e]).length, v, by rwa [List.take_length]⟩
    · rintro ⟨i, v, hm⟩
      by_cases hi : i ≤ h.length
      · rw [List.take_append_of_le_length hi] at hm
        exact .inl ⟨i, v, hm⟩
      · rw [List.take_of_length_le (by simp; omega)] at hm
        exact .inr ⟨v, hm⟩

theorem degree_table {g : Graph} {u : Nat} {rows : HMap Unit} (h : g.table.get? u = some rows) :
    g.getVertexOutDegree u = rows.entries.length := by
  unfold Graph.getVertexOutDegree AdjMatrix.colNonzeroEntryCount
  unfold Graph.table at h
  rw [h]
  rfl

/-- **C121**, entries: whatever has been done to a graph, its tables have one entry for each edge. -/
theorem C121_cells {g : Graph} (hg : GReach g) : cells g.table = g.edgeCount := by
  rw [cells_eq_flat]
  unfold Graph.table
  rw [← AdjMatrix.pairs_card, ← hg.ok.wf.count]
  rfl

/-- **C121**, tables: a graph keeps one table for each vertex that has had an outgoing edge at some time, also if all of them have been deleted. -/
theorem C121_exact (d : Bool) (h : List Edit) :
    ((tables (runCode d h).table).map Prod.fst).Nodup ∧
    ∀ u k, (u, k) ∈ tables (runCode d h).table ↔ EverLeft d h u ∧ k = (runCode d h).getVertexOutDegree u := by
  refine ⟨tables_keys_nodup, fun u k => ?_⟩
  rw [mem_tables, ← table_history]
  constructor
  · rintro ⟨rows, hr, rfl⟩
    exact ⟨by simp [hr], (degree_table hr).symm⟩
  · rintro ⟨hu, rfl⟩
    obtain ⟨rows, hr⟩ := Option.ne_none_iff_exists'.1 hu
    exact ⟨rows, hr, (degree_table hr).symm⟩

/-- **C121** in full: a graph never keeps an empty table, so memory is in proportion to the number of edges. -/
def C121_full : Prop := ∀ g, GReach g → NoEmptyTable g.table

/-- Deleting an edge leaves its table behind. -/
theorem C121_full_false : ¬ C121_full := by
  intro h
  exact h _ (.deleteEdge 0 1 (.addEdge 0 1 .newDirected)) (0, 0) (by decide) rfl

/-- **C121**, memory is not given back: `2k` edits can leave a graph without edges that keeps `k` tables. -/
theorem C121_leak (d : Bool) {k : Nat} (hk : k < 2 ^ 64) : ∃ h : List Edit, h.length = 2 * k ∧ (runCode d h).edgeCount = 0 ∧
    (tables (runCode d h).table).length = k := by
  let hist : Nat → List Edit := fun k => (List.range k).flatMap fun i => [.addEdge i i, .deleteEdge i i]
  have key : ∀ k, k < 2 ^ 64 → (runCode d (hist k)).pairs = ∅ ∧ ∀ u, (runCode d (hist k)).table.get? u ≠ none ↔ u < k := by
    intro k
    induction k with
    | zero =>
      intro _
      refine ⟨by cases d <;> rfl, fun u => ⟨fun h => absurd ?_ h, fun h => by omega⟩⟩
      cases d <;> rfl
    | succ k ih =>
      intro hk
      obtain ⟨h1, h2⟩ := ih (by omega)
      have hr : runCode d (hist (k + 1)) = ((runCode d (hist k)).addEdge k k).deleteEdge k k := by
        simp only [hist, runCode, List.range_succ, List.flatMap_append, List.foldl_append]
        rfl
      have hb : k < U64_MAX := by rw [← Graph.U64_pow]; omega
      have ha : ((runCode d (hist k)).addEdge k k).pairs = {(k, k)} := by
        rw [Graph.addEdge_pairs hb hb, h1]
        unfold Graph.newPairs
        split <;> simp
      have hd : (((runCode d (hist k)).addEdge k k).deleteEdge k k).pairs = ∅ := by
        rw [Graph.deleteEdge_pairs, ha]
        unfold Graph.newPairs
        split <;> simp
      rw [hr]
      refine ⟨hd, fun u => ?_⟩
      rw [show ((runCode d (hist k)).addEdge k k).deleteEdge k k = (Edit.deleteEdge k k).call ((Edit.addEdge k k).call (runCode d (hist k)))
        from rfl, table_call, table_call, h2]
      simp only [Edit.call, hd, ha, Finset.mem_singleton, Prod.mk.injEq, Finset.notMem_empty, exists_false, or_false, exists_eq_right]
      omega
  have hlen : ∀ k, (hist k).length = 2 * k := by
    intro k
    induction k with
    | zero => rfl
    | succ k ih =>
      simp only [hist, List.range_succ, List.flatMap_append, List.length_append] at ih ⊢
      rw [ih]
      simp
      omega
  obtain ⟨h1, h2⟩ := key k hk
  refine ⟨hist k, hlen k, ?_, ?_⟩
  · unfold Graph.edgeCount
    rw [(Graph.OK.runCode d (hist k)).wf.count]
    exact Finset.card_eq_zero.2 h1
  · have hset : ((tables (runCode d (hist k)).table).map Prod.fst).toFinset = Finset.range k := by
      ext u
      rw [List.mem_toFinset, Finset.mem_range, ← h2, List.mem_map]
      constructor
      · rintro ⟨⟨u', n⟩, hm, rfl⟩
        obtain ⟨rows, hr, _⟩ := mem_tables.1 hm
        simp [hr]
      · intro hu
        obtain ⟨rows, hr⟩ := Option.ne_none_iff_exists'.1 hu
        exact ⟨(u, _), mem_tables.2 ⟨rows, hr, rfl⟩, rfl⟩
    rw [← List.length_map (f := Prod.fst), ← List.toFinset_card_of_nodup tables_keys_nodup, hset, Finset.card_range]

/-- **C121**, as far as it is true: no empty table is kept by graphs from which nothing was deleted, decoded graphs, decompressed graphs and
approximations; then there are at most as many tables as edges. -/
theorem C121_partial :
    (∀ (d : Bool) (h : List Edit), NoDelete h → NoEmptyTable (runCode d h).table) ∧
    (∀ (P : Platform) (b : Bytes) (g : Graph), b.length ≤ P.usizeMax → Graph.tryFrom P b = .ok g → NoEmptyTable g.table) ∧
    (∀ (P : Platform) (o : HashOrder) (c : CGraph) (g : Graph), CReach c → c.decompress P o = .ok g → NoEmptyTable g.table) ∧
    (∀ (P : Platform) (o₁ o₂ : HashOrder) (g a : Graph) (b : Nat) (t : F64), 2 ≤ b → 2 ≤ g.vertexCount →
      g.approximate P o₁ o₂ b t = .ok a → NoEmptyTable a.table) ∧
    (∀ g, GReach g → NoEmptyTable g.table → (tables g.table).length ≤ g.edgeCount) := by
  have hnew : ∀ d : Bool, NoEmptyTable (if d then Graph.newUndirected else Graph.newDirected).table := by
    intro d
    cases d <;> exact noEmpty_empty
  refine ⟨?_, ?_, ?_, ?_, ?_⟩
  · intro d h hd
    unfold runCode
    have : ∀ (h : List Edit) (g : Graph), NoDelete h → NoEmptyTable g.table → NoEmptyTable (h.foldl Edit.call g).table := by
      intro h
      induction h with
      | nil => intro g _ hg; exact hg
      | cons e h ih =>
        intro g hd hg
        refine ih _ (fun u v hm => hd u v (List.mem_cons_of_mem _ hm)) ?_
        cases e with
        | addVertex v ts => exact noEmpty_addVertex hg v ts
        | addEdge u v => exact noEmpty_addEdge hg u v
        | deleteEdge u v => exact absurd (List.mem_cons_self ..) (hd u v)
    exact this h _ hd (hnew d)
  · intro P b g hP h
    obtain ⟨_, rfl⟩ := (accepted_iff hP g).1 h
    have hb : ∀ (u : Bool) l, NoEmptyTable (Graph.buildFrom u l).table := fun u l => noEmpty_addEdges l (hnew u)
    split
    · exact noEmpty_addVertex (hb _ _) _ _
    · exact hb _ _
  · intro P o c g hc h
    rw [CGraph.decompress_eq hc.ok] at h
    cases h
    refine noEmpty_addEdges _ ?_
    unfold CGraph.start
    simp only
    split
    · exact noEmpty_addVertex (hnew _) _ _
    · exact hnew _
  · intro P o₁ o₂ g a b t hb hn h
    unfold Graph.approximate at h
    rw [if_neg (by omega)] at h
    obtain ⟨m, _, h⟩ := Res.bind_eq_ok.1 h
    cases h
    rw [Graph.foldl_select]
    exact noEmpty_addEdges _ (noEmpty_addVertex (hnew _) _ _)
  · intro g hg h
    rw [← C121_cells hg]
    exact tables_le_cells h

/-- **C121**, decoding: a graph file of `26 + 16n` bytes is decoded into at most `n` tables with `n` entries, whatever its header says. -/
theorem C121_decode {P : Platform} {b : Bytes} {g : Graph} (hP : b.length ≤ P.usizeMax) (h : Graph.tryFrom P b = .ok g) :
    b.length = 26 + 16 * cells g.table ∧ (tables g.table).length ≤ cells g.table := by
  refine ⟨?_, tables_le_cells (C121_partial.2.1 P b g hP h)⟩
  rw [C121_cells (.tryFrom P b h), (C17_decoded_is_what_bytes_say hP h).2.1]
  exact (((accepted_iff hP g).1 h).1).length

/-! ### Other matrices -/

theorem setS_table {T : Type} (N : Numeric T) (m : SqMatrix T) (e : T) (c r : Nat) :
    (m.setEntry N e c r).edgesTable = m.edgesTable ∨
    (m.setEntry N e c r).edgesTable = m.edgesTable.insert c (((m.edgesTable.get? c).getD HMap.empty).insert r e) := by
  unfold SqMatrix.setEntry
  cases checkedAdd c 1 with
  | none => exact .inl rfl
  | some x =>
    cases checkedAdd r 1 with
    | none => exact .inl rfl
    | some y =>
      simp only
      split
      · exact .inl rfl
      · exact .inr rfl

theorem incS_table {T : Type} {N : Numeric T} {P : Platform} {m m' : SqMatrix T} {c r : Nat} (h : m.incrementEntry N P c r = .ok m') :
    m'.edgesTable = m.edgesTable ∨
    ∃ e, m'.edgesTable = m.edgesTable.insert c (((m.edgesTable.get? c).getD HMap.empty).insert r e) := by
  unfold SqMatrix.incrementEntry at h
  cases h1 : checkedAdd c 1 with
  | none => rw [h1] at h; cases h; exact .inl rfl
  | some x =>
    cases h2 : checkedAdd r 1 with
    | none => rw [h1, h2] at h; cases h; exact .inl rfl
    | some y =>
      rw [h1, h2] at h
      simp only at h
      split at h
      · cases h; exact .inr ⟨_, rfl⟩
      · obtain ⟨e, _, he⟩ := Res.bind_eq_ok.1 h
        cases he
        exact .inr ⟨e, rfl⟩

theorem noEmpty_addBlocks (l : List (Nat × Nat × Nat)) {c : CGraph} (h : NoEmptyTable c.adjacencyMatrix.edgesTable) :
    NoEmptyTable (c.addBlocks l).adjacencyMatrix.edgesTable := by
  induction l generalizing c with
  | nil => exact h
  | cons e l ih =>
    rw [CGraph.addBlocks_cons]
    refine ih ?_
    unfold CGraph.builderAdd
    simp only
    rcases setS_table u64Fmt.toNumeric c.adjacencyMatrix e.1 e.2.1 e.2.2 with he | he <;> rw [he]
    · exact h
    · exact noEmpty_put h _ _ _

theorem noEmpty_builderNew (u : Bool) (n l : Nat) : NoEmptyTable (CGraph.builderNew u n l).adjacencyMatrix.edgesTable := by
  unfold CGraph.builderNew
  simp only
  rcases setS_table u64Fmt.toNumeric SqMatrix.new 0 _ 0 with he | he
  · rw [he]; exact noEmpty_empty
  · rw [he]; exact noEmpty_put noEmpty_empty _ _ _

theorem cells_wf {T : Type} {m : SqMatrix T} (h : m.WF) : cells m.edgesTable = m.entryCount := by
  rw [cells_eq_flat, ← SqMatrix.keys_card, h.count]

/-- **C121**, compressed graphs: they have one entry for each stored block and no empty table. -/
theorem C121_compressed {c : CGraph} (hc : CReach c) : NoEmptyTable c.adjacencyMatrix.edgesTable ∧
    cells c.adjacencyMatrix.edgesTable = c.adjacencyMatrix.entryCount := by
  refine ⟨?_, cells_wf hc.ok.wf⟩
  cases hc with
  | compress P o₁ o₂ l hg h =>
    obtain ⟨items, he, _⟩ := Graph.compress_eq hg.ok P o₁ o₂ l
    rw [h] at he
    cases he
    exact noEmpty_addBlocks _ (noEmpty_builderNew _ _ _)
  | tryFrom P b h =>
    obtain ⟨_, rfl⟩ := (CGraph.tryFrom_iff (CGraph.tryFrom_length h) c).1 h
    exact noEmpty_addBlocks _ (noEmpty_builderNew _ _ _)

theorem addBlocks_entryCount (l : List (Nat × Nat × Nat)) (c : CGraph) :
    (c.addBlocks l).adjacencyMatrix.entryCount ≤ c.adjacencyMatrix.entryCount + l.length := by
  induction l generalizing c with
  | nil => exact le_rfl
  | cons e l ih =>
    rw [CGraph.addBlocks_cons]
    refine (ih _).trans ?_
    have : (c.builderAdd e.1 e.2.1 e.2.2 (some (popCount e.1))).adjacencyMatrix.entryCount ≤ c.adjacencyMatrix.entryCount + 1 := by
      unfold CGraph.builderAdd SqMatrix.setEntry
      simp only
      cases checkedAdd e.2.1 1 with
      | none => simp
      | some x =>
        cases checkedAdd e.2.2 1 with
        | none => simp
        | some y =>
          simp only
          split
          · simp
          · simp only
            split <;> omega
    rw [List.length_cons]
    omega

/-- **C121**, decoding of compressed graphs: a file of `42 + 24n` bytes is decoded into at most `n` tables with at most `n` entries. -/
theorem C121_compressed_decode {P : Platform} {b : Bytes} {c : CGraph} (h : CGraph.tryFrom P b = .ok c) :
    42 + 24 * cells c.adjacencyMatrix.edgesTable ≤ b.length ∧
    (tables c.adjacencyMatrix.edgesTable).length ≤ cells c.adjacencyMatrix.edgesTable := by
  have hc := C121_compressed (.tryFrom P b h)
  refine ⟨?_, tables_le_cells hc.1⟩
  rw [hc.2]
  obtain ⟨hv, rfl⟩ := (CGraph.tryFrom_iff (CGraph.tryFrom_length h) c).1 h
  rw [hv.length]
  have h0 : (CGraph.builderNew (field b 40 1 == 1) (field b 32 8) (field b 41 1)).adjacencyMatrix.entryCount = 0 := by
    have hf : field b 32 8 < 256 ^ 8 := field_lt
    obtain ⟨n1, _, n3⟩ := CGraph.builderNew_at (field b 40 1 == 1) (n := field b 32 8) (by rw [U64_eq] at hf; omega) (field b 41 1)
    rw [n3.count, Finset.card_eq_zero, Finset.eq_empty_iff_forall_notMem]
    exact fun p => SqMatrix.notMem_keys.2 (n1 p.1 p.2)
  have := addBlocks_entryCount (listedBlocks b (field b 16 8)) (CGraph.builderNew (field b 40 1 == 1) (field b 32 8) (field b 41 1))
  rw [h0] at this
  have hl : (listedBlocks b (field b 16 8)).length = field b 16 8 := by simp [listedBlocks]
  unfold CGraph.decoded
  omega

theorem tableS_call {T : Type} {N : Numeric T} {P : Platform} {m m' : SqMatrix T} (op : NumOp T) (h : op.call N P m = .ok m') (c : Nat) :
    m'.edgesTable.get? c ≠ none ↔ m.edgesTable.get? c ≠ none ∨ ∃ r, m'.at? c r ≠ none := by
  have hp : ∀ {m : SqMatrix T} {r}, m.at? c r ≠ none → m.edgesTable.get? c ≠ none := by
    intro m r hr hc
    refine hr ?_
    unfold SqMatrix.at? get2
    rw [hc]
    rfl
  have hput : ∀ {m m' : SqMatrix T} {c' r' : Nat} {e : T},
      m'.edgesTable = m.edgesTable.insert c' (((m.edgesTable.get? c').getD HMap.empty).insert r' e) →
      (m'.edgesTable.get? c ≠ none ↔ m.edgesTable.get? c ≠ none ∨ ∃ r, m'.at? c r ≠ none) := by
    intro m m' c' r' e he
    refine ⟨fun hh => ?_, ?_⟩
    · by_cases hc : c = c'
      · subst hc
        refine .inr ⟨r', ?_⟩
        unfold SqMatrix.at?
        rw [he, get2_insert]
        simp [HMap.get?_insert]
      · rw [he, HMap.get?_insert, if_neg hc] at hh
        exact .inl hh
    · rintro (hh | ⟨r, hr⟩)
      · rw [he, HMap.get?_insert]
        split
        · simp
        · exact hh
      · exact hp hr
  have hsame : ∀ {m m' : SqMatrix T}, m'.edgesTable = m.edgesTable →
      (m'.edgesTable.get? c ≠ none ↔ m.edgesTable.get? c ≠ none ∨ ∃ r, m'.at? c r ≠ none) := by
    intro m m' he
    refine ⟨fun hh => .inl (he ▸ hh), ?_⟩
    rintro (hh | ⟨r, hr⟩)
    · exact he ▸ hh
    · exact hp hr
  cases op with
  | set x a b =>
    cases h
    exact (setS_table N m x a b).elim hsame hput
  | increment a b =>
    rcases incS_table h with he | ⟨e, he⟩
    · exact hsame he
    · exact hput he
  | zero a b =>
    cases h
    refine ⟨fun hh => .inl ?_, ?_⟩
    · unfold SqMatrix.zeroEntry at hh
      cases ha : m.edgesTable.get? a with
      | none => rw [ha] at hh; exact hh
      | some rows =>
        rw [ha] at hh
        simp only [HMap.get?_insert] at hh
        split at hh
        · next hc => subst hc; simp [ha]
        · exact hh
    · rintro (hh | ⟨r, hr⟩)
      · unfold SqMatrix.zeroEntry
        cases ha : m.edgesTable.get? a with
        | none => exact hh
        | some rows =>
          simp only [HMap.get?_insert]
          split
          · simp
          · exact hh
      · exact hp hr

theorem tableS_history {T : Type} (N : Numeric T) (P : Platform) (h : List (NumOp T)) (c : Nat) :
    ∀ {m : SqMatrix T}, runNum N P h = .ok m → (m.edgesTable.get? c ≠ none ↔ EverHeld N P h c) := by
  have hrel : ∀ (h : List (NumOp T)) {m : SqMatrix T}, runNum N P h = .ok m → ∃ a, ANum.run N P h = .ok a ∧ NumRel m a := by
    intro h m hm
    have := runNum_rel N P h
    rw [hm] at this
    cases ha : ANum.run N P h with
    | ok a => rw [ha] at this; exact ⟨a, rfl, this⟩
    | err e => rw [ha] at this; exact this.elim
    | panic => rw [ha] at this; exact this.elim
  induction h using List.reverseRecOn with
  | nil =>
    intro m hm
    cases hm
    constructor
    · intro hh; exact absurd rfl hh
    · rintro ⟨i, a, r, ha, hv⟩
      rw [List.take_nil] at ha
      cases ha
      exact absurd rfl hv
  | append_singleton h op ih =>
    intro m' hm'
    have hr := hm'
    unfold runNum at hr
    rw [Res.foldl_append] at hr
    obtain ⟨m, hm, hop⟩ := Res.bind_eq_ok.1 hr
    have hop' : op.call N P m = .ok m' := by
      obtain ⟨x, hx, hy⟩ := Res.bind_eq_ok.1 hop
      cases hy
      exact hx
    obtain ⟨a', ha', hr'⟩ := hrel _ hm'
    rw [tableS_call op hop' c, ih hm]
    simp only [hr'.at_eq]
    constructor
    · rintro (⟨i, a, r, ha, hv⟩ | ⟨r, hr⟩)
      · refine ⟨min i h.length, a, r, ?_, hv⟩
        rw [List.take_append_of_le_length (min_le_right _ _)]
        rwa [show h.take (min i h.length) = h.take i by rw [← List.take_take, List.take_length]]
      · exact ⟨(h ++ [op]).length, a', r, by rwa [List.take_length], hr⟩
    · rintro ⟨i, a, r, ha, hv⟩
      by_cases hi : i ≤ h.length
      · rw [List.take_append_of_le_length hi] at ha
        exact .inl ⟨i, a, r, ha, hv⟩
      · rw [List.take_of_length_le (by simp; omega), ha'] at ha
        cases ha
        exact .inr ⟨r, hv⟩

/-- **C121**, matrices of numbers: one table for each column that has had an entry at some time, with the entries that it has now. -/
theorem C121_matrix {T : Type} {N : Numeric T} {P : Platform} {h : List (NumOp T)} {m : SqMatrix T} (hm : runNum N P h = .ok m) :
    cells m.edgesTable = m.entryCount ∧ ((tables m.edgesTable).map Prod.fst).Nodup ∧
    ∀ c k, (c, k) ∈ tables m.edgesTable ↔ EverHeld N P h c ∧
      ∃ a, ANum.run N P h = .ok a ∧ ∃ S : Finset Nat, (∀ r, r ∈ S ↔ a.val c r ≠ none) ∧ k = S.card := by
  have hrel := runNum_rel N P h
  rw [hm] at hrel
  cases ha : ANum.run N P h with
  | err e => rw [ha] at hrel; exact hrel.elim
  | panic => rw [ha] at hrel; exact hrel.elim
  | ok a =>
    rw [ha] at hrel
    change NumRel m a at hrel
    refine ⟨cells_wf hrel.wf, tables_keys_nodup, fun c k => ?_⟩
    rw [mem_tables, ← tableS_history N P h c hm]
    have hcard : ∀ {rows : HMap T}, m.edgesTable.get? c = some rows → ∀ {S : Finset Nat}, (∀ r, r ∈ S ↔ a.val c r ≠ none) →
        rows.entries.length = S.card := by
      intro rows hr S hS
      have hset : (rows.entries.map Prod.fst).toFinset = S := by
        ext r
        rw [List.mem_toFinset, HMap.mem_keys_iff, HMap.contains_iff, hS, ← hrel.at_eq, Option.ne_none_iff_exists']
        unfold SqMatrix.at? get2
        rw [hr]
        rfl
      rw [← hset, List.toFinset_card_of_nodup rows.nodup, List.length_map]
    constructor
    · rintro ⟨rows, hr, rfl⟩
      have hS : ∀ r, r ∈ (rows.entries.map Prod.fst).toFinset ↔ a.val c r ≠ none := by
        intro r
        rw [List.mem_toFinset, HMap.mem_keys_iff, HMap.contains_iff, ← hrel.at_eq, Option.ne_none_iff_exists']
        unfold SqMatrix.at? get2
        rw [hr]
        rfl
      exact ⟨by simp [hr], a, rfl, _, hS, hcard hr hS⟩
    · rintro ⟨hc, a', ha', S, hS, rfl⟩
      cases ha'
      obtain ⟨rows, hr⟩ := Option.ne_none_iff_exists'.1 hc
      exact ⟨rows, hr, hcard hr hS⟩

/-! ### Examples -/

/-- A table is left behind by a deleted edge, none by an added vertex or by deleting from a vertex without edges. -/
example : (tables (runCode false [.addEdge 0 1, .deleteEdge 0 1, .addVertex 2 (some [0, 3]), .addVertex 7 none, .deleteEdge 5 5]).table).Perm
    [(0, 0), (2, 2)] ∧ cells (runCode false [.addEdge 0 1, .deleteEdge 0 1, .addVertex 2 (some [0, 3])]).table = 2 := by
  decide +kernel

example : EverLeft false [.addEdge 0 1, .deleteEdge 0 1] 0 ∧ ¬ NoDelete [.addEdge 0 1, .deleteEdge 0 1] ∧
    NoDelete [.addEdge 0 1, .addVertex 3 (some [4])] :=
  ⟨⟨1, 1, by decide⟩, fun h => h 0 1 (by simp), fun u v h => by simp at h⟩

/-- Saving and loading a graph gets rid of the empty table. -/
example : let g := runCode true [.addEdge 0 1, .deleteEdge 0 1, .addEdge 2 3]
    (tables g.table).length = 4 ∧ okAnd (g.toBytes exP .id) fun b =>
      b.length ≤ exP.usizeMax && okAnd (Graph.tryFrom exP b) fun g' => (tables g'.table).length == 2 && cells g'.table == 2 := by
  decide +kernel

/-- A compressed graph of two blocks in one column, and its file. -/
example : let g := runCode false [.addEdge 0 1, .addEdge 3 9, .addEdge 4 9]
    okAnd (g.compress exP .id .id 1) fun c => tables c.adjacencyMatrix.edgesTable == [(0, 2)] &&
      okAnd (c.toBytes exP .id) fun b => b.length == 42 + 24 * 2 && okAnd (CGraph.tryFrom exP b) fun c' =>
        cells c'.adjacencyMatrix.edgesTable == 2 := by
  decide +kernel

example : okAnd (runNum (uintFmt 255).toNumeric exP [.set 7 1 2, .increment 3 3, .zero 3 3, .set 0 9 9]) fun m =>
    decide ((tables m.edgesTable).Perm [(1, 1), (3, 0)]) := by
  decide +kernel

end Verif.Props
