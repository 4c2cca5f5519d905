import Verif.Lemmas.Work
import Verif.Props.Storage
import Verif.Props.Metamorphic
import Verif.Props.Edits

/-!
# C124: how much the functions do
-/

namespace Verif.Props
open Verif Spec

/-! ### Edits and queries -/

section
variable {g : Graph} {o : HashOrder}

theorem getEntry_steps (m : AdjMatrix) (c r : Nat) : (Work.getEntry m c r).steps ≤ 2 := by
  unfold Work.getEntry
  simp only [Run.bind_eq, Run.tick_bind_steps]
  cases m.edgesTable.get? c <;> simp

theorem setEntry_steps (m : AdjMatrix) (e c r : Nat) : (Work.setEntry m e c r).steps ≤ if e = 0 then 0 else 2 := by
  unfold Work.setEntry
  cases checkedAdd c 1 with
  | none => simp
  | some _ =>
    cases checkedAdd r 1 with
    | none => simp
    | some _ =>
      dsimp only
      split <;> simp

theorem zeroEntry_steps (m : AdjMatrix) (c r : Nat) : (Work.zeroEntry m c r).steps ≤ 2 := by
  unfold Work.zeroEntry
  simp only [Run.bind_eq, Run.tick_bind_steps]
  cases m.edgesTable.get? c <;> simp

theorem addEdge_steps (g : Graph) (u v : Nat) : (Work.addEdge g u v).steps ≤ if g.isUndirected then 4 else 2 := by
  unfold Work.addEdge
  simp only [Run.bind_eq]
  have h1 := setEntry_steps g.adjacencyMatrix 1 u v
  rw [Run.steps_ok (Work.setEntry_res ..)]
  cases g.isUndirected with
  | false => simpa using h1
  | true =>
    have h2 := setEntry_steps (g.adjacencyMatrix.setEntry 1 u v) 1 v u
    simp only [↓reduceIte, Nat.one_ne_zero] at h1 h2 ⊢
    rw [Run.steps_ok (Work.setEntry_res ..), Run.pure_steps]
    omega

theorem deleteEdge_steps (g : Graph) (u v : Nat) : (Work.deleteEdge g u v).steps ≤ if g.isUndirected then 4 else 2 := by
  unfold Work.deleteEdge
  simp only [Run.bind_eq]
  have h1 := zeroEntry_steps g.adjacencyMatrix u v
  rw [Run.steps_ok (Work.zeroEntry_res ..)]
  cases g.isUndirected with
  | false => simpa using h1
  | true =>
    have h2 := zeroEntry_steps (g.adjacencyMatrix.zeroEntry u v) v u
    simp only [↓reduceIte] at h1 h2 ⊢
    rw [Run.steps_ok (Work.zeroEntry_res ..), Run.pure_steps]
    omega

theorem addEdge_steps' (g : Graph) (u v : Nat) : (Work.addEdge g u v).steps ≤ 4 := by
  have := addEdge_steps g u v
  split at this <;> omega

theorem sum_const {α : Type} (l : List α) (k : Nat) : (l.map fun _ => k).sum = k * l.length := by
  induction l with
  | nil => rfl
  | cons a l ih => rw [List.map_cons, List.sum_cons, ih, List.length_cons, Nat.mul_succ, Nat.add_comm]

theorem addVertex_steps (g : Graph) (v : Nat) (ts : Option (List Nat)) : (Work.addVertex g v ts).steps ≤ 4 * (ts.getD []).length := by
  have tail : ∀ (p : Bool) (g' : Graph), (if !p && decide (v ≥ g'.vertexCount) then
      (Work.setEntry g'.adjacencyMatrix 0 v 0).bind fun m => pure { g' with adjacencyMatrix := m } else pure g' : Run Graph).steps ≤ 0 := by
    intro p g'
    split
    · have := setEntry_steps g'.adjacencyMatrix 0 v 0
      rw [Run.steps_ok (Work.setEntry_res ..), Run.pure_steps]
      simpa using this
    · simp
  unfold Work.addVertex
  cases ts with
  | none => exact Run.bind_le (m := 0) (n := 0) (by simp) fun g' _ => tail _ g'
  | some l =>
    have := Run.foldl_le (f := fun g t => Work.addEdge g v t) (w := fun _ => 4) l (fun g t _ => addEdge_steps' g v t) g
    rw [sum_const] at this
    exact Run.bind_le (n := 0) this fun g' _ => tail _ g'

theorem colVector_steps (m : AdjMatrix) (c : Nat) : (Work.getSparseColVector o m c).steps ≤ m.colNonzeroEntryCount c + 2 := by
  unfold Work.getSparseColVector AdjMatrix.colNonzeroEntryCount
  simp only [Run.bind_eq, Run.tick_bind_steps]
  cases m.edgesTable.get? c with
  | none => simp
  | some rows =>
    simp only [Run.tick_bind_steps, Run.pure_steps, (o.rows_perm c rows.entries).length_eq, HMap.size]
    omega

theorem rowVector_steps (m : AdjMatrix) (r : Nat) : (Work.getSparseRowVector o m r).steps = 2 * (tables m.edgesTable).length + 1 := by
  unfold Work.getSparseRowVector
  simp only [Run.bind_eq]
  have h1 : (Run.foldl (fun vector (e : Nat × HMap Unit) => (Run.tick 2).bind fun _ =>
      pure (if e.2.contains r then vector ++ [e.1] else vector)) [] (o.cols m.edgesTable.entries)).res = .ok (m.getSparseRowVector o r) := by
    rw [Run.foldl_res]
    simp [Res.foldl_pure, AdjMatrix.getSparseRowVector]
  rw [Run.steps_ok h1, Run.foldl_eq (w := fun _ => 2) _ (fun b a _ => ⟨by simp, _, rfl⟩), sum_const]
  simp [(o.cols_perm m.edgesTable.entries).length_eq, tables]

theorem colCount_steps (m : AdjMatrix) (c : Nat) : (Work.colNonzeroEntryCount m c).steps = 1 := by
  unfold Work.colNonzeroEntryCount
  simp only [Run.bind_eq, Run.tick_bind_steps]
  cases m.edgesTable.get? c <;> simp

theorem rowCount_steps (m : AdjMatrix) (r : Nat) : (Work.rowNonzeroEntryCount m r).steps = 2 * (tables m.edgesTable).length + 1 := by
  unfold Work.rowNonzeroEntryCount
  simp only [Run.bind_eq]
  have h1 : (Run.foldl (fun count (e : Nat × HMap Unit) => (Run.tick 2).bind fun _ =>
      pure (if e.2.contains r then count + 1 else count)) 0 m.edgesTable.entries).res = .ok (m.rowNonzeroEntryCount r) := by
    rw [Run.foldl_res]
    simp [Res.foldl_pure, Work.foldl_count, AdjMatrix.rowNonzeroEntryCount]
  rw [Run.steps_ok h1, Run.foldl_eq (w := fun _ => 2) _ (fun b a _ => ⟨by simp, _, rfl⟩), sum_const]
  simp [tables]

/-- **C124**, edits and single queries: a constant number of steps, however large the graph is. -/
theorem C124_edits (g : Graph) (u v : Nat) (ts : Option (List Nat)) :
    (Work.addEdge g u v).steps ≤ (if g.isUndirected then 4 else 2) ∧
    (Work.deleteEdge g u v).steps ≤ (if g.isUndirected then 4 else 2) ∧
    (Work.doesEdgeExist g u v).steps ≤ 2 ∧
    (Work.addVertex g u ts).steps ≤ 4 * (ts.getD []).length ∧
    (Work.getVertexOutDegree g u).steps = 1 := by
  refine ⟨addEdge_steps g u v, deleteEdge_steps g u v, ?_, addVertex_steps g u ts, colCount_steps _ _⟩
  unfold Work.doesEdgeExist
  rw [Run.bind_eq, Run.steps_ok (Work.getEntry_res ..)]
  exact getEntry_steps _ _ _

/-- **C124**, neighbours: outgoing edges are found in steps of their number; incoming edges of a directed graph take two steps for each
table, whatever the vertex. -/
theorem C124_neighbours (o : HashOrder) (g : Graph) (v : Nat) :
    (Work.getVertexOutEdges o g v).steps ≤ g.getVertexOutDegree v + 2 ∧
    (Work.getVertexInEdges o g v).steps ≤ (if g.isUndirected then g.getVertexInDegree v + 2 else 2 * (tables g.table).length + 1) ∧
    (Work.getVertexInDegree g v).steps = (if g.isUndirected then 1 else 2 * (tables g.table).length + 1) := by
  refine ⟨colVector_steps _ _, ?_, ?_⟩
  · unfold Work.getVertexInEdges Graph.getVertexInDegree
    cases g.isUndirected
    · exact Nat.le_of_eq (rowVector_steps _ _)
    · exact colVector_steps _ _
  · unfold Work.getVertexInDegree
    cases g.isUndirected
    · exact rowCount_steps _ _
    · exact colCount_steps _ _

end

/-! ### Iteration -/

theorem table_sum {V : Type} (o : HashOrder) (t : HMap (HMap V)) :
    ((o.cols t.entries).map fun c => c.2.entries.length + 2).sum = cells t + 2 * (tables t).length := by
  rw [((o.cols_perm t.entries).map _).sum_eq]
  unfold cells tables
  generalize t.entries = l
  induction l with
  | nil => rfl
  | cons a l ih =>
    simp only [List.map_cons, List.sum_cons, List.length_cons] at ih ⊢
    omega

theorem adj_iterSteps (o : HashOrder) (m : AdjMatrix) : Work.iterSteps (m.intoIter o) =
    if m.dimension = 0 then 0 else cells m.edgesTable + 2 * (tables m.edgesTable).length + 1 := by
  unfold Work.iterSteps AdjMatrix.intoIter
  by_cases h : m.dimension = 0
  · simp [h]
  · simp [h]
    have := table_sum o m.edgesTable
    simp only [List.sum_map_add] at this
    simpa using this

theorem sq_iterSteps {T : Type} (o : HashOrder) (m : SqMatrix T) : Work.iterSteps (m.intoIter o) =
    if m.dimension = 0 then 0 else cells m.edgesTable + 2 * (tables m.edgesTable).length + 1 := by
  unfold Work.iterSteps SqMatrix.intoIter
  by_cases h : m.dimension = 0
  · simp [h]
  · simp [h]
    have := table_sum o m.edgesTable
    simp only [List.sum_map_add] at this
    simpa using this

/-- The steps of going through a graph. -/
def walk (g : Graph) : Nat := if g.vertexCount = 0 then 0 else g.edgeCount + 2 * (tables g.table).length + 1

theorem graph_iterSteps {g : Graph} (hg : GReach g) (o : HashOrder) : Work.iterSteps (g.adjacencyMatrix.intoIter o) = walk g := by
  rw [adj_iterSteps, walk, ← C121_cells hg]
  rfl

theorem graph_collect_length {g : Graph} (hg : GReach g) (o : HashOrder) :
    (g.adjacencyMatrix.intoIter o).collect.length = g.edgeCount := by
  have := AdjMatrix.items_length hg.ok.wf o
  unfold AdjMatrix.items at this
  rwa [List.length_map] at this

/-- **C124**, iteration: going through all edges takes one step for each edge and two for each table, also for the empty ones. -/
theorem C124_iterate {g : Graph} (hg : GReach g) (o : HashOrder) : (Work.items o g).steps =
    if g.vertexCount = 0 then 0 else g.edgeCount + 2 * (tables g.table).length + 1 := by
  unfold Work.items
  rw [Work.forIn_eq (w := fun _ => 0) _ _ (fun b x _ => ⟨rfl, _, rfl⟩), sum_const, graph_iterSteps hg]
  simp [walk]

/-- **C124**, checking a matrix for symmetry. -/
theorem C124_undirectedFrom {m : AdjMatrix} (hm : m.WF) (o : HashOrder) :
    (Work.undirectedFrom o m).steps ≤ 3 * m.entryCount + 2 * (tables m.edgesTable).length + 1 := by
  have hl := AdjMatrix.items_length hm o
  unfold AdjMatrix.items at hl
  rw [List.length_map] at hl
  have hc : cells m.edgesTable = m.entryCount := by rw [cells_eq_flat, ← AdjMatrix.pairs_card, ← hm.count]
  unfold Work.undirectedFrom
  rw [Run.bind_eq]
  refine Nat.le_trans (Run.bind_le (n := 0) (Work.forIn_le (w := fun _ => 2) _ _ ?_) fun _ _ => Nat.le_refl _) ?_
  · intro _ x _
    rw [Run.bind_eq, Run.steps_ok (Work.getEntry_res ..)]
    have := getEntry_steps m x.2.1 x.1
    split <;> simpa using this
  · rw [sum_const, hl, adj_iterSteps, hc]
    split <;> omega

/-- **C124**, writing: one step for each byte and one iteration; nothing is done when the size does not fit or memory is refused. -/
theorem C124_toBytes {g : Graph} (hg : GReach g) (P : Platform) (o : HashOrder) : (Work.toBytes P o g).steps =
    match g.toBytes P o with
    | .ok b => b.length + walk g
    | _ => 0 := by
  have key : ∀ header : Bytes, (Work.forIn (fun (buffer : Bytes) (x : Nat × Nat × Unit) =>
      (Run.tick (toBE 8 x.1 ++ toBE 8 x.2.1).length).bind fun _ => pure (buffer ++ (toBE 8 x.1 ++ toBE 8 x.2.1)))
      (g.adjacencyMatrix.intoIter o) header).steps = walk g + 16 * g.edgeCount := by
    intro header
    rw [Work.forIn_eq (w := fun _ => 16) _ _ (fun b x _ => ⟨by simp [toBE_length], _, rfl⟩), sum_const, graph_iterSteps hg,
      graph_collect_length hg]
  unfold Work.toBytes Graph.toBytes
  simp only [Run.bind_eq]
  cases ((P.usizeTryFrom g.adjacencyMatrix.entryCount).bind fun count =>
      (P.checkedMul count 2).bind fun count => P.checkedMul count 8) with
  | none => rfl
  | some n =>
    rw [Run.steps_ok (a := n) rfl]
    simp only [Res.ofOption, Res.bind_ok]
    cases P.checkedAdd Graph.HEADER_SIZE n with
    | none => rfl
    | some k =>
      rw [Run.steps_ok (a := k) rfl]
      simp only [Res.bind_ok]
      split
      · rename_i hal
        rw [Run.tick_bind_steps, key]
        have hl := AdjMatrix.items_length hg.ok.wf o
        have hf : ∀ l : List (Nat × Nat), (l.flatMap fun e => toBE 8 e.1 ++ toBE 8 e.2).length = 16 * l.length := by
          intro l
          induction l with
          | nil => rfl
          | cons a l ih => simp only [List.flatMap_cons, List.length_append, ih, toBE_length, List.length_cons]; omega
        simp only [if_pos hal, List.length_append, hf, hl, Run.free_steps, Graph.edgeCount]
        omega
      · rename_i hal
        simp [hal]

/-! ### Reading -/

theorem readEdges_steps {P : Platform} {b : Bytes} {d e : Nat} (n : Nat) : ∀ (k pos : Nat) (g : Graph), e ≤ pos + 16 * k →
    (Work.readEdges P b d e n pos g).steps ≤ 20 * k := by
  induction n with
  | zero => intro k pos g _; exact Nat.zero_le _
  | succ n ih =>
    intro k pos g h
    unfold Work.readEdges
    split
    · obtain ⟨k, rfl⟩ : ∃ k', k = k' + 1 := ⟨k - 1, by omega⟩
      simp only [Run.bind_eq]
      refine Nat.le_trans (Run.bind_le (m := 8) (n := 8 + (4 + 20 * k)) (by simp [Work.readBE]) fun c _ =>
        Run.bind_le (by simp [Work.readBE]) fun r _ => ?_) (by omega)
      split
      · simp
      · exact Run.bind_le (addEdge_steps' _ _ _) fun g' _ => ih k _ g' (by omega)
    · simp

theorem bind_cases {α β : Type} {x : Run α} {f : α → Run β} {m n c : Nat} {Q : Prop} (hx : x.steps ≤ m)
    (hf : ∀ a, x.res = .ok a → (f a).steps ≤ n ∨ Q ∧ (f a).steps ≤ n + c) :
    (x.bind f).steps ≤ m + n ∨ Q ∧ (x.bind f).steps ≤ m + n + c := by
  rw [Run.bind_steps]
  cases h : x.res with
  | ok a =>
    rcases hf a h with h1 | ⟨q, h1⟩
    · exact .inl (by simp only; omega)
    · exact .inr ⟨q, by simp only; omega⟩
  | err e => exact .inl (by simp only; omega)
  | panic => exact .inl (by simp only; omega)

theorem ite_cases {β : Type} {p : Prop} [Decidable p] {x y : Run β} {n c : Nat} {Q : Prop} (hx : x.steps ≤ n)
    (hy : ¬ p → y.steps ≤ n ∨ Q ∧ y.steps ≤ n + c) : (if p then x else y).steps ≤ n ∨ Q ∧ (if p then x else y).steps ≤ n + c := by
  split
  · exact .inl hx
  · rename_i h
    exact hy h

theorem readBE_value {P : Platform} {k : Nat} {b : Bytes} {i v : Nat} (h : Graph.readBE P k b i = .ok v) : v = field b i k := by
  unfold Graph.readBE at h
  obtain ⟨stop, h1, h⟩ := Res.bind_eq_ok.1 h
  obtain ⟨sl, h2, h⟩ := Res.bind_eq_ok.1 h
  unfold Platform.checkedAdd at h1
  split at h1
  · cases h1
    unfold sliceGet at h2
    split at h2
    · cases h2
      split at h
      · cases h
        rw [fromBE_eq_beValue, field, Nat.add_sub_cancel_left]
      · cases h
    · cases h2
  · cases h1

/-- **C124**, reading a graph: at most 26 steps unless the length is the one that the header announces, and then at most 20 for each edge;
so never more than 5 steps for each 4 bytes, whatever the bytes say. -/
theorem C124_decode (P : Platform) (b : Bytes) :
    4 * (Work.tryFrom P b).steps ≤ 5 * b.length ∧
    (26 < (Work.tryFrom P b).steps → b.length = 26 + 16 * field b 16 8) := by
  have key : (Work.tryFrom P b).steps = 0 ∨ 26 ≤ b.length ∧ ((Work.tryFrom P b).steps ≤ 26 ∨ b.length = 26 + 16 * field b 16 8 ∧
      (Work.tryFrom P b).steps ≤ 26 + 20 * field b 16 8) := by
    unfold Work.tryFrom
    split
    · exact .inl rfl
    · rename_i h26
      have h26 : 26 ≤ b.length := by unfold Graph.HEADER_SIZE at h26; omega
      refine .inr ⟨h26, ?_⟩
      simp only [Run.bind_eq]
      have hr : ∀ k i, (Work.readBE P k b i).steps ≤ k := fun k i => by simp [Work.readBE]
      have hi : ∀ i, (Work.index b i).steps ≤ 1 := fun i => by simp [Work.index]
      refine bind_cases (m := 4) (n := 22) (hr 4 0) fun magic _ => bind_cases (m := 4) (n := 18) (hr 4 4) fun version _ =>
        bind_cases (m := 8) (n := 10) (hr 8 8) fun dimension _ => bind_cases (m := 8) (n := 2) (hr 8 16) fun entryCount he =>
        bind_cases (m := 1) (n := 1) (hi 24) fun isUndirected _ => bind_cases (m := 1) (n := 0) (hi 25) fun isWeighted _ => ?_
      have he : entryCount = field b 16 8 := readBE_value he
      iterate 5 (split; · exact .inl (Nat.le_refl _))
      refine bind_cases (m := 0) (n := 0) (Nat.le_refl _) fun expected hx => ?_
      have hx : expected = entryCount * 2 * 8 + 26 := by
        rw [Run.free_res, Graph.expectedSize P _ _ _ (.inl rfl)] at hx
        split at hx
        · cases hx; rfl
        · cases hx
      split
      · exact .inl (Nat.le_refl _)
      split
      · exact .inl (Nat.le_refl _)
      refine .inr ⟨by omega, ?_⟩
      refine Nat.le_trans (Run.bind_le (n := 0) (readEdges_steps _ entryCount _ _ (by unfold Graph.HEADER_SIZE; omega)) fun g _ => ?_) (by omega)
      split
      · exact Nat.le_refl _
      split
      · exact addVertex_steps g _ none
      · exact Nat.le_refl _
  rcases key with h | ⟨h26, h | ⟨h1, h2⟩⟩
  · exact ⟨by omega, by omega⟩
  · exact ⟨by omega, by omega⟩
  · exact ⟨by omega, fun _ => h1⟩

/-! ### Compressed graphs -/

section
variable {T : Type}

theorem getEntryS_steps (N : Numeric T) (m : SqMatrix T) (c r : Nat) : (Work.getEntryS N m c r).steps ≤ 2 := by
  unfold Work.getEntryS
  simp only [Run.bind_eq, Run.tick_bind_steps]
  cases m.edgesTable.get? c with
  | none => simp
  | some t =>
    simp only [Run.tick_bind_steps]
    cases t.get? r <;> simp

theorem setEntryS_steps (N : Numeric T) (m : SqMatrix T) (e : T) (c r : Nat) : (Work.setEntryS N m e c r).steps ≤ 2 := by
  unfold Work.setEntryS
  cases checkedAdd c 1 with
  | none => simp
  | some _ =>
    cases checkedAdd r 1 with
    | none => simp
    | some _ =>
      dsimp only
      split <;> simp

theorem incrementEntry_steps (N : Numeric T) (P : Platform) (m : SqMatrix T) (c r : Nat) : (Work.incrementEntry N P m c r).steps ≤ 2 := by
  unfold Work.incrementEntry
  cases checkedAdd c 1 with
  | none => simp
  | some _ =>
    cases checkedAdd r 1 with
    | none => simp
    | some _ =>
      simp only [Run.bind_eq, Run.tick_bind_steps]
      cases ((m.edgesTable.get? c).getD HMap.empty).get? r with
      | none => simp
      | some e => exact Nat.add_le_add_left (Nat.add_le_add_left (Run.free_le (n := 0) fun _ _ => Nat.le_refl _) 1) 1

end

theorem builderNew_steps (u : Bool) (n l : Nat) : (Work.builderNew u n l).steps = 0 := by
  unfold Work.builderNew Work.setEntryS
  simp only [Run.bind_eq]
  cases checkedAdd _ 1 with
  | none => rfl
  | some _ => rfl

theorem builderAdd_steps (g : CGraph) (e c r : Nat) (h : Option Nat) : (Work.builderAdd g e c r h).steps ≤ 2 := by
  unfold Work.builderAdd
  rw [Run.bind_eq, Run.steps_ok (Work.setEntryS_res ..)]
  exact setEntryS_steps _ _ _ _ _

/-- The steps of going through a compressed graph. -/
def walkC (c : CGraph) : Nat :=
  if c.adjacencyMatrix.dimension = 0 then 0
  else c.adjacencyMatrix.entryCount + 2 * (tables c.adjacencyMatrix.edgesTable).length + 1

theorem compressed_iterSteps {c : CGraph} (hc : CReach c) (o : HashOrder) :
    Work.iterSteps (c.adjacencyMatrix.intoIter o) = walkC c := by
  rw [sq_iterSteps, walkC, (C121_compressed hc).2]

theorem walkC_le {c : CGraph} (hc : CReach c) : walkC c ≤ 3 * c.adjacencyMatrix.entryCount + 1 := by
  have := tables_le_cells (C121_compressed hc).1
  rw [(C121_compressed hc).2] at this
  unfold walkC
  split <;> omega

theorem sq_collect_length {T : Type} {m : SqMatrix T} (h : m.WF) (o : HashOrder) : (m.intoIter o).collect.length = m.entryCount := by
  have := SqMatrix.items_length h o
  unfold SqMatrix.items at this
  rwa [List.length_map] at this

/-- **C124**, writing a compressed graph: one step for each byte and one iteration. -/
theorem C124_compressed_toBytes {c : CGraph} (hc : CReach c) (P : Platform) (o : HashOrder) : (Work.toBytesC P o c).steps =
    (match c.toBytes P o with
    | .ok b => b.length + walkC c
    | _ => 0) := by
  have key : ∀ header : Bytes, (Work.forIn (fun (buffer : Bytes) (x : Nat × Nat × Nat) =>
      (Run.tick (toBE 8 x.2.2 ++ toBE 8 x.1 ++ toBE 8 x.2.1).length).bind fun _ =>
        pure (buffer ++ (toBE 8 x.2.2 ++ toBE 8 x.1 ++ toBE 8 x.2.1)))
      (c.adjacencyMatrix.intoIter o) header).steps = walkC c + 24 * c.adjacencyMatrix.entryCount := by
    intro header
    rw [Work.forIn_eq (w := fun _ => 24) _ _ (fun b x _ => ⟨by simp [toBE_length], _, rfl⟩), sum_const, compressed_iterSteps hc,
      sq_collect_length hc.ok.wf]
  unfold Work.toBytesC CGraph.toBytes
  simp only [Run.bind_eq]
  cases ((P.usizeTryFrom c.adjacencyMatrix.entryCount).bind fun count =>
      (P.checkedMul count 3).bind fun count => P.checkedMul count 8) with
  | none => rfl
  | some n =>
    rw [Run.steps_ok (a := n) rfl]
    simp only [Res.ofOption, Res.bind_ok]
    cases P.checkedAdd CGraph.HEADER_SIZE n with
    | none => rfl
    | some k =>
      rw [Run.steps_ok (a := k) rfl]
      simp only [Res.bind_ok]
      split
      · rename_i hal
        rw [Run.tick_bind_steps, key]
        have hl := SqMatrix.items_length hc.ok.wf o
        have hf : ∀ l : List (Nat × Nat × Nat), (l.flatMap fun e => toBE 8 e.1 ++ toBE 8 e.2.1 ++ toBE 8 e.2.2).length = 24 * l.length := by
          intro l
          induction l with
          | nil => rfl
          | cons a l ih => simp only [List.flatMap_cons, List.length_append, ih, toBE_length, List.length_cons]; omega
        simp only [if_pos hal, List.length_append, hf, hl, Run.free_steps]
        omega
      · rename_i hal
        simp [hal]

/-- **C124**, looking up an edge of a compressed graph. -/
theorem C124_compressed_lookup (c : CGraph) (u v : Nat) : (Work.doesEdgeExistC c u v).steps ≤ 2 := by
  unfold Work.doesEdgeExistC
  rw [Run.bind_eq, Run.steps_ok (Work.getEntryS_res ..)]
  refine Nat.le_trans (Nat.add_le_add (getEntryS_steps _ _ _ _) (Nat.le_of_eq (?_ : _ = 0))) (Nat.le_refl 2)
  split <;> rfl

theorem decompressBit_steps (P : Platform) (e c r : Nat) (s : Graph × Nat) (i : Nat) :
    (Work.decompressBit P e c r s i).steps ≤ 5 := by
  unfold Work.decompressBit
  simp only [Run.bind_eq, Run.tick_bind_steps]
  split
  · exact Nat.add_le_add_left (Run.free_le fun _ _ => Run.free_le fun _ _ => Run.free_le fun _ _ => Run.free_le fun _ _ =>
      Run.bind_le (n := 0) (addEdge_steps' _ _ _) fun _ _ => Nat.le_refl _) 1
  · simp

/-- **C124**, decompression: in proportion to the number of stored blocks; the numbers of vertices and of edges do not matter. -/
theorem C124_decompress {c : CGraph} (hc : CReach c) (P : Platform) (o : HashOrder) :
    (Work.decompress P o c).steps ≤ 323 * c.adjacencyMatrix.entryCount + 1 := by
  unfold Work.decompress
  simp only [Run.bind_eq]
  have hbody : ∀ graph : Graph, (Work.forIn (fun graph (x : Nat × Nat × Nat) =>
      (Run.foldl (Work.decompressBit P x.2.2 x.1 x.2.1) (graph, 1) (List.range 64)).bind fun s => pure s.1)
      (c.adjacencyMatrix.intoIter o) graph).steps ≤ walkC c + 320 * c.adjacencyMatrix.entryCount := by
    intro graph
    have := Work.forIn_le (w := fun _ => 320) (body := fun graph (x : Nat × Nat × Nat) =>
      (Run.foldl (Work.decompressBit P x.2.2 x.1 x.2.1) (graph, 1) (List.range 64)).bind fun s => pure s.1)
      (c.adjacencyMatrix.intoIter o) graph fun b x _ => by
        have h := Run.foldl_le (f := Work.decompressBit P x.2.2 x.1 x.2.1) (w := fun _ => 5) (List.range 64)
          (fun s i _ => decompressBit_steps P _ _ _ s i) (b, 1)
        rw [sum_const, List.length_range] at h
        exact Run.bind_le (n := 0) h fun _ _ => Nat.le_refl _
    rwa [sum_const, sq_collect_length hc.ok.wf, compressed_iterSteps hc] at this
  have hw := walkC_le hc
  split
  · exact Nat.le_trans (Run.bind_le (addVertex_steps _ _ none) fun g' _ => hbody g') (by simp; omega)
  · exact Nat.le_trans (Run.bind_le (Nat.le_refl _) fun g' _ => hbody g') (by simp; omega)

theorem readEntries_steps {P : Platform} {b : Bytes} {d v e : Nat} (n : Nat) : ∀ (k pos parsed : Nat) (g : CGraph), e ≤ pos + 24 * k →
    (Work.readEntries P b d v e n pos parsed g).steps ≤ 90 * k := by
  induction n with
  | zero => intro k pos _ g _; exact Nat.zero_le _
  | succ n ih =>
    intro k pos parsed g h
    unfold Work.readEntries
    split
    · obtain ⟨k, rfl⟩ : ∃ k', k = k' + 1 := ⟨k - 1, by omega⟩
      simp only [Run.bind_eq]
      refine Nat.le_trans (Run.bind_le (m := 8) (n := 8 + (8 + (64 + (2 + 90 * k)))) (by simp [Work.readBEC]) fun c _ =>
        Run.bind_le (by simp [Work.readBEC]) fun r _ => Run.bind_le (by simp [Work.readBEC]) fun e' _ => ?_) (by omega)
      split
      · simp
      split
      · simp
      refine Run.bind_le ?_ fun _ _ => Run.free_le fun p _ => Run.bind_le (builderAdd_steps _ _ _ _ _) fun g' _ => ih k _ p g' (by omega)
      unfold Work.validateEntryBounds
      have h := Run.foldl_le (f := fun (_ : Unit) bit => (Run.tick 1).bind fun _ => Run.free (CGraph.validateBit c r e' v bit))
        (w := fun _ => 1) (List.range 64) (fun s i _ => by simp) ()
      rwa [sum_const, List.length_range] at h
    · simp

theorem readBEC_value {P : Platform} {k : Nat} {b : Bytes} {i v : Nat} (h : CGraph.readBE P k b i = .ok v) : v = field b i k := by
  unfold CGraph.readBE at h
  obtain ⟨stop, h1, h⟩ := Res.bind_eq_ok.1 h
  obtain ⟨sl, h2, h⟩ := Res.bind_eq_ok.1 h
  unfold Platform.checkedAdd at h1
  split at h1
  · cases h1
    unfold sliceGet at h2
    split at h2
    · cases h2
      split at h
      · cases h
        rw [fromBE_eq_beValue, field, Nat.add_sub_cancel_left]
      · cases h
    · cases h2
  · cases h1

/-- **C124**, reading a compressed graph: at most 42 steps unless the length is the one that the header announces, and then at most 90 for
each block; so never more than 15 steps for each 4 bytes, whatever the bytes say. -/
theorem C124_compressed_decode (P : Platform) (b : Bytes) :
    4 * (Work.tryFromC P b).steps ≤ 15 * b.length ∧
    (42 < (Work.tryFromC P b).steps → b.length = 42 + 24 * field b 16 8) := by
  have key : (Work.tryFromC P b).steps = 0 ∨ 42 ≤ b.length ∧ ((Work.tryFromC P b).steps ≤ 42 ∨ b.length = 42 + 24 * field b 16 8 ∧
      (Work.tryFromC P b).steps ≤ 42 + 90 * field b 16 8) := by
    unfold Work.tryFromC
    by_cases h42 : b.length < CGraph.HEADER_SIZE
    · rw [if_pos h42]
      exact .inl rfl
    · rw [if_neg h42]
      have h42 : 42 ≤ b.length := by unfold CGraph.HEADER_SIZE at h42; omega
      refine .inr ⟨h42, ?_⟩
      have hr : ∀ k i, (Work.readBEC P k b i).steps ≤ k := fun k i => by simp [Work.readBEC]
      have hi : ∀ i, (Work.index b i).steps ≤ 1 := fun i => by simp [Work.index]
      refine bind_cases (m := 4) (n := 38) (hr 4 0) fun magic _ => bind_cases (m := 4) (n := 34) (hr 4 4) fun version _ =>
        bind_cases (m := 8) (n := 26) (hr 8 8) fun dimension _ => bind_cases (m := 8) (n := 18) (hr 8 16) fun entryCount he =>
        bind_cases (m := 8) (n := 10) (hr 8 24) fun edgeCount _ => bind_cases (m := 8) (n := 2) (hr 8 32) fun vertexCount _ =>
        bind_cases (m := 1) (n := 1) (hi 40) fun isUndirected _ => bind_cases (m := 1) (n := 0) (hi 41) fun level _ => ?_
      have he : entryCount = field b 16 8 := readBEC_value he
      iterate 7 refine ite_cases (Nat.le_refl _) fun _ => ?_
      refine bind_cases (m := 0) (n := 0) (Nat.le_refl _) fun expected hx => ?_
      have hx : expected = entryCount * 3 * 8 + 42 := by
        rw [Run.free_res, Graph.expectedSize P _ _ _ (.inr rfl)] at hx
        split at hx
        · cases hx; rfl
        · cases hx
      refine ite_cases (Nat.le_refl _) fun _ => ite_cases (Nat.le_refl _) fun _ => ?_
      refine .inr ⟨by omega, ?_⟩
      refine Nat.le_trans (Run.bind_le (m := 0) (Nat.le_of_eq (builderNew_steps _ _ _)) fun g _ => Run.bind_le (n := 0)
        (readEntries_steps _ entryCount _ _ _ (by unfold CGraph.HEADER_SIZE; omega)) fun s _ => ?_) (by omega)
      split <;> exact Nat.le_refl _
  rcases key with h | ⟨h42, h | ⟨h1, h2⟩⟩
  · exact ⟨by omega, by omega⟩
  · exact ⟨by omega, by omega⟩
  · exact ⟨by omega, fun _ => h1⟩

/-! ### Pooling, approximation and compression -/

theorem incS_count {T : Type} {N : Numeric T} {P : Platform} {m m' : SqMatrix T} {c r : Nat} (h : m.incrementEntry N P c r = .ok m') :
    m'.entryCount ≤ m.entryCount + 1 := by
  unfold SqMatrix.incrementEntry at h
  cases h1 : checkedAdd c 1 with
  | none => rw [h1] at h; cases h; omega
  | some x =>
    cases h2 : checkedAdd r 1 with
    | none => rw [h1, h2] at h; cases h; omega
    | some y =>
      rw [h1, h2] at h
      simp only at h
      split at h
      · cases h; exact Nat.le_refl _
      · obtain ⟨e, _, he⟩ := Res.bind_eq_ok.1 h
        cases he
        exact Nat.le_succ _

theorem countBlocks_size {P : Platform} {k : Nat} (l : List (Nat × Nat)) : ∀ (m m' : SqMatrix F64), m.WF → NoEmptyTable m.edgesTable →
    Res.foldl (fun m (e : Nat × Nat) => m.incrementEntry f64Numeric P (e.1 / k) (e.2 / k)) m l = .ok m' →
    m'.WF ∧ NoEmptyTable m'.edgesTable ∧ m'.entryCount ≤ m.entryCount + l.length := by
  induction l with
  | nil => intro m m' h1 h2 h; cases h; exact ⟨h1, h2, Nat.le_refl _⟩
  | cons e l ih =>
    intro m m' h1 h2 h
    obtain ⟨m1, hm1, h⟩ := Res.bind_eq_ok.1 h
    have hn : NoEmptyTable m1.edgesTable := by
      rcases incS_table hm1 with he | ⟨x, he⟩ <;> rw [he]
      · exact h2
      · exact noEmpty_put h2 _ _ _
    obtain ⟨a, b, c⟩ := ih m1 m' (h1.incrementEntry hm1) hn h
    have := incS_count hm1
    exact ⟨a, b, by rw [List.length_cons]; omega⟩

theorem multiply_tables (m : SqMatrix F64) (f : F64) : tables (m.multiplyEntriesBy f).edgesTable = tables m.edgesTable := by
  unfold SqMatrix.multiplyEntriesBy tables HMap.mapValues
  simp [Function.comp_def]

/-- What pooling gives: at most as many entries as edges, and no empty table. -/
theorem pool_size {g : Graph} (hg : GReach g) {P : Platform} {o : HashOrder} {k : Nat} {m : SqMatrix F64}
    (h : g.findAvgPoolMatrix P o k = .ok m) :
    (tables m.edgesTable).length ≤ cells m.edgesTable ∧ cells m.edgesTable ≤ g.edgeCount := by
  unfold Graph.findAvgPoolMatrix at h
  split at h
  · cases h
    exact ⟨Nat.le_refl _, Nat.zero_le _⟩
  · obtain ⟨m0, hm0, h⟩ := Res.bind_eq_ok.1 h
    obtain ⟨sq, _, h⟩ := Res.bind_eq_ok.1 h
    cases h
    obtain ⟨h1, h2, h3⟩ := countBlocks_size _ _ _ SqMatrix.WF.new noEmpty_empty hm0
    have ht : ∀ d, (m0.setMinimumDimension d).edgesTable = m0.edgesTable := by
      intro d; unfold SqMatrix.setMinimumDimension; split <;> rfl
    have hl := AdjMatrix.items_length hg.ok.wf o
    have hc := cells_wf h1
    unfold cells at hc ⊢
    rw [multiply_tables, ht]
    refine ⟨tables_le_cells h2, ?_⟩
    rw [hc]
    rw [hl] at h3
    exact Nat.le_trans h3 (by show 0 + _ ≤ _; rw [Nat.zero_add]; exact Nat.le_refl _)

/-- Iterating over the pooled matrix. -/
theorem pool_iterSteps {g : Graph} (hg : GReach g) {P : Platform} {o o₂ : HashOrder} {k : Nat} {m : SqMatrix F64}
    (h : g.findAvgPoolMatrix P o k = .ok m) : Work.iterSteps (m.intoIter o₂) ≤ 3 * cells m.edgesTable + 1 := by
  have := (pool_size hg h).1
  rw [sq_iterSteps]
  split <;> omega

theorem collect_le {T : Type} (m : SqMatrix T) (o : HashOrder) : (m.intoIter o).collect.length ≤ cells m.edgesTable := by
  rw [cells_eq_flat, TableIter.collect_eq_pending]
  by_cases hd : m.dimension = 0
  · simp [TableIter.pending, SqMatrix.intoIter, hd]
  · have : (m.intoIter o).pending = flatO o m.edgesTable := by
      unfold SqMatrix.intoIter TableIter.pending flatO
      simp [hd]
    rw [this, (flatO_perm o _).length_eq]

theorem multiply_steps (m : SqMatrix F64) (f : F64) :
    (Work.multiplyEntriesBy m f).steps = cells m.edgesTable + 2 * (tables m.edgesTable).length + 1 := by
  unfold Work.multiplyEntriesBy
  simp only [Run.bind_eq]
  have h1 : (Run.foldl (fun _ (e : Nat × HMap F64) => Run.tick (1 + (e.2.entries.length + 1))) () m.edgesTable.entries).res = .ok () := by
    rw [Run.foldl_res]
    exact Res.foldl_pure (fun _ _ => ()) _ _
  rw [Run.steps_ok h1, Run.foldl_eq (w := fun e => 1 + (e.2.entries.length + 1)) _ (fun b a _ => ⟨rfl, _, rfl⟩)]
  have := table_sum HashOrder.id m.edgesTable
  rw [← this]
  simp only [Run.tick_bind_steps, Run.pure_steps, HashOrder.id]
  congr 2
  exact List.map_congr_left fun e _ => by omega

/-- **C124**, pooling: in proportion to edges and tables, whatever the numbers of vertices and blocks. -/
theorem C124_pool {g : Graph} (hg : GReach g) (P : Platform) (o : HashOrder) (k : Nat) :
    (Work.findAvgPoolMatrix P o g k).steps ≤ 6 * g.edgeCount + 2 * (tables g.table).length + 2 := by
  unfold Work.findAvgPoolMatrix
  split
  · exact Nat.zero_le _
  · have hw : walk g ≤ g.edgeCount + 2 * (tables g.table).length + 1 := by unfold walk; split <;> omega
    have hcount : ∀ k, (Work.countBlocks P k (g.adjacencyMatrix.intoIter o)).steps ≤ walk g + 2 * g.edgeCount := by
      intro k
      have := Work.forIn_le (w := fun _ => 2) (body := fun m (x : Nat × Nat × Unit) =>
        Work.incrementEntry f64Numeric P m (x.1 / k) (x.2.1 / k)) (g.adjacencyMatrix.intoIter o) SqMatrix.new
        fun b x _ => incrementEntry_steps _ _ _ _ _
      rwa [sum_const, graph_collect_length hg, graph_iterSteps hg] at this
    simp only [Run.bind_eq]
    refine Nat.le_trans (Run.bind_le (n := 3 * g.edgeCount + 1) (hcount _) fun m0 hm0 => Run.free_le fun sq _ => ?_) (by omega)
    rw [Work.countBlocks_res] at hm0
    obtain ⟨h1, h2, h3⟩ := countBlocks_size _ _ _ SqMatrix.WF.new noEmpty_empty hm0
    rw [AdjMatrix.items_length hg.ok.wf o] at h3
    have ht : ∀ d, (m0.setMinimumDimension d).edgesTable = m0.edgesTable := by
      intro d; unfold SqMatrix.setMinimumDimension; split <;> rfl
    rw [multiply_steps, ht]
    have hc := cells_wf h1
    have := tables_le_cells h2
    have h0 : (SqMatrix.new : SqMatrix F64).entryCount = 0 := rfl
    have h4 : g.adjacencyMatrix.entryCount = g.edgeCount := rfl
    omega

/-- **C124**, approximation. -/
theorem C124_approximate {g : Graph} (hg : GReach g) (P : Platform) (o₁ o₂ : HashOrder) (k : Nat) (t : F64) :
    (Work.approximate P o₁ o₂ g k t).steps ≤ 13 * g.edgeCount + 2 * (tables g.table).length + 3 := by
  unfold Work.approximate
  split
  · simp only [Run.bind_eq]
    have h1 := Run.foldl_le (f := fun (_ : Unit) (e : Nat × HMap Unit) => Run.tick (1 + e.2.entries.length))
      (w := fun e => e.2.entries.length + 2) g.adjacencyMatrix.edgesTable.entries (fun _ e _ => by simp; omega) ()
    have h2 := table_sum HashOrder.id g.table
    have h3 := C121_cells hg
    simp only [HashOrder.id, Graph.table] at h2 h3
    rw [h2, h3] at h1
    exact Nat.le_trans (Run.bind_le (n := 0) h1 fun _ _ => Nat.le_refl _) (by simp only [Graph.table]; omega)
  · simp only [Run.bind_eq]
    refine Nat.le_trans (Run.bind_le (C124_pool hg P o₁ _) fun m hm => Run.bind_le (m := 0) (n := 7 * g.edgeCount + 1)
      (addVertex_steps _ _ none) fun ag _ => ?_) (by omega)
    rw [Work.pool_res] at hm
    have h1 := Work.forIn_le (w := fun _ => 4) (body := fun (ag : Graph) (x : Nat × Nat × F64) =>
      if F64.le (clampThreshold t) x.2.2 then Work.addEdge ag x.1 x.2.1 else pure ag) (m.intoIter o₂) ag
      fun b x _ => by
        split
        · exact addEdge_steps' _ _ _
        · exact Nat.zero_le _
    rw [sum_const] at h1
    have h2 := pool_iterSteps (o₂ := o₂) hg hm
    have h3 := (pool_size hg hm).2
    have h4 := collect_le m o₂
    exact Nat.le_trans h1 (by omega)

theorem compressBlock_steps (P : Platform) (g : Graph) (t : F64) (c : CGraph) (x : Nat × Nat × F64) :
    (Work.compressBlock P g t c x).steps ≤ 194 := by
  unfold Work.compressBlock
  split
  · simp only [Run.bind_eq]
    refine Run.free_le fun r _ => Run.free_le fun c _ => Run.bind_le (m := 192) (n := 2) ?_ fun s _ => builderAdd_steps _ _ _ _ _
    have h := Run.foldl_le (f := Work.compressBit P g c r) (w := fun _ => 3) Graph.blockPositions (fun s i _ => by
      unfold Work.compressBit
      simp only [Run.bind_eq, Run.tick_bind_steps]
      refine Nat.add_le_add_left (Run.free_le (n := 2) fun a _ => Run.free_le fun b _ => Run.bind_le (m := 2) (n := 0)
        (C124_edits g a b none).2.2.1 fun f _ => Nat.le_refl _) 1) ⟨0, 0, 1⟩
    rw [sum_const] at h
    exact h
  · exact Nat.zero_le _

/-- **C124**, compression: in proportion to edges and tables; a graph with few edges is compressed quickly however many vertices it has. -/
theorem C124_compress {g : Graph} (hg : GReach g) (P : Platform) (o₁ o₂ : HashOrder) (l : Nat) :
    (Work.compress P o₁ o₂ g l).steps ≤ 203 * g.edgeCount + 2 * (tables g.table).length + 3 := by
  unfold Work.compress
  simp only [Run.bind_eq]
  refine Nat.le_trans (Run.bind_le (m := 0) (Nat.le_of_eq (builderNew_steps _ _ _)) fun c _ =>
    Run.bind_le (n := 197 * g.edgeCount + 1) (C124_pool hg P o₁ _) fun m hm => ?_) (by omega)
  rw [Work.pool_res] at hm
  have h1 := Work.forIn_le (w := fun _ => 194) (body := Work.compressBlock P g (Graph.compressThreshold (clampCompressionLevel l)))
    (m.intoIter o₂) c fun b x _ => compressBlock_steps P g _ b x
  rw [sum_const] at h1
  have h2 := pool_iterSteps (o₂ := o₂) hg hm
  have h3 := (pool_size hg hm).2
  have h4 := collect_le m o₂
  exact Nat.le_trans h1 (by omega)

/-! ### Text -/

theorem cellChars_steps (m : AdjMatrix) (row : Nat) (text : List Char) (col : Nat) : (Work.cellChars m row text col).steps ≤ 5 := by
  unfold Work.cellChars
  rw [Run.bind_eq, Run.steps_ok (Work.getEntry_res ..)]
  have := getEntry_steps m col row
  simp only [Run.bind_eq, Run.tick_bind_steps, Run.pure_steps, List.length_append]
  split <;> split <;> simp <;> omega

theorem rowChars_steps (m : AdjMatrix) (text : List Char) (row : Nat) : (Work.rowChars m text row).steps ≤ 5 * m.dimension + 5 := by
  unfold Work.rowChars
  simp only [Run.bind_eq, Run.tick_bind_steps]
  have h := Run.foldl_le (f := Work.cellChars m row) (w := fun _ => 5) (List.range m.dimension)
    (fun t c _ => cellChars_steps m row t c) (text ++ ['[', ' '])
  rw [sum_const, List.length_range] at h
  have h2 := Run.bind_le (n := 3) (f := fun text => (Run.tick ([']'] ++ (if row ≠ m.dimension - 1 then ['\r', '\n'] else [])).length).bind fun _ =>
    pure (text ++ ([']'] ++ (if row ≠ m.dimension - 1 then ['\r', '\n'] else [])))) h fun t _ => by
      simp only [Run.tick_bind_steps, Run.pure_steps]
      split <;> simp
  exact Nat.le_trans (Nat.add_le_add_left h2 2) (by omega)

/-- `w` steps for a result, none otherwise. -/
def okSteps {α : Type} (w : Nat) : Res α → Nat
  | .ok _ => w
  | _ => 0

theorem free_match {α β : Type} {x : Res α} {f : α → Run β} {F : α → Res β} {w : Nat}
    (h : ∀ a, x = .ok a → (f a).steps ≤ okSteps w (F a)) : ((Run.free x).bind f).steps ≤ okSteps w (x >>= F) := by
  cases x with
  | ok a => rw [Run.steps_ok (a := a) rfl, Run.free_steps, Nat.zero_add]; exact h a rfl
  | err e => exact Nat.le_refl _
  | panic => exact Nat.le_refl _

theorem text_steps (P : Platform) (m : AdjMatrix) :
    (Work.tryToString P m).steps ≤ okSteps (5 * m.dimension * (m.dimension + 1)) (m.tryToString P) := by
  unfold Work.tryToString AdjMatrix.tryToString
  by_cases hd : m.dimension = 0
  · simp [hd]
  · rw [if_neg hd, if_neg hd]
    refine free_match fun _ _ => free_match fun _ _ => free_match fun _ _ => ?_
    split
    · have h := Run.foldl_le (f := Work.rowChars m) (w := fun _ => 5 * m.dimension + 5) (List.range m.dimension)
        (fun t r _ => rowChars_steps m t r) []
      rw [sum_const, List.length_range] at h
      refine Nat.le_trans h (Nat.le_of_eq ?_)
      simp only [okSteps]
      ring
    · exact Nat.le_refl _

/-- **C124**, text: in proportion to the number of cells; nothing is done when the text does not fit or memory is refused. -/
theorem C124_text (P : Platform) (m : AdjMatrix) :
    (Work.tryToString P m).steps ≤ 5 * m.dimension * (m.dimension + 1) ∧
    ((∀ s, m.tryToString P ≠ .ok s) → (Work.tryToString P m).steps = 0) := by
  have h := text_steps P m
  cases hs : m.tryToString P with
  | ok s => rw [hs] at h; exact ⟨h, fun h' => absurd rfl (h' s)⟩
  | err e => rw [hs] at h; exact ⟨Nat.le_trans h (Nat.zero_le _), fun _ => Nat.le_zero.1 h⟩
  | panic => rw [hs] at h; exact ⟨Nat.le_trans h (Nat.zero_le _), fun _ => Nat.le_zero.1 h⟩

/-! ### The claim in full -/

/-- **C124** in full: the work of going through a graph is in proportion to the number of its edges. -/
def C124_full : Prop := ∃ K, K < 2 ^ 63 ∧ ∀ g, GReach g → ∀ o, (Work.items o g).steps ≤ K * (g.edgeCount + 1)

theorem calls_vertexCount (h : List Edit) : ∀ g : Graph, GReach g → g.vertexCount ≤ (h.foldl Edit.call g).vertexCount := by
  induction h with
  | nil => intro g _; exact Nat.le_refl _
  | cons e h ih =>
    intro g hg
    refine Nat.le_trans ((C03_range hg).2.1 e) (ih _ ?_)
    cases e with
    | addVertex v ts => exact hg.addVertex v ts
    | addEdge u v => exact hg.addEdge u v
    | deleteEdge u v => exact hg.deleteEdge u v

/-- **C124**, deleted edges: after `2k` edits that leave no edge, going through the edges takes `2k + 1` steps. -/
theorem C124_leak (d : Bool) {k : Nat} (hk : 0 < k) (hk' : k < 2 ^ 64) : ∃ h : List Edit, h.length = 2 * k ∧
    (runCode d h).edgeCount = 0 ∧ ∀ o, (Work.items o (runCode d h)).steps = 2 * k + 1 := by
  obtain ⟨h, h1, h2, h3⟩ := C121_leak d hk'
  refine ⟨h, h1, h2, fun o => ?_⟩
  rw [C124_iterate (reach_runCode d h), if_neg, h2, h3, Nat.zero_add]
  obtain ⟨⟨u, n⟩, hm⟩ := List.exists_mem_of_length_pos (l := tables (runCode d h).table) (by omega)
  obtain ⟨i, v, hE⟩ := (((C121_exact d h).2 u n).1 hm).1
  rw [← Graph.abs_runCode] at hE
  have hb := (Graph.OK.runCode d (h.take i)).wf.bound (u, v) hE
  have hm := calls_vertexCount (h.drop i) _ (reach_runCode d (h.take i))
  have he : (h.drop i).foldl Edit.call (runCode d (h.take i)) = runCode d h := by
    unfold runCode
    rw [← List.foldl_append, List.take_append_drop]
  rw [he] at hm
  have : u < (runCode d (h.take i)).vertexCount := hb.1
  omega

/-- Going through a graph also visits the tables of deleted edges. -/
theorem C124_full_false : ¬ C124_full := by
  rintro ⟨K, hb, hK⟩
  obtain ⟨h, _, h2, h3⟩ := C124_leak false (k := K + 1) (by omega) (by omega)
  have := hK _ (reach_runCode false h) HashOrder.id
  rw [h2, h3] at this
  omega

/-- **C124**, as far as it is true: for graphs that keep no empty table (C121 says which) everything is in proportion to the number of edges. -/
theorem C124_partial {g : Graph} (hg : GReach g) (hn : NoEmptyTable g.table) (P : Platform) (o o₂ : HashOrder) (k l v : Nat) (t : F64) :
    (Work.items o g).steps ≤ 3 * g.edgeCount + 1 ∧
    (Work.getVertexInEdges o g v).steps ≤ 2 * g.edgeCount + 2 ∧
    (Work.toBytes P o g).steps ≤ 19 * g.edgeCount + 27 ∧
    (Work.findAvgPoolMatrix P o g k).steps ≤ 8 * g.edgeCount + 2 ∧
    (Work.approximate P o o₂ g k t).steps ≤ 15 * g.edgeCount + 3 ∧
    (Work.compress P o o₂ g l).steps ≤ 205 * g.edgeCount + 3 := by
  have ht := tables_le_cells hn
  rw [C121_cells hg] at ht
  have hw : walk g ≤ 3 * g.edgeCount + 1 := by unfold walk; split <;> omega
  refine ⟨?_, ?_, ?_, ?_, ?_, ?_⟩
  · rw [C124_iterate hg]; exact hw
  · have := (C124_neighbours o g v).2.1
    split at this
    · rename_i hu
      have h1 : g.getVertexInDegree v ≤ g.edgeCount := by
        unfold Graph.getVertexInDegree AdjMatrix.colNonzeroEntryCount
        rw [if_pos hu]
        split
        · exact Nat.zero_le _
        · rename_i rows hr
          rw [← C121_cells hg]
          exact List.le_sum_of_mem (List.mem_map.2 ⟨(v, rows.entries.length), mem_tables.2 ⟨rows, hr, rfl⟩, rfl⟩)
      omega
    · omega
  · rw [C124_toBytes hg]
    cases hb : g.toBytes P o with
    | ok b =>
      have : b.length = 26 + 16 * g.edgeCount := ((C14_graph_bytes_layout hg P o).2.1 b hb).1
      simp only
      omega
    | err e => exact Nat.zero_le _
    | panic => exact Nat.zero_le _
  · have := C124_pool hg P o k; omega
  · have := C124_approximate hg P o o₂ k t; omega
  · have := C124_compress hg P o o₂ l; omega

/-! ### The same functions -/

/-- **C124**, the counted functions are the functions: they return the same. -/
theorem C124_same (P : Platform) (o o₂ : HashOrder) (g : Graph) (m : AdjMatrix) (c : CGraph) (b : Bytes) (u v : Nat) (ts : Option (List Nat))
    (t : F64) :
    (Work.addEdge g u v).res = .ok (g.addEdge u v) ∧ (Work.deleteEdge g u v).res = .ok (g.deleteEdge u v) ∧
    (Work.addVertex g u ts).res = .ok (g.addVertex u ts) ∧ (Work.doesEdgeExist g u v).res = .ok (g.doesEdgeExist u v) ∧
    (Work.getVertexOutDegree g u).res = .ok (g.getVertexOutDegree u) ∧ (Work.getVertexInDegree g u).res = .ok (g.getVertexInDegree u) ∧
    (Work.getVertexOutEdges o g u).res = .ok (g.getVertexOutEdges o u) ∧
    (Work.getVertexInEdges o g u).res = .ok (g.getVertexInEdges o u) ∧
    (Work.items o g).res = .ok (g.items o) ∧ (Work.undirectedFrom o m).res = Graph.undirectedFrom o m ∧
    (Work.toBytes P o g).res = g.toBytes P o ∧ (Work.tryFrom P b).res = Graph.tryFrom P b ∧
    (Work.toBytesC P o c).res = c.toBytes P o ∧ (Work.tryFromC P b).res = CGraph.tryFrom P b ∧
    (Work.decompress P o c).res = c.decompress P o ∧ (Work.doesEdgeExistC c u v).res = .ok (c.doesEdgeExist u v) ∧
    (Work.findAvgPoolMatrix P o g u).res = g.findAvgPoolMatrix P o u ∧
    (Work.approximate P o o₂ g u t).res = g.approximate P o o₂ u t ∧
    (Work.compress P o o₂ g u).res = g.compress P o o₂ u ∧ (Work.tryToString P m).res = m.tryToString P := by
  simp

/-! ### Cases -/

/-- A graph with two edges, and one deleted edge. -/
def exWork : Graph := ((Graph.newDirected.addEdge 0 1 |>.addEdge 0 2).addEdge 3 3).deleteEdge 3 3

example : GReach exWork ∧ exWork.edgeCount = 2 ∧ (tables exWork.table).length = 2 ∧ (Work.items HashOrder.id exWork).steps = 7 := by
  have h : GReach exWork := .deleteEdge 3 3 (.addEdge 3 3 (.addEdge 0 2 (.addEdge 0 1 .newDirected)))
  exact ⟨h, by decide +kernel, by decide +kernel, by rw [C124_iterate h]; decide +kernel⟩

example : GReach exU ∧ NoEmptyTable exU.table ∧ okAnd (Work.tryFrom exP (graphFile true 3 [(0, 1), (1, 0)])).res (fun g => g.edgeCount == 2) &&
    (Work.tryFrom exP (graphFile true 3 [(0, 1), (1, 0)])).steps == 66 :=
  ⟨exU_reach, fun e he => by revert e; decide +kernel, by decide +kernel⟩

/-- A file that announces 2^60 edges and has none: 26 steps. -/
example : (Work.tryFrom exP ((graphFile true 3 []).take 16 ++ toBE 8 (2 ^ 60) ++ [1, 0])).steps = 26 := by decide +kernel

example : GReach exC ∧ okAnd (Work.compress exP .id .id exC 1).res (fun c => c.edgeCount != 0) := ⟨exC_reach, by decide +kernel⟩

/-- A compressed graph with two blocks in one column: writing its 90 bytes takes 95 steps. -/
example : ∃ c, CReach c ∧ c.adjacencyMatrix.entryCount = 2 ∧ (Work.toBytesC exP .id c).steps = 95 := by
  obtain ⟨c, hc, h⟩ := okAnd_elim (show okAnd ((runCode false [.addEdge 0 1, .addEdge 3 9, .addEdge 4 9]).compress exP .id .id 1)
    (fun c => c.adjacencyMatrix.entryCount == 2 && (Work.toBytesC exP .id c).steps == 95) = true by decide +kernel)
  simp only [Bool.and_eq_true, beq_iff_eq] at h
  exact ⟨c, .compress _ _ _ _ (reach_runCode _ _) hc, h.1, h.2⟩

end Verif.Props
