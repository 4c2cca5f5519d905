import Verif.Model.Work
import Verif.Lemmas.HMap
import Verif.Lemmas.Reach

/-!
# Counting steps: the counted functions return what the functions of the model return
-/

namespace Verif

namespace Run

variable {α β : Type}

@[simp] theorem bind_eq (x : Run α) (f : α → Run β) : x >>= f = x.bind f := rfl
@[simp] theorem pure_res (a : α) : (pure a : Run α).res = .ok a := rfl
@[simp] theorem pure_steps (a : α) : (pure a : Run α).steps = 0 := rfl
@[simp] theorem tick_res (n : Nat) : (tick n).res = .ok () := rfl
@[simp] theorem tick_steps (n : Nat) : (tick n).steps = n := rfl
@[simp] theorem free_res (x : Res α) : (free x).res = x := rfl
@[simp] theorem free_steps (x : Res α) : (free x).steps = 0 := rfl

@[simp] theorem bind_res (x : Run α) (f : α → Run β) : (x.bind f).res = x.res.bind fun a => (f a).res := by
  unfold Run.bind
  cases x.res <;> rfl

theorem bind_steps (x : Run α) (f : α → Run β) :
    (x.bind f).steps = x.steps + (match x.res with | .ok a => (f a).steps | _ => 0) := by
  unfold Run.bind
  cases x.res <;> rfl

theorem steps_ok {x : Run α} {a : α} (h : x.res = .ok a) (f : α → Run β) : (x.bind f).steps = x.steps + (f a).steps := by
  rw [bind_steps, h]

@[simp] theorem tick_bind_steps (n : Nat) (f : Unit → Run β) : ((tick n).bind f).steps = n + (f ()).steps := steps_ok rfl f
@[simp] theorem pure_bind_steps (a : α) (f : α → Run β) : ((pure a : Run α).bind f).steps = (f a).steps := by
  rw [steps_ok rfl f, pure_steps, Nat.zero_add]

theorem bind_le {x : Run α} {f : α → Run β} {m n : Nat} (hx : x.steps ≤ m) (hf : ∀ a, x.res = .ok a → (f a).steps ≤ n) :
    (x.bind f).steps ≤ m + n := by
  rw [bind_steps]
  cases h : x.res with
  | ok a => exact Nat.add_le_add hx (hf a h)
  | err e => exact Nat.le_add_right_of_le hx
  | panic => exact Nat.le_add_right_of_le hx

theorem free_le {x : Res α} {f : α → Run β} {n : Nat} (hf : ∀ a, x = .ok a → (f a).steps ≤ n) :
    ((free x).bind f).steps ≤ n := by
  have := bind_le (x := free x) (f := f) (m := 0) (n := n) (Nat.le_refl _) hf
  omega

theorem foldl_res {α : Type} (f : β → α → Run β) (l : List α) : ∀ b,
    (Run.foldl f b l).res = Res.foldl (fun b a => (f b a).res) b l := by
  induction l with
  | nil => intro b; rfl
  | cons a l ih =>
    intro b
    rw [Run.foldl, bind_res, Res.foldl]
    congr 1
    exact funext fun b' => ih b'

theorem foldl_le {α : Type} {f : β → α → Run β} {w : α → Nat} (l : List α) (hf : ∀ b, ∀ a ∈ l, (f b a).steps ≤ w a) : ∀ b,
    (Run.foldl f b l).steps ≤ (l.map w).sum := by
  induction l with
  | nil => intro b; exact Nat.le_refl _
  | cons a l ih =>
    intro b
    rw [Run.foldl, List.map_cons, List.sum_cons]
    exact bind_le (hf b a (by simp)) fun b' _ => ih (fun b x hx => hf b x (by simp [hx])) b'

theorem foldl_eq {α : Type} {f : β → α → Run β} {w : α → Nat} (l : List α)
    (hf : ∀ b, ∀ a ∈ l, (f b a).steps = w a ∧ ∃ b', (f b a).res = .ok b') : ∀ b, (Run.foldl f b l).steps = (l.map w).sum := by
  induction l with
  | nil => intro b; rfl
  | cons a l ih =>
    intro b
    obtain ⟨h1, b', h2⟩ := hf b a (by simp)
    rw [Run.foldl, List.map_cons, List.sum_cons, steps_ok h2, h1, ih fun b x hx => hf b x (by simp [hx])]

end Run

theorem Res.foldl_pure {α β : Type} (F : β → α → β) (l : List α) : ∀ b, Res.foldl (fun b a => .ok (F b a)) b l = .ok (l.foldl F b) := by
  induction l with
  | nil => intro b; rfl
  | cons a l ih => intro b; exact ih _

theorem Res.foldl_map {α β γ : Type} (f : β → γ → Res β) (g : α → γ) (l : List α) : ∀ b,
    Res.foldl f b (l.map g) = Res.foldl (fun b a => f b (g a)) b l := by
  induction l with
  | nil => intro b; rfl
  | cons a l ih =>
    intro b
    rw [List.map_cons, Res.foldl, Res.foldl]
    exact congrArg _ (funext fun b' => ih b')

namespace Work

open Run

/-! ### Iterators -/

section
variable {V : Type}

theorem loop_fst (o : HashOrder) (e : Bool) (cols : List (Nat × HMap V)) : ∀ (ri : Option (List (Nat × V))) (cur : Nat),
    (loop o e cols ri cur).1 = TableIter.loop o e cols ri cur := by
  induction cols with
  | nil =>
    intro ri cur
    match ri with
    | none => rfl
    | some [] => rfl
    | some ((r, v) :: rest) => rfl
  | cons c cols ih =>
    intro ri cur
    match ri with
    | none => exact ih _ _
    | some [] => exact ih _ _
    | some ((r, v) :: rest) => rfl

theorem next_fst (it : TableIter V) : (next it).1 = it.next := by
  unfold next TableIter.next
  split
  · rfl
  · exact loop_fst _ _ _ _ _

/-- The steps that an iterator takes until its end. -/
def iterSteps (it : TableIter V) : Nat :=
  if it.isEmptyMatrix then 0
  else (match it.rowIter with | none => 0 | some l => l.length + 1) + (it.colIter.map fun c => c.2.entries.length + 2).sum + 1

theorem loop_steps (o : HashOrder) (cols : List (Nat × HMap V)) : ∀ (ri : Option (List (Nat × V))) (cur : Nat),
    (loop o false cols ri cur).2 + (match (loop o false cols ri cur).1 with | (none, _) => 0 | (some _, it) => iterSteps it) =
      (match ri with | none => 0 | some l => l.length + 1) + (cols.map fun c => c.2.entries.length + 2).sum + 1 := by
  induction cols with
  | nil =>
    intro ri cur
    match ri with
    | none => rfl
    | some [] => rfl
    | some ((r, v) :: rest) =>
      show 1 + (rest.length + 1 + 0 + 1) = rest.length + 1 + 1 + 0 + 1
      omega
  | cons c cols ih =>
    intro ri cur
    obtain ⟨c, rows⟩ := c
    match ri with
    | none =>
      have := ih (some (o.rows c rows.entries)) c
      have hp := (o.rows_perm c rows.entries).length_eq
      simp only [loop, List.map_cons, List.sum_cons] at this ⊢
      omega
    | some [] =>
      have := ih (some (o.rows c rows.entries)) c
      have hp := (o.rows_perm c rows.entries).length_eq
      simp only [loop, List.map_cons, List.sum_cons, List.length_nil] at this ⊢
      omega
    | some ((r, v) :: rest) =>
      show 1 + (rest.length + 1 + (((c, rows) :: cols).map fun c => c.2.entries.length + 2).sum + 1) =
        rest.length + 1 + 1 + (((c, rows) :: cols).map fun c => c.2.entries.length + 2).sum + 1
      omega

theorem next_steps (it : TableIter V) :
    (next it).2 + (match it.next with | (none, _) => 0 | (some _, it') => iterSteps it') = iterSteps it := by
  rw [← next_fst]
  unfold next
  by_cases he : it.isEmptyMatrix
  · simp [he, iterSteps]
  · rw [if_neg he]
    have he' : it.isEmptyMatrix = false := by simpa using he
    rw [he', loop_steps]
    simp [iterSteps, he']

theorem collect_none {it it' : TableIter V} (h : it.next = (none, it')) : it.collect = [] := by
  rw [TableIter.collect]
  split
  · rfl
  · rename_i h'; rw [h] at h'; cases h'

theorem collect_some {it it' : TableIter V} {x} (h : it.next = (some x, it')) : it.collect = x :: it'.collect := by
  rw [TableIter.collect]
  split
  · rename_i h'; rw [h] at h'; cases h'
  · rename_i h'; rw [h] at h'; cases h'; rfl

section
variable {β : Type} {body : β → Nat × Nat × V → Run β}

theorem forEach_none {it it' : TableIter V} (h : it.next = (none, it')) (n : Nat) (b : β) :
    forEach body (n + 1) it b = ⟨.ok b, (next it).2⟩ := by
  unfold forEach
  have : (next it).1.1 = none := by rw [next_fst, h]
  rw [this]
  rfl

theorem forEach_some {it it' : TableIter V} {x} (h : it.next = (some x, it')) (n : Nat) (b : β) :
    forEach body (n + 1) it b = (tick (next it).2).bind fun _ => (body b x).bind fun b => forEach body n it' b := by
  conv_lhs => unfold forEach
  have h1 : (next it).1.1 = some x := by rw [next_fst, h]
  have h2 : (next it).1.2 = it' := by rw [next_fst, h]
  rw [h1, h2]
  rfl

theorem forEach_res (n : Nat) : ∀ (it : TableIter V) (b : β), it.remaining < n →
    (forEach body n it b).res = Res.foldl (fun b x => (body b x).res) b it.collect := by
  induction n with
  | zero => intro it b h; omega
  | succ n ih =>
    intro it b h
    rcases hn : it.next with ⟨_ | x, it'⟩
    · rw [forEach_none hn, collect_none hn]; rfl
    · have := TableIter.next_remaining hn
      rw [forEach_some hn, collect_some hn, bind_res, bind_res, Res.foldl]
      exact congrArg (body b x).res.bind (funext fun b' => ih it' b' (by omega))

theorem forEach_le {w : Nat × Nat × V → Nat} (n : Nat) : ∀ (it : TableIter V) (b : β), it.remaining < n →
    (∀ b, ∀ x ∈ it.collect, (body b x).steps ≤ w x) →
    (forEach body n it b).steps ≤ iterSteps it + (it.collect.map w).sum := by
  induction n with
  | zero => intro it b h; omega
  | succ n ih =>
    intro it b h hw
    have hs := next_steps it
    rcases hn : it.next with ⟨_ | x, it'⟩
    · rw [forEach_none hn]
      rw [hn] at hs
      simp only at hs ⊢
      omega
    · have := TableIter.next_remaining hn
      rw [hn] at hs
      rw [collect_some hn] at hw ⊢
      rw [forEach_some hn, tick_bind_steps]
      have h1 := bind_le (f := fun b => forEach body n it' b) (hw b x (by simp)) fun b' _ =>
        ih it' b' (by omega) fun b y hy => hw b y (by simp [hy])
      simp only [List.map_cons, List.sum_cons] at hs h1 ⊢
      omega

theorem forEach_eq {w : Nat × Nat × V → Nat} (n : Nat) : ∀ (it : TableIter V) (b : β), it.remaining < n →
    (∀ b, ∀ x ∈ it.collect, (body b x).steps = w x ∧ ∃ b', (body b x).res = .ok b') →
    (forEach body n it b).steps = iterSteps it + (it.collect.map w).sum := by
  induction n with
  | zero => intro it b h; omega
  | succ n ih =>
    intro it b h hw
    have hs := next_steps it
    rcases hn : it.next with ⟨_ | x, it'⟩
    · rw [forEach_none hn, collect_none hn]
      rw [hn] at hs
      simpa using hs
    · have := TableIter.next_remaining hn
      rw [hn] at hs
      rw [collect_some hn] at hw ⊢
      obtain ⟨h1, b', h2⟩ := hw b x (by simp)
      rw [forEach_some hn, tick_bind_steps, steps_ok h2, h1, ih it' b' (by omega) fun b y hy => hw b y (by simp [hy])]
      simp only [List.map_cons, List.sum_cons] at hs ⊢
      omega

theorem forIn_res (it : TableIter V) (b : β) :
    (forIn body it b).res = Res.foldl (fun b x => (body b x).res) b it.collect :=
  forEach_res _ it b (Nat.lt_succ_self _)

theorem forIn_le {w : Nat × Nat × V → Nat} (it : TableIter V) (b : β) (hw : ∀ b, ∀ x ∈ it.collect, (body b x).steps ≤ w x) :
    (forIn body it b).steps ≤ iterSteps it + (it.collect.map w).sum :=
  forEach_le _ it b (Nat.lt_succ_self _) hw

theorem forIn_eq {w : Nat × Nat × V → Nat} (it : TableIter V) (b : β)
    (hw : ∀ b, ∀ x ∈ it.collect, (body b x).steps = w x ∧ ∃ b', (body b x).res = .ok b') :
    (forIn body it b).steps = iterSteps it + (it.collect.map w).sum :=
  forEach_eq _ it b (Nat.lt_succ_self _) hw

end
end

/-! ### The counted functions return what the functions return -/

section
variable {P : Platform} {o o₁ o₂ : HashOrder}

@[simp] theorem res_ok_bind {α β : Type} (a : α) (f : α → Res β) : (Res.ok a).bind f = f a := rfl
@[simp] theorem res_bind_eq {α β : Type} (x : Res α) (f : α → Res β) : x >>= f = x.bind f := rfl

@[simp] theorem getEntry_res (m : AdjMatrix) (c r : Nat) : (getEntry m c r).res = .ok (m.getEntry c r) := by
  unfold getEntry AdjMatrix.getEntry
  cases m.edgesTable.get? c <;> rfl

@[simp] theorem setEntry_res (m : AdjMatrix) (e c r : Nat) : (setEntry m e c r).res = .ok (m.setEntry e c r) := by
  unfold setEntry AdjMatrix.setEntry
  cases checkedAdd c 1 with
  | none => rfl
  | some _ =>
    cases checkedAdd r 1 with
    | none => rfl
    | some _ =>
      dsimp only
      split <;> rfl

@[simp] theorem zeroEntry_res (m : AdjMatrix) (c r : Nat) : (zeroEntry m c r).res = .ok (m.zeroEntry c r) := by
  unfold zeroEntry AdjMatrix.zeroEntry
  cases m.edgesTable.get? c <;> rfl

@[simp] theorem colVector_res (m : AdjMatrix) (c : Nat) :
    (getSparseColVector o m c).res = .ok (m.getSparseColVector o c) := by
  unfold getSparseColVector AdjMatrix.getSparseColVector
  cases m.edgesTable.get? c <;> rfl

@[simp] theorem rowVector_res (m : AdjMatrix) (r : Nat) :
    (getSparseRowVector o m r).res = .ok (m.getSparseRowVector o r) := by
  unfold getSparseRowVector AdjMatrix.getSparseRowVector
  simp [foldl_res, Res.foldl_pure]

@[simp] theorem colCount_res (m : AdjMatrix) (c : Nat) : (colNonzeroEntryCount m c).res = .ok (m.colNonzeroEntryCount c) := by
  unfold colNonzeroEntryCount AdjMatrix.colNonzeroEntryCount
  cases m.edgesTable.get? c <;> rfl

theorem foldl_count {α : Type} (p : α → Bool) (l : List α) : ∀ n : Nat,
    l.foldl (fun n a => if p a then n + 1 else n) n = n + (l.filter p).length := by
  induction l with
  | nil => intro n; rfl
  | cons a l ih =>
    intro n
    rw [List.foldl_cons, ih]
    by_cases h : p a <;> simp [h]
    omega

@[simp] theorem rowCount_res (m : AdjMatrix) (r : Nat) : (rowNonzeroEntryCount m r).res = .ok (m.rowNonzeroEntryCount r) := by
  unfold rowNonzeroEntryCount AdjMatrix.rowNonzeroEntryCount
  simp [foldl_res, Res.foldl_pure, foldl_count]

@[simp] theorem doesEdgeExist_res (g : Graph) (u v : Nat) : (doesEdgeExist g u v).res = .ok (g.doesEdgeExist u v) := by
  unfold doesEdgeExist Graph.doesEdgeExist
  simp

@[simp] theorem addEdge_res (g : Graph) (u v : Nat) : (addEdge g u v).res = .ok (g.addEdge u v) := by
  unfold addEdge Graph.addEdge
  cases h : g.isUndirected <;> simp

@[simp] theorem deleteEdge_res (g : Graph) (u v : Nat) : (deleteEdge g u v).res = .ok (g.deleteEdge u v) := by
  unfold deleteEdge Graph.deleteEdge
  cases h : g.isUndirected <;> simp

@[simp] theorem addVertex_res (g : Graph) (v : Nat) (ts : Option (List Nat)) : (addVertex g v ts).res = .ok (g.addVertex v ts) := by
  unfold addVertex Graph.addVertex
  cases ts with
  | none =>
    by_cases h : v ≥ g.vertexCount <;> simp [h]
  | some l =>
    simp only [bind_eq, bind_res, foldl_res, addEdge_res, Res.foldl_pure, res_ok_bind]
    split
    · simp
    · rfl

@[simp] theorem inEdges_res (g : Graph) (v : Nat) : (getVertexInEdges o g v).res = .ok (g.getVertexInEdges o v) := by
  unfold getVertexInEdges Graph.getVertexInEdges
  cases h : g.isUndirected <;> simp

@[simp] theorem outEdges_res (g : Graph) (v : Nat) : (getVertexOutEdges o g v).res = .ok (g.getVertexOutEdges o v) := by
  unfold getVertexOutEdges Graph.getVertexOutEdges
  simp

@[simp] theorem inDegree_res (g : Graph) (v : Nat) : (getVertexInDegree g v).res = .ok (g.getVertexInDegree v) := by
  unfold getVertexInDegree Graph.getVertexInDegree
  cases h : g.isUndirected <;> simp

@[simp] theorem outDegree_res (g : Graph) (v : Nat) : (getVertexOutDegree g v).res = .ok (g.getVertexOutDegree v) := by
  unfold getVertexOutDegree Graph.getVertexOutDegree
  simp

theorem foldl_snoc {α β : Type} (f : α → β) (l : List α) : ∀ b : List β, l.foldl (fun b a => b ++ [f a]) b = b ++ l.map f := by
  induction l with
  | nil => intro b; simp
  | cons a l ih => intro b; rw [List.foldl_cons, ih]; simp

theorem foldl_flat {α β : Type} (f : α → List β) (l : List α) : ∀ b : List β, l.foldl (fun b a => b ++ f a) b = b ++ l.flatMap f := by
  induction l with
  | nil => intro b; simp
  | cons a l ih => intro b; rw [List.foldl_cons, ih]; simp

@[simp] theorem items_res (g : Graph) : (items o g).res = .ok (g.items o) := by
  unfold items Graph.items AdjMatrix.items
  rw [forIn_res]
  simp only [pure_res, Res.foldl_pure, foldl_snoc, List.nil_append]

@[simp] theorem undirectedFrom_res (m : AdjMatrix) : (undirectedFrom o m).res = Graph.undirectedFrom o m := by
  unfold undirectedFrom Graph.undirectedFrom AdjMatrix.items
  simp only [bind_eq, bind_res, forIn_res, getEntry_res, res_ok_bind, pure_res]
  generalize (m.intoIter o).collect = l
  induction l with
  | nil => rfl
  | cons x l ih =>
    rw [List.map_cons, Graph.undirectedCheck, Res.foldl]
    by_cases h : m.getEntry x.2.1 x.1 = 1
    · simp only [h, ne_eq, not_true_eq_false, ↓reduceIte, pure_res, res_ok_bind]
      exact ih
    · simp only [h, ne_eq, not_false_eq_true, ↓reduceIte, free_res]
      rfl

@[simp] theorem toBytes_res (g : Graph) : (toBytes P o g).res = g.toBytes P o := by
  unfold toBytes Graph.toBytes AdjMatrix.items
  simp only [bind_eq, bind_res, free_res, res_bind_eq]
  congr 1; funext x
  congr 1; funext y
  split
  · rw [bind_res, tick_res, res_ok_bind, forIn_res]
    simp only [bind_res, tick_res, res_ok_bind, pure_res, Res.foldl_pure, foldl_flat, List.flatMap_map]
  · rfl

@[simp] theorem readBE_res (k : Nat) (b : Bytes) (i : Nat) : (readBE P k b i).res = Graph.readBE P k b i := rfl
@[simp] theorem readBEC_res (k : Nat) (b : Bytes) (i : Nat) : (readBEC P k b i).res = CGraph.readBE P k b i := rfl
@[simp] theorem index_res (b : Bytes) (i : Nat) : (index b i).res = Graph.index b i := rfl

theorem ite_res {α : Type} (p : Prop) [Decidable p] (x y : Run α) : (if p then x else y).res = if p then x.res else y.res := by
  split <;> rfl

@[simp] theorem readEdges_res (b : Bytes) (d e n : Nat) : ∀ (pos : Nat) (g : Graph),
    (readEdges P b d e n pos g).res = Graph.readEdges P b d e n pos g := by
  induction n with
  | zero => intro pos g; rfl
  | succ n ih =>
    intro pos g
    unfold readEdges Graph.readEdges
    simp only [bind_eq, ite_res, bind_res, readBE_res, free_res, addEdge_res, res_ok_bind, pure_res, ih, res_bind_eq]

@[simp] theorem tryFrom_res (b : Bytes) : (tryFrom P b).res = Graph.tryFrom P b := by
  unfold tryFrom Graph.tryFrom
  simp only [bind_eq, ite_res, bind_res, readBE_res, index_res, free_res, addVertex_res, pure_res, readEdges_res, res_bind_eq]

section
variable {T : Type}

@[simp] theorem getEntryS_res (N : Numeric T) (m : SqMatrix T) (c r : Nat) : (getEntryS N m c r).res = .ok (m.getEntry N c r) := by
  unfold getEntryS SqMatrix.getEntry
  cases m.edgesTable.get? c with
  | none => rfl
  | some t =>
    simp only [bind_eq, bind_res, tick_res, res_ok_bind]
    cases t.get? r <;> rfl

@[simp] theorem setEntryS_res (N : Numeric T) (m : SqMatrix T) (e : T) (c r : Nat) :
    (setEntryS N m e c r).res = .ok (m.setEntry N e c r) := by
  unfold setEntryS SqMatrix.setEntry
  cases checkedAdd c 1 with
  | none => rfl
  | some _ =>
    cases checkedAdd r 1 with
    | none => rfl
    | some _ =>
      dsimp only
      split <;> rfl

@[simp] theorem incrementEntry_res (N : Numeric T) (m : SqMatrix T) (c r : Nat) :
    (incrementEntry N P m c r).res = m.incrementEntry N P c r := by
  unfold incrementEntry SqMatrix.incrementEntry
  cases checkedAdd c 1 with
  | none => rfl
  | some _ =>
    cases checkedAdd r 1 with
    | none => rfl
    | some _ =>
      simp only [bind_eq, bind_res, tick_res, res_ok_bind]
      cases ((m.edgesTable.get? c).getD HMap.empty).get? r with
      | none => rfl
      | some e => simp

end

@[simp] theorem multiply_res (m : SqMatrix F64) (f : F64) : (multiplyEntriesBy m f).res = .ok (m.multiplyEntriesBy f) := by
  unfold multiplyEntriesBy
  simp [foldl_res, Res.foldl_pure]

@[simp] theorem doesEdgeExistC_res (g : CGraph) (u v : Nat) : (doesEdgeExistC g u v).res = .ok (g.doesEdgeExist u v) := by
  unfold doesEdgeExistC CGraph.doesEdgeExist
  simp only [bind_eq, bind_res, getEntryS_res, res_ok_bind, ite_res, pure_res]
  split <;> rfl

@[simp] theorem builderNew_res (u : Bool) (n l : Nat) : (builderNew u n l).res = .ok (CGraph.builderNew u n l) := by
  unfold builderNew CGraph.builderNew
  simp

@[simp] theorem builderAdd_res (g : CGraph) (e c r : Nat) (h : Option Nat) : (builderAdd g e c r h).res = .ok (g.builderAdd e c r h) := by
  unfold builderAdd CGraph.builderAdd
  cases h <;> simp

@[simp] theorem decompressBit_res (e c r : Nat) (s : Graph × Nat) (i : Nat) :
    (decompressBit P e c r s i).res = CGraph.decompressBit P e c r s i := by
  unfold decompressBit CGraph.decompressBit
  simp only [bind_eq, ite_res, bind_res, tick_res, free_res, addEdge_res, pure_res, res_ok_bind, res_bind_eq]

theorem res_map_eq {α β : Type} (f : α → β) (x : Res α) : x.map f = x.bind fun a => .ok (f a) := by
  cases x <;> rfl

@[simp] theorem decompress_res (g : CGraph) : (decompress P o g).res = g.decompress P o := by
  unfold decompress CGraph.decompress SqMatrix.items
  simp only [bind_eq, bind_res, ite_res, addVertex_res, pure_res, forIn_res, foldl_res, decompressBit_res, Res.foldl_map, res_map_eq]
  split <;> rfl

@[simp] theorem toBytesC_res (g : CGraph) : (toBytesC P o g).res = g.toBytes P o := by
  unfold toBytesC CGraph.toBytes SqMatrix.items
  simp only [bind_eq, bind_res, free_res, res_bind_eq]
  congr 1; funext x
  congr 1; funext y
  split
  · rw [bind_res, tick_res, res_ok_bind, forIn_res]
    simp only [bind_res, tick_res, res_ok_bind, pure_res, Res.foldl_pure, foldl_flat, List.flatMap_map]
  · rfl

@[simp] theorem validate_res (e c r n : Nat) : (validateEntryBounds e c r n).res = CGraph.validateEntryBounds e c r n := by
  unfold validateEntryBounds CGraph.validateEntryBounds
  simp [foldl_res]

@[simp] theorem readEntries_res (b : Bytes) (d v e n : Nat) : ∀ (pos k : Nat) (g : CGraph),
    (readEntries P b d v e n pos k g).res = CGraph.readEntries P b d v e n pos k g := by
  induction n with
  | zero => intro pos k g; rfl
  | succ n ih =>
    intro pos k g
    unfold readEntries CGraph.readEntries
    simp only [bind_eq, ite_res, bind_res, readBEC_res, free_res, validate_res, builderAdd_res, res_ok_bind, pure_res, ih, res_bind_eq]

@[simp] theorem tryFromC_res (b : Bytes) : (tryFromC P b).res = CGraph.tryFrom P b := by
  unfold tryFromC CGraph.tryFrom
  simp only [bind_eq, ite_res, bind_res, readBEC_res, index_res, free_res, builderNew_res, pure_res, readEntries_res, res_bind_eq, res_ok_bind]

@[simp] theorem countBlocks_res (m : AdjMatrix) (k : Nat) : (countBlocks P k (m.intoIter o)).res = Graph.countBlocks P k (m.items o) := by
  unfold countBlocks Graph.countBlocks AdjMatrix.items
  rw [forIn_res, Res.foldl_map]
  simp

@[simp] theorem pool_res (g : Graph) (k : Nat) : (findAvgPoolMatrix P o g k).res = g.findAvgPoolMatrix P o k := by
  unfold findAvgPoolMatrix Graph.findAvgPoolMatrix
  simp only [bind_eq, ite_res, bind_res, countBlocks_res, free_res, multiply_res, pure_res, res_bind_eq]

@[simp] theorem approximate_res (g : Graph) (k : Nat) (t : F64) : (approximate P o₁ o₂ g k t).res = g.approximate P o₁ o₂ k t := by
  unfold approximate Graph.approximate SqMatrix.items
  simp only [bind_eq, ite_res, bind_res, pool_res, foldl_res, forIn_res, tick_res, addEdge_res, addVertex_res, pure_res, res_bind_eq, res_ok_bind,
    Res.foldl_pure, List.foldl_map]
  split
  · rfl
  · congr 1; funext m
    have : (fun (b : Graph) (x : Nat × Nat × F64) => if F64.le (clampThreshold t) x.2.2 then Res.ok (b.addEdge x.1 x.2.1) else Res.ok b) =
        fun b x => Res.ok (if F64.le (clampThreshold t) x.2.2 then b.addEdge x.1 x.2.1 else b) := by
      funext b x; split <;> rfl
    rw [this, Res.foldl_pure]

@[simp] theorem compressBit_res (g : Graph) (c r : Nat) (s : Graph.BitState) (x : Nat × Nat) :
    (compressBit P g c r s x).res = Graph.compressBit P g c r s x := by
  unfold compressBit Graph.compressBit
  simp only [bind_eq, bind_res, tick_res, free_res, doesEdgeExist_res, pure_res, res_ok_bind, res_bind_eq]

@[simp] theorem compressBlock_res (g : Graph) (t : F64) (c : CGraph) (x : Nat × Nat × F64) :
    (compressBlock P g t c x).res = Graph.compressBlock P g t c (x.2.2, x.1, x.2.1) := by
  unfold compressBlock Graph.compressBlock
  simp only [bind_eq, ite_res, bind_res, free_res, foldl_res, compressBit_res, builderAdd_res, pure_res, res_bind_eq]

@[simp] theorem compress_res (g : Graph) (l : Nat) : (compress P o₁ o₂ g l).res = g.compress P o₁ o₂ l := by
  unfold compress Graph.compress SqMatrix.items
  simp only [bind_eq, bind_res, builderNew_res, pool_res, forIn_res, compressBlock_res, Res.foldl_map, res_bind_eq, res_ok_bind]

theorem cell_res (m : AdjMatrix) (row : Nat) (text : List Char) (col : Nat) : (cellChars m row text col).res = .ok (text ++
    ((if m.getEntry col row = 0 then ['0'] else ['1']) ++ (if col ≠ m.dimension - 1 then [',', ' '] else [' ']))) := by
  unfold cellChars
  simp

theorem row_res (m : AdjMatrix) (text : List Char) (row : Nat) : (rowChars m text row).res = .ok (text ++ m.rowChars row) := by
  unfold rowChars AdjMatrix.rowChars
  simp only [bind_eq, bind_res, tick_res, res_ok_bind, foldl_res, cell_res, Res.foldl_pure, foldl_flat, pure_res]
  simp

@[simp] theorem tryToString_res (m : AdjMatrix) : (tryToString P m).res = m.tryToString P := by
  unfold tryToString AdjMatrix.tryToString
  simp only [bind_eq, ite_res, bind_res, free_res, foldl_res, row_res, Res.foldl_pure, foldl_flat, pure_res, res_bind_eq, List.nil_append]

end
end Work
end Verif
