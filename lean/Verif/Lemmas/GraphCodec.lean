import Verif.Lemmas.Graph
import Verif.Lemmas.Bytes

/-! The byte codec of `Graph`. -/

namespace Verif
open Spec

theorem Res.bind_ok {α β : Type} (a : α) (f : α → Res β) : (Res.ok a >>= f) = f a := rfl
theorem Res.bind_err {α β : Type} (e) (f : α → Res β) : ((Res.err e : Res α) >>= f) = .err e := rfl
theorem Res.bind_panic {α β : Type} (f : α → Res β) : ((Res.panic : Res α) >>= f) = .panic := rfl

theorem Res.bind_eq_ok {α β : Type} {x : Res α} {f : α → Res β} {b : β} :
    (x >>= f) = .ok b ↔ ∃ a, x = .ok a ∧ f a = .ok b := by
  cases x with
  | ok a => simp [Res.bind_ok]
  | err e => simp [Res.bind_err]
  | panic => simp [Res.bind_panic]

namespace Graph

theorem readBE_ok {P : Platform} {k : Nat} {b : Bytes} {off : Nat}
    (h : off + k ≤ b.length) (hP : b.length ≤ P.usizeMax) : readBE P k b off = .ok (field b off k) := by
  unfold readBE
  have h1 : P.checkedAdd off k = some (off + k) := by
    unfold Platform.checkedAdd; rw [if_pos (by omega)]
  rw [h1]
  simp only [Res.ofOption, Res.bind_ok, sliceGet_eq h]
  have h2 : ((b.drop off).take k).length = k := by simp; omega
  rw [if_pos h2, fromBE_eq_beValue, field]

theorem index_ok {b : Bytes} {i : Nat} (h : i < b.length) : index b i = .ok (field b i 1) := by
  unfold index field
  rw [List.getElem?_eq_getElem h]
  have : (b.drop i).take 1 = [b[i]] := by
    rw [List.drop_eq_getElem_cons h]; rfl
  rw [this]
  simp [beValue]

theorem expectedSize (P : Platform) (count k off : Nat) (hk : k = 2 ∨ k = 3) :
    ((P.usizeTryFrom count).bind fun count => (P.checkedMul count k).bind fun count =>
          (P.checkedMul count 8).bind fun size => P.checkedAdd size off) =
      if count * k * 8 + off ≤ P.usizeMax then some (count * k * 8 + off) else none := by
  unfold Platform.usizeTryFrom Platform.checkedMul Platform.checkedAdd
  have key : ∀ k, k = 2 ∨ k = 3 → ((if count ≤ P.usizeMax then some count else none).bind fun count =>
      (if count * k ≤ P.usizeMax then some (count * k) else none).bind fun count =>
      (if count * 8 ≤ P.usizeMax then some (count * 8) else none).bind fun size =>
      if size + off ≤ P.usizeMax then some (size + off) else none) =
      if count * k * 8 + off ≤ P.usizeMax then some (count * k * 8 + off) else none := by
    intro k hk
    have hk1 : count ≤ count * k := by rcases hk with rfl | rfl <;> omega
    by_cases h1 : count ≤ P.usizeMax
    · by_cases h2 : count * k ≤ P.usizeMax
      · by_cases h3 : count * k * 8 ≤ P.usizeMax
        · simp [h1, h2, h3]
        · rw [if_neg (show ¬ count * k * 8 + off ≤ P.usizeMax by omega)]; simp [h1, h2, h3]
      · rw [if_neg (show ¬ count * k * 8 + off ≤ P.usizeMax by omega)]; simp [h1, h2]
    · rw [if_neg (show ¬ count * k * 8 + off ≤ P.usizeMax by omega)]; simp [h1]
  exact key k hk

/-- The loop of `try_from` over an already parsed list of pairs. -/
def readLoop (dim : Nat) : List (Nat × Nat) → Graph → Res Graph
  | [], g => .ok g
  | e :: l, g =>
    if e.1 ≥ dim || e.2 ≥ dim then .err (.InvalidFormat "Graph edge exceeds matrix dimension")
    else readLoop dim l (g.addEdge e.1 e.2)

theorem readEdges_eq {P : Platform} {b : Bytes} {dim count : Nat}
    (hlen : b.length = 26 + 16 * count) (hP : b.length ≤ P.usizeMax) :
    ∀ (fuel i : Nat) (g : Graph), i ≤ count → count - i < fuel →
      readEdges P b dim (26 + 16 * count) fuel (26 + 16 * i) g =
        readLoop dim ((List.range' i (count - i)).map (listedEdge b)) g := by
  intro fuel
  induction fuel with
  | zero => intro i g _ h; omega
  | succ fuel ih =>
    intro i g hi hf
    unfold readEdges
    by_cases h : i < count
    · rw [if_pos (by omega)]
      rw [readBE_ok (by omega) hP, Res.bind_ok]
      simp only
      rw [readBE_ok (by omega) hP, Res.bind_ok]
      have hr : count - i = (count - (i + 1)) + 1 := by omega
      rw [hr, List.range'_succ, List.map_cons, readLoop]
      have he : listedEdge b i = (field b (26 + 16 * i) 8, field b (26 + 16 * i + 8) 8) := rfl
      rw [he]
      simp only
      split
      · rfl
      · have := ih (i + 1) (g.addEdge (field b (26 + 16 * i) 8) (field b (26 + 16 * i + 8) 8)) (by omega) (by omega)
        rw [← this]
        congr 1
    · rw [if_neg (by omega)]
      have : count - i = 0 := by omega
      rw [this]; rfl

theorem readLoop_eq (dim : Nat) (l : List (Nat × Nat)) (g : Graph) :
    readLoop dim l g = if ∀ e ∈ l, e.1 < dim ∧ e.2 < dim then
      .ok (l.foldl (fun g e => g.addEdge e.1 e.2) g)
      else .err (.InvalidFormat "Graph edge exceeds matrix dimension") := by
  induction l generalizing g with
  | nil => simp [readLoop]
  | cons e l ih =>
    unfold readLoop
    by_cases h : e.1 < dim ∧ e.2 < dim
    · have : ¬ ((decide (e.1 ≥ dim) || decide (e.2 ≥ dim)) = true) := by simp; omega
      rw [if_neg this, ih]
      refine ite_congr (propext ?_) (fun _ => rfl) (fun _ => rfl)
      rw [List.forall_mem_cons]; exact ⟨fun x => ⟨h, x⟩, fun x => x.2⟩
    · have : ((decide (e.1 ≥ dim) || decide (e.2 ≥ dim)) = true) := by simp; omega
      rw [if_pos this, if_neg]
      intro hc; exact h (hc e (by simp))

/-- The graph built by the decoder from a list of pairs. -/
def buildFrom (undirected : Bool) (l : List (Nat × Nat)) : Graph :=
  l.foldl (fun g e => g.addEdge e.1 e.2) (if undirected then newUndirected else newDirected)

/-- The cascade of checks of `try_from`, with the fields named. -/
theorem tryFrom_eq {P : Platform} {b : Bytes} (h26 : 26 ≤ b.length) (hP : b.length ≤ P.usizeMax) :
    tryFrom P b =
      if field b 0 4 ≠ MAGIC then .err (.InvalidFormat "Incorrect magic number")
      else if field b 4 4 ≠ VERSION then .err (.InvalidFormat "Unrecognized Graph version")
      else if field b 24 1 > 1 then .err (.InvalidFormat "Invalid graph direction flag")
      else if field b 25 1 ≠ 0 then .err (.InvalidFormat "Weighted graphs are not supported")
      else if field b 8 8 = 0 ∧ field b 16 8 ≠ 0 then
        .err (.InvalidFormat "Graph with zero dimension cannot contain edges")
      else if P.usizeMax < 26 + 16 * field b 16 8 then .err (.InvalidFormat "Graph byte size overflowed")
      else if b.length < 26 + 16 * field b 16 8 then
        .err (.InvalidFormat "Slice is too short to contain all expected graph edges")
      else if b.length > 26 + 16 * field b 16 8 then
        .err (.InvalidFormat "Slice is too long represent the expected graph edges")
      else if ¬ ∀ e ∈ listedEdges b (field b 16 8), e.1 < field b 8 8 ∧ e.2 < field b 8 8 then
        .err (.InvalidFormat "Graph edge exceeds matrix dimension")
      else if (buildFrom (field b 24 1 == 1) (listedEdges b (field b 16 8))).edgeCount ≠ field b 16 8 then
        .err (.InvalidFormat "Graph edge count does not match header")
      else if field b 8 8 > 0 then
        .ok ((buildFrom (field b 24 1 == 1) (listedEdges b (field b 16 8))).addVertex (field b 8 8 - 1) none)
      else .ok (buildFrom (field b 24 1 == 1) (listedEdges b (field b 16 8))) := by
  unfold tryFrom
  rw [if_neg (by unfold HEADER_SIZE; omega)]
  rw [readBE_ok (by omega) hP, Res.bind_ok, readBE_ok (by omega) hP, Res.bind_ok,
    readBE_ok (by omega) hP, Res.bind_ok, readBE_ok (by omega) hP, Res.bind_ok,
    index_ok (by omega), Res.bind_ok, index_ok (by omega), Res.bind_ok]
  refine ite_congr rfl (fun _ => rfl) fun _ => ?_
  refine ite_congr rfl (fun _ => rfl) fun _ => ?_
  refine ite_congr rfl (fun _ => rfl) fun hdir => ?_
  refine ite_congr rfl (fun _ => rfl) fun _ => ?_
  refine ite_congr rfl (fun _ => rfl) fun _ => ?_
  rw [expectedSize P _ 2 _ (Or.inl rfl)]
  have hsz : field b 16 8 * 2 * 8 + HEADER_SIZE = 26 + 16 * field b 16 8 := by unfold HEADER_SIZE; ring
  rw [hsz]
  by_cases hov : P.usizeMax < 26 + 16 * field b 16 8
  · rw [if_pos hov, if_neg (by omega)]; rfl
  rw [if_neg hov, if_pos (by omega)]
  simp only [Res.ofOption, Res.bind_ok]
  refine ite_congr rfl (fun _ => rfl) fun h1 => ?_
  refine ite_congr rfl (fun _ => rfl) fun h2 => ?_
  have hlen : b.length = 26 + 16 * field b 16 8 := by omega
  have hre := readEdges_eq (dim := field b 8 8) hlen hP (26 + 16 * field b 16 8 + 1) 0
    (if field b 24 1 = 0 then newDirected else newUndirected) (by omega) (by omega)
  simp only [Nat.mul_zero, Nat.add_zero, Nat.sub_zero, ← List.range_eq_range'] at hre
  unfold HEADER_SIZE
  rw [hre, readLoop_eq, show (List.range (field b 16 8)).map (listedEdge b) = listedEdges b (field b 16 8) from rfl]
  have hb : (if field b 24 1 = 0 then newDirected else newUndirected) =
      (if (field b 24 1 == 1) = true then newUndirected else newDirected) := by
    have : field b 24 1 = 0 ∨ field b 24 1 = 1 := by omega
    rcases this with h | h <;> simp [h]
  rw [hb]
  by_cases hall : ∀ e ∈ listedEdges b (field b 16 8), e.1 < field b 8 8 ∧ e.2 < field b 8 8
  · rw [if_neg (not_not.2 hall), if_pos hall, Res.bind_ok]
    rfl
  · rw [if_pos hall, if_neg hall, Res.bind_err]

theorem buildFrom_isUndirected (u : Bool) (l) : (buildFrom u l).isUndirected = u := by
  unfold buildFrom
  suffices h : ∀ g : Graph, (l.foldl (fun g e => g.addEdge e.1 e.2) g).isUndirected = g.isUndirected by
    rw [h]; cases u <;> rfl
  induction l with
  | nil => intro g; rfl
  | cons e l ih => intro g; rw [List.foldl_cons, ih]; rfl

theorem OK.buildFrom (u : Bool) (l : List (Nat × Nat)) : OK (buildFrom u l) := by
  unfold Graph.buildFrom
  have h0 : OK (if u then Graph.newUndirected else Graph.newDirected) := by
    cases u
    · exact OK.newDirected
    · exact OK.newUndirected
  generalize (if u then Graph.newUndirected else Graph.newDirected) = g at h0
  induction l generalizing g with
  | nil => exact h0
  | cons e l ih => exact ih _ (h0.addEdge _ _)

theorem foldl_addEdge_pairs (l : List (Nat × Nat)) (hl : ∀ e ∈ l, e.1 < U64_MAX ∧ e.2 < U64_MAX) (g : Graph)
    (p : Nat × Nat) :
    p ∈ (l.foldl (fun g e => g.addEdge e.1 e.2) g).pairs ↔
      p ∈ g.pairs ∨ p ∈ l ∨ (g.isUndirected = true ∧ (p.2, p.1) ∈ l) := by
  induction l generalizing g with
  | nil => simp
  | cons e l ih =>
    obtain ⟨u, v⟩ := e
    obtain ⟨x, y⟩ := p
    have he := hl (u, v) (by simp)
    rw [List.foldl_cons, ih (fun e h => hl e (List.mem_cons_of_mem _ h)), addEdge_pairs he.1 he.2]
    unfold newPairs
    simp only [Finset.mem_union, addEdge_isUndirected, List.mem_cons, Prod.mk.injEq]
    cases g.isUndirected
    · simp only [Bool.false_eq_true, if_false, Finset.mem_singleton, Prod.mk.injEq, false_and, or_false]
      tauto
    · simp only [if_true, Finset.mem_insert, Finset.mem_singleton, Prod.mk.injEq, true_and]
      tauto

theorem foldl_addEdge_vertexCount (l : List (Nat × Nat)) (hl : ∀ e ∈ l, e.1 < U64_MAX ∧ e.2 < U64_MAX)
    (g : Graph) (n : Nat) (hn : ∀ e ∈ l, e.1 < n ∧ e.2 < n) (hg : g.vertexCount ≤ n) :
    (l.foldl (fun g e => g.addEdge e.1 e.2) g).vertexCount ≤ n ∧
    g.vertexCount ≤ (l.foldl (fun g e => g.addEdge e.1 e.2) g).vertexCount := by
  induction l generalizing g with
  | nil => exact ⟨hg, le_refl _⟩
  | cons e l ih =>
    have he := hl e (by simp)
    have hne := hn e (by simp)
    rw [List.foldl_cons]
    have hv := addEdge_vertexCount (g := g) he.1 he.2
    have := ih (fun e h => hl e (List.mem_cons_of_mem _ h)) (g.addEdge e.1 e.2)
      (fun e h => hn e (List.mem_cons_of_mem _ h)) (by omega)
    omega

theorem mem_buildFrom_pairs (u : Bool) (l : List (Nat × Nat)) (hl : ∀ e ∈ l, e.1 < U64_MAX ∧ e.2 < U64_MAX)
    (p : Nat × Nat) :
    p ∈ (buildFrom u l).pairs ↔ p ∈ l ∨ (u = true ∧ (p.2, p.1) ∈ l) := by
  unfold buildFrom
  rw [foldl_addEdge_pairs l hl]
  have h0 : p ∉ (if u then newUndirected else newDirected).pairs := by
    cases u <;> simp [pairs, newUndirected, newDirected, AdjMatrix.new_pairs]
  have h1 : (if u then newUndirected else newDirected).isUndirected = u := by cases u <;> rfl
  rw [h1]
  simp [h0]

theorem readEdges_OK {P : Platform} {b : Bytes} {dim exp : Nat} (fuel : Nat) :
    ∀ (pos : Nat) (g g' : Graph), readEdges P b dim exp fuel pos g = .ok g' → OK g → OK g' := by
  induction fuel with
  | zero => intro pos g g' h; simp [readEdges] at h
  | succ fuel ih =>
    intro pos g g' h hg
    unfold readEdges at h
    split at h
    · simp only [Res.bind_eq_ok] at h
      obtain ⟨c, _, r, _, h⟩ := h
      split at h
      · simp at h
      · exact ih _ _ _ h (hg.addEdge _ _)
    · cases h; exact hg

theorem OK.tryFrom {P : Platform} {b : Bytes} {g : Graph} (h : Graph.tryFrom P b = .ok g) : OK g := by
  unfold Graph.tryFrom at h
  split at h
  · simp at h
  simp only [Res.bind_eq_ok] at h
  obtain ⟨_, _, _, _, dim, _, count, _, dir, _, _, _, h⟩ := h
  split at h
  · simp at h
  split at h
  · simp at h
  split at h
  · simp at h
  split at h
  · simp at h
  split at h
  · simp at h
  simp only [Res.bind_eq_ok] at h
  obtain ⟨exp, _, h⟩ := h
  split at h
  · simp at h
  split at h
  · simp at h
  simp only [Res.bind_eq_ok] at h
  obtain ⟨g', hg', h⟩ := h
  have h0 : OK (if dir = 0 then Graph.newDirected else Graph.newUndirected) := by
    split
    · exact OK.newDirected
    · exact OK.newUndirected
  have := readEdges_OK _ _ _ _ hg' h0
  split at h
  · simp at h
  split at h
  · cases h; exact this.addVertex _ _
  · cases h; exact this


/-! ### Writing -/

theorem toBytes_eq_wf (P : Platform) (o : HashOrder) (g : Graph) (h : g.adjacencyMatrix.WF) :
    toBytes P o g =
      if P.usizeMax < 26 + 16 * g.edgeCount then .err (.CapacityOverflow "Graph byte size overflowed")
      else if P.alloc (26 + 16 * g.edgeCount) then
        .ok (graphFile g.isUndirected g.vertexCount (g.items o))
      else .err (.CapacityOverflow "Unable to allocate graph bytes") := by
  have hitems : (g.items o).length = g.edgeCount := AdjMatrix.items_length h o
  have hfile : graphFile g.isUndirected g.vertexCount (g.items o) =
      (toBE 4 MAGIC ++ toBE 4 VERSION ++ toBE 8 g.adjacencyMatrix.dimension ++
      toBE 8 g.adjacencyMatrix.entryCount ++ [if g.isUndirected then 1 else 0] ++ [0] ++
      (g.adjacencyMatrix.items o).flatMap (fun e => toBE 8 e.1 ++ toBE 8 e.2)) := by
    unfold graphFile
    simp only [toBE_eq_beBytes, hitems]
    simp only [List.append_assoc, List.cons_append, List.nil_append]
    rfl
  rw [hfile]
  unfold toBytes edgeCount
  generalize g.adjacencyMatrix.entryCount = c
  unfold Platform.usizeTryFrom Platform.checkedMul Platform.checkedAdd
  by_cases h1 : c ≤ P.usizeMax
  · by_cases h2 : c * 2 ≤ P.usizeMax
    · by_cases h3 : c * 2 * 8 ≤ P.usizeMax
      · by_cases h4 : HEADER_SIZE + c * 2 * 8 ≤ P.usizeMax
        · have hh : HEADER_SIZE = 26 := rfl
          rw [if_neg (show ¬ P.usizeMax < 26 + 16 * c by omega)]
          simp only [h1, h2, h3, h4, if_true, Option.bind_some, Res.ofOption, Res.bind_ok]
          rw [show HEADER_SIZE + c * 2 * 8 = 26 + 16 * c by omega]
        · have hh : HEADER_SIZE = 26 := rfl
          rw [if_pos (show P.usizeMax < 26 + 16 * c by omega)]
          simp only [h1, h2, h3, h4, if_true, if_false, Option.bind_some, Res.ofOption, Res.bind_ok, Res.bind_err]
      · rw [if_pos (show P.usizeMax < 26 + 16 * c by omega)]
        simp only [h1, h2, h3, if_true, if_false, Option.bind_some, Res.ofOption, Res.bind_err]
    · rw [if_pos (show P.usizeMax < 26 + 16 * c by omega)]
      simp only [h1, h2, if_true, if_false, Option.bind_some, Option.bind_none, Res.ofOption, Res.bind_err]
  · rw [if_pos (show P.usizeMax < 26 + 16 * c by omega)]
    simp only [h1, if_false, Option.bind_none, Res.ofOption, Res.bind_err]

theorem toBytes_eq (P : Platform) (o : HashOrder) (g : Graph) (h : g.OK) :
    toBytes P o g =
      if P.usizeMax < 26 + 16 * g.edgeCount then .err (.CapacityOverflow "Graph byte size overflowed")
      else if P.alloc (26 + 16 * g.edgeCount) then
        .ok (graphFile g.isUndirected g.vertexCount (g.items o))
      else .err (.CapacityOverflow "Unable to allocate graph bytes") := toBytes_eq_wf P o g h.wf

theorem flatMap_length16 (l : List (Nat × Nat)) :
    (l.flatMap (fun e => beBytes 8 e.1 ++ beBytes 8 e.2)).length = 16 * l.length := by
  induction l with
  | nil => rfl
  | cons e l ih => simp only [List.flatMap_cons, List.length_append, ih, beBytes_length, List.length_cons]; omega

theorem graphFile_length (u : Bool) (n : Nat) (l : List (Nat × Nat)) :
    (graphFile u n l).length = 26 + 16 * l.length := by
  unfold graphFile
  simp only [List.length_append, flatMap_length16, beBytes_length, List.length_cons, List.length_nil]

theorem field_beBytes (k x : Nat) (rest : Bytes) (h : x < 256 ^ k) : field (beBytes k x ++ rest) 0 k = x := by
  rw [← toBE_eq_beBytes, field_toBE _ _ _ h]

theorem field_skip (k x : Nat) (rest : Bytes) (off k' : Nat) (h : k ≤ off) :
    field (beBytes k x ++ rest) off k' = field rest (off - k) k' := by
  rw [field_append_right _ _ _ _ (by rw [beBytes_length]; exact h), beBytes_length]

theorem field_skip_cons (x : UInt8) (rest : Bytes) (off k' : Nat) :
    field (x :: rest) (off + 1) k' = field rest off k' := by
  unfold field; rw [List.drop_succ_cons]

theorem field_cons_one (x : UInt8) (rest : Bytes) : field (x :: rest) 0 1 = x.toNat := by
  unfold field; simp [beValue]

theorem listedEdge_flatMap (l : List (Nat × Nat)) (hl : ∀ e ∈ l, e.1 ≤ U64_MAX ∧ e.2 ≤ U64_MAX) (i : Nat)
    (hi : i < l.length) :
    (field (l.flatMap (fun e => beBytes 8 e.1 ++ beBytes 8 e.2)) (16 * i) 8,
     field (l.flatMap (fun e => beBytes 8 e.1 ++ beBytes 8 e.2)) (16 * i + 8) 8) = l[i] := by
  induction l generalizing i with
  | nil => simp at hi
  | cons e l ih =>
    have he := hl e (by simp)
    rw [List.flatMap_cons, List.append_assoc]
    match i with
    | 0 =>
      rw [field_beBytes _ _ _ (by rw [U64_eq]; omega), field_skip _ _ _ _ _ (by omega)]
      rw [show 16 * 0 + 8 - 8 = 0 from rfl, field_beBytes _ _ _ (by rw [U64_eq]; omega)]
      rfl
    | i + 1 =>
      rw [field_skip _ _ _ _ _ (by omega), field_skip _ _ _ _ _ (by omega),
        field_skip _ _ _ _ _ (by omega), field_skip _ _ _ _ _ (by omega)]
      have := ih (fun e h => hl e (List.mem_cons_of_mem _ h)) i (by simpa using hi)
      rw [show 16 * (i + 1) - 8 - 8 = 16 * i by omega, show 16 * (i + 1) + 8 - 8 - 8 = 16 * i + 8 by omega]
      rw [this]; simp

/-- The fields of a graph file. -/
theorem graphFile_fields (u : Bool) (n : Nat) (l : List (Nat × Nat)) (hn : n ≤ U64_MAX)
    (hl : l.length ≤ U64_MAX) (he : ∀ e ∈ l, e.1 ≤ U64_MAX ∧ e.2 ≤ U64_MAX) :
    field (graphFile u n l) 0 4 = MAGIC ∧ field (graphFile u n l) 4 4 = VERSION ∧
    field (graphFile u n l) 8 8 = n ∧ field (graphFile u n l) 16 8 = l.length ∧
    field (graphFile u n l) 24 1 = (if u then 1 else 0) ∧ field (graphFile u n l) 25 1 = 0 ∧
    listedEdges (graphFile u n l) l.length = l := by
  unfold graphFile
  simp only [List.append_assoc, List.cons_append, List.nil_append]
  refine ⟨?_, ?_, ?_, ?_, ?_, ?_, ?_⟩
  · exact field_beBytes _ _ _ (by decide)
  · rw [field_skip _ _ _ _ _ (by omega)]; exact field_beBytes _ _ _ (by decide)
  · rw [field_skip _ _ _ _ _ (by omega), field_skip _ _ _ _ _ (by omega)]
    exact field_beBytes _ _ _ (by rw [U64_eq]; omega)
  · rw [field_skip _ _ _ _ _ (by omega), field_skip _ _ _ _ _ (by omega), field_skip _ _ _ _ _ (by omega)]
    exact field_beBytes _ _ _ (by rw [U64_eq]; omega)
  · rw [field_skip _ _ _ _ _ (by omega), field_skip _ _ _ _ _ (by omega), field_skip _ _ _ _ _ (by omega),
      field_skip _ _ _ _ _ (by omega), field_cons_one]
    cases u <;> rfl
  · rw [field_skip _ _ _ _ _ (by omega), field_skip _ _ _ _ _ (by omega), field_skip _ _ _ _ _ (by omega),
      field_skip _ _ _ _ _ (by omega), field_skip_cons, field_cons_one]
    rfl
  · unfold listedEdges
    apply List.ext_getElem
    · simp
    · intro i h1 h2
      rw [List.getElem_map, List.getElem_range]
      rw [← listedEdge_flatMap l he i h2]
      unfold listedEdge
      have hs : ∀ off k', 26 ≤ off → field (beBytes 4 2061967357 ++
        (beBytes 4 1 ++ (beBytes 8 n ++ (beBytes 8 l.length ++ (if u = true then 1 else 0) :: 0 ::
          List.flatMap (fun e => beBytes 8 e.1 ++ beBytes 8 e.2) l)))) off k' =
          field (List.flatMap (fun e => beBytes 8 e.1 ++ beBytes 8 e.2) l) (off - 26) k' := by
        intro off k' ho
        rw [field_skip _ _ _ _ _ (by omega), field_skip _ _ _ _ _ (by omega), field_skip _ _ _ _ _ (by omega),
          field_skip _ _ _ _ _ (by omega)]
        obtain ⟨j, rfl⟩ : ∃ j, off = j + 26 := ⟨off - 26, by omega⟩
        rw [show j + 26 - 4 - 4 - 8 - 8 = j + 1 + 1 by omega, field_skip_cons, field_skip_cons]
        congr 1
      rw [hs _ _ (by omega), hs _ _ (by omega)]
      rw [show 26 + 16 * i - 26 = 16 * i by omega, show 26 + 16 * i + 8 - 26 = 16 * i + 8 by omega]

end Graph
end Verif
