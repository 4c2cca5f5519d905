import Verif.Props.Codec
import Verif.Props.Strings
import Verif.Model.Display

/-!
# C89 (`undirected_from_unchecked`), C90 (`Display`)
-/

namespace Verif.Props
open Verif Spec

/-! ## C89 -/

/-- **C89.** `undirected_from_unchecked(m)`: the queries read `m`; if `m` is symmetric the result is that of
`undirected_from`. -/
theorem C89_unchecked_symmetric {m : AdjMatrix} (hm : MReach m) :
    (Graph.undirectedFromUnchecked m).isUndirected = true ∧
    (Graph.undirectedFromUnchecked m).vertexCount = m.dimension ∧
    (Graph.undirectedFromUnchecked m).edgeCount = m.entryCount ∧
    (∀ u v, (Graph.undirectedFromUnchecked m).doesEdgeExist u v = true ↔ m.getEntry u v ≠ 0) ∧
    ∀ o, (∀ c r, m.getEntry c r ≠ 0 → m.getEntry r c ≠ 0) ↔
      Graph.undirectedFrom o m = .ok (Graph.undirectedFromUnchecked m) := by
  refine ⟨rfl, rfl, rfl, fun u v => ?_, fun o => ?_⟩
  · rw [Graph.doesEdgeExist_iff, AdjMatrix.getEntry_ne_zero]; rfl
  · rw [Graph.undirectedFrom_ok_iff hm.wf]
    simp only [AdjMatrix.getEntry_ne_zero]
    exact ⟨fun h => ⟨fun p hp => h _ _ hp, rfl⟩, fun h c r hcr => h.1 _ hcr⟩

/-- **C89**, edits: on a graph from any matrix, symmetric or not, `add_edge` and `delete_edge` set and clear both
directions and nothing else. -/
theorem C89_unchecked_edits (m : AdjMatrix) (u v x y : Nat) :
    ((u < U64_MAX ∧ v < U64_MAX) →
      (((Graph.undirectedFromUnchecked m).addEdge u v).doesEdgeExist x y = true ↔
        (x = u ∧ y = v) ∨ (x = v ∧ y = u) ∨ m.getEntry x y ≠ 0)) ∧
    (¬ (u < U64_MAX ∧ v < U64_MAX) →
      (Graph.undirectedFromUnchecked m).addEdge u v = Graph.undirectedFromUnchecked m) ∧
    (((Graph.undirectedFromUnchecked m).deleteEdge u v).doesEdgeExist x y = true ↔
      m.getEntry x y ≠ 0 ∧ ¬ (x = u ∧ y = v) ∧ ¬ (x = v ∧ y = u)) := by
  refine ⟨fun h => ?_, Graph.addEdge_overflow, ?_⟩
  · rw [Graph.doesEdgeExist_iff, Graph.addEdge_pairs h.1 h.2, AdjMatrix.getEntry_ne_zero]
    simp only [Graph.newPairs, Graph.undirectedFromUnchecked, if_true, Finset.mem_union, Finset.mem_insert,
      Finset.mem_singleton, Prod.mk.injEq, or_assoc]
  · rw [Graph.doesEdgeExist_iff, Graph.deleteEdge_pairs, AdjMatrix.getEntry_ne_zero]
    simp only [Graph.newPairs, Graph.undirectedFromUnchecked, if_true, Finset.mem_sdiff, Finset.mem_insert,
      Finset.mem_singleton, Prod.mk.injEq, not_or]

/-- **C89**, bytes: a graph built without the check is stored by `to_bytes`, and `try_from` accepts the bytes exactly if
the matrix is symmetric; otherwise it returns `InvalidFormat`. -/
theorem C89_unchecked_bytes {m : AdjMatrix} (hm : MReach m) {P P' : Platform} {o : HashOrder} {b : Bytes}
    (hP : P.usizeMax ≤ U64_MAX) (hb : (Graph.undirectedFromUnchecked m).toBytes P o = .ok b)
    (hP' : b.length ≤ P'.usizeMax) :
    ((∃ g, Graph.tryFrom P' b = .ok g) ↔ ∀ c r, m.getEntry c r ≠ 0 → m.getEntry r c ≠ 0) ∧
    (¬ (∀ c r, m.getEntry c r ≠ 0 → m.getEntry r c ≠ 0) → ∃ msg, Graph.tryFrom P' b = .err (.InvalidFormat msg)) := by
  have key : (∃ g, Graph.tryFrom P' b = .ok g) ↔ ∀ c r, m.getEntry c r ≠ 0 → m.getEntry r c ≠ 0 := by
    constructor
    · rw [C18_accepts_iff hP']
      intro hv
      rw [Graph.toBytes_eq_wf _ _ _ hm.wf] at hb
      split at hb
      · cases hb
      · split at hb
        swap
        · cases hb
        · next h1 h2 =>
          cases hb
          have hlen : ((Graph.undirectedFromUnchecked m).items o).length = m.entryCount := AdjMatrix.items_length hm.wf o
          have hbd : ∀ e ∈ (Graph.undirectedFromUnchecked m).items o, e.1 ≤ U64_MAX ∧ e.2 ≤ U64_MAX := by
            intro e he
            have h := hm.wf.bound e ((AdjMatrix.mem_items hm.wf o).1 he)
            have := hm.wf.dim
            omega
          have hcnt : (Graph.undirectedFromUnchecked m).edgeCount = m.entryCount := rfl
          obtain ⟨_, _, _, hc, hd, _, hl⟩ := Graph.graphFile_fields true (Graph.undirectedFromUnchecked m).vertexCount
            ((Graph.undirectedFromUnchecked m).items o) hm.wf.dim (by omega) hbd
          have hdist := hv.distinct
          simp only [show (Graph.undirectedFromUnchecked m).isUndirected = true from rfl] at hdist
          rw [hc, hd, hl] at hdist
          simp only [if_true, beq_self_eq_true, meantEdges, List.toFinset_append] at hdist
          have hnd : ((Graph.undirectedFromUnchecked m).items o).Nodup := AdjMatrix.items_nodup hm.wf o
          rw [← List.toFinset_card_of_nodup hnd] at hdist
          have hsub := Finset.eq_of_subset_of_card_le (Finset.subset_union_left (s₁ :=
            ((Graph.undirectedFromUnchecked m).items o).toFinset) (s₂ :=
            (((Graph.undirectedFromUnchecked m).items o).map Prod.swap).toFinset)) hdist.le
          intro c r hcr
          rw [AdjMatrix.getEntry_ne_zero] at hcr ⊢
          have hin : (c, r) ∈ (Graph.undirectedFromUnchecked m).items o := (AdjMatrix.mem_items hm.wf o).2 hcr
          have : (r, c) ∈ ((Graph.undirectedFromUnchecked m).items o).toFinset := by
            rw [hsub, Finset.mem_union]
            right
            rw [List.mem_toFinset, List.mem_map]
            exact ⟨(c, r), hin, rfl⟩
          rw [List.mem_toFinset] at this
          exact (AdjMatrix.mem_items hm.wf o).1 this
    · intro hs
      have hg : Graph.undirectedFrom .id m = .ok (Graph.undirectedFromUnchecked m) :=
        ((C89_unchecked_symmetric hm).2.2.2.2 .id).1 hs
      obtain ⟨g', hg', _⟩ := C15_round_trip (.undirectedFrom _ hm hg) hP hb hP'
      exact ⟨g', hg'⟩
  refine ⟨key, fun hn => ?_⟩
  rcases C16_decode_total P' b hP' with h | h
  · exact absurd (key.1 h) hn
  · exact h

/-- A matrix with the entry (0, 2) but not (2, 0): its bytes are written and rejected. -/
example : MReach (AdjMatrix.new.setEntry 1 0 2) ∧ exP.usizeMax ≤ U64_MAX ∧
    okAnd ((Graph.undirectedFromUnchecked (AdjMatrix.new.setEntry 1 0 2)).toBytes exP .id) (fun b =>
      decide (b.length ≤ exP.usizeMax) && !okAnd (Graph.tryFrom exP b) fun _ => true) :=
  ⟨.setEntry _ _ _ .new, by decide, by decide +kernel⟩

/-! ## C90 -/

/-- **C90**, errors: the text of an error is "GraphRoxError: " followed by its message, from which the message can be
read back. -/
theorem C90_error_text (e : GraphRoxError) :
    e.display = "GraphRoxError: ".toList ++ e.intoInner.toList ∧
    ∀ e' : GraphRoxError, e.display = e'.display ↔ e.intoInner = e'.intoInner := by
  have h : ∀ e : GraphRoxError, e.display = "GraphRoxError: ".toList ++ e.intoInner.toList := by
    intro e; cases e <;> rfl
  refine ⟨h e, fun e' => ?_⟩
  rw [h, h, List.append_cancel_left_eq, String.toList_inj]

/-- **C90**, matrices: `to_string` of an adjacency matrix is the text of its entries if that text is representable and
can be allocated, and panics exactly otherwise. -/
theorem C90_matrix_to_string (m : AdjMatrix) (P : Platform) :
    (m.dimension = 0 → m.toText P = .ok []) ∧
    (m.dimension ≠ 0 →
      let size := 4 * m.dimension + 3 * (m.dimension * m.dimension) - 2
      (size + 2 ≤ P.usizeMax → P.alloc size = true →
        m.toText P = .ok (graphText m.dimension fun c r => m.getEntry c r != 0)) ∧
      (P.usizeMax < size + 2 ∨ P.alloc size = false → m.toText P = .panic)) := by
  obtain ⟨h0, h1⟩ := C49_matrix_string (Graph.directedFrom m) P
  have hms : (Graph.directedFrom m).matrixString P = m.tryToString P := rfl
  rw [hms] at h0 h1
  have hok : ∀ {s}, m.tryToString P = .ok s → m.toText P = .ok s := by
    intro s h; unfold AdjMatrix.toText AdjMatrix.fmt; rw [h]
  refine ⟨fun h => hok (h0 h), fun hn => ⟨fun hs ha => hok ((h1 hn).1 hs ha), fun h => ?_⟩⟩
  obtain ⟨msg, hm⟩ := (h1 hn).2.1 h
  unfold AdjMatrix.toText AdjMatrix.fmt
  rw [hm]

/-- **C90**, matrices: the text determines the matrix. -/
theorem C90_matrix_text_injective {m m' : AdjMatrix} (hm : MReach m) (hm' : MReach m') (P P' : Platform) {s : List Char}
    (h : m.toText P = .ok s) (h' : m'.toText P' = .ok s) :
    m.dimension = m'.dimension ∧ m.entryCount = m'.entryCount ∧
      ∀ c r, m.getEntry c r ≠ 0 ↔ m'.getEntry c r ≠ 0 := by
  have hinv : ∀ {m : AdjMatrix} {P}, m.toText P = .ok s → (Graph.directedFrom m).matrixString P = .ok s := by
    intro m P h
    show m.tryToString P = .ok s
    unfold AdjMatrix.toText AdjMatrix.fmt at h
    split at h
    · next heq =>
      split at heq
      · next h2 => rw [h2]; cases heq; cases h; rfl
      · cases heq
      · cases heq
    all_goals cases h
  obtain ⟨h1, h2, h3⟩ := C50_matrix_string_injective (.directedFrom hm) (.directedFrom hm') P P' s (hinv h) (hinv h')
  refine ⟨h1, h3, fun c r => ?_⟩
  have := h2 c r
  rw [Bool.eq_iff_iff] at this
  unfold Graph.doesEdgeExist at this
  simp only [bne_iff_ne] at this
  exact this

/-- A 3x3 matrix is printed; one of `2^40` rows cannot be. -/
example : okAnd (((AdjMatrix.new.setEntry 1 0 1).setEntry 1 2 1).toText exP)
      (fun s => s == "[ 0, 0, 0 ]\r\n[ 1, 0, 1 ]\r\n[ 0, 0, 0 ]".toList) ∧
    isPanic ((AdjMatrix.new.setEntry 1 0 (2 ^ 40)).toText exP) := by
  constructor <;> decide +kernel

end Verif.Props
