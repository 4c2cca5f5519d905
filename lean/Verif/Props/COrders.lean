import Verif.Spec.COrders
import Verif.Props.Addresses
import Verif.Props.PyOrders
import Verif.Props.MachinesC

/-!
# What C programs can see of the order of hash tables: C136
-/

namespace Verif.Props
open Verif Spec

/-- The same content, except that lists and the records of files may be in another order; graphs and matrices that no function tells apart. -/
def ContentAlike : Obj → Obj → Prop
  | .graph g, .graph g' => Same g g'
  | .cgraph c, .cgraph c' => SameC c c'
  | .matrix m, .matrix m' => SameMatrix m m'
  | .bytes b, .bytes b' => Reordered b b'
  | .edges l, .edges l' => l.Perm l'
  | .vertices l, .vertices l' => l.Perm l'
  | .entries l, .entries l' => l.Perm l'
  | x, x' => x = x'

/-- The same is seen, except that content may be in another order. -/
def ObsAlike (o o' : Obs) : Prop := o = o' ∨ ∃ x x', o = .content x ∧ o' = .content x' ∧ ContentAlike x x'

/-! ### Files -/

/-- The file has as many records as its header says. -/
def Counted (b : Bytes) : Prop :=
  (field b 0 4 = 0x7ae71ffd ∧ b.length = 26 + 16 * field b 16 8) ∨ (field b 0 4 = 0x71ff7aed ∧ b.length = 42 + 24 * field b 16 8)

theorem field_take {b : Bytes} {n off k : Nat} (h : off + k ≤ n) : field (b.take n) off k = field b off k := by
  unfold field
  rw [List.drop_take, List.take_take, Nat.min_eq_left (by omega)]

theorem counted_take {b : Bytes} (h : Counted b) {n : Nat} (hn : n < b.length) :
    ¬ ValidGraphFile (b.take n) ∧ ¬ ValidCompressedFile (b.take n) := by
  have hl : (b.take n).length = n := by rw [List.length_take]; omega
  constructor
  · intro hv
    have h1 := hv.length
    have h2 := hv.magic
    rw [hl] at h1
    rw [field_take (by omega)] at h1 h2
    rcases h with ⟨_, h⟩ | ⟨h, _⟩
    · omega
    · rw [h] at h2; cases h2
  · intro hv
    have h1 := hv.length
    have h2 := hv.magic
    rw [hl] at h1
    rw [field_take (by omega)] at h1 h2
    rcases h with ⟨h, _⟩ | ⟨_, h⟩
    · rw [h] at h2; cases h2
    · omega

theorem counted_alike {b b' : Bytes} (h : Reordered b b') (hc : Counted b) : Counted b' := by
  have hl := reordered_length h
  have hf : ∀ off k, off + k ≤ 26 → field b' off k = field b off k := by
    obtain ⟨hd, l, l', hp, rfl, rfl, ⟨e1, e2, e3⟩ | ⟨e1, e2, e3, e4⟩⟩ := h <;>
      exact fun off k hk => by rw [field_append_left _ _ _ _ (by omega), field_append_left _ _ _ _ (by omega)]
  unfold Counted
  rw [hl, hf 0 4 (by omega), hf 16 8 (by omega)]
  exact hc

theorem graphFile_counted {u : Bool} {n : Nat} {l : List (Nat × Nat)} (h : l.length ≤ U64_MAX) : Counted (graphFile u n l) := by
  have hU : U64_MAX < 256 ^ 8 := by decide
  have hr : ∀ r ∈ l.map fun e => beBytes 8 e.1 ++ beBytes 8 e.2, r.length = 16 := by
    intro r hr
    obtain ⟨x, -, rfl⟩ := List.mem_map.1 hr
    simp [beBytes_length]
  have hl := records_length hr
  refine .inl ⟨?_, ?_⟩
  · unfold graphFile
    simp only [List.append_assoc]
    exact Graph.field_beBytes _ _ _ (by decide)
  · have hf : field (graphFile u n l) 16 8 = l.length := by
      unfold graphFile
      rw [show ∀ a b c d e f : Bytes, a ++ b ++ c ++ d ++ e ++ f = (a ++ b ++ c) ++ (d ++ (e ++ f)) from fun _ _ _ _ _ _ => by simp,
        field_append_right _ _ _ _ (by simp [beBytes_length])]
      simp only [List.length_append, beBytes_length]
      exact Graph.field_beBytes _ _ _ (by omega)
    rw [hf]
    unfold graphFile
    rw [List.flatMap_def]
    rw [List.length_append, hl]
    simp [beBytes_length]

theorem compressedFile_counted {u : Bool} {a b c d : Nat} {l : List (Nat × Nat × Nat)} (h : l.length ≤ U64_MAX) :
    Counted (compressedFile u a b c d l) := by
  have hU : U64_MAX < 256 ^ 8 := by decide
  have hr : ∀ r ∈ l.map fun e => beBytes 8 e.1 ++ beBytes 8 e.2.1 ++ beBytes 8 e.2.2, r.length = 24 := by
    intro r hr
    obtain ⟨x, -, rfl⟩ := List.mem_map.1 hr
    simp [beBytes_length]
  have hl := records_length hr
  refine .inr ⟨?_, ?_⟩
  · unfold compressedFile
    simp only [List.append_assoc]
    exact Graph.field_beBytes _ _ _ (by decide)
  · have hf : field (compressedFile u a b c d l) 16 8 = l.length := by
      unfold compressedFile
      rw [show ∀ a b c d e f g h : Bytes, a ++ b ++ c ++ d ++ e ++ f ++ g ++ h = (a ++ b ++ c) ++ (d ++ (e ++ (f ++ (g ++ h)))) from
        fun _ _ _ _ _ _ _ _ => by simp, field_append_right _ _ _ _ (by simp [beBytes_length])]
      simp only [List.length_append, beBytes_length]
      exact Graph.field_beBytes _ _ _ (by omega)
    rw [hf]
    unfold compressedFile
    rw [List.flatMap_def]
    rw [List.length_append, hl]
    simp [beBytes_length]

/-! ### Memory -/

/-- Objects that differ only in the order of hash tables. -/
def CAlike : Obj → Obj → Prop
  | .graph g, .graph g' => GReach g ∧ GReach g' ∧ Same g g'
  | .cgraph c, .cgraph c' => CReach c ∧ CReach c' ∧ SameC c c'
  | .matrix m, .matrix m' => ObjAlike (.matrix m) (.matrix m')
  | .bytes b, .bytes b' => Reordered b b' ∧ Counted b
  | .edges l, .edges l' => l.Perm l'
  | .vertices l, .vertices l' => l.Perm l'
  | .entries l, .entries l' => l.Perm l'
  | .cstring s, .cstring s' => s = s'
  | .callerUsize n, .callerUsize n' => n = n'
  | .callerU8 n, .callerU8 n' => n = n'
  | .callerBytes b, .callerBytes b' => b = b'
  | .callerU64s l, .callerU64s l' => l = l'
  | _, _ => False

theorem content_alike {x x' : Obj} (h : CAlike x x') : ContentAlike x x' := by
  cases x <;> cases x' <;> first | exact h.elim | skip
  case graph.graph => exact h.2.2
  case cgraph.cgraph => exact h.2.2
  case matrix.matrix => exact matrix_alike h
  case bytes.bytes => exact h.1
  case edges.edges => exact h
  case vertices.vertices => exact h
  case entries.entries => exact h
  all_goals (cases h; exact rfl)

theorem caller_alike {x x' : Obj} (h : CAlike x x') : x'.isCaller = x.isCaller := by
  cases x <;> cases x' <;> first | exact h.elim | rfl

theorem caller_refl {x : Obj} (h : x.isCaller = true) : CAlike x x := by
  cases x <;> first | cases h; done | exact rfl

/-- The same of objects that are there or not. -/
def SlotO : Option Obj → Option Obj → Prop
  | some x, some x' => CAlike x x'
  | none, none => True
  | _, _ => False

/-- Memories that differ only in the order of hash tables. -/
def HeapO (h h' : Heap) : Prop := ∀ p, SlotO (h.get? p) (h'.get? p)

theorem heapO_insert {h h' : Heap} (hi : HeapO h h') {x x' : Obj} (hx : CAlike x x') (p : Ptr) :
    HeapO (h.insert p x) (h'.insert p x') := by
  intro q
  rw [HMap.get?_insert, HMap.get?_insert]
  split
  · exact hx
  · exact hi q

theorem heapO_remove {h h' : Heap} (hi : HeapO h h') (p : Ptr) : HeapO (h.remove p) (h'.remove p) := by
  intro q
  rw [HMap.get?_remove, HMap.get?_remove]
  split
  · trivial
  · exact hi q

theorem heapO_cases {h h' : Heap} (hi : HeapO h h') (p : Ptr) :
    (h.get? p = none ∧ h'.get? p = none) ∨ ∃ x x', h.get? p = some x ∧ h'.get? p = some x' ∧ CAlike x x' := by
  have := hi p
  cases e : h.get? p <;> cases e' : h'.get? p <;> rw [e, e'] at this <;> first | exact this.elim | skip
  · exact .inl ⟨rfl, rfl⟩
  · exact .inr ⟨_, _, rfl, rfl, this⟩

/-- Outcomes that differ only in the order of hash tables. -/
def OutO {α : Type} (R : α → α → Prop) : CRes α → CRes α → Prop
  | .ok v h, .ok v' h' => HeapO h h' ∧ R v v'
  | .ub, .ub => True
  | .abort, .abort => True
  | _, _ => False

/-- Two computations whose outcomes differ only in the order of hash tables. -/
def TwinO {α : Type} (R : α → α → Prop) (x x' : CM α) : Prop := ∀ h h', HeapO h h' → OutO R (x h) (x' h')

/-- Nothing, or things in relation. -/
def OptR {α : Type} (R : α → α → Prop) : Option α → Option α → Prop
  | some x, some x' => R x x'
  | none, none => True
  | _, _ => False

section
variable {α β : Type}

theorem twinO_pure (v : α) : TwinO Eq (pure v) (pure v) := fun _ _ hi => ⟨hi, rfl⟩

theorem twinO_bind {R : α → α → Prop} {S : β → β → Prop} {x x' : CM α} {f f' : α → CM β} (hx : TwinO R x x')
    (hf : ∀ v v', R v v' → TwinO S (f v) (f' v')) : TwinO S (x >>= f) (x' >>= f') := by
  intro h h' hi
  have e : ∀ (y : CM α) (g : α → CM β) k, (y >>= g) k = match y k with
    | .ok v k' => g v k' | .ub => .ub | .abort => .abort := fun _ _ _ => rfl
  rw [e, e]
  have := hx h h' hi
  cases hxe : x h <;> cases hxe' : x' h' <;> rw [hxe, hxe'] at this <;> first | exact this.elim | skip
  · exact hf _ _ this.2 _ _ this.1
  · trivial
  · trivial

theorem twinO_ret {x x' : CM α} {f : α → Val} (hx : TwinO Eq x x') : TwinO Eq (x.ret f) (x'.ret f) := by
  intro h h' hi
  have := hx h h' hi
  unfold CM.ret
  cases hxe : x h <;> cases hxe' : x' h' <;> rw [hxe, hxe'] at this <;> first | exact this.elim | skip
  · exact ⟨this.1, by rw [this.2]⟩
  · trivial
  · trivial

theorem twinO_graphRef (p : Ptr) : TwinO (OptR fun g g' => GReach g ∧ GReach g' ∧ Same g g') (CApi.graphRef p) (CApi.graphRef p) := by
  intro h h' hi
  unfold CApi.graphRef
  split
  · exact ⟨hi, trivial⟩
  · rcases heapO_cases hi p with ⟨e, e'⟩ | ⟨x, x', e, e', hx⟩
    · rw [e, e']; trivial
    · rw [e, e']
      cases x <;> cases x' <;> first | exact hx.elim | trivial | exact ⟨hi, hx⟩

theorem twinO_cgraphRef (p : Ptr) : TwinO (OptR fun g g' => CReach g ∧ CReach g' ∧ SameC g g') (CApi.cgraphRef p) (CApi.cgraphRef p) := by
  intro h h' hi
  unfold CApi.cgraphRef
  split
  · exact ⟨hi, trivial⟩
  · rcases heapO_cases hi p with ⟨e, e'⟩ | ⟨x, x', e, e', hx⟩
    · rw [e, e']; trivial
    · rw [e, e']
      cases x <;> cases x' <;> first | exact hx.elim | trivial | exact ⟨hi, hx⟩

theorem twinO_matrixRef (p : Ptr) : TwinO (OptR fun m m' => ObjAlike (.matrix m) (.matrix m')) (CApi.matrixRef p) (CApi.matrixRef p) := by
  intro h h' hi
  unfold CApi.matrixRef
  split
  · exact ⟨hi, trivial⟩
  · rcases heapO_cases hi p with ⟨e, e'⟩ | ⟨x, x', e, e', hx⟩
    · rw [e, e']; trivial
    · rw [e, e']
      cases x <;> cases x' <;> first | exact hx.elim | trivial | exact ⟨hi, hx⟩

theorem twinO_setUsize (p : Ptr) {n n' : Nat} (hn : n = n') : TwinO Eq (CApi.setUsize p n) (CApi.setUsize p n') := by
  subst hn
  intro h h' hi
  unfold CApi.setUsize
  split
  · exact ⟨hi, rfl⟩
  · rcases heapO_cases hi p with ⟨e, e'⟩ | ⟨x, x', e, e', hx⟩
    · rw [e, e']; trivial
    · rw [e, e']
      cases x <;> cases x' <;> first | exact hx.elim | trivial | exact ⟨heapO_insert hi (x := .callerUsize n) (x' := .callerUsize n) rfl p, rfl⟩

theorem twinO_setU8 (p : Ptr) (n : Nat) : TwinO Eq (CApi.setU8 p n) (CApi.setU8 p n) := by
  intro h h' hi
  unfold CApi.setU8
  split
  · exact ⟨hi, rfl⟩
  · rcases heapO_cases hi p with ⟨e, e'⟩ | ⟨x, x', e, e', hx⟩
    · rw [e, e']; trivial
    · rw [e, e']
      cases x <;> cases x' <;> first | exact hx.elim | trivial | exact ⟨heapO_insert hi (x := .callerU8 n) (x' := .callerU8 n) rfl p, rfl⟩

/-- The bytes that are read: the same, or a file with its records in another order, or the beginning of such a file. -/
def ReadR (n : Nat) (b b' : Bytes) : Prop :=
  b.length = n ∧ (b = b' ∨ Reordered b b' ∨ (b'.length = n ∧ ¬ ValidGraphFile b ∧ ¬ ValidGraphFile b' ∧ ¬ ValidCompressedFile b ∧ ¬ ValidCompressedFile b'))

theorem twinO_inputBytes (p : Ptr) (n : Nat) : TwinO (ReadR n) (CApi.inputBytes p n) (CApi.inputBytes p n) := by
  intro h h' hi
  unfold CApi.inputBytes
  by_cases h0 : n = 0
  · rw [if_pos h0]; exact ⟨hi, h0.symm, .inl rfl⟩
  rw [if_neg h0]
  unfold CApi.readBytes
  rcases heapO_cases hi p with ⟨e, e'⟩ | ⟨x, x', e, e', hx⟩
  · rw [e, e']; trivial
  · rw [e, e']
    cases x <;> cases x' <;> first | exact hx.elim | trivial | skip
    case bytes.bytes b b' =>
      have hl := reordered_length hx.1
      simp only [hl]
      split
      · next hn =>
        have l1 : (b.take n).length = n := by rw [List.length_take]; omega
        have l2 : (b'.take n).length = n := by rw [List.length_take]; omega
        refine ⟨hi, l1, ?_⟩
        by_cases hlt : n < b.length
        · obtain ⟨v1, v2⟩ := counted_take hx.2 hlt
          obtain ⟨v3, v4⟩ := counted_take (counted_alike hx.1 hx.2) (n := n) (by omega)
          exact .inr (.inr ⟨l2, v1, v3, v2, v4⟩)
        · rw [List.take_of_length_le (by omega), List.take_of_length_le (by omega)]
          exact .inr (.inl hx.1)
      · trivial
    case callerBytes.callerBytes b b' =>
      cases hx
      simp only
      split
      · exact ⟨hi, by rw [List.length_take]; omega, .inl rfl⟩
      · trivial

theorem twinO_rust {R : α → α → Prop} {r r' : Res α} (h : (∃ x x', r = .ok x ∧ r' = .ok x' ∧ R x x') ∨ (∃ e e', r = .err e ∧ r' = .err e') ∨
    (r = .panic ∧ r' = .panic)) : TwinO (OptR R) (CApi.rust r) (CApi.rust r') := by
  intro k k' hi
  rcases h with ⟨x, x', rfl, rfl, h⟩ | ⟨e, e', rfl, rfl⟩ | ⟨rfl, rfl⟩
  · exact ⟨hi, h⟩
  · exact ⟨hi, trivial⟩
  · trivial

theorem twinO_rustTotal {R : α → α → Prop} {r r' : Res α} (h : (∃ x x', r = .ok x ∧ r' = .ok x' ∧ R x x') ∨ (∃ e e', r = .err e ∧ r' = .err e') ∨
    (r = .panic ∧ r' = .panic)) : TwinO R (CApi.rustTotal r) (CApi.rustTotal r') := by
  intro k k' hi
  rcases h with ⟨x, x', rfl, rfl, h⟩ | ⟨e, e', rfl, rfl⟩ | ⟨rfl, rfl⟩
  · exact ⟨hi, h⟩
  · trivial
  · trivial

theorem resRel_cases {R : α → α → Prop} {r r' : Res α} (h : ResRel R r r') : (∃ x x', r = .ok x ∧ r' = .ok x' ∧ R x x') ∨
    (∃ e e', r = .err e ∧ r' = .err e') ∨ (r = .panic ∧ r' = .panic) := by
  cases r <;> cases r' <;> first | exact h.elim | skip
  · exact .inl ⟨_, _, rfl, rfl, h⟩
  · exact .inr (.inl ⟨_, _, rfl, rfl⟩)
  · exact .inr (.inr ⟨rfl, rfl⟩)

theorem twinO_free (ok : Obj → Bool) (hok : ∀ x x', CAlike x x' → ok x' = ok x) (p : Ptr) : TwinO Eq (CApi.freeObj ok p) (CApi.freeObj ok p) := by
  intro h h' hi
  unfold CApi.freeObj
  split
  · exact ⟨hi, rfl⟩
  · rcases heapO_cases hi p with ⟨e, e'⟩ | ⟨x, x', e, e', hx⟩
    · rw [e, e']; trivial
    · rw [e, e']
      simp only [hok x x' hx]
      split
      · exact ⟨heapO_remove hi p, rfl⟩
      · trivial

end

theorem read_graph {P : Platform} {n : Nat} (hn : n ≤ P.usizeMax) {b b' : Bytes} (h : ReadR n b b') :
    (∃ x x', Graph.tryFrom P b = .ok x ∧ Graph.tryFrom P b' = .ok x' ∧ GReach x ∧ GReach x' ∧ Same x x') ∨
      (∃ e e', Graph.tryFrom P b = .err e ∧ Graph.tryFrom P b' = .err e') ∨ (Graph.tryFrom P b = .panic ∧ Graph.tryFrom P b' = .panic) := by
  obtain ⟨hl, rfl | hr | ⟨hl', v1, v2, -, -⟩⟩ := h
  · rcases C16_decode_total P b (by omega) with ⟨g, hg⟩ | ⟨e, he⟩
    · exact .inl ⟨g, g, hg, hg, .tryFrom _ _ hg, .tryFrom _ _ hg, same_refl (.tryFrom _ _ hg)⟩
    · exact .inr (.inl ⟨_, _, he, he⟩)
  · rcases read_alike (P := P) (by omega) hr with ⟨g, g', h1, h2, h3⟩ | h
    · exact .inl ⟨g, g', h1, h2, .tryFrom _ _ h1, .tryFrom _ _ h2, h3⟩
    · exact .inr (.inl h)
  · have key : ∀ c : Bytes, c.length = n → ¬ ValidGraphFile c → ∃ e, Graph.tryFrom P c = .err e := by
      intro c hc hv
      rcases C16_decode_total P c (by omega) with hg | he
      · exact absurd ((C18_accepts_iff (by omega)).1 hg) hv
      · obtain ⟨m, he⟩ := he; exact ⟨_, he⟩
    obtain ⟨e, he⟩ := key b hl v1
    obtain ⟨e', he'⟩ := key b' hl' v2
    exact .inr (.inl ⟨e, e', he, he'⟩)

theorem read_cgraph {P : Platform} {n : Nat} (hn : n ≤ P.usizeMax) {b b' : Bytes} (h : ReadR n b b') :
    (∃ x x', CGraph.tryFrom P b = .ok x ∧ CGraph.tryFrom P b' = .ok x' ∧ CReach x ∧ CReach x' ∧ SameC x x') ∨
      (∃ e e', CGraph.tryFrom P b = .err e ∧ CGraph.tryFrom P b' = .err e') ∨ (CGraph.tryFrom P b = .panic ∧ CGraph.tryFrom P b' = .panic) := by
  obtain ⟨hl, rfl | hr | ⟨hl', -, -, v1, v2⟩⟩ := h
  · rcases C33_decode_total P b (by omega) with ⟨g, hg⟩ | ⟨e, he⟩
    · exact .inl ⟨g, g, hg, hg, .tryFrom _ _ hg, .tryFrom _ _ hg, sameC_refl (.tryFrom _ _ hg)⟩
    · exact .inr (.inl ⟨_, _, he, he⟩)
  · rcases cread_alike (P := P) (by omega) hr with ⟨g, g', h1, h2, h3⟩ | h
    · exact .inl ⟨g, g', h1, h2, .tryFrom _ _ h1, .tryFrom _ _ h2, h3⟩
    · exact .inr (.inl h)
  · have key : ∀ c : Bytes, c.length = n → ¬ ValidCompressedFile c → ∃ e, CGraph.tryFrom P c = .err e := by
      intro c hc hv
      rcases C33_decode_total P c (by omega) with ⟨g, hg⟩ | he
      · exact absurd ((CGraph.tryFrom_iff (by omega) g).1 hg).1 hv
      · obtain ⟨m, he⟩ := he; exact ⟨_, he⟩
    obtain ⟨e, he⟩ := key b hl v1
    obtain ⟨e', he'⟩ := key b' hl' v2
    exact .inr (.inl ⟨e, e', he, he'⟩)

/-! ### Calls -/

theorem addEdge_swap (a : AGraph) (v s t : Nat) : (a.addEdge v s).addEdge v t = (a.addEdge v t).addEdge v s := by
  unfold AGraph.addEdge
  by_cases hs : v < 2 ^ 64 - 1 ∧ s < 2 ^ 64 - 1 <;> by_cases ht : v < 2 ^ 64 - 1 ∧ t < 2 ^ 64 - 1
  · rw [if_pos hs, if_pos ht, if_pos ht, if_pos hs]
    simp only [AGraph.mk.injEq, true_and]
    exact ⟨by omega, by rw [Finset.union_right_comm]⟩
  · rw [if_pos hs, if_neg ht, if_neg ht, if_pos hs]
  · rw [if_neg hs, if_pos ht, if_neg hs]
  · rw [if_neg hs, if_neg ht, if_neg hs]

/-- The order of the targets of `add_vertex` does not matter. -/
theorem addVertex_perm {g : Graph} (hg : GReach g) (v : Nat) {l l' : List Nat} (h : l.Perm l') :
    Same (g.addVertex v (some l)) (g.addVertex v (some l')) := by
  have ha : (g.addVertex v (some l)).abs = (g.addVertex v (some l')).abs := by
    rw [Graph.abs_addVertex, Graph.abs_addVertex]
    unfold AGraph.addVertexActual
    simp only [Option.getD_some]
    by_cases h0 : l = []
    · subst h0
      obtain rfl := h.nil_eq
      rfl
    · have h0' : l' ≠ [] := by rintro rfl; exact h0 h.eq_nil
      rw [if_neg h0, if_neg h0']
      exact h.foldl_eq' (fun x _ y _ z => (addEdge_swap z v x y)) _
  refine (C85_same_iff (.addVertex _ _ hg) (.addVertex _ _ hg)).2 ⟨congrArg AGraph.undirected ha, congrArg AGraph.n ha, fun x y => ?_⟩
  rw [Bool.eq_iff_iff, Graph.doesEdgeExist_iff, Graph.doesEdgeExist_iff]
  have := congrArg AGraph.E ha
  change Graph.pairs _ = Graph.pairs _ at this
  rw [this]

theorem same_trans {g₁ g₂ g₃ : Graph} (h₁ : GReach g₁) (h₂ : GReach g₂) (h₃ : GReach g₃) (h : Same g₁ g₂) (h' : Same g₂ g₃) : Same g₁ g₃ :=
  (C85_same_iff h₁ h₃).2 ⟨h.direction.trans h'.direction, h.vertexCount.trans h'.vertexCount, fun u v => (h.edge u v).trans (h'.edge u v)⟩

theorem outO_bind {α β : Type} {R : α → α → Prop} {S : β → β → Prop} {x x' : CM α} {f f' : α → CM β} {h h' : Heap} (hx : OutO R (x h) (x' h'))
    (hf : ∀ v v' k k', x h = .ok v k → x' h' = .ok v' k' → R v v' → HeapO k k' → OutO S (f v k) (f' v' k')) :
    OutO S ((x >>= f) h) ((x' >>= f') h') := by
  have e : ∀ (y : CM α) (g : α → CM β) k, (y >>= g) k = match y k with
    | .ok v k' => g v k' | .ub => .ub | .abort => .abort := fun _ _ _ => rfl
  rw [e, e]
  cases hxe : x h <;> cases hxe' : x' h' <;> rw [hxe, hxe'] at hx <;> first | exact hx.elim | skip
  · exact hf _ _ _ _ hxe hxe' hx.2 hx.1
  · trivial
  · trivial

theorem graphRef_mem {p : Ptr} {h k : Heap} {r : Option Graph} (e : CApi.graphRef p h = .ok r k) : k = h := by
  unfold CApi.graphRef at e
  split at e
  · cases e; rfl
  · split at e
    · cases e; rfl
    · cases e

theorem twinO_writeGraph (p : Ptr) {g g' : Graph} (hg : CAlike (.graph g) (.graph g')) :
    TwinO Eq (CApi.writeGraph p g) (CApi.writeGraph p g') := fun _ _ hi => ⟨heapO_insert hi hg p, rfl⟩

theorem readU64s_alike {h h' : Heap} (hi : HeapO h h') {p : Ptr} {n : Nat} (hw : ∀ l, h.get? p = some (.vertices l) → l.length ≤ n) :
    OutO List.Perm (CApi.readU64s p n h) (CApi.readU64s p n h') := by
  unfold CApi.readU64s
  rcases heapO_cases hi p with ⟨e, e'⟩ | ⟨x, x', e, e', hx⟩
  · rw [e, e']; trivial
  · rw [e, e']
    cases x <;> cases x' <;> first | exact hx.elim | trivial | skip
    case vertices.vertices l l' =>
      have hx : l.Perm l' := hx
      have hl := hw l e
      have hl' := hx.length_eq
      simp only [← hl']
      split
      · rw [List.take_of_length_le hl, List.take_of_length_le (by omega)]
        exact ⟨hi, hx⟩
      · trivial
    case callerU64s.callerU64s l l' =>
      cases hx
      simp only
      split
      · exact ⟨hi, List.Perm.refl _⟩
      · trivial

theorem addVertex_alike {h h' : Heap} (hi : HeapO h h') (p : Ptr) (v : Nat) (tos : Ptr) (n : Nat)
    (hw : n ≠ 0 → tos ≠ 0 → ∀ l, h.get? tos = some (.vertices l) → l.length ≤ n) :
    OutO Eq (CApi.addVertex p v tos n h) (CApi.addVertex p v tos n h') := by
  unfold CApi.addVertex
  refine outO_bind (twinO_graphRef p h h' hi) fun r r' k k' e e' hr hk => ?_
  obtain rfl := graphRef_mem e
  cases r <;> cases r' <;> first | exact hr.elim | skip
  · exact ⟨hk, rfl⟩
  · next g g' =>
    obtain ⟨h1, h2, hs⟩ := hr
    have hc := C85_graph_congruence h1 h2 hs
    simp only
    by_cases hz : tos = 0 ∧ n ≠ 0
    · rw [if_pos hz, if_pos hz]; exact ⟨hk, rfl⟩
    · rw [if_neg hz, if_neg hz]
      by_cases h0 : n = 0
      · rw [if_pos h0, if_pos h0]
        exact twinO_writeGraph p (g := g.addVertex v none) (g' := g'.addVertex v none) ⟨.addVertex _ _ h1, .addVertex _ _ h2, hc.1 [.addVertex v none]⟩ _ _ hk
      · rw [if_neg h0, if_neg h0]
        refine outO_bind (readU64s_alike hk (hw h0 fun e => hz ⟨e, h0⟩)) fun l l' k1 k1' _ _ hl hk1 => ?_
        refine twinO_writeGraph p ⟨.addVertex _ _ h1, .addVertex _ _ h2, ?_⟩ _ _ hk1
        exact same_trans (g₂ := g'.addVertex v (some l)) (.addVertex _ _ h1) (.addVertex _ _ h2) (.addVertex _ _ h2) (hc.1 [.addVertex v (some l)]) (addVertex_perm h2 v hl)

section
variable {E E' : Ctx}

theorem twinO_boxNew (hf : ∀ h h', HeapO h h' → E.fresh h = E'.fresh h') {x x' : Obj} (hx : CAlike x x') :
    TwinO Eq (CApi.boxNew E x) (CApi.boxNew E' x') := by
  intro h h' hi
  unfold CApi.boxNew
  rw [hf h h' hi]
  exact ⟨heapO_insert hi hx _, rfl⟩

theorem twinO_cstring (hf : ∀ h h', HeapO h h' → E.fresh h = E'.fresh h') {s s' : Option (List Char)} (hs : OptR Eq s s') :
    TwinO Eq (CApi.cstringOrNull E s) (CApi.cstringOrNull E' s') := by
  cases s <;> cases s' <;> first | exact hs.elim | skip
  · exact twinO_pure 0
  · cases hs
    unfold CApi.cstringOrNull
    simp only
    split
    · exact twinO_pure 0
    · exact twinO_boxNew hf rfl

theorem twinO_boxedBytes (hf : ∀ h h', HeapO h h' → E.fresh h = E'.fresh h') {b b' : Bytes} (hb : Reordered b b' ∧ Counted b) (p : Ptr) :
    TwinO Eq (CApi.boxedBytesToRaw E b p) (CApi.boxedBytesToRaw E' b' p) := by
  unfold CApi.boxedBytesToRaw
  exact twinO_bind (twinO_setUsize p (reordered_length hb.1).symm) fun _ _ _ => twinO_boxNew hf hb

end

theorem res_same {α : Type} {r r' : Res α} (h : r = r') : (∃ x x', r = .ok x ∧ r' = .ok x' ∧ x = x') ∨
    (∃ e e', r = .err e ∧ r' = .err e') ∨ (r = .panic ∧ r' = .panic) := by
  subst h
  cases r
  · exact .inl ⟨_, _, rfl, rfl, rfl⟩
  · exact .inr (.inl ⟨_, _, rfl, rfl⟩)
  · exact .inr (.inr ⟨rfl, rfl⟩)

theorem text_res {m m' : SqMatrix F64} (h : ObjAlike (.matrix m) (.matrix m')) (P : Platform) (o₁ o₂ o₁' o₂' : HashOrder) {d : Nat}
    (hf : d + 40 ≤ P.fmtMax) (hu : d + 42 ≤ P.usizeMax) :
    (∃ s, m.toStringWithPrecision P f64Fmt o₁ o₂ d = .ok s ∧ m'.toStringWithPrecision P f64Fmt o₁' o₂' d = .ok s) ∨
      ∃ e e', m.toStringWithPrecision P f64Fmt o₁ o₂ d = .err e ∧ m'.toStringWithPrecision P f64Fmt o₁' o₂' d = .err e' := by
  obtain ⟨n, w, text, h1, h2, hw⟩ := text_shows h P o₁ o₂ o₁' o₂' hf hu
  by_cases hn : n = 0
  · exact .inl ⟨_, h1.empty hn, h2.empty hn⟩
  · by_cases hl : 4 * n + (w + 2) * (n * n) ≤ P.usizeMax
    · cases ha : P.alloc (4 * n + (w + 2) * (n * n) - 2) with
      | true => exact .inl ⟨_, h1.shows hn hl ha, h2.shows hn hl ha⟩
      | false =>
        obtain ⟨_, e⟩ := h1.noMemory hn hl ha
        obtain ⟨_, e'⟩ := h2.noMemory hn hl ha
        exact .inr ⟨_, _, e, e'⟩
    · obtain ⟨_, e⟩ := h1.tooLarge hn hw (by omega)
      obtain ⟨_, e'⟩ := h2.tooLarge hn hw (by omega)
      exact .inr ⟨_, _, e, e'⟩

theorem gbytes_counted {g g' : Graph} (hg : GReach g) (hg' : GReach g') (hs : Same g g') {P : Platform} (hP : P.usizeMax ≤ U64_MAX) (o o' : HashOrder) :
    ResRel (fun b b' => Reordered b b' ∧ Counted b) (g.toBytes P o) (g'.toBytes P o') := by
  refine resRel_mono ((C85_graph_congruence hg hg' hs).2.2.2.2.2 P o o') ?_
  rintro b b' h1 - ⟨es, es', hp, rfl, rfl⟩
  refine ⟨graphFile_alike hp, ?_⟩
  obtain ⟨-, h2, -, h4⟩ := C14_graph_bytes_layout hg P o
  obtain ⟨-, l, e, -, hl, -⟩ := h2 _ h1
  have := (h4.2 ⟨_, h1⟩).1
  rw [e]
  exact graphFile_counted (by omega)

theorem cbytes_counted {c c' : CGraph} (hc : CReach c) (hc' : CReach c') (hs : SameC c c') {P : Platform} (hP : P.usizeMax ≤ U64_MAX) (o o' : HashOrder) :
    ResRel (fun b b' => Reordered b b' ∧ Counted b) (c.toBytes P o) (c'.toBytes P o') := by
  refine resRel_mono (cbytes_alike hc hc' hs P o o') ?_
  rintro b b' h1 - hr
  refine ⟨hr, ?_⟩
  obtain ⟨l, -, -, h2, -, -, h4⟩ := C31_compressed_bytes_layout hc P o
  have := (h4.2 ⟨_, h1⟩).1
  rw [(h2 _ h1).2]
  exact compressedFile_counted (by omega)

theorem twinO_eq {α : Type} {v v' : α} (h : v = v') : TwinO Eq (pure v) (pure v') := h ▸ twinO_pure v

theorem ask_graph {α : Type} {f f' : Option Graph → CM α} (p : Ptr) (h0 : TwinO Eq (f none) (f' none))
    (hs : ∀ g g', GReach g → GReach g' → Same g g' → TwinO Eq (f (some g)) (f' (some g'))) :
    TwinO Eq (CApi.graphRef p >>= f) (CApi.graphRef p >>= f') := by
  refine twinO_bind (twinO_graphRef p) fun r r' hr => ?_
  cases r <;> cases r' <;> first | exact hr.elim | skip
  · exact h0
  · exact hs _ _ hr.1 hr.2.1 hr.2.2

theorem ask_cgraph {α : Type} {f f' : Option CGraph → CM α} (p : Ptr) (h0 : TwinO Eq (f none) (f' none))
    (hs : ∀ g g', CReach g → CReach g' → SameC g g' → TwinO Eq (f (some g)) (f' (some g'))) :
    TwinO Eq (CApi.cgraphRef p >>= f) (CApi.cgraphRef p >>= f') := by
  refine twinO_bind (twinO_cgraphRef p) fun r r' hr => ?_
  cases r <;> cases r' <;> first | exact hr.elim | skip
  · exact h0
  · exact hs _ _ hr.1 hr.2.1 hr.2.2

theorem ask_matrix {α : Type} {f f' : Option (SqMatrix F64) → CM α} (p : Ptr) (h0 : TwinO Eq (f none) (f' none))
    (hs : ∀ m m', ObjAlike (.matrix m) (.matrix m') → SameMatrix m m' → TwinO Eq (f (some m)) (f' (some m'))) :
    TwinO Eq (CApi.matrixRef p >>= f) (CApi.matrixRef p >>= f') := by
  refine twinO_bind (twinO_matrixRef p) fun r r' hr => ?_
  cases r <;> cases r' <;> first | exact hr.elim | skip
  · exact h0
  · exact hs _ _ hr (matrix_alike hr)

theorem opt_made {α β : Type} {R : α → α → Prop} {x x' : CM (Option α)} {f f' : Option α → CM β} (hx : TwinO (OptR R) x x')
    (h0 : TwinO Eq (f none) (f' none)) (hs : ∀ x x', R x x' → TwinO Eq (f (some x)) (f' (some x'))) : TwinO Eq (x >>= f) (x' >>= f') := by
  refine twinO_bind hx fun r r' h => ?_
  cases r <;> cases r' <;> first | exact h.elim | skip
  · exact h0
  · exact hs _ _ h

/-- Every call, in memories that differ only in the order of hash tables. -/
theorem exec_alike {E E' : Ctx} (hP : E'.P = E.P) (hO : Ordinary E.P) (hf : ∀ h h', HeapO h h' → E.fresh h = E'.fresh h') (c : Call)
    (hr : (Cmd.call c).Reasonable E.P) {h h' : Heap} (hi : HeapO h h')
    (hw : ∀ p v tos n, c = .addVertex p v tos n → n ≠ 0 → tos ≠ 0 → ∀ l, h.get? tos = some (.vertices l) → l.length ≤ n) :
    OutO Eq (c.exec E h) (c.exec E' h') := by
  obtain ⟨hO1, hO2, hO3⟩ := hO
  have hfree : ∀ (ok : Obj → Bool) (p : Ptr), (∀ x x', CAlike x x' → ok x' = ok x) →
      OutO Eq ((CApi.freeObj ok p).ret (fun _ => .unit) h) ((CApi.freeObj ok p).ret (fun _ => .unit) h') :=
    fun ok p hok => twinO_ret (twinO_free ok hok p) h h' hi
  cases c
  case addVertex p v tos n =>
    have := addVertex_alike hi p v tos n (hw p v tos n rfl)
    simp only [Call.exec]
    unfold CM.ret
    cases hxe : CApi.addVertex p v tos n h <;> cases hxe' : CApi.addVertex p v tos n h' <;> rw [hxe, hxe'] at this <;>
      first | exact this.elim | exact ⟨this.1, rfl⟩ | trivial
  case freeString p => exact hfree _ _ (by intro x x' hx; cases x <;> cases x' <;> first | exact hx.elim | rfl)
  case freeBytes p n =>
    exact hfree _ _ (by intro x x' hx; cases x <;> cases x' <;> first | exact hx.elim | rfl | (simp only; rw [reordered_length hx.1]))
  case freeGraph p => exact hfree _ _ (by intro x x' hx; cases x <;> cases x' <;> first | exact hx.elim | rfl)
  case freeEdgeList p n =>
    exact hfree _ _ (by intro x x' hx; cases x <;> cases x' <;> first | exact hx.elim | rfl | (simp only; rw [List.Perm.length_eq hx]))
  case freeVertexList p n =>
    exact hfree _ _ (by intro x x' hx; cases x <;> cases x' <;> first | exact hx.elim | rfl | (simp only; rw [List.Perm.length_eq hx]))
  case freeCGraph p => exact hfree _ _ (by intro x x' hx; cases x <;> cases x' <;> first | exact hx.elim | rfl)
  case freeMatrix p => exact hfree _ _ (by intro x x' hx; cases x <;> cases x' <;> first | exact hx.elim | rfl)
  case freeEntryList p n =>
    exact hfree _ _ (by intro x x' hx; cases x <;> cases x' <;> first | exact hx.elim | rfl | (simp only; rw [List.Perm.length_eq hx]))
  all_goals (simp only [Call.exec]; refine twinO_ret ?_ h h' hi)
  case newUndirected => exact twinO_boxNew hf ⟨.newUndirected, .newUndirected, same_refl .newUndirected⟩
  case newDirected => exact twinO_boxNew hf ⟨.newDirected, .newDirected, same_refl .newDirected⟩
  case fromBytes b n e =>
    refine twinO_bind (twinO_setU8 e _) fun _ _ _ => ?_
    split
    · exact twinO_bind (twinO_setU8 e _) fun _ _ _ => twinO_pure 0
    · refine twinO_bind (twinO_inputBytes b n) fun x x' hx => ?_
      rw [hP]
      exact opt_made (twinO_rust (read_graph hr hx)) (twinO_bind (twinO_setU8 e _) fun _ _ _ => twinO_pure 0) fun _ _ hx => twinO_boxNew hf hx
  case cFromBytes b n e =>
    refine twinO_bind (twinO_setU8 e _) fun _ _ _ => ?_
    split
    · exact twinO_bind (twinO_setU8 e _) fun _ _ _ => twinO_pure 0
    · refine twinO_bind (twinO_inputBytes b n) fun x x' hx => ?_
      rw [hP]
      exact opt_made (twinO_rust (read_cgraph hr hx)) (twinO_bind (twinO_setU8 e _) fun _ _ _ => twinO_pure 0) fun _ _ hx => twinO_boxNew hf hx
  case duplicate p => exact ask_graph p (twinO_pure 0) fun g g' h1 h2 hs => twinO_boxNew hf ⟨h1, h2, hs⟩
  case matrixString p =>
    exact ask_graph p (twinO_pure 0) fun g g' h1 h2 hs =>
      twinO_bind (twinO_rust (res_same (by rw [hP]; exact (C85_graph_congruence h1 h2 hs).2.2.2.2.1 E.P))) fun _ _ hr => twinO_cstring hf hr
  case toBytes p q =>
    refine twinO_bind (twinO_setUsize q rfl) fun _ _ _ => ask_graph p (twinO_pure 0) fun g g' h1 h2 hs => ?_
    exact opt_made (twinO_rust (resRel_cases (by rw [hP]; exact gbytes_counted h1 h2 hs hO2 _ _))) (twinO_pure 0) fun b b' hb =>
      twinO_boxedBytes hf hb q
  case isUndirected p => exact ask_graph p (twinO_pure _) fun g g' _ _ hs => twinO_eq (by rw [hs.direction])
  case vertexCount p => exact ask_graph p (twinO_pure _) fun g g' _ _ hs => twinO_eq (by rw [hs.vertexCount])
  case edgeCount p => exact ask_graph p (twinO_pure _) fun g g' _ _ hs => twinO_eq (by rw [hs.edgeCount])
  case doesEdgeExist p u v => exact ask_graph p (twinO_pure _) fun g g' _ _ hs => twinO_eq (by rw [hs.edge])
  case findAvgPoolMatrix p b =>
    refine ask_graph p (twinO_pure 0) fun g g' h1 h2 hs => ?_
    refine twinO_bind (R := fun m m' => ObjAlike (.matrix m) (.matrix m')) (twinO_rustTotal (resRel_cases (by
      rw [hP]
      refine resRel_mono ((C85_graph_congruence h1 h2 hs).2.1 E.P E.o₁ E'.o₁ b) fun m m' e e' _ => ?_
      refine ⟨g, g', E.P, E.o₁, E'.o₁, b, h1, h2, hs, ?_, e, e'⟩
      have : b < 2 ^ 32 := hr
      unfold effBlock
      omega))) fun _ _ hx => twinO_boxNew hf hx
  case approximate p b t =>
    refine ask_graph p (twinO_pure 0) fun g g' h1 h2 hs => ?_
    refine twinO_bind (R := fun x x' => GReach x ∧ GReach x' ∧ Same x x') (twinO_rustTotal (resRel_cases (by
      rw [hP]
      exact resRel_mono ((C85_graph_congruence h1 h2 hs).2.2.1 E.P E.o₁ E.o₂ E'.o₁ E'.o₂ b t) fun x x' e e' hx =>
        ⟨.approximate _ _ _ _ _ h1 e, .approximate _ _ _ _ _ h2 e', hx⟩))) fun _ _ hx => twinO_boxNew hf hx
  case compress p l =>
    refine ask_graph p (twinO_pure 0) fun g g' h1 h2 hs => ?_
    obtain ⟨x, x', e, e', hx⟩ := (C85_graph_congruence h1 h2 hs).2.2.2.1 E.P E'.P E.o₁ E.o₂ E'.o₁ E'.o₂ l
    exact twinO_bind (R := fun x x' => CReach x ∧ CReach x' ∧ SameC x x')
      (twinO_rustTotal (.inl ⟨x, x', e, e', .compress _ _ _ _ h1 e, .compress _ _ _ _ h2 e', hx⟩)) fun _ _ hx => twinO_boxNew hf hx
  case getEdgeList p q =>
    exact twinO_bind (twinO_setUsize q rfl) fun _ _ _ => ask_graph p (twinO_pure 0) fun g g' h1 h2 hs =>
      twinO_bind (twinO_setUsize q (hs.items _ _).length_eq) fun _ _ _ => twinO_boxNew hf (hs.items _ _)
  case addEdge p u v =>
    exact ask_graph p (twinO_pure _) fun g g' h1 h2 hs => twinO_writeGraph p (g := g.addEdge u v) (g' := g'.addEdge u v)
      ⟨.addEdge _ _ h1, .addEdge _ _ h2, (C85_graph_congruence h1 h2 hs).1 [.addEdge u v]⟩
  case deleteEdge p u v =>
    exact ask_graph p (twinO_pure _) fun g g' h1 h2 hs => twinO_writeGraph p (g := g.deleteEdge u v) (g' := g'.deleteEdge u v)
      ⟨.deleteEdge _ _ h1, .deleteEdge _ _ h2, (C85_graph_congruence h1 h2 hs).1 [.deleteEdge u v]⟩
  case getInEdgesList p v q =>
    exact twinO_bind (twinO_setUsize q rfl) fun _ _ _ => ask_graph p (twinO_pure 0) fun g g' h1 h2 hs =>
      twinO_bind (twinO_setUsize q (hs.inEdges _ _ _).length_eq) fun _ _ _ => twinO_boxNew hf (hs.inEdges _ _ _)
  case getOutEdgesList p v q =>
    exact twinO_bind (twinO_setUsize q rfl) fun _ _ _ => ask_graph p (twinO_pure 0) fun g g' h1 h2 hs =>
      twinO_bind (twinO_setUsize q (hs.outEdges _ _ _).length_eq) fun _ _ _ => twinO_boxNew hf (hs.outEdges _ _ _)
  case getInDegree p v => exact ask_graph p (twinO_pure _) fun g g' _ _ hs => twinO_eq (by rw [hs.inDegree])
  case getOutDegree p v => exact ask_graph p (twinO_pure _) fun g g' _ _ hs => twinO_eq (by rw [hs.outDegree])
  case cDuplicate p => exact ask_cgraph p (twinO_pure 0) fun g g' h1 h2 hs => twinO_boxNew hf ⟨h1, h2, hs⟩
  case cCompressionLevel p => exact ask_cgraph p (twinO_pure _) fun g g' _ _ hs => twinO_eq (by rw [hs.level])
  case cIsUndirected p => exact ask_cgraph p (twinO_pure _) fun g g' _ _ hs => twinO_eq (by rw [hs.direction])
  case cVertexCount p => exact ask_cgraph p (twinO_pure _) fun g g' _ _ hs => twinO_eq (by rw [hs.vertexCount])
  case cEdgeCount p => exact ask_cgraph p (twinO_pure _) fun g g' _ _ hs => twinO_eq (by rw [hs.edgeCount])
  case cDoesEdgeExist p u v => exact ask_cgraph p (twinO_pure _) fun g g' _ _ hs => twinO_eq (by rw [hs.edge])
  case cGetEntry p u v => exact ask_cgraph p (twinO_pure _) fun g g' _ _ hs => twinO_eq (by rw [hs.entry])
  case cMatrixString p =>
    refine ask_cgraph p (twinO_pure 0) fun g g' h1 h2 hs => twinO_bind (R := OptR Eq) (twinO_rust ?_) fun _ _ hr => twinO_cstring hf hr
    rw [hP]
    rcases (C85_compressed_congruence h1 h2 hs).1 E.P E.o₁ E.o₂ E'.o₁ E'.o₂ hO1 (by omega) with ⟨s, e, e'⟩ | ⟨s, s', e, e'⟩
    · exact .inl ⟨s, s, e, e', rfl⟩
    · exact .inr (.inl ⟨_, _, e, e'⟩)
  case cToBytes p q =>
    refine twinO_bind (twinO_setUsize q rfl) fun _ _ _ => ask_cgraph p (twinO_pure 0) fun g g' h1 h2 hs => ?_
    exact opt_made (twinO_rust (resRel_cases (by rw [hP]; exact cbytes_counted h1 h2 hs hO2 _ _))) (twinO_pure 0) fun b b' hb =>
      twinO_boxedBytes hf hb q
  case decompress p =>
    refine ask_cgraph p (twinO_pure 0) fun g g' h1 h2 hs => ?_
    obtain ⟨x, x', e, e', hx⟩ := (C85_compressed_congruence h1 h2 hs).2.2 E.P E'.P E.o₁ E'.o₁
    exact twinO_bind (R := fun x x' => GReach x ∧ GReach x' ∧ Same x x')
      (twinO_rustTotal (.inl ⟨x, x', e, e', .decompress _ _ h1 e, .decompress _ _ h2 e', hx⟩)) fun _ _ hx => twinO_boxNew hf hx
  case mDuplicate p => exact ask_matrix p (twinO_pure 0) fun m m' h _ => twinO_boxNew hf (x := .matrix m) (x' := .matrix m') h
  case mDimension p => exact ask_matrix p (twinO_pure _) fun m m' _ hs => twinO_eq (by rw [hs.dimension])
  case mEntryCount p => exact ask_matrix p (twinO_pure _) fun m m' _ hs => twinO_eq (by rw [hs.entryCount])
  case mGetEntry p u v => exact ask_matrix p (twinO_pure _) fun m m' _ hs => twinO_eq (by rw [hs.entry])
  case mToString p =>
    refine ask_matrix p (twinO_pure 0) fun m m' h _ => twinO_bind (R := Eq) (twinO_rustTotal ?_) fun s s' hs => twinO_cstring hf hs
    have hd : (if f64Fmt.hasDecimal then 2 else 0) = 2 := rfl
    unfold SqMatrix.toText
    rw [hd, hP]
    rcases text_res h E.P E.o₁ E.o₂ E'.o₁ E'.o₂ (d := 2) (by omega) (by omega) with ⟨s, e, e'⟩ | ⟨s, s', e, e'⟩
    · rw [e, e']; exact .inl ⟨s, s, rfl, rfl, rfl⟩
    · rw [e, e']; exact .inr (.inr ⟨rfl, rfl⟩)
  case mToStringWithPrecision p d =>
    refine ask_matrix p (twinO_pure 0) fun m m' h _ => twinO_bind (R := OptR Eq) (twinO_rust ?_) fun s s' hs => twinO_cstring hf hs
    rw [hP]
    rcases text_res h E.P E.o₁ E.o₂ E'.o₁ E'.o₂ (d := d) hr.1 hr.2 with ⟨s, e, e'⟩ | ⟨s, s', e, e'⟩
    · exact .inl ⟨s, s, e, e', rfl⟩
    · exact .inr (.inl ⟨_, _, e, e'⟩)
  case mGetEntryList p q =>
    exact twinO_bind (twinO_setUsize q rfl) fun _ _ _ => ask_matrix p (twinO_pure 0) fun m m' _ hs =>
      twinO_bind (twinO_setUsize q (hs.items _ _).length_eq) fun _ _ _ => twinO_boxNew hf (hs.items _ _)

/-! ### Commands -/

/-- Outcomes of commands that differ only in the order of hash tables. -/
def StepO : Obs × Option (Ptr × Heap) → Obs × Option (Ptr × Heap) → Prop
  | (o, some (q, h)), (o', some (q', h')) => ObsAlike o o' ∧ q = q' ∧ HeapO h h'
  | (o, none), (o', none) => ObsAlike o o'
  | _, _ => False

theorem reasonable_mapPtr {P : Platform} {c : Call} {a : Ptr → Ptr} (h : (Cmd.call c).Reasonable P) : (Cmd.call (c.mapPtr a)).Reasonable P := by
  cases c <;> exact h

theorem step_order {E E' : Ctx} (hP : E'.P = E.P) (hO : Ordinary E.P) (hf : ∀ h h', HeapO h h' → E.fresh h = E'.fresh h') {c : Cmd}
    (hr : c.Reasonable E.P) {ν : List Ptr} {h h' : Heap} (hi : HeapO h h') (hw : c.Whole ν h) : StepO (c.step E ν h) (c.step E' ν h') := by
  cases c with
  | call c =>
    have := exec_alike hP hO hf (c.mapPtr (addr ν)) (reasonable_mapPtr hr) hi (by
      cases c <;> intro p v tos n e <;> cases e
      exact hw)
    simp only [Cmd.step]
    cases hx : (c.mapPtr (addr ν)).exec E h <;> cases hx' : (c.mapPtr (addr ν)).exec E' h' <;> rw [hx, hx'] at this <;>
      first | exact this.elim | skip
    · obtain ⟨h1, rfl⟩ := this
      exact ⟨.inl rfl, rfl, h1⟩
    · exact .inl rfl
    · exact .inl rfl
  | own x =>
    simp only [Cmd.step]
    by_cases hx : x.isCaller = true
    · rw [if_pos hx, if_pos hx, hf h h' hi]
      exact ⟨.inl rfl, rfl, heapO_insert hi (caller_refl hx) _⟩
    · rw [if_neg hx, if_neg hx]
      exact .inl rfl
  | set n x =>
    simp only [Cmd.step]
    rcases heapO_cases hi (addr ν n) with ⟨e, e'⟩ | ⟨y, y', e, e', hy⟩
    · rw [e, e']; exact .inl rfl
    · rw [e, e']
      simp only [caller_alike hy]
      split
      · next hc => exact ⟨.inl rfl, rfl, heapO_insert hi (caller_refl hc.2.1) _⟩
      · exact .inl rfl
  | drop n =>
    simp only [Cmd.step]
    rcases heapO_cases hi (addr ν n) with ⟨e, e'⟩ | ⟨y, y', e, e', hy⟩
    · rw [e, e']; exact .inl rfl
    · rw [e, e']
      simp only [caller_alike hy]
      split
      · exact ⟨.inl rfl, rfl, heapO_remove hi _⟩
      · exact .inl rfl
  | read n =>
    simp only [Cmd.step]
    rcases heapO_cases hi (addr ν n) with ⟨e, e'⟩ | ⟨y, y', e, e', hy⟩
    · rw [e, e']; exact .inl rfl
    · rw [e, e']
      simp only
      split
      · exact ⟨.inr ⟨y, y', rfl, rfl, content_alike hy⟩, rfl, hi⟩
      · exact .inl rfl
  | same i j => exact ⟨.inl rfl, rfl, hi⟩

theorem observe_order {E E' : Nat → Ctx} (hP : ∀ k, (E' k).P = (E k).P ∧ Ordinary (E k).P)
    (hf : ∀ k h h', HeapO h h' → (E k).fresh h = (E' k).fresh h') :
    ∀ {t : List Cmd} {ν : List Ptr} {h h' : Heap}, HeapO h h' → (∀ i (c : Cmd), t[i]? = some c → c.Reasonable (E (ν.length + i)).P) →
      WholeLists E ν h t → List.Forall₂ ObsAlike (observe E ν h t) (observe E' ν h' t) := by
  intro t
  induction t with
  | nil => intro ν h h' _ _ _; exact .nil
  | cons c t ih =>
    intro ν h h' hi hr hw
    have hs := step_order (hP ν.length).1 (hP ν.length).2 (hf ν.length) (hr 0 c rfl) hi hw.1
    have hw2 := hw.2
    unfold observe
    cases hc : c.step (E ν.length) ν h with
    | mk o r =>
      cases hc' : c.step (E' ν.length) ν h' with
      | mk o' r' =>
        rw [hc, hc'] at hs
        rw [hc] at hw2
        cases r with
        | none =>
          cases r' with
          | none => exact .cons hs .nil
          | some r' => exact hs.elim
        | some r =>
          cases r' with
          | none => exact hs.elim
          | some r' =>
            obtain ⟨q, h1⟩ := r
            obtain ⟨q', h1'⟩ := r'
            obtain ⟨ho, rfl, hi1⟩ := hs
            refine .cons ho (ih hi1 (fun i c hc => ?_) hw2)
            have := hr (i + 1) c hc
            rw [List.length_append, List.length_singleton, Nat.add_assoc, Nat.add_comm 1 i]
            exact this

/-- Passing whole lists does not depend on the addresses. -/
theorem whole_twin {E F : Nat → Ctx} (hE : ∀ k, (F k).P = (E k).P ∧ (F k).o₁ = (E k).o₁ ∧ (F k).o₂ = (E k).o₂) :
    ∀ {t : List Cmd} {D : Nat → Prop} {ν ν' : List Ptr} {h h' : Heap}, ν'.length = ν.length → Alike D (addr ν) (addr ν') h h' →
      (∀ c ∈ t, ∀ n ∈ c.names, ¬ D n) → NoUseAfterFree t → WholeLists E ν h t → WholeLists F ν' h' t := by
  intro t
  induction t with
  | nil => intros; trivial
  | cons c t ih =>
    intro D ν ν' h h' hl hi hD hu hw
    have hk := hE ν.length
    have hs := step_twin hk.1 hk.2.1 hk.2.2 hi c (hD c (List.mem_cons_self ..))
    obtain ⟨hw1, hw2⟩ := hw
    refine ⟨?_, ?_⟩
    · cases c with
      | call c =>
        cases c <;> try trivial
        case addVertex p v tos n =>
          have ht := hD _ (List.mem_cons_self ..) tos (by simp [Cmd.names, Call.pointers])
          intro h0 hz l hl
          have hz' : addr ν tos ≠ 0 := fun e => hz ((hi.null tos ht).1 e)
          rw [hi.content tos ht hz'] at hl
          exact hw1 h0 hz' l hl
      | _ => trivial
    · rw [hl]
      cases hc : c.step (E ν.length) ν h with
      | mk o r =>
        cases hc' : c.step (F ν.length) ν' h' with
        | mk o' r' =>
          rw [hc, hc'] at hs
          rw [hc] at hw2
          cases r with
          | none =>
            cases r' with
            | none => trivial
            | some r' => exact hs.elim
          | some r =>
            cases r' with
            | none => exact hs.elim
            | some r' =>
              obtain ⟨q, h1⟩ := r
              obtain ⟨q', h1'⟩ := r'
              obtain ⟨rfl, hi1, hr⟩ := hs
              simp only at hw2 ⊢
              refine ih (by simp [hl]) (alike_append hl hi1 hr) ?_ (List.pairwise_cons.1 hu).2 hw2
              intro d hd n hn
              rw [not_or]
              exact ⟨hD d (List.mem_cons_of_mem _ hd) n hn, fun hf => (List.pairwise_cons.1 hu).1 d hd n hf hn⟩

theorem pick_exists (h : Heap) : ∃ p : Ptr, p ≠ 0 ∧ h.get? p = none := ⟨exFresh h, Nat.succ_ne_zero _, exFresh_free h⟩

/-- An allocator that looks only at which addresses are in use. -/
noncomputable def pickFresh (h : Heap) : Ptr := Classical.epsilon fun p => p ≠ 0 ∧ h.get? p = none

/-- The environment with that allocator. -/
noncomputable def picking (E : Ctx) : Ctx where
  P := E.P
  fresh := pickFresh
  fresh_ne h := (Classical.epsilon_spec (pick_exists h)).1
  fresh_free h := (Classical.epsilon_spec (pick_exists h)).2
  o₁ := E.o₁
  o₂ := E.o₂

theorem pickFresh_alike {h h' : Heap} (hi : HeapO h h') : pickFresh h = pickFresh h' := by
  have : (fun p : Ptr => p ≠ 0 ∧ h.get? p = none) = fun p => p ≠ 0 ∧ h'.get? p = none := by
    funext p
    rcases heapO_cases hi p with ⟨e, e'⟩ | ⟨x, x', e, e', -⟩
    · rw [e, e']
    · rw [e, e']; simp
  unfold pickFresh
  rw [this]

/-- **C136.** All that a C program sees of the order of hash tables is the order of the lists and of the records of the files in its memory: two
runs of a program that uses nothing after freeing it, with any hash orders and any allocators, see the same numbers, texts, null pointers,
errors and equalities of addresses, and undefined behaviour or an abort at the same command, if at all.  The program may read the files it
wrote, or the beginnings of them, and may pass the lists of vertices that it got to `gphrx_add_vertex`, but only as a whole. -/
theorem C136_orders {E F : Nat → Ctx} (hE : ∀ k, (F k).P = (E k).P ∧ Ordinary (E k).P) {t : List Cmd} (hu : NoUseAfterFree t)
    (hr : ∀ i (c : Cmd), t[i]? = some c → c.Reasonable (E i).P) (hw : WholeLists E [] HMap.empty t) :
    List.Forall₂ ObsAlike (observe E [] HMap.empty t) (observe F [] HMap.empty t) := by
  have h0 : Alike (fun _ => False) (addr []) (addr []) HMap.empty HMap.empty := by
    have : ∀ i, addr [] i = 0 := fun i => rfl
    constructor
    · intro i _; exact ⟨fun _ => this i, fun _ => this i⟩
    · intro i _ h; exact absurd (this i) h
    · intro i _ h; exact absurd (this i) h
    · intro i j _ _ _ h; exact absurd (this i) h
    · intro i j _ _ _ h; exact absurd (this i) h
  have e1 : observe E [] HMap.empty t = observe (fun k => picking (E k)) [] HMap.empty t :=
    C120_addresses (E := E) (F := fun k => picking (E k)) (fun _ => ⟨rfl, rfl, rfl⟩) hu
  have e2 : observe F [] HMap.empty t = observe (fun k => picking (F k)) [] HMap.empty t :=
    C120_addresses (E := F) (F := fun k => picking (F k)) (fun _ => ⟨rfl, rfl, rfl⟩) hu
  rw [e1, e2]
  refine observe_order (E := fun k => picking (E k)) (E' := fun k => picking (F k)) (fun k => ⟨(hE k).1, (hE k).2⟩) (fun _ h h' hi => pickFresh_alike hi) (fun p => ?_) (fun i c hc => ?_)
    (whole_twin (E := E) (F := fun k => picking (E k)) (D := fun _ => False) (fun _ => ⟨rfl, rfl, rfl⟩) rfl h0 (fun _ _ _ _ h => h) hu hw)
  · trivial
  · have := hr i c hc
    rw [List.length_nil, Nat.zero_add]
    exact this

/-! ### Examples -/

/-- The successors of vertex 0 are all made successors of vertex 5; the graph is written, and read again. -/
def exWhole : List Cmd :=
  [.own (.callerUsize 0), .call .newDirected, .call (.addEdge 1 0 1), .call (.addEdge 1 0 2), .call (.getOutEdgesList 1 0 0), .read 0,
    .call (.addVertex 1 5 4 2), .read 4, .call (.doesEdgeExist 1 5 1), .call (.toBytes 1 0), .own (.callerU8 9), .call (.fromBytes 9 90 10),
    .call (.doesEdgeExist 11 5 1), .call (.fromBytes 9 80 10), .call (.freeVertexList 4 2)]

example : NoUseAfterFree exWhole := by unfold NoUseAfterFree; decide

example : Ordinary exP := by unfold Ordinary; decide +kernel

example : ∀ (i : Nat) (c : Cmd), exWhole[i]? = some c → c.Reasonable exP := by
  intro i c h
  have hc := List.mem_of_getElem? h
  simp only [exWhole, List.mem_cons, List.not_mem_nil, or_false] at hc
  rcases hc with rfl | rfl | rfl | rfl | rfl | rfl | rfl | rfl | rfl | rfl | rfl | rfl | rfl | rfl | rfl <;>
    first | trivial | (unfold Cmd.Reasonable; decide +kernel)

/-- Checks that lists are passed as a whole. -/
def wholeB (E : Nat → Ctx) (ν : List Ptr) (h : Heap) : List Cmd → Bool
  | [] => true
  | c :: t =>
    (match c with
      | .call (.addVertex _ _ tos n) => match h.get? (addr ν tos) with | some (.vertices l) => decide (l.length ≤ n) | _ => true
      | _ => true) &&
    match c.step (E ν.length) ν h with
    | (_, some (q, h')) => wholeB E (ν ++ [q]) h' t
    | (_, none) => true

theorem wholeB_sound {E : Nat → Ctx} : ∀ {t : List Cmd} {ν : List Ptr} {h : Heap}, wholeB E ν h t = true → WholeLists E ν h t := by
  intro t
  induction t with
  | nil => intros; trivial
  | cons c t ih =>
    intro ν h hb
    unfold wholeB at hb
    rw [Bool.and_eq_true] at hb
    refine ⟨?_, ?_⟩
    · have h1 := hb.1
      cases c with
      | call c =>
        cases c <;> try trivial
        case addVertex p v tos n =>
          intro _ _ l hl
          simp only [hl, decide_eq_true_eq] at h1
          exact h1
      | _ => trivial
    · have h2 := hb.2
      cases hc : c.step (E ν.length) ν h with
      | mk o r =>
        rw [hc] at h2
        cases r with
        | none => trivial
        | some r => exact ih h2

example : WholeLists (fun _ => exE) [] HMap.empty exWhole := wholeB_sound (by decide +kernel)

/-- The number seen at a place. -/
def numAt (l : List Obs) (k : Nat) : Nat :=
  match l[k]? with
  | some (.num n) => n
  | _ => 99

/-- Both files are read: the whole one, and the beginning of it, which is not a file. -/
example : numAt (observe (fun _ => exE) [] HMap.empty exWhole) 12 = 1 ∧ (observe (fun _ => exE) [] HMap.empty exWhole).length = 15 ∧
    (observe (fun _ => exErev) [] HMap.empty exWhole).length = 15 := by decide +kernel

/-- Only the first of the successors of vertex 0 is made a successor of vertex 5. -/
def exPart : List Cmd :=
  [.own (.callerUsize 0), .call .newDirected, .call (.addEdge 1 0 1), .call (.addEdge 1 0 2), .call (.getOutEdgesList 1 0 0),
    .call (.addVertex 1 5 4 1), .call (.doesEdgeExist 1 5 1)]

/-- **C136, the other direction.** The condition that lists are passed as a whole is needed: with a part of a list, even a number may depend on the
order of hash tables. -/
theorem C136_part_shows : NoUseAfterFree exPart ∧
    ¬ List.Forall₂ ObsAlike (observe (fun _ => exE) [] HMap.empty exPart) (observe (fun _ => exErev) [] HMap.empty exPart) := by
  refine ⟨by unfold NoUseAfterFree; decide, fun h => ?_⟩
  have h1 : numAt (observe (fun _ => exE) [] HMap.empty exPart) 6 ≠ numAt (observe (fun _ => exErev) [] HMap.empty exPart) 6 := by decide +kernel
  apply h1
  have key : ∀ {l l' : List Obs}, List.Forall₂ ObsAlike l l' → ∀ k, numAt l k = numAt l' k := by
    intro l l' h
    induction h with
    | nil => intro k; rfl
    | cons ha _ ih =>
      intro k
      cases k with
      | zero =>
        rcases ha with rfl | ⟨x, x', rfl, rfl, _⟩
        · rfl
        · rfl
      | succ k => exact ih k
  exact key h 6

end Verif.Props
