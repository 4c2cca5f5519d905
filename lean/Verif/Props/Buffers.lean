import Verif.Spec.Buffers
import Verif.Props.CSafety
import Verif.Props.CUndef

/-!
# C programs that write into the buffers they were given: C127
-/

namespace Verif.Props
open Verif Spec

theorem rewritten_trans {x y z : Obj} (h : Rewritten x y) (h' : Rewritten y z) : Rewritten x z := by
  cases x <;> cases y <;> first | exact h.elim | skip
  all_goals cases z <;> first | exact h'.elim | skip
  case cstring.cstring.cstring => exact ⟨h'.1.trans h.1, h'.2⟩
  all_goals exact Eq.trans h' h

theorem rewritten_caller {x y : Obj} (h : Rewritten x y) : x.isCaller = false ∧ y.isCaller = false := by
  cases x <;> cases y <;> first | exact h.elim | exact ⟨rfl, rfl⟩

theorem rewritten_kind {x y : Obj} (h : Rewritten x y) : x.kind = none ∧ y.kind = none := by
  cases x <;> cases y <;> first | exact h.elim | exact ⟨rfl, rfl⟩

theorem upTo_refl (h : Heap) : UpTo h h := fun _ => .inl rfl

theorem upTo_insert {h h' : Heap} (hu : UpTo h h') (p : Ptr) (x : Obj) : UpTo (h.insert p x) (h'.insert p x) := by
  intro q
  rw [HMap.get?_insert, HMap.get?_insert]
  split
  · exact .inl rfl
  · exact hu q

theorem upTo_remove {h h' : Heap} (hu : UpTo h h') (p : Ptr) : UpTo (h.remove p) (h'.remove p) := by
  intro q
  rw [HMap.get?_remove, HMap.get?_remove]
  split
  · exact .inl rfl
  · exact hu q

/-- Two computations that do the same on memories that differ at most in the contents of buffers. -/
def Rel {α : Type} (R : Heap → Heap → Prop) (x y : CM α) : Prop :=
  ∀ h h', UpTo h h' → R h h' → match x h, y h' with
    | .ok a h1, .ok b h1' => b = a ∧ UpTo h1 h1' ∧ R h1 h1'
    | .ub, .ub => True
    | .abort, .abort => True
    | _, _ => False

variable {R : Heap → Heap → Prop} {α β : Type}

theorem rel_pure (a : α) : Rel R (pure a : CM α) (pure a) := fun _ _ hu hr => ⟨rfl, hu, hr⟩

theorem rel_bind {x y : CM α} {f g : α → CM β} (hx : Rel R x y) (hf : ∀ a, Rel R (f a) (g a)) :
    Rel R (x >>= f) (y >>= g) := by
  intro h h' hu hr
  have := hx h h' hu hr
  rw [CM.bind_apply, CM.bind_apply]
  cases e : x h <;> cases e' : y h' <;> rw [e, e'] at this <;> simp only at this ⊢
  obtain ⟨rfl, h1, h2⟩ := this
  exact hf _ _ _ h1 h2

theorem rel_graphRef (p : Ptr) : Rel R (CApi.graphRef p) (CApi.graphRef p) := by
  intro h h' hu hr
  unfold CApi.graphRef
  by_cases hp : p = 0
  · rw [if_pos hp, if_pos hp]; exact ⟨rfl, hu, hr⟩
  · rw [if_neg hp, if_neg hp]
    rcases hu p with e | ⟨x, y, e, e', hxy⟩
    · rw [e]
      cases h.get? p with
      | none => trivial
      | some o => cases o <;> first | trivial | exact ⟨rfl, hu, hr⟩
    · rw [e, e']
      cases x <;> cases y <;> first | exact hxy.elim | trivial

theorem rel_cgraphRef (p : Ptr) : Rel R (CApi.cgraphRef p) (CApi.cgraphRef p) := by
  intro h h' hu hr
  unfold CApi.cgraphRef
  by_cases hp : p = 0
  · rw [if_pos hp, if_pos hp]; exact ⟨rfl, hu, hr⟩
  · rw [if_neg hp, if_neg hp]
    rcases hu p with e | ⟨x, y, e, e', hxy⟩
    · rw [e]
      cases h.get? p with
      | none => trivial
      | some o => cases o <;> first | trivial | exact ⟨rfl, hu, hr⟩
    · rw [e, e']
      cases x <;> cases y <;> first | exact hxy.elim | trivial

theorem rel_matrixRef (p : Ptr) : Rel R (CApi.matrixRef p) (CApi.matrixRef p) := by
  intro h h' hu hr
  unfold CApi.matrixRef
  by_cases hp : p = 0
  · rw [if_pos hp, if_pos hp]; exact ⟨rfl, hu, hr⟩
  · rw [if_neg hp, if_neg hp]
    rcases hu p with e | ⟨x, y, e, e', hxy⟩
    · rw [e]
      cases h.get? p with
      | none => trivial
      | some o => cases o <;> first | trivial | exact ⟨rfl, hu, hr⟩
    · rw [e, e']
      cases x <;> cases y <;> first | exact hxy.elim | trivial

/-- The side condition survives whatever the library writes. -/
def Stable (R : Heap → Heap → Prop) : Prop :=
  (∀ h h' p x, R h h' → R (h.insert p x) (h'.insert p x)) ∧ ∀ h h' p, R h h' → R (h.remove p) (h'.remove p)

theorem rel_setUsize (hR : Stable R) (p : Ptr) (n : Nat) : Rel R (CApi.setUsize p n) (CApi.setUsize p n) := by
  intro h h' hu hr
  unfold CApi.setUsize
  by_cases hp : p = 0
  · rw [if_pos hp, if_pos hp]; exact ⟨rfl, hu, hr⟩
  · rw [if_neg hp, if_neg hp]
    rcases hu p with e | ⟨x, y, e, e', hxy⟩
    · rw [e]
      cases h.get? p with
      | none => trivial
      | some o => cases o <;> first | trivial | exact ⟨rfl, upTo_insert hu _ _, hR.1 _ _ _ _ hr⟩
    · rw [e, e']
      cases x <;> cases y <;> first | exact hxy.elim | trivial

theorem rel_setU8 (hR : Stable R) (p : Ptr) (n : Nat) : Rel R (CApi.setU8 p n) (CApi.setU8 p n) := by
  intro h h' hu hr
  unfold CApi.setU8
  by_cases hp : p = 0
  · rw [if_pos hp, if_pos hp]; exact ⟨rfl, hu, hr⟩
  · rw [if_neg hp, if_neg hp]
    rcases hu p with e | ⟨x, y, e, e', hxy⟩
    · rw [e]
      cases h.get? p with
      | none => trivial
      | some o => cases o <;> first | trivial | exact ⟨rfl, upTo_insert hu _ _, hR.1 _ _ _ _ hr⟩
    · rw [e, e']
      cases x <;> cases y <;> first | exact hxy.elim | trivial

theorem rel_boxNew (hR : Stable R) {E : Ctx} (hE : Blind E) (x : Obj) : Rel R (CApi.boxNew E x) (CApi.boxNew E x) := by
  intro h h' hu hr
  unfold CApi.boxNew
  rw [hE h h' hu]
  exact ⟨rfl, upTo_insert hu _ _, hR.1 _ _ _ _ hr⟩

theorem rel_writeGraph (hR : Stable R) (p : Ptr) (g : Graph) : Rel R (CApi.writeGraph p g) (CApi.writeGraph p g) :=
  fun _ _ hu hr => ⟨rfl, upTo_insert hu _ _, hR.1 _ _ _ _ hr⟩

theorem rel_rust (x : Res α) : Rel R (CApi.rust x) (CApi.rust x) := by
  intro h h' hu hr
  unfold CApi.rust
  cases x <;> first | trivial | exact ⟨rfl, hu, hr⟩

theorem rel_rustTotal (x : Res α) : Rel R (CApi.rustTotal x) (CApi.rustTotal x) := by
  intro h h' hu hr
  unfold CApi.rustTotal
  cases x <;> first | trivial | exact ⟨rfl, hu, hr⟩

theorem rel_freeObj (hR : Stable R) (ok : Obj → Bool) (hok : ∀ x y, Rewritten x y → ok y = ok x) (p : Ptr) :
    Rel R (CApi.freeObj ok p) (CApi.freeObj ok p) := by
  intro h h' hu hr
  unfold CApi.freeObj
  by_cases hp : p = 0
  · rw [if_pos hp, if_pos hp]; exact ⟨rfl, hu, hr⟩
  · rw [if_neg hp, if_neg hp]
    rcases hu p with e | ⟨x, y, e, e', hxy⟩
    · rw [e]
      cases h.get? p with
      | none => trivial
      | some o =>
        by_cases ho : ok o = true
        · simp only [if_pos ho]
          exact ⟨trivial, upTo_remove hu _, hR.2 _ _ _ hr⟩
        · simp only [if_neg ho]
    · rw [e, e']
      by_cases ho : ok x = true
      · simp only [hok x y hxy, if_pos ho]
        exact ⟨trivial, upTo_remove hu _, hR.2 _ _ _ hr⟩
      · simp only [hok x y hxy, if_neg ho]

theorem rel_cstringOrNull (hR : Stable R) {E : Ctx} (hE : Blind E) (s : Option (List Char)) :
    Rel R (CApi.cstringOrNull E s) (CApi.cstringOrNull E s) := by
  unfold CApi.cstringOrNull
  cases s with
  | none => exact rel_pure _
  | some s =>
    simp only
    split
    · exact rel_pure _
    · exact rel_boxNew hR hE _

theorem rel_boxedBytesToRaw (hR : Stable R) {E : Ctx} (hE : Blind E) (b : Bytes) (size : Ptr) :
    Rel R (CApi.boxedBytesToRaw E b size) (CApi.boxedBytesToRaw E b size) :=
  rel_bind (rel_setUsize hR _ _) fun _ => rel_boxNew hR hE _

/-- The memory at `p` is the same in both. -/
def AtP (p : Ptr) (h h' : Heap) : Prop := h'.get? p = h.get? p

theorem stable_at (p : Ptr) : Stable (AtP p) := by
  constructor
  · intro h h' q x hr
    unfold AtP at *
    rw [HMap.get?_insert, HMap.get?_insert]
    split
    · rfl
    · exact hr
  · intro h h' q hr
    unfold AtP at *
    rw [HMap.get?_remove, HMap.get?_remove]
    split
    · rfl
    · exact hr

theorem stable_true : Stable fun _ _ => True := ⟨fun _ _ _ _ h => h, fun _ _ _ h => h⟩

theorem rel_readBytes (p : Ptr) (n : Nat) : Rel (AtP p) (CApi.readBytes p n) (CApi.readBytes p n) := by
  intro h h' hu hr
  unfold CApi.readBytes
  rw [show h'.get? p = h.get? p from hr]
  cases h.get? p with
  | none => trivial
  | some o =>
    cases o <;> try trivial
    all_goals
      rename_i l
      by_cases hl : n ≤ l.length
      · simp only [if_pos hl]
        exact ⟨trivial, hu, hr⟩
      · simp only [if_neg hl]

theorem rel_readU64s (p : Ptr) (n : Nat) : Rel (AtP p) (CApi.readU64s p n) (CApi.readU64s p n) := by
  intro h h' hu hr
  unfold CApi.readU64s
  rw [show h'.get? p = h.get? p from hr]
  cases h.get? p with
  | none => trivial
  | some o =>
    cases o <;> try trivial
    all_goals
      rename_i l
      by_cases hl : n ≤ l.length
      · simp only [if_pos hl]
        exact ⟨trivial, hu, hr⟩
      · simp only [if_neg hl]

theorem rel_fromBytes {E : Ctx} (hE : Blind E) (p : Ptr) (n : Nat) (e : Ptr) :
    Rel (AtP p) (CApi.fromBytes E p n e) (CApi.fromBytes E p n e) := by
  have hR := stable_at p
  refine rel_bind (rel_setU8 hR _ _) fun _ => ?_
  split
  · exact rel_bind (rel_setU8 hR _ _) fun _ => rel_pure _
  · refine rel_bind ?_ fun b => rel_bind (rel_rust _) fun r => ?_
    · unfold CApi.inputBytes
      split
      · exact rel_pure _
      · exact rel_readBytes _ _
    · cases r with
      | none => exact rel_bind (rel_setU8 hR _ _) fun _ => rel_pure _
      | some g => exact rel_boxNew hR hE _

theorem rel_cFromBytes {E : Ctx} (hE : Blind E) (p : Ptr) (n : Nat) (e : Ptr) :
    Rel (AtP p) (CApi.cFromBytes E p n e) (CApi.cFromBytes E p n e) := by
  have hR := stable_at p
  refine rel_bind (rel_setU8 hR _ _) fun _ => ?_
  split
  · exact rel_bind (rel_setU8 hR _ _) fun _ => rel_pure _
  · refine rel_bind ?_ fun b => rel_bind (rel_rust _) fun r => ?_
    · unfold CApi.inputBytes
      split
      · exact rel_pure _
      · exact rel_readBytes _ _
    · cases r with
      | none => exact rel_bind (rel_setU8 hR _ _) fun _ => rel_pure _
      | some g => exact rel_boxNew hR hE _

theorem rel_addVertex (p : Ptr) (v : Nat) (tos : Ptr) (n : Nat) :
    Rel (AtP tos) (CApi.addVertex p v tos n) (CApi.addVertex p v tos n) := by
  have hR := stable_at tos
  refine rel_bind (rel_graphRef _) fun r => ?_
  cases r with
  | none => exact rel_pure _
  | some g =>
    simp only
    split
    · exact rel_pure _
    · split
      · exact rel_writeGraph hR _ _
      · exact rel_bind (rel_readU64s _ _) fun _ => rel_writeGraph hR _ _

theorem same_of_rel {x y : CM α} {f : α → Val} {h h' : Heap} (hx : Rel R x y) (hu : UpTo h h') (hr : R h h') :
    SameOutcome (x.ret f h) (y.ret f h') := by
  have := hx h h' hu hr
  rw [CM.ret_apply, CM.ret_apply]
  cases e : x h <;> cases e' : y h' <;> rw [e, e'] at this <;> simp only [SameOutcome] at this ⊢
  obtain ⟨rfl, h1, _⟩ := this
  exact ⟨rfl, h1⟩

/-- **C127.** A call does not depend on what is in the buffers that the library returned earlier, other than the one it is told to
read: with any contents written into them, it returns the same value and makes the same changes, or is undefined or aborts alike. -/
theorem C127_call {E : Ctx} (hE : Blind E) (c : Call) {h h' : Heap} (hu : UpTo h h')
    (hin : c.input ≠ 0 → h'.get? c.input = h.get? c.input) : SameOutcome (c.exec E h) (c.exec E h') := by
  have hT := stable_true
  have viaG : ∀ {α : Type} (f : α → Val) (p : Ptr) (k : Option Graph → CM α), (∀ r, Rel (fun _ _ => True) (k r) (k r)) →
      SameOutcome ((CApi.graphRef p >>= k).ret f h) ((CApi.graphRef p >>= k).ret f h') := fun f p k hk =>
    same_of_rel (rel_bind (rel_graphRef p) hk) hu trivial
  have viaC : ∀ {α : Type} (f : α → Val) (p : Ptr) (k : Option CGraph → CM α), (∀ r, Rel (fun _ _ => True) (k r) (k r)) →
      SameOutcome ((CApi.cgraphRef p >>= k).ret f h) ((CApi.cgraphRef p >>= k).ret f h') := fun f p k hk =>
    same_of_rel (rel_bind (rel_cgraphRef p) hk) hu trivial
  have viaM : ∀ {α : Type} (f : α → Val) (p : Ptr) (k : Option (SqMatrix F64) → CM α), (∀ r, Rel (fun _ _ => True) (k r) (k r)) →
      SameOutcome ((CApi.matrixRef p >>= k).ret f h) ((CApi.matrixRef p >>= k).ret f h') := fun f p k hk =>
    same_of_rel (rel_bind (rel_matrixRef p) hk) hu trivial
  cases c with
  | freeString p => exact same_of_rel (rel_freeObj hT _ (by intro x y h; cases x <;> cases y <;> first | exact h.elim | rfl) p) hu trivial
  | freeBytes p n => exact same_of_rel (rel_freeObj hT _ (by intro x y h; cases x <;> cases y <;> first | exact h.elim | rfl | exact congrArg (· == n) h) p) hu trivial
  | freeGraph p => exact same_of_rel (rel_freeObj hT _ (by intro x y h; cases x <;> cases y <;> first | exact h.elim | rfl) p) hu trivial
  | freeEdgeList p n => exact same_of_rel (rel_freeObj hT _ (by intro x y h; cases x <;> cases y <;> first | exact h.elim | rfl | exact congrArg (· == n) h) p) hu trivial
  | freeVertexList p n => exact same_of_rel (rel_freeObj hT _ (by intro x y h; cases x <;> cases y <;> first | exact h.elim | rfl | exact congrArg (· == n) h) p) hu trivial
  | newUndirected => exact same_of_rel (rel_boxNew hT hE _) hu trivial
  | newDirected => exact same_of_rel (rel_boxNew hT hE _) hu trivial
  | fromBytes p n e =>
    by_cases h0 : p = 0
    · subst h0
      refine same_of_rel (R := fun _ _ => True) (rel_bind (rel_setU8 hT _ _) fun _ => ?_) hu trivial
      split
      · exact rel_bind (rel_setU8 hT _ _) fun _ => rel_pure _
      · next hn =>
        have hn : n = 0 := Classical.not_not.1 fun h => hn ⟨rfl, h⟩
        refine rel_bind ?_ fun b => rel_bind (rel_rust _) fun r => ?_
        · unfold CApi.inputBytes
          rw [if_pos hn]
          exact rel_pure _
        · cases r with
          | none => exact rel_bind (rel_setU8 hT _ _) fun _ => rel_pure _
          | some g => exact rel_boxNew hT hE _
    · exact same_of_rel (rel_fromBytes hE p n e) hu (hin h0)
  | cFromBytes p n e =>
    by_cases h0 : p = 0
    · subst h0
      refine same_of_rel (R := fun _ _ => True) (rel_bind (rel_setU8 hT _ _) fun _ => ?_) hu trivial
      split
      · exact rel_bind (rel_setU8 hT _ _) fun _ => rel_pure _
      · next hn =>
        have hn : n = 0 := Classical.not_not.1 fun h => hn ⟨rfl, h⟩
        refine rel_bind ?_ fun b => rel_bind (rel_rust _) fun r => ?_
        · unfold CApi.inputBytes
          rw [if_pos hn]
          exact rel_pure _
        · cases r with
          | none => exact rel_bind (rel_setU8 hT _ _) fun _ => rel_pure _
          | some g => exact rel_boxNew hT hE _
    · exact same_of_rel (rel_cFromBytes hE p n e) hu (hin h0)
  | addVertex p v tos n =>
    by_cases h0 : tos = 0
    · subst h0
      refine viaG _ p _ fun r => ?_
      cases r with
      | none => exact rel_pure _
      | some g =>
        simp only
        split
        · exact rel_pure _
        · next hn =>
          rw [if_pos (Classical.not_not.1 fun h => hn ⟨trivial, h⟩)]
          exact rel_writeGraph hT _ _
    · exact same_of_rel (rel_addVertex p v tos n) hu (hin h0)
  | duplicate p =>
    refine viaG _ p _ fun r => ?_
    cases r with
    | none => exact rel_pure _
    | some g => exact rel_boxNew hT hE _
  | matrixString p =>
    refine viaG _ p _ fun r => ?_
    cases r with
    | none => exact rel_pure _
    | some g => exact rel_bind (rel_rust _) fun _ => rel_cstringOrNull hT hE _
  | toBytes p s =>
    refine same_of_rel (R := fun _ _ => True) (rel_bind (rel_setUsize hT _ _) fun _ => rel_bind (rel_graphRef p) fun r => ?_) hu trivial
    cases r with
    | none => exact rel_pure _
    | some g =>
      refine rel_bind (rel_rust _) fun r => ?_
      cases r with
      | none => exact rel_pure _
      | some b => exact rel_boxedBytesToRaw hT hE _ _
  | cToBytes p s =>
    refine same_of_rel (R := fun _ _ => True) (rel_bind (rel_setUsize hT _ _) fun _ => rel_bind (rel_cgraphRef p) fun r => ?_) hu trivial
    cases r with
    | none => exact rel_pure _
    | some g =>
      refine rel_bind (rel_rust _) fun r => ?_
      cases r with
      | none => exact rel_pure _
      | some b => exact rel_boxedBytesToRaw hT hE _ _
  | isUndirected p => exact viaG _ p _ fun r => by cases r <;> exact rel_pure _
  | vertexCount p => exact viaG _ p _ fun r => by cases r <;> exact rel_pure _
  | edgeCount p => exact viaG _ p _ fun r => by cases r <;> exact rel_pure _
  | doesEdgeExist p u v => exact viaG _ p _ fun r => by cases r <;> exact rel_pure _
  | getInDegree p v => exact viaG _ p _ fun r => by cases r <;> exact rel_pure _
  | getOutDegree p v => exact viaG _ p _ fun r => by cases r <;> exact rel_pure _
  | findAvgPoolMatrix p b =>
    refine viaG _ p _ fun r => ?_
    cases r with
    | none => exact rel_pure _
    | some g => exact rel_bind (rel_rustTotal _) fun _ => rel_boxNew hT hE _
  | approximate p b t =>
    refine viaG _ p _ fun r => ?_
    cases r with
    | none => exact rel_pure _
    | some g => exact rel_bind (rel_rustTotal _) fun _ => rel_boxNew hT hE _
  | compress p l =>
    refine viaG _ p _ fun r => ?_
    cases r with
    | none => exact rel_pure _
    | some g => exact rel_bind (rel_rustTotal _) fun _ => rel_boxNew hT hE _
  | getEdgeList p s =>
    refine same_of_rel (R := fun _ _ => True) (rel_bind (rel_setUsize hT _ _) fun _ => rel_bind (rel_graphRef p) fun r => ?_) hu trivial
    cases r with
    | none => exact rel_pure _
    | some g => exact rel_bind (rel_setUsize hT _ _) fun _ => rel_boxNew hT hE _
  | getInEdgesList p v s =>
    refine same_of_rel (R := fun _ _ => True) (rel_bind (rel_setUsize hT _ _) fun _ => rel_bind (rel_graphRef p) fun r => ?_) hu trivial
    cases r with
    | none => exact rel_pure _
    | some g => exact rel_bind (rel_setUsize hT _ _) fun _ => rel_boxNew hT hE _
  | getOutEdgesList p v s =>
    refine same_of_rel (R := fun _ _ => True) (rel_bind (rel_setUsize hT _ _) fun _ => rel_bind (rel_graphRef p) fun r => ?_) hu trivial
    cases r with
    | none => exact rel_pure _
    | some g => exact rel_bind (rel_setUsize hT _ _) fun _ => rel_boxNew hT hE _
  | addEdge p u v => exact viaG _ p _ fun r => by cases r <;> first | exact rel_pure _ | exact rel_writeGraph hT _ _
  | deleteEdge p u v => exact viaG _ p _ fun r => by cases r <;> first | exact rel_pure _ | exact rel_writeGraph hT _ _
  | freeCGraph p => exact same_of_rel (rel_freeObj hT _ (by intro x y h; cases x <;> cases y <;> first | exact h.elim | rfl) p) hu trivial
  | cDuplicate p =>
    refine viaC _ p _ fun r => ?_
    cases r with
    | none => exact rel_pure _
    | some g => exact rel_boxNew hT hE _
  | cCompressionLevel p => exact viaC _ p _ fun r => by cases r <;> exact rel_pure _
  | cIsUndirected p => exact viaC _ p _ fun r => by cases r <;> exact rel_pure _
  | cVertexCount p => exact viaC _ p _ fun r => by cases r <;> exact rel_pure _
  | cEdgeCount p => exact viaC _ p _ fun r => by cases r <;> exact rel_pure _
  | cDoesEdgeExist p u v => exact viaC _ p _ fun r => by cases r <;> exact rel_pure _
  | cGetEntry p i j => exact viaC _ p _ fun r => by cases r <;> exact rel_pure _
  | cMatrixString p =>
    refine viaC _ p _ fun r => ?_
    cases r with
    | none => exact rel_pure _
    | some g => exact rel_bind (rel_rust _) fun _ => rel_cstringOrNull hT hE _
  | decompress p =>
    refine viaC _ p _ fun r => ?_
    cases r with
    | none => exact rel_pure _
    | some g => exact rel_bind (rel_rustTotal _) fun _ => rel_boxNew hT hE _
  | freeMatrix p => exact same_of_rel (rel_freeObj hT _ (by intro x y h; cases x <;> cases y <;> first | exact h.elim | rfl) p) hu trivial
  | mDuplicate p =>
    refine viaM _ p _ fun r => ?_
    cases r with
    | none => exact rel_pure _
    | some g => exact rel_boxNew hT hE _
  | freeEntryList p n => exact same_of_rel (rel_freeObj hT _ (by intro x y h; cases x <;> cases y <;> first | exact h.elim | rfl | exact congrArg (· == n) h) p) hu trivial
  | mDimension p => exact viaM _ p _ fun r => by cases r <;> exact rel_pure _
  | mEntryCount p => exact viaM _ p _ fun r => by cases r <;> exact rel_pure _
  | mGetEntry p i j => exact viaM _ p _ fun r => by cases r <;> exact rel_pure _
  | mToString p =>
    refine viaM _ p _ fun r => ?_
    cases r with
    | none => exact rel_pure _
    | some g => exact rel_bind (rel_rustTotal _) fun _ => rel_cstringOrNull hT hE _
  | mToStringWithPrecision p d =>
    refine viaM _ p _ fun r => ?_
    cases r with
    | none => exact rel_pure _
    | some g => exact rel_bind (rel_rust _) fun _ => rel_cstringOrNull hT hE _
  | mGetEntryList p s =>
    refine same_of_rel (R := fun _ _ => True) (rel_bind (rel_setUsize hT _ _) fun _ => rel_bind (rel_matrixRef p) fun r => ?_) hu trivial
    cases r with
    | none => exact rel_pure _
    | some g => exact rel_bind (rel_setUsize hT _ _) fun _ => rel_boxNew hT hE _

theorem upTo_caller {h h' : Heap} (hu : UpTo h h') {p : Ptr} (hc : ∀ x, h'.get? p = some x → x.isCaller = true) :
    h'.get? p = h.get? p := by
  rcases hu p with e | ⟨x, y, _, e, hxy⟩
  · exact e
  · have := hc y e
    rw [(rewritten_caller hxy).2] at this; cases this

/-- **C127.** A program that writes into buffers of the library, with calls that read only memory of its own, gets the results that it
gets without writing into them: the same calls return the same values, and the memories differ at most in the contents of buffers. -/
theorem C127_erase {h h' : Heap} {t : List Event} (r : WRun h t h') (hb : ∀ ev ∈ t, ev.Blind) (ho : ∀ ev ∈ t, ev.ReadsOwn)
    {h₀ : Heap} (hu : UpTo h₀ h) :
    ∃ t₀ h₀', Run h₀ t₀ h₀' ∧ t₀.filterMap Event.visible = t.filterMap Event.visible ∧ UpTo h₀' h' := by
  induction r generalizing h₀ with
  | nil => exact ⟨[], h₀, .nil, rfl, hu⟩
  | @call h h1 h2 E c v t he _ ih =>
    have h3 := C127_call (hb _ List.mem_cons_self) c hu fun h0 => upTo_caller hu (ho _ List.mem_cons_self h0)
    rw [he] at h3
    cases e : c.exec E h₀ with
    | ub => rw [e] at h3; exact h3.elim
    | abort => rw [e] at h3; exact h3.elim
    | ok v' h₁ =>
      rw [e] at h3
      obtain ⟨rfl, h4⟩ := h3
      obtain ⟨t₀, h₀', a, b, c'⟩ := ih (fun ev hev => hb ev (List.mem_cons_of_mem _ hev)) (fun ev hev => ho ev (List.mem_cons_of_mem _ hev)) h4
      exact ⟨_, h₀', .call e a, by simp [Event.visible, b], c'⟩
  | @write h h2 q x t hq hc hx _ ih =>
    obtain ⟨t₀, h₀', a, b, c'⟩ := ih (fun ev hev => hb ev (List.mem_cons_of_mem _ hev)) (fun ev hev => ho ev (List.mem_cons_of_mem _ hev))
      (upTo_insert hu q x)
    exact ⟨_, h₀', .write hq (by rw [← upTo_caller hu hc]; exact hc) hx a, by simpa [List.filterMap_cons, Event.visible] using b, c'⟩
  | @drop h h2 q t hc _ ih =>
    obtain ⟨t₀, h₀', a, b, c'⟩ := ih (fun ev hev => hb ev (List.mem_cons_of_mem _ hev)) (fun ev hev => ho ev (List.mem_cons_of_mem _ hev))
      (upTo_remove hu q)
    exact ⟨_, h₀', .drop (by rw [← upTo_caller hu hc]; exact hc) a, by simpa [List.filterMap_cons, Event.visible] using b, c'⟩
  | @rewrite h h2 q x y t hx hxy _ ih =>
    obtain ⟨t₀, h₀', a, b, c'⟩ := ih (fun ev hev => hb ev (List.mem_cons_of_mem _ hev)) (fun ev hev => ho ev (List.mem_cons_of_mem _ hev))
      (h₀ := h₀) (by
        intro p
        rw [HMap.get?_insert]
        split
        · next e =>
          subst e
          rcases hu p with e1 | ⟨x', y', e1, e2, h3⟩
          · exact .inr ⟨x, y, by rw [← e1, hx], rfl, hxy⟩
          · rw [hx] at e2; cases e2
            exact .inr ⟨x', y, e1, rfl, rewritten_trans h3 hxy⟩
        · exact hu p)
    exact ⟨t₀, h₀', a, by simpa [List.filterMap_cons, Event.visible] using b, c'⟩

/-- **C127.** An object of the library that is not freed is exactly what its own edits have made of it, even in programs that write into
buffers; a buffer that is not freed has kept its kind and length, so that the length reported for it is still the right one to free it
with. -/
theorem C127_own_history {h h' : Heap} {t : List Event} (r : WRun h t h') {p : Ptr} {x : Obj} (hp : p ≠ 0)
    (hx : h.get? p = some x) (hc : x.isCaller = false) (hf : ∀ ev ∈ t, ¬ ev.Frees p) :
    h'.get? p = some (x.after (editsOf p t)) ∨ ∃ y, h'.get? p = some y ∧ Rewritten x y := by
  induction r generalizing x with
  | nil => rw [hx]; exact .inl (congrArg some (after_nil x).symm)
  | @call h h1 h2 E c v t he _ ih =>
    have h3 := exec_object he hp hx hc (fun ok h4 => hf _ (List.mem_cons_self ..) ⟨ok, h4⟩)
    rcases ih h3 (by rw [after_isCaller]; exact hc) (fun ev hev => hf ev (List.mem_cons_of_mem _ hev)) with h4 | ⟨y, h4, h5⟩
    · refine .inl ?_
      rw [h4, ← after_append]
      unfold editsOf
      rw [List.filterMap_cons]
      cases Event.editOf p (.call E c h.get? v) <;> rfl
    · refine .inr ⟨y, h4, ?_⟩
      cases x <;> exact h5
  | @write h h2 q y t hq hold hnew _ ih =>
    have hne : p ≠ q := by
      rintro rfl
      rw [hold _ hx] at hc; cases hc
    exact ih (x := x) (by rw [HMap.get?_insert, if_neg hne]; exact hx) hc (fun ev hev => hf ev (List.mem_cons_of_mem _ hev))
  | @drop h h2 q t hold _ ih =>
    have hne : p ≠ q := by
      rintro rfl
      rw [hold _ hx] at hc; cases hc
    exact ih (x := x) (by rw [HMap.get?_remove, if_neg hne]; exact hx) hc (fun ev hev => hf ev (List.mem_cons_of_mem _ hev))
  | @rewrite h h2 q z y t hz hzy _ ih =>
    have hf' := fun ev hev => hf ev (List.mem_cons_of_mem _ hev)
    by_cases hne : p = q
    · subst hne
      rw [hx] at hz; cases hz
      rcases ih (x := y) (by rw [HMap.get?_insert, if_pos rfl]) (rewritten_caller hzy).2 hf' with h4 | ⟨w, h4, h5⟩
      · refine .inr ⟨y, ?_, hzy⟩
        rw [h4]
        cases y <;> first | rfl | (cases z <;> exact hzy.elim)
      · exact .inr ⟨w, h4, rewritten_trans hzy h5⟩
    · exact ih (x := x) (by rw [HMap.get?_insert, if_neg hne]; exact hx) hc hf'

/-- **C127.** Every call on a live handle returns what the Rust method returns for the object's own history. -/
theorem C127_returns {h h1 h2 : Heap} {t : List Event} (hr : WRun h t h1) {p : Ptr} {x : Obj} {k : Kind} (hp : p ≠ 0)
    (hx : h.get? p = some x) (hk : x.kind = some k) (hf : ∀ ev ∈ t, ¬ ev.Frees p) {E : Ctx} {c : Call} {v : Val}
    (hh : c.handle = some (p, k)) (he : c.exec E h1 = .ok v h2) :
    (∀ a, c.answer (x.after (editsOf p t)) = some a → v = a) ∧
    (∀ y, c.makes E (x.after (editsOf p t)) = some (.ok y) →
      ∃ q, v = .ptr q ∧ q ≠ 0 ∧ h1.get? q = none ∧ h2.get? q = some y ∧
        (c.out ≠ 0 → h2.get? c.out = some (.callerUsize y.size))) ∧
    (∀ e, c.makes E (x.after (editsOf p t)) = some (.err e) →
      v = .ptr 0 ∧ (c.out ≠ 0 → h2.get? c.out = some (.callerUsize 0))) := by
  have hc : x.isCaller = false := by cases x <;> first | rfl | cases hk
  have h3 : h1.get? p = some (x.after (editsOf p t)) := by
    rcases C127_own_history hr hp hx hc hf with h3 | ⟨y, _, h4⟩
    · exact h3
    · rw [(rewritten_kind h4).1] at hk; cases hk
  have := C60_returns .nil hp h3 (by rw [← hk]; cases x <;> rfl) (by simp) hh he
  rwa [show editsOf p [] = [] from rfl, after_nil] at this

/-- **C127.** Every live graph, compressed graph and matrix is one that the Rust interface can produce, and each string is free of
zeros. -/
theorem C127_genuine {h₀ h : Heap} {t : List Event} (hu : Untouched h₀) (r : WRun h₀ t h) (p : Ptr) (x : Obj)
    (hx : h.get? p = some x) : Genuine x := by
  suffices ∀ h₀, (∀ p x, h₀.get? p = some x → Genuine x) → WRun h₀ t h → ∀ p x, h.get? p = some x → Genuine x from
    this h₀ (fun p x hx => genuine_caller (hu p x hx)) r p x hx
  clear hu r hx h₀
  intro h₀ hg r
  induction r with
  | nil => exact hg
  | call he _ ih =>
    exact ih (meaning_inv (exec_ok_meaning he) hg (fun _ h => genuine_caller h) (fun x y => genuine_makes)
      (fun _ e hg => good_call hg e) ⟨.newUndirected, .newDirected⟩ (fun _ _ _ _ _ _ hd hf => genuine_decodes hd hf))
  | write h0 h1 hx _ ih =>
    refine ih fun p y hy => ?_
    rw [HMap.get?_insert] at hy
    split at hy
    · cases hy; exact genuine_caller hx
    · exact hg p y hy
  | drop h1 _ ih =>
    refine ih fun p y hy => ?_
    rw [HMap.get?_remove] at hy
    split at hy
    · cases hy
    · exact hg p y hy
  | @rewrite h h2 q z y t hz hzy _ ih =>
    refine ih fun p w hw => ?_
    rw [HMap.get?_insert] at hw
    split at hw
    · cases hw
      cases z <;> cases y <;> first | exact hzy.elim | trivial | exact hzy.2
    · exact hg p w hw

theorem owned_wrun {h h' : Heap} {t : List Event} (hr : WRun h t h') {p : Ptr} (h0 : p ≠ 0) (ho : Owned h'.get? p) :
    (Owned h.get? p ∧ ∀ ev ∈ t, ¬ ev.Frees p) ∨
    ∃ t₁ E c M t₂, t = t₁ ++ .call E c M (.ptr p) :: t₂ ∧ ∀ ev ∈ t₂, ¬ ev.Frees p := by
  induction hr with
  | nil => exact .inl ⟨ho, by simp⟩
  | @call h h1 h2 E c v t he _ ih =>
    rcases ih ho with ⟨h3, h4⟩ | ⟨t₁, E', c', M, t₂, rfl, h4⟩
    · rcases owned_before ((c.outcome E h).ok v h1 he) h0 h3 with rfl | ⟨h5, h6⟩
      · exact .inr ⟨[], E, c, _, t, rfl, h4⟩
      · exact .inl ⟨h5, fun ev hev => (List.mem_cons.1 hev).elim (fun e => by subst e; exact h6) (h4 ev)⟩
    · exact .inr ⟨_ :: t₁, E', c', M, t₂, rfl, h4⟩
  | @write h h2 q x t hq hc hx _ ih =>
    rcases ih ho with ⟨h3, h4⟩ | ⟨t₁, E', c', M, t₂, rfl, h4⟩
    · rw [get?_insert_put] at h3
      rcases owned_put h3 with ⟨-, y, e, h5⟩ | ⟨-, h5⟩
      · cases e; rw [hx] at h5; cases h5
      · exact .inl ⟨h5, fun ev hev => (List.mem_cons.1 hev).elim (fun e => by subst e; exact id) (h4 ev)⟩
    · exact .inr ⟨_ :: t₁, E', c', M, t₂, rfl, h4⟩
  | @drop h h2 q t hc _ ih =>
    rcases ih ho with ⟨h3, h4⟩ | ⟨t₁, E', c', M, t₂, rfl, h4⟩
    · rw [get?_remove_put] at h3
      rcases owned_put h3 with ⟨-, y, e, h5⟩ | ⟨-, h5⟩
      · cases e
      · exact .inl ⟨h5, fun ev hev => (List.mem_cons.1 hev).elim (fun e => by subst e; exact id) (h4 ev)⟩
    · exact .inr ⟨_ :: t₁, E', c', M, t₂, rfl, h4⟩
  | @rewrite h h2 q x y t hx hxy _ ih =>
    rcases ih ho with ⟨h3, h4⟩ | ⟨t₁, E', c', M, t₂, rfl, h4⟩
    · rw [get?_insert_put] at h3
      refine .inl ⟨?_, fun ev hev => (List.mem_cons.1 hev).elim (fun e => by subst e; exact id) (h4 ev)⟩
      rcases owned_put h3 with ⟨e, -⟩ | ⟨-, h5⟩
      · subst e; exact ⟨x, hx, (rewritten_caller hxy).1⟩
      · exact h5
    · exact .inr ⟨_ :: t₁, E', c', M, t₂, rfl, h4⟩

theorem wrun_split_at {h h' : Heap} {t₁ t₂ : List Event} (hr : WRun h (t₁ ++ t₂) h') : ∃ h1, WRun h t₁ h1 ∧ WRun h1 t₂ h' := by
  induction t₁ generalizing h with
  | nil => exact ⟨h, .nil, hr⟩
  | cons ev t₁ ih =>
    cases hr with
    | call he hr => obtain ⟨h1, a, b⟩ := ih hr; exact ⟨h1, .call he a, b⟩
    | write h1 h2 h3 hr => obtain ⟨h1, a, b⟩ := ih hr; exact ⟨h1, .write ‹_› h2 h3 a, b⟩
    | drop h2 hr => obtain ⟨h1, a, b⟩ := ih hr; exact ⟨h1, .drop h2 a, b⟩
    | rewrite h2 h3 hr => obtain ⟨h1, a, b⟩ := ih hr; exact ⟨h1, .rewrite h2 h3 a, b⟩

/-- **C127.** Also in programs that write into buffers, the objects that the library has in memory are exactly those that it returned and
that have not been freed since. -/
theorem C127_no_leak {h h' : Heap} {t : List Event} (hu : Untouched h) (hr : WRun h t h') {p : Ptr} (h0 : p ≠ 0) :
    (∃ x, h'.get? p = some x ∧ x.isCaller = false) ↔
      ∃ t₁ E c M t₂, t = t₁ ++ .call E c M (.ptr p) :: t₂ ∧ ∀ ev ∈ t₂, ¬ ev.Frees p := by
  constructor
  · intro ho
    rcases owned_wrun hr h0 ho with ⟨⟨x, h1, h2⟩, -⟩ | h1
    · rw [hu p x h1] at h2; cases h2
    · exact h1
  · rintro ⟨t₁, E, c, M, t₂, rfl, hf⟩
    obtain ⟨h1, -, h2⟩ := wrun_split_at hr
    cases h2 with
    | @call _ h3 _ _ _ _ _ he hr2 =>
      obtain ⟨x, h4, h5⟩ := returned_owned ((c.outcome E h1).ok _ h3 he) h0
      rcases C127_own_history hr2 h0 h4 h5 hf with h6 | ⟨y, h6, h7⟩
      · exact ⟨_, h6, after_owned h5 _⟩
      · exact ⟨y, h6, (rewritten_caller h7).2⟩

theorem exE_blind : Blind exE := by
  have hmax : ∀ (l : List Ptr) (n : Nat), (∀ p ∈ l, p ≤ n) → l.foldr max 0 ≤ n := by
    intro l n hl
    induction l with
    | nil => exact Nat.zero_le _
    | cons a l ih => exact max_le (hl a List.mem_cons_self) (ih fun p hp => hl p (List.mem_cons_of_mem _ hp))
  have hle : ∀ (l : List Ptr) (p : Ptr), p ∈ l → p ≤ l.foldr max 0 := by
    intro l p hp
    induction l with
    | nil => cases hp
    | cons a l ih =>
      rcases List.mem_cons.1 hp with rfl | hp
      · exact le_max_left _ _
      · exact (ih hp).trans (le_max_right _ _)
  have hmem : ∀ (h : Heap) (p : Ptr), p ∈ h.entries.map Prod.fst ↔ ∃ x, h.get? p = some x := by
    intro h p
    rw [List.mem_map]
    constructor
    · rintro ⟨⟨q, x⟩, h1, rfl⟩
      exact ⟨x, HMap.mem_entries_iff.1 h1⟩
    · rintro ⟨x, h1⟩
      exact ⟨(p, x), HMap.mem_entries_iff.2 h1, rfl⟩
  intro h h' hu
  refine congrArg (· + 1) (le_antisymm (hmax _ _ fun p hp => hle _ _ ?_) (hmax _ _ fun p hp => hle _ _ ?_))
  · rw [hmem] at hp ⊢
    obtain ⟨x, hx⟩ := hp
    rcases hu p with e | ⟨x', y, e, _⟩
    · exact ⟨x, e ▸ hx⟩
    · exact ⟨x', e⟩
  · rw [hmem] at hp ⊢
    obtain ⟨x, hx⟩ := hp
    rcases hu p with e | ⟨x', y, _, e, _⟩
    · exact ⟨x, e.trans hx⟩
    · exact ⟨y, e⟩

/-- A list of edges is fetched and written over by the program; the graph is what it was, and the list can be freed with the length
that was reported. -/
example : ∃ t h h', WRun HMap.empty t h ∧ t.length = 5 ∧ (∀ ev ∈ t, ev.Blind ∧ ev.ReadsOwn) ∧
    h.get? 11 = some (.edges [(7, 7)]) ∧ (Call.edgeCount 1).exec exE h = .ok (.num 1) h ∧
    (Call.freeEdgeList 11 1).exec exE h = .ok .unit h' := by
  refine ⟨_, _, _, .call (E := exE) (c := .newDirected) rfl (.call (E := exE) (c := .addEdge 1 0 1) rfl
    (.write (p := 10) (x := .callerUsize 0) (by decide) (by rintro y ⟨⟩) rfl
    (.call (E := exE) (c := .getEdgeList 1 10) rfl
    (.rewrite (p := 11) (x := .edges (Graph.items .id (Graph.newDirected.addEdge 0 1))) (y := .edges [(7, 7)]) rfl
      (show 1 = _ by decide +kernel) .nil)))), rfl, ?_, rfl, rfl, rfl⟩
  intro ev hev
  simp only [List.mem_cons, List.not_mem_nil, or_false] at hev
  rcases hev with rfl | rfl | rfl | rfl | rfl
  · exact ⟨exE_blind, fun h => absurd rfl h⟩
  · exact ⟨exE_blind, fun h => absurd rfl h⟩
  · exact ⟨trivial, trivial⟩
  · exact ⟨exE_blind, fun h => absurd rfl h⟩
  · exact ⟨trivial, trivial⟩

/-- The call returned this pointer. -/
def ptrIs (x : CRes Val) (p : Ptr) : Bool :=
  match x with
  | .ok (.ptr q) _ => q == p
  | _ => false

/-- The condition on what is read is needed: a buffer that has been written into is decoded to something else. -/
example : ∃ b b' : Bytes, UpTo (HMap.empty.insert 1 (.bytes b)) (HMap.empty.insert 1 (.bytes b')) ∧
    ptrIs ((Call.fromBytes 1 b.length 0).exec exE (HMap.empty.insert 1 (.bytes b))) 2 = true ∧
    ptrIs ((Call.fromBytes 1 b.length 0).exec exE (HMap.empty.insert 1 (.bytes b'))) 0 = true := by
  obtain ⟨b, hb, hp⟩ := okAnd_elim (show okAnd (exD.toBytes exP .id) (fun b =>
    ptrIs ((Call.fromBytes 1 b.length 0).exec exE (HMap.empty.insert 1 (.bytes b))) 2 &&
    ptrIs ((Call.fromBytes 1 b.length 0).exec exE (HMap.empty.insert 1 (.bytes (List.replicate b.length 0)))) 0) = true
    by decide +kernel)
  simp only [Bool.and_eq_true] at hp
  refine ⟨b, List.replicate b.length 0, fun p => ?_, hp⟩
  rw [HMap.get?_insert, HMap.get?_insert]
  split
  · exact .inr ⟨_, _, rfl, rfl, List.length_replicate⟩
  · exact .inl rfl

end Verif.Props
