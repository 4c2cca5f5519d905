import Verif.Model.PyCopy
import Verif.Props.Py

/-!
# C114: copies made with `copy.copy`
-/

namespace Verif.Props
open Verif Spec

/-- Live objects number `i` and `j` of the world have the same fields. -/
def SameFields (w : PyWorld) (i j : Nat) (o : PyObj) : Prop := w.objs[i]? = some (some o) ∧ w.objs[j]? = some (some o)

/-- The object owns memory: it is not an iterator and not an empty list (Rust allocates nothing for those). -/
def OwnsMemory : PyObj → Prop
  | .graph _ | .cgraph _ | .matrix _ => True
  | .edgeList _ n | .vertexList _ n | .entryList _ n => n ≠ 0
  | .edgeIter _ _ _ _ | .vertexIter _ _ _ _ | .entryIter _ _ _ _ => False

/-- One of the classes `Graph`, `CompressedGraph` and `CsrSquareMatrix`. -/
def IsHandle : PyObj → Prop
  | .graph _ | .cgraph _ | .matrix _ => True
  | _ => False

theorem exec_call_eq {w : PyWorld} {i : Nat} {o : PyObj} (h : w.objs[i]? = some (some o)) (E : Ctx) (m : Method) :
    w.exec E (.call i m) = w.finish i (o.method E i m w.mem) := by
  unfold PyWorld.exec
  simp only [h, Option.join_some]

theorem owns_owned {o : PyObj} (h : OwnsMemory o) : ∃ p, o.owned = some p := by
  cases o <;> first | exact ⟨_, rfl⟩ | exact h.elim

/-- Freeing the C object of an object of a program. -/
theorem del_ok {t} {w : PyWorld} (h : PyRun PyWorld.start t w) {i : Nat} {o : PyObj} {p : Ptr} (hi : w.objs[i]? = some (some o))
    (hp : o.owned = some p) (E : Ctx) : p ≠ 0 ∧ o.del E w.mem = .ok () (w.mem.remove p) := by
  obtain ⟨a, ha, s⟩ := sim_run h sim_start
  obtain ⟨x, h1, h2⟩ := s.at_obj hi
  generalize e1 : some o = o' at h2
  cases h2 with
  | dead => cases e1
  | iter => cases e1; rw [owned_pyIter] at hp; cases hp
  | @owner x p' h3 h4 h5 =>
    cases e1
    rw [owned_py h3] at hp
    cases hp
    refine ⟨h4, ?_⟩
    cases x <;> first | exact absurd rfl h3 | skip
    all_goals
      simp only [AObj.obj] at h5
      simp [AObj.py, PyObj.del, Py.graphDel, Py.cgraphDel, Py.matrixDel, Py.edgeListDel, Py.vertexListDel, Py.entryListDel, Py.call,
        Call.exec, CM.ret, CApi.freeGraph, CApi.freeCGraph, CApi.freeMatrix, CApi.freeEdgeList, CApi.freeVertexList,
        CApi.freeEntryList, CApi.freeObj, h4, h5, bind, PM.bind, pure]

/-- Freeing a C object that is not there. -/
theorem del_ub {o : PyObj} {p : Ptr} (hp : o.owned = some p) (h0 : p ≠ 0) {M : Heap} (hM : M.get? p = none) (E : Ctx) :
    o.del E M = .ub := by
  cases o <;> cases hp
  all_goals
    simp [PyObj.del, Py.graphDel, Py.cgraphDel, Py.matrixDel, Py.edgeListDel, Py.vertexListDel, Py.entryListDel, Py.call,
      Call.exec, CM.ret, CApi.freeGraph, CApi.freeCGraph, CApi.freeMatrix, CApi.freeEdgeList, CApi.freeVertexList,
      CApi.freeEntryList, CApi.freeObj, h0, hM, bind, PM.bind]

/-- The memory has no live C object of any handle class at `p`. -/
def Gone (M : Heap) (p : Ptr) : Prop :=
  (∀ g, M.get? p ≠ some (.graph g)) ∧ (∀ g, M.get? p ≠ some (.cgraph g)) ∧ ∀ m, M.get? p ≠ some (.matrix m)

theorem gone_of_none {M : Heap} {p : Ptr} (h : M.get? p = none) : Gone M p := by
  refine ⟨?_, ?_, ?_⟩ <;> · intro x; rw [h]; exact fun h => by cases h

theorem gone_usize {M : Heap} {p q : Ptr} {n : Nat} (h : Gone M p) : Gone (M.insert q (.callerUsize n)) p := by
  unfold Gone at *
  simp only [HMap.get?_insert]
  split
  · refine ⟨?_, ?_, ?_⟩ <;> · intro x h; cases h
  · exact h

theorem gone_u64s {M : Heap} {p q : Ptr} {l : List Nat} (h : Gone M p) : Gone (M.insert q (.callerU64s l)) p := by
  unfold Gone at *
  simp only [HMap.get?_insert]
  split
  · refine ⟨?_, ?_, ?_⟩ <;> · intro x h; cases h
  · exact h

theorem graphRef_gone {M : Heap} {p : Ptr} (h : Gone M p) (h0 : p ≠ 0) : CApi.graphRef p M = .ub := by
  unfold CApi.graphRef
  rw [if_neg h0]
  split
  · next h1 => exact absurd h1 (h.1 _)
  · rfl

theorem cgraphRef_gone {M : Heap} {p : Ptr} (h : Gone M p) (h0 : p ≠ 0) : CApi.cgraphRef p M = .ub := by
  unfold CApi.cgraphRef
  rw [if_neg h0]
  split
  · next h1 => exact absurd h1 (h.2.1 _)
  · rfl

theorem matrixRef_gone {M : Heap} {p : Ptr} (h : Gone M p) (h0 : p ≠ 0) : CApi.matrixRef p M = .ub := by
  unfold CApi.matrixRef
  rw [if_neg h0]
  split
  · next h1 => exact absurd h1 (h.2.2 _)
  · rfl

/-- A method of an object whose C object has been freed. -/
theorem method_gone {o : PyObj} (ho : IsHandle o) {p : Ptr} (hp : o.owned = some p) (h0 : p ≠ 0) {M : Heap} (hM : Gone M p)
    (E : Ctx) (i : Nat) (m : Method) : o.method E i m M = .ub ∨ o.method E i m M = .raised .AttributeError M := by
  have hf := E.fresh_ne M
  have e1 := graphRef_gone hM h0
  have e2 := cgraphRef_gone hM h0
  have e3 := matrixRef_gone hM h0
  have e4 : ∀ n, CApi.graphRef p ((M.insert (E.fresh M) (.callerUsize n)).insert (E.fresh M) (.callerUsize 0)) = .ub :=
    fun n => graphRef_gone (gone_usize (gone_usize hM)) h0
  have e5 : ∀ n, CApi.cgraphRef p ((M.insert (E.fresh M) (.callerUsize n)).insert (E.fresh M) (.callerUsize 0)) = .ub :=
    fun n => cgraphRef_gone (gone_usize (gone_usize hM)) h0
  have e6 : ∀ n, CApi.matrixRef p ((M.insert (E.fresh M) (.callerUsize n)).insert (E.fresh M) (.callerUsize 0)) = .ub :=
    fun n => matrixRef_gone (gone_usize (gone_usize hM)) h0
  have e7 : ∀ l, CApi.graphRef p (M.insert (E.fresh M) (.callerU64s l)) = .ub := fun l => graphRef_gone (gone_u64s hM) h0
  cases o with
  | graph q =>
    cases hp
    cases m
    case addVertex v tos =>
      left
      unfold PyObj.method Py.graphAddVertex
      dsimp only
      split <;> simp [Py.call, Py.alloc, Call.exec, CM.ret, CApi.addVertex, bind, PM.bind, CM.bind, e1, e7]
    all_goals first
      | right; rfl
      | left
        simp [PyObj.method, Py.graphBytes, Py.graphDuplicate, Py.graphMatrixString, Py.graphIsUndirected, Py.graphVertexCount,
          Py.graphEdgeCount, Py.graphDoesEdgeExist, Py.graphAddEdge, Py.graphDeleteEdge, Py.graphFindAvgPoolMatrix,
          Py.graphApproximate, Py.graphCompress, Py.graphEdgeList, Py.graphVertexInEdges, Py.graphVertexOutEdges,
          Py.graphVertexInDegree, Py.graphVertexOutDegree, Py.call, Py.alloc, Call.exec, CM.ret, CApi.toBytes, CApi.duplicate,
          CApi.matrixString, CApi.isUndirected, CApi.vertexCount, CApi.edgeCount, CApi.doesEdgeExist, CApi.addEdge,
          CApi.deleteEdge, CApi.findAvgPoolMatrix, CApi.approximate, CApi.compress, CApi.getEdgeList, CApi.getInEdgesList,
          CApi.getOutEdgesList, CApi.getInDegree, CApi.getOutDegree, CApi.setUsize, HMap.get?_insert, hf, bind, PM.bind, CM.bind,
          e1, e4]
  | cgraph q =>
    cases hp
    cases m
    all_goals first
      | right; rfl
      | left
        simp [PyObj.method, Py.cgraphBytes, Py.cgraphDuplicate, Py.cgraphMatrixString, Py.cgraphIsUndirected, Py.cgraphVertexCount,
          Py.cgraphEdgeCount, Py.cgraphDoesEdgeExist, Py.cgraphDecompress, Py.cgraphCompressionLevel, Py.cgraphGetEntry,
          Py.call, Py.alloc, Call.exec, CM.ret, CApi.cToBytes, CApi.cDuplicate,
          CApi.cMatrixString, CApi.cIsUndirected, CApi.cVertexCount, CApi.cEdgeCount, CApi.cDoesEdgeExist, CApi.decompress,
          CApi.cCompressionLevel, CApi.cGetEntry, CApi.setUsize, HMap.get?_insert, hf, bind, PM.bind, CM.bind, e2, e5]
  | matrix q =>
    cases hp
    cases m
    all_goals first
      | right; rfl
      | left
        simp [PyObj.method, Py.matrixStr, Py.matrixDuplicate, Py.matrixDimension, Py.matrixEntryCount, Py.matrixGetEntry,
          Py.matrixToString, Py.matrixEntryList,
          Py.call, Py.alloc, Call.exec, CM.ret, CApi.mDuplicate, CApi.mDimension, CApi.mEntryCount, CApi.mGetEntry,
          CApi.mToStringWithPrecision, CApi.mGetEntryList, CApi.setUsize, HMap.get?_insert, hf, bind, PM.bind, CM.bind, e3, e6]
  | _ => exact ho.elim

/-- The trace of a program that makes an iterator of list `l` as object `j` and advances it `k` times. -/
def advanceTrace (E : Ctx) (l j : Nat) (xs : List PyVal) : List (Ctx × PyCall × Seen) :=
  (E, .call l .iter, .value (.ref j)) :: xs.map fun x => (E, .call j .next, .value x)

theorem next_run {x : AObj} {xs : List PyVal} (hx : x.items = some xs) {p : Ptr} (h0 : p ≠ 0) {M : Heap} (hM : M.get? p = x.obj)
    (objs : List (Option PyObj)) (l : Nat) (E : Ctx) (k : Nat) (hk : k < xs.length) :
    (PyWorld.mk M (objs ++ [some (x.pyIter p k l)])).exec E (.call objs.length .next) =
      .ok xs[k] ⟨M, objs ++ [some (x.pyIter p (k + 1) l)]⟩ := by
  rw [exec_call_eq (o := x.pyIter p k l) (by simp)]
  have hs : ∀ y : Option PyObj, (objs ++ [some (x.pyIter p k l)]).set objs.length y = objs ++ [y] := by
    intro y
    rw [List.set_append_right _ _ (Nat.le_refl _), Nat.sub_self]
    rfl
  cases x <;> cases hx
  all_goals
    simp only [List.length_map] at hk
    simp only [AObj.obj] at hM
    simp only [AObj.pyIter] at hs
    simp [AObj.pyIter, PyObj.method, Py.edgeIterNext, Py.vertexIterNext, Py.entryIterNext, Nat.ne_of_lt hk, Py.edgeAt, Py.vertexAt,
      Py.entryAt, hM, hk, bind, PM.bind, pure, PyWorld.finish]

theorem advance_run {x : AObj} {xs : List PyVal} (hx : x.items = some xs) {p : Ptr} (h0 : p ≠ 0) {M : Heap} (hM : M.get? p = x.obj)
    (objs : List (Option PyObj)) (l : Nat) (E : Ctx) (n k : Nat) (hk : k + n ≤ xs.length) :
    PyRun (PyWorld.mk M (objs ++ [some (x.pyIter p k l)])) (((xs.drop k).take n).map fun x => (E, .call objs.length .next, .value x))
      ⟨M, objs ++ [some (x.pyIter p (k + n) l)]⟩ := by
  induction n generalizing k with
  | zero => simpa using PyRun.nil
  | succ n ih =>
    rw [List.drop_eq_getElem_cons (by omega : k < xs.length), List.take_succ_cons, List.map_cons]
    refine .ok (next_run hx h0 hM objs l E k (by omega)) ?_
    have := ih (k + 1) (by omega)
    rwa [Nat.add_assoc, Nat.add_comm 1 n] at this

theorem iter_start {x : AObj} {xs : List PyVal} (hx : x.items = some xs) {p : Ptr} (h0 : p ≠ 0) {w : PyWorld} {l : Nat}
    (hl : w.objs[l]? = some (some (x.py p))) (E : Ctx) :
    w.exec E (.call l .iter) = .ok (.ref w.objs.length) ⟨w.mem, w.objs ++ [some (x.pyIter p 0 l)]⟩ := by
  rw [exec_call_eq hl]
  cases x <;> cases hx
  all_goals
    simp [AObj.py, AObj.pyIter, PyObj.method, Py.edgeListIter, Py.vertexListIter, Py.entryListIter, Py.listInit, h0, pure,
      PyWorld.finish]

/-- Only iterators change their fields. -/
def NoStep (x : PM PyOut) : Prop := ∀ h o v h', x h ≠ .ok (.step o v) h'

theorem noStep_bind {α : Type} {x : PM α} {f : α → PM PyOut} (hf : ∀ a, NoStep (f a)) : NoStep (x >>= f) := by
  intro h o v h'
  show PM.bind x f h ≠ _
  unfold PM.bind
  split
  · exact hf _ _ _ _ _
  all_goals exact fun hc => by cases hc

theorem noStep_val (v : PyVal) : NoStep (pure (.val v)) := fun _ _ _ _ h => by cases h
theorem noStep_new (o : PyObj) : NoStep (pure (.new o)) := fun _ _ _ _ h => by cases h
theorem noStep_raise (e : PyExc) : NoStep (Py.raise e) := fun _ _ _ _ h => by cases h
theorem noStep_listInit (q : Ptr) (o : PyObj) : NoStep (Py.listInit q o) := by
  unfold Py.listInit
  split
  · exact noStep_raise _
  · exact noStep_new _

theorem noStep_takeString (E : Ctx) (q : Ptr) : NoStep (Py.takeString E q) := by
  unfold Py.takeString
  refine noStep_bind fun s => noStep_bind fun _ => ?_
  cases s
  · exact noStep_raise _
  · exact noStep_val _

theorem noStep_method {o : PyObj} (ho : o.owned ≠ none) (E : Ctx) (i : Nat) (m : Method) : NoStep (o.method E i m) := by
  cases o <;> first | exact absurd rfl ho | skip
  all_goals
    cases m
    all_goals first
      | exact noStep_raise _
      | exact noStep_val _
      | exact noStep_listInit _ _
      | (unfold PyObj.method Py.graphAddVertex
         dsimp only
         split
         · exact noStep_bind fun _ => noStep_val _
         · exact noStep_bind fun _ => noStep_bind fun _ => noStep_bind fun _ => noStep_val _)
      | exact noStep_bind fun _ => noStep_takeString _ _
      | exact noStep_bind fun _ => noStep_bind fun _ => noStep_takeString _ _
      | exact noStep_bind fun _ => noStep_val _
      | exact noStep_bind fun _ => noStep_bind fun _ => noStep_val _
      | exact noStep_bind fun _ => noStep_bind fun _ => noStep_bind fun _ => noStep_val _
      | exact noStep_bind fun _ => noStep_new _
      | exact noStep_bind fun _ => noStep_bind fun _ => noStep_new _
      | exact noStep_bind fun _ => noStep_bind fun _ => noStep_bind fun _ => noStep_bind fun _ => noStep_bind fun _ =>
          noStep_listInit _ _
      | exact noStep_bind fun _ => noStep_bind fun _ => noStep_bind fun _ => noStep_bind fun _ => noStep_bind fun _ =>
          noStep_bind fun _ => noStep_bind fun _ => noStep_val _

/-- Objects other than iterators keep their fields until they are collected. -/
theorem fields_kept {w w' : PyWorld} {i : Nat} {o : PyObj} (hi : w.objs[i]? = some (some o)) (ho : o.owned ≠ none) {E : Ctx}
    {c : PyCall} (hc : c ≠ .collect i) (h : (∃ v, w.exec E c = .ok v w') ∨ ∃ e, w.exec E c = .raised e w') :
    w'.objs[i]? = some (some o) := by
  have happ : ∀ x : Option PyObj, (w.objs ++ [x])[i]? = some (some o) := fun x => by
    rw [List.getElem?_append_left (List.getElem?_eq_some_iff.1 hi).1, hi]
  have hcreate : ∀ x, ((∃ v, w.create x = .ok v w') ∨ ∃ e, w.create x = .raised e w') → w'.objs[i]? = some (some o) := by
    intro x h
    cases x <;> rcases h with ⟨_, h⟩ | ⟨_, h⟩ <;> cases h
    · exact happ _
    · exact hi
  cases c with
  | newGraph u => exact hcreate _ h
  | graphFromBytes b => exact hcreate _ h
  | cgraphFromBytes b => exact hcreate _ h
  | call k m =>
    unfold PyWorld.exec at h
    dsimp only at h
    split at h
    · next o' hk =>
      have hk' : w.objs[k]? = some (some o') := by
        cases e : w.objs[k]? with
        | none => rw [e] at hk; cases hk
        | some y => rw [e] at hk; cases y with
          | none => cases hk
          | some z => simp only [Option.join_some, Option.some.injEq] at hk; rw [hk]
      generalize hx : o'.method E k m w.mem = x at h
      cases x with
      | ok y M =>
        cases y with
        | val v => rcases h with ⟨_, h⟩ | ⟨_, h⟩ <;> cases h; exact hi
        | new z => rcases h with ⟨_, h⟩ | ⟨_, h⟩ <;> cases h; exact happ _
        | step z v =>
          have hne : k ≠ i := by
            rintro rfl
            rw [hi] at hk'
            cases hk'
            exact noStep_method ho E k m _ _ _ _ hx
          rcases h with ⟨_, h⟩ | ⟨_, h⟩ <;> cases h
          show (w.objs.set k _)[i]? = _
          rw [List.getElem?_set_ne hne, hi]
      | raised e M => rcases h with ⟨_, h⟩ | ⟨_, h⟩ <;> cases h; exact hi
      | ub => rcases h with ⟨_, h⟩ | ⟨_, h⟩ <;> cases h
      | abort => rcases h with ⟨_, h⟩ | ⟨_, h⟩ <;> cases h
    · rcases h with ⟨_, h⟩ | ⟨_, h⟩ <;> cases h; exact hi
  | collect k =>
    have hne : k ≠ i := fun h => hc (h ▸ rfl)
    unfold PyWorld.exec at h
    dsimp only at h
    split at h
    · split at h
      · rcases h with ⟨_, h⟩ | ⟨_, h⟩ <;> cases h; exact hi
      · split at h
        · rcases h with ⟨_, h⟩ | ⟨_, h⟩ <;> cases h
          show (w.objs.set k _)[i]? = _
          rw [List.getElem?_set_ne hne, hi]
        · rcases h with ⟨_, h⟩ | ⟨_, h⟩ <;> cases h; exact hi
        · rcases h with ⟨_, h⟩ | ⟨_, h⟩ <;> cases h
        · rcases h with ⟨_, h⟩ | ⟨_, h⟩ <;> cases h
    · rcases h with ⟨_, h⟩ | ⟨_, h⟩ <;> cases h; exact hi

theorem fields_kept_run {w w' : PyWorld} {t} (hr : PyRun w t w') {i : Nat} {o : PyObj} (hi : w.objs[i]? = some (some o))
    (ho : o.owned ≠ none) (hc : ∀ s ∈ t, ¬ Collects i s) : w'.objs[i]? = some (some o) := by
  induction hr with
  | nil => exact hi
  | ok h1 _ ih =>
    refine ih (fields_kept hi ho ?_ (.inl ⟨_, h1⟩)) fun s hs => hc s (by simp [hs])
    rintro rfl
    exact hc _ List.mem_cons_self rfl
  | raised h1 _ ih =>
    refine ih (fields_kept hi ho ?_ (.inr ⟨_, h1⟩)) fun s hs => hc s (by simp [hs])
    rintro rfl
    exact hc _ List.mem_cons_self rfl

/-! ## C114 -/

/-- **C114.** `copy.copy` of a live object always succeeds and gives a new object with the same fields; nothing else changes. -/
theorem C114_copy {w : PyWorld} {i : Nat} {o : PyObj} (hi : w.objs[i]? = some (some o)) :
    ∃ w', w.copy i = .ok (.ref w.objs.length) w' ∧ SameFields w' i w.objs.length o ∧ w'.mem = w.mem ∧
      w'.objs.length = w.objs.length + 1 ∧ ∀ j, j < w.objs.length → w'.objs[j]? = w.objs[j]? := by
  refine ⟨⟨w.mem, w.objs ++ [some o]⟩, by unfold PyWorld.copy; simp only [hi, Option.join_some], ⟨?_, by simp⟩, rfl, by simp, ?_⟩
  · show (w.objs ++ [some o])[i]? = _
    rw [List.getElem?_append_left (List.getElem?_eq_some_iff.1 hi).1, hi]
  · intro j hj
    show (w.objs ++ [some o])[j]? = _
    rw [List.getElem?_append_left hj]

/-- **C114.** Whatever the program does after copying an object that is not an iterator: as long as neither has been collected, calling a
method of the copy is the same as calling it on the original.  In particular edits through one are seen through the other. -/
theorem C114_shared {w w' w'' : PyWorld} {i j : Nat} {o : PyObj} (hi : w.objs[i]? = some (some o)) (ho : o.owned ≠ none)
    (hcopy : w.copy i = .ok (.ref j) w') {t} (hr : PyRun w' t w'') (hc : ∀ s ∈ t, ¬ Collects i s ∧ ¬ Collects j s)
    (E : Ctx) (m : Method) (hm : m ≠ .iter) : w''.exec E (.call i m) = w''.exec E (.call j m) := by
  obtain ⟨w₁, h1, h2, -⟩ := C114_copy hi
  rw [h1] at hcopy
  cases hcopy
  rw [exec_call_eq (fields_kept_run hr h2.1 ho fun s hs => (hc s hs).1),
    exec_call_eq (fields_kept_run hr h2.2 ho fun s hs => (hc s hs).2)]
  have hm' : ∀ M : Heap, o.method E i m M = o.method E w.objs.length m M := by
    intro M
    cases m <;> first | exact absurd rfl hm | (cases o <;> rfl)
  rw [hm']
  unfold PyWorld.finish
  split <;> first | rfl | (exfalso; rename_i hc; exact noStep_method ho E _ m _ _ _ _ hc)

/-- The program drops object `k`, which no iterator refers to. -/
theorem collect_eq {w : PyWorld} {k : Nat} {o : PyObj} (hk : w.objs[k]? = some (some o)) (hr : w.referenced k = false) (E : Ctx) :
    w.exec E (.collect k) = match o.del E w.mem with
      | .ok _ h => .ok .none ⟨h, w.objs.set k none⟩
      | .raised e h => .raised e ⟨h, w.objs⟩
      | .ub => .ub
      | .abort => .abort := by
  unfold PyWorld.exec
  simp only [hk, Option.join_some, hr, Bool.false_eq_true, if_false]
  cases o.del E w.mem <;> rfl

theorem referenced_append {w : PyWorld} {o : PyObj} (ho : o.listRef = none) (M : Heap) (k : Nat) :
    (PyWorld.mk M (w.objs ++ [some o])).referenced k = w.referenced k := by
  unfold PyWorld.referenced
  simp [ho]

theorem referenced_set {M : Heap} {l : List (Option PyObj)} {k n : Nat} (h : (PyWorld.mk M l).referenced k = false) (M' : Heap) :
    (PyWorld.mk M' (l.set n none)).referenced k = false := by
  unfold PyWorld.referenced at *
  rw [List.any_eq_false] at *
  intro x hx
  rcases List.mem_or_eq_of_mem_set hx with h1 | h1
  · exact h x h1
  · rw [h1]; simp

/-- A number not yet given to an object is not the list of an iterator. -/
theorem not_referenced_new {t} {w : PyWorld} (h : PyRun PyWorld.start t w) : w.referenced w.objs.length = false := by
  obtain ⟨a, _, s⟩ := sim_run h sim_start
  rw [← Bool.not_eq_true, show w = PyWorld.mk w.mem w.objs from rfl, s.referenced_iff]
  rintro ⟨pos, hp⟩
  obtain ⟨k, hk⟩ := List.getElem?_of_mem hp
  obtain ⟨o, h1, h2⟩ := s.at_val hk
  generalize e2 : some (AObj.iter w.objs.length pos) = y at h2
  cases h2 with
  | dead => cases e2
  | @owner x p h3 => cases e2; exact absurd rfl h3
  | iter h3 h4 h5 h6 =>
    cases e2
    have := (List.getElem?_eq_some_iff.1 h6).1
    omega

/-- **C114.** When a copy and its original have both been dropped, the same memory is freed twice, in either order. -/
theorem C114_double_free {t} {w w' : PyWorld} (h : PyRun PyWorld.start t w) {i j : Nat} {o : PyObj}
    (hi : w.objs[i]? = some (some o)) (ho : OwnsMemory o) (hr : w.referenced i = false) (hcopy : w.copy i = .ok (.ref j) w') (E : Ctx) :
    (∃ w₁, w'.exec E (.collect i) = .ok .none w₁ ∧ ∀ E', w₁.exec E' (.collect j) = .ub) ∧
    ∃ w₂, w'.exec E (.collect j) = .ok .none w₂ ∧ ∀ E', w₂.exec E' (.collect i) = .ub := by
  obtain ⟨p, hp⟩ := owns_owned ho
  obtain ⟨h0, hd⟩ := del_ok h hi hp E
  have hlt := (List.getElem?_eq_some_iff.1 hi).1
  have hl : o.listRef = none := by cases o <;> first | rfl | exact ho.elim
  unfold PyWorld.copy at hcopy
  simp only [hi, Option.join_some] at hcopy
  cases hcopy
  have hi' : (w.objs ++ [some o])[i]? = some (some o) := by rw [List.getElem?_append_left hlt, hi]
  have hj' : (w.objs ++ [some o])[w.objs.length]? = some (some o) := by simp
  have hri : (PyWorld.mk w.mem (w.objs ++ [some o])).referenced i = false := by rw [referenced_append hl]; exact hr
  have hrj : (PyWorld.mk w.mem (w.objs ++ [some o])).referenced w.objs.length = false := by
    rw [referenced_append hl]; exact not_referenced_new h
  have hM : (w.mem.remove p).get? p = none := by rw [HMap.get?_remove, if_pos rfl]
  constructor
  · refine ⟨⟨w.mem.remove p, (w.objs ++ [some o]).set i none⟩, ?_, fun E' => ?_⟩
    · rw [collect_eq hi' hri, hd]
    · rw [collect_eq (o := o) (by rw [List.getElem?_set_ne (by omega)]; exact hj') (referenced_set hrj _), del_ub hp h0 hM]
  · refine ⟨⟨w.mem.remove p, (w.objs ++ [some o]).set w.objs.length none⟩, ?_, fun E' => ?_⟩
    · rw [collect_eq hj' hrj, hd]
    · rw [collect_eq (o := o) (by rw [List.getElem?_set_ne (by omega)]; exact hi') (referenced_set hri _), del_ub hp h0 hM]

/-- **C114.** Once one of them has been dropped, every method of the other (if its class has it) uses freed memory. -/
theorem C114_use_after_free {t} {w w' : PyWorld} (h : PyRun PyWorld.start t w) {i j : Nat} {o : PyObj}
    (hi : w.objs[i]? = some (some o)) (ho : IsHandle o) (hr : w.referenced i = false) (hcopy : w.copy i = .ok (.ref j) w') (E : Ctx)
    {k k' : Nat} (hk : k = i ∧ k' = j ∨ k = j ∧ k' = i) :
    ∃ w₁, w'.exec E (.collect k) = .ok .none w₁ ∧
      ∀ E' m, w₁.exec E' (.call k' m) = .ub ∨ w₁.exec E' (.call k' m) = .raised .AttributeError w₁ := by
  have hom : OwnsMemory o := by cases o <;> first | trivial | exact ho.elim
  obtain ⟨p, hp⟩ := owns_owned hom
  obtain ⟨h0, hd⟩ := del_ok h hi hp E
  have hlt := (List.getElem?_eq_some_iff.1 hi).1
  have hl : o.listRef = none := by cases o <;> first | rfl | exact ho.elim
  unfold PyWorld.copy at hcopy
  simp only [hi, Option.join_some] at hcopy
  cases hcopy
  have hi' : (w.objs ++ [some o])[i]? = some (some o) := by rw [List.getElem?_append_left hlt, hi]
  have hj' : (w.objs ++ [some o])[w.objs.length]? = some (some o) := by simp
  have hri : (PyWorld.mk w.mem (w.objs ++ [some o])).referenced i = false := by rw [referenced_append hl]; exact hr
  have hrj : (PyWorld.mk w.mem (w.objs ++ [some o])).referenced w.objs.length = false := by
    rw [referenced_append hl]; exact not_referenced_new h
  have hM : Gone (w.mem.remove p) p := gone_of_none (by rw [HMap.get?_remove, if_pos rfl])
  have key : ∀ k k', k ≠ k' → (w.objs ++ [some o])[k]? = some (some o) → (w.objs ++ [some o])[k']? = some (some o) →
      (PyWorld.mk w.mem (w.objs ++ [some o])).referenced k = false →
      ∃ w₁, (PyWorld.mk w.mem (w.objs ++ [some o])).exec E (.collect k) = .ok .none w₁ ∧
        ∀ E' m, w₁.exec E' (.call k' m) = .ub ∨ w₁.exec E' (.call k' m) = .raised .AttributeError w₁ := by
    intro k k' hne e1 e2 e3
    refine ⟨⟨w.mem.remove p, (w.objs ++ [some o]).set k none⟩, by rw [collect_eq e1 e3, hd], fun E' m => ?_⟩
    rw [exec_call_eq (o := o) (by rw [List.getElem?_set_ne hne]; exact e2)]
    rcases method_gone ho hp h0 hM E' k' m with e | e
    · left; simp only [e]; rfl
    · right; simp only [e]; rfl
  rcases hk with ⟨rfl, rfl⟩ | ⟨rfl, rfl⟩
  · exact key _ _ (by omega) hi' hj' hri
  · exact key _ _ (by omega) hj' hi' hrj

/-- **C114.** Copies of iterators are harmless: a program could have got the same objects with `iter` and `next`. -/
theorem C114_iterator {t} {w w' : PyWorld} (h : PyRun PyWorld.start t w) {i j : Nat} {o : PyObj}
    (hi : w.objs[i]? = some (some o)) (ho : o.owned = none) (hcopy : w.copy i = .ok (.ref j) w') (E : Ctx) :
    ∃ t', PyRun w t' w' ∧ PyRun PyWorld.start (t ++ t') w' := by
  obtain ⟨a, _, s⟩ := sim_run h sim_start
  unfold PyWorld.copy at hcopy
  simp only [hi, Option.join_some] at hcopy
  cases hcopy
  obtain ⟨x, h1, h2⟩ := s.at_obj hi
  generalize e1 : some o = o' at h2
  cases h2 with
  | dead => cases e1
  | owner h3 => cases e1; rw [owned_py h3] at ho; cases ho
  | @iter l pos x p xs h3 h4 h5 h6 =>
    cases e1
    obtain ⟨h0, hM⟩ := s.owner_mem (items_obj h4) h6 h3
    have hrun : PyRun w (advanceTrace E l w.objs.length (xs.take pos)) ⟨w.mem, w.objs ++ [some (x.pyIter p pos l)]⟩ := by
      refine .ok (iter_start h4 h0 h6 E) ?_
      have := advance_run h4 h0 hM w.objs l E pos 0 (by omega)
      rwa [List.drop_zero, Nat.zero_add] at this
    exact ⟨_, hrun, pyrun_append h hrun⟩

/-- **C114.** A program that calls `__del__` itself frees the memory twice as soon as the object is dropped or `__del__` called again, and
every method in between uses freed memory. -/
theorem C114_del {t} {w : PyWorld} (h : PyRun PyWorld.start t w) {i : Nat} {o : PyObj} (hi : w.objs[i]? = some (some o))
    (ho : OwnsMemory o) (hr : w.referenced i = false) (E : Ctx) :
    ∃ w₁, w.callDel E i = .ok .none w₁ ∧ (∀ E', w₁.exec E' (.collect i) = .ub) ∧ (∀ E', w₁.callDel E' i = .ub) ∧
      (IsHandle o → ∀ E' m, w₁.exec E' (.call i m) = .ub ∨ w₁.exec E' (.call i m) = .raised .AttributeError w₁) := by
  obtain ⟨p, hp⟩ := owns_owned ho
  obtain ⟨h0, hd⟩ := del_ok h hi hp E
  have hl : o.listRef = none := by cases o <;> first | rfl | exact ho.elim
  have hM : (w.mem.remove p).get? p = none := by rw [HMap.get?_remove, if_pos rfl]
  refine ⟨⟨w.mem.remove p, w.objs⟩, ?_, fun E' => ?_, fun E' => ?_, fun hh E' m => ?_⟩
  · unfold PyWorld.callDel
    simp only [hi, Option.join_some, hl, Option.isSome_none, Bool.false_eq_true, if_false, hd]
  · rw [collect_eq (w := ⟨w.mem.remove p, w.objs⟩) hi hr, del_ub hp h0 hM]
  · unfold PyWorld.callDel
    simp only [hi, Option.join_some, hl, Option.isSome_none, Bool.false_eq_true, if_false, del_ub hp h0 hM]
  · rw [exec_call_eq (w := ⟨w.mem.remove p, w.objs⟩) hi]
    rcases method_gone hh hp h0 (gone_of_none hM) E' i m with e | e
    · left; simp only [e]; rfl
    · right; simp only [e]; rfl

/-- Is the outcome undefined behaviour? -/
def isUb {σ α : Type} : PyRes σ α → Bool
  | .ub => true
  | _ => false

/-- C114: `g = Graph(); h = copy.copy(g); h.add_edge(0, 1)`: `g` has the edge too; after `del g`, `h.edge_count()` and `del h` are undefined. -/
example : ∃ w w' w'' w₁ w₂, PyRun PyWorld.start [(exE, .newGraph false, .value (.ref 0))] w ∧ w.objs[0]? = some (some (.graph 1)) ∧
    w.referenced 0 = false ∧ w.copy 0 = .ok (.ref 1) w' ∧ PyRun w' [(exE, .call 1 (.addEdge 0 1), .value .none)] w'' ∧
    w''.exec exE (.call 0 .edgeCount) = .ok (.int 1) w₁ ∧ w''.exec exE (.collect 0) = .ok .none w₂ ∧
    isUb (w₂.exec exE (.call 1 .edgeCount)) = true ∧ isUb (w₂.exec exE (.collect 1)) = true :=
  ⟨_, _, _, _, _, .ok rfl .nil, rfl, rfl, rfl, .ok rfl .nil, rfl, rfl, rfl, rfl⟩

/-- C114: an iterator that has been advanced once can be copied. -/
example : ∃ w, Reached exPyT w exPyA ∧ ∃ w₁ w₂ w₃, w.exec exE (.call 1 .iter) = .ok (.ref 2) w₁ ∧
    w₁.exec exE (.call 2 .next) = .ok (.edge 0 1) w₂ ∧ w₂.copy 2 = .ok (.ref 3) w₃ := by
  obtain ⟨w, hw⟩ := exPy_reached
  obtain ⟨w₁, h1, r1⟩ := reached_ret hw (E := exE) (c := .call 1 .iter) rfl
  obtain ⟨w₂, h2, r2⟩ := reached_ret r1 (E := exE) (c := .call 2 .next) rfl
  have hi : (w₂.objs[2]?).join ≠ none := by
    obtain ⟨o, h3, h4⟩ := (reached_sim r2).at_val (i := 2) (x := some (.iter 1 1)) rfl
    rw [h3]
    generalize e : some (AObj.iter 1 1) = x at h4
    cases h4 with
    | dead => cases e
    | owner _ _ _ => simp
    | iter _ _ _ _ => simp
  obtain ⟨o, ho⟩ := Option.ne_none_iff_exists'.1 hi
  have hlen : w₂.objs.length = 3 := (reached_sim r2).len
  refine ⟨w, hw, w₁, w₂, ⟨w₂.mem, w₂.objs ++ [some o]⟩, h1, h2, ?_⟩
  unfold PyWorld.copy
  rw [ho, hlen]

end Verif.Props
