import Verif.Props.CApi
import Verif.Spec.Py

/-!
# The Python wrapper implements its specification on values
-/

namespace Verif
open Spec

namespace PM

variable {α β : Type}

theorem bind_apply (x : PM α) (f : α → PM β) (h : Heap) :
    (x >>= f) h = match x h with
      | .ok a h' => f a h' | .raised e h' => .raised e h' | .ub => .ub | .abort => .abort := rfl

theorem pure_apply (a : α) (h : Heap) : (pure a : PM α) h = .ok a h := rfl

end PM

/-- The C object behind a Python object; iterators have none. -/
def Spec.AObj.obj : AObj → Option Obj
  | .graph g => some (.graph g)
  | .cgraph g => some (.cgraph g)
  | .matrix m => some (.matrix m)
  | .edges l => some (.edges l)
  | .vertices l => some (.vertices l)
  | .entries l => some (.entries l)
  | .iter _ _ => none

/-- The Python object for a value, given the address of the C object. -/
def Spec.AObj.py (p : Ptr) : AObj → PyObj
  | .graph _ => .graph p
  | .cgraph _ => .cgraph p
  | .matrix _ => .matrix p
  | .edges l => .edgeList p l.length
  | .vertices l => .vertexList p l.length
  | .entries l => .entryList p l.length
  | .iter list pos => .edgeIter p 0 pos list

/-- An iterator of a list. -/
def Spec.AObj.pyIter (p : Ptr) (pos list : Nat) : AObj → PyObj
  | .edges l => .edgeIter p l.length pos list
  | .vertices l => .vertexIter p l.length pos list
  | .entries l => .entryIter p l.length pos list
  | _ => .edgeIter p 0 pos list

/-- The result of a method of object `self`, with value `x` and C object at `p`, is as specified. -/
inductive Real (M : Mem) (x : AObj) (p : Ptr) (self : Nat) : PyRes Heap PyOut → AOut → Prop
  | val {v h'} : h'.get? = M → Real M x p self (.ok (.val v) h') (.val v)
  | new {a q h'} : a.obj ≠ none → q ≠ 0 → M q = none → h'.get? = M.put q a.obj →
      Real M x p self (.ok (.new (a.py q)) h') (.new a)
  | iter {xs h'} : x.items = some xs → h'.get? = M → Real M x p self (.ok (.new (x.pyIter p 0 self)) h') (.new (.iter self 0))
  | edit {g g' v h'} : x = .graph g → h'.get? = M.put p (some (.graph g')) →
      Real M x p self (.ok (.val v) h') (.step (.graph g') v)
  | raised {e h'} : h'.get? = M → Real M x p self (.raised e h') (.raises e)
  | panic : Real M x p self .abort .panics

theorem put_same {M : Mem} {q : Ptr} {x : Option Obj} (h : M q = x) : M.put q x = M := by
  funext r
  unfold Mem.put
  split
  · next e => rw [e, h]
  · rfl

theorem put_comm {M : Mem} {p q : Ptr} {x y : Option Obj} (h : p ≠ q) : (M.put p x).put q y = (M.put q y).put p x := by
  funext r
  unfold Mem.put
  by_cases h1 : r = p <;> by_cases h2 : r = q <;> simp_all

section calls
variable {E : Ctx} {c : Call} {h : Heap} {p : Ptr} {k : Kind} {x : Obj}

theorem valid_handle (hh : c.handle = some (p, k)) (hx : h.get? p = some x) (hk : x.kind = some k)
    (ho : c.out = 0 ∨ ∃ n, h.get? c.out = some (.callerUsize n))
    (hl : ∀ p v tos n, c = .addVertex p v tos n → tos = 0 ∨ ∃ l, listAt h.get? tos n = some l) : Valid h.get? c where
  handle p' k' e := by rw [hh] at e; cases e; exact .inr ⟨x, hx, hk⟩
  out := ho
  list p v tos n e := .inr (hl p v tos n e)
  input E p n e f h1 := by rw [Props.handle_decodes hh] at h1; cases h1
  free p ok h1 := by rw [Props.handle_frees hh] at h1; cases h1

/-- A query. -/
theorem exec_answer (hh : c.handle = some (p, k)) (hp : p ≠ 0) (hx : h.get? p = some x) (hk : x.kind = some k) {v : Val}
    (ha : c.answer x = some v) : ∃ h', c.exec E h = .ok v h' ∧ h'.get? = h.get? := by
  have hm := (Props.answer_makes (E := E) (M := h.get?) ha)
  have hv : Valid h.get? c := valid_handle hh hx hk (.inl hm.2.2)
    (by rintro p v tos n rfl; cases x <;> cases ha)
  rcases Props.C60_defined E c h hv with ⟨v', h', he⟩ | ⟨_, hpn⟩
  · obtain ⟨e1, e2⟩ := (Props.meaning_handle hh hp hx (Props.exec_ok_meaning he)).1 v ha
    exact ⟨h', by rw [he, e1], e2⟩
  · rcases hpn with ⟨p', k', x', h1, _, h3, h4⟩ | ⟨_, _, _, _, _, h1, _⟩
    · rw [hh] at h1; cases h1
      rw [hx] at h3; cases h3
      rw [hm.1] at h4; cases h4
    · rw [Props.handle_decodes hh] at h1; cases h1

theorem exec_makes_ok (hh : c.handle = some (p, k)) (hp : p ≠ 0) (hx : h.get? p = some x) (hk : x.kind = some k)
    (ho : c.out = 0 ∨ ∃ n, h.get? c.out = some (.callerUsize n)) {y : Obj} (hm : c.makes E x = some (.ok y)) :
    ∃ q h', c.exec E h = .ok (.ptr q) h' ∧ q ≠ 0 ∧ h.get? q = none ∧
      h'.get? = (Mem.putSize h.get? c.out y.size).put q (some y) := by
  have hv : Valid h.get? c := valid_handle hh hx hk ho (by rintro p v tos n rfl; cases x <;> cases hm)
  rcases Props.C60_defined E c h hv with ⟨v', h', he⟩ | ⟨_, hpn⟩
  · obtain ⟨q, e1, e2, e3, e4⟩ := (Props.meaning_handle hh hp hx (Props.exec_ok_meaning he)).2.1 y hm
    exact ⟨q, h', by rw [he, e1], e2, e3, e4⟩
  · rcases hpn with ⟨p', k', x', h1, _, h3, h4⟩ | ⟨_, _, _, _, _, h1, _⟩
    · rw [hh] at h1; cases h1
      rw [hx] at h3; cases h3
      rw [hm] at h4; cases h4
    · rw [Props.handle_decodes hh] at h1; cases h1

theorem exec_makes_err (hh : c.handle = some (p, k)) (hp : p ≠ 0) (hx : h.get? p = some x) (hk : x.kind = some k)
    (ho : c.out = 0 ∨ ∃ n, h.get? c.out = some (.callerUsize n)) {er : GraphRoxError} (hm : c.makes E x = some (.err er)) :
    ∃ h', c.exec E h = .ok (.ptr 0) h' ∧ h'.get? = Mem.putSize h.get? c.out 0 := by
  have hv : Valid h.get? c := valid_handle hh hx hk ho (by rintro p v tos n rfl; cases x <;> cases hm)
  rcases Props.C60_defined E c h hv with ⟨v', h', he⟩ | ⟨_, hpn⟩
  · obtain ⟨e1, e2⟩ := (Props.meaning_handle hh hp hx (Props.exec_ok_meaning he)).2.2.1 er hm
    exact ⟨h', by rw [he, e1], e2⟩
  · rcases hpn with ⟨p', k', x', h1, _, h3, h4⟩ | ⟨_, _, _, _, _, h1, _⟩
    · rw [hh] at h1; cases h1
      rw [hx] at h3; cases h3
      rw [hm] at h4; cases h4
    · rw [Props.handle_decodes hh] at h1; cases h1

theorem exec_makes_panic (hh : c.handle = some (p, k)) (hp : p ≠ 0) (hx : h.get? p = some x) (hk : x.kind = some k)
    (ho : c.out = 0 ∨ ∃ n, h.get? c.out = some (.callerUsize n)) (hm : c.makes E x = some .panic) :
    c.exec E h = .abort := by
  have hv : Valid h.get? c := valid_handle hh hx hk ho (by rintro p v tos n rfl; cases x <;> cases hm)
  rcases Props.C60_defined E c h hv with ⟨v', h', he⟩ | ⟨he, _⟩
  · exact absurd hm (Props.meaning_handle hh hp hx (Props.exec_ok_meaning he)).2.2.2.1
  · exact he

theorem exec_edit (hh : c.handle = some (p, k)) (hp : p ≠ 0) {g : Graph} (hx : h.get? p = some (.graph g)) {e : Edit}
    (he : c.edit? h.get? = some e) :
    ∃ v h', c.exec E h = .ok v h' ∧ h'.get? = Mem.put h.get? p (some (.graph (e.call g))) := by
  have hk := Props.edit_kind hh he
  subst hk
  have hv : Valid h.get? c := valid_handle hh hx rfl
    (.inl (by cases c <;> simp_all [Call.edit?, Call.out]))
    (by
      rintro p v tos n rfl
      simp only [Call.edit?] at he
      split at he
      · cases he
      · rw [Option.map_eq_some_iff] at he
        obtain ⟨l, hl, _⟩ := he
        exact .inr ⟨l, hl⟩)
  rcases Props.C60_defined E c h hv with ⟨v', h', hx'⟩ | ⟨_, hpn⟩
  · exact ⟨v', h', hx', (Props.meaning_handle hh hp hx (Props.exec_ok_meaning hx')).2.2.2.2 g e rfl he⟩
  · rcases hpn with ⟨p', k', x', h1, _, h3, h4⟩ | ⟨_, _, _, _, _, h1, _⟩
    · rw [Props.makes_edit h4] at he; cases he
    · rw [Props.handle_decodes hh] at h1; cases h1

end calls

namespace Py

variable {E : Ctx} {h : Heap} {c : Call} {x : AObj} {p : Ptr} {self : Nat} {y : Obj} {k : Kind}

theorem call_ok {v : Val} {h' : Heap} (he : c.exec E h = .ok v h') : call E c h = .ok v h' := by
  unfold call; rw [he]

theorem call_abort (he : c.exec E h = .abort) : call E c h = .abort := by
  unfold call; rw [he]

/-- Methods returning a number. -/
theorem real_num (hh : c.handle = some (p, k)) (hp : p ≠ 0) (hx : h.get? p = some y) (hk : y.kind = some k) {n : Nat}
    (ha : c.answer y = some (.num n)) {f : Nat → PyVal} {v : PyVal} (hv : f n = v) :
    Real h.get? x p self ((do let n ← asNum (← call E c); pure (.val (f n)) : PM PyOut) h) (.val v) := by
  obtain ⟨h', he, hm⟩ := exec_answer (E := E) hh hp hx hk ha
  simp only [PM.bind_apply, call_ok he, asNum, PM.pure_apply, hv]
  exact .val hm

/-- Methods returning a new object. -/
theorem real_made (hh : c.handle = some (p, k)) (hp : p ≠ 0) (hx : h.get? p = some y) (hk : y.kind = some k)
    (ho : c.out = 0) {α : Type} {r : Res α} {fo : α → Obj} {fa : α → AObj} {fp : Ptr → PyObj}
    (hm : c.makes E y = some (plain fo r)) (h1 : ∀ a, (fa a).obj = some (fo a)) (h2 : ∀ a q, (fa a).py q = fp q) :
    Real h.get? x p self ((do let q ← asPtr (← call E c); pure (.new (fp q)) : PM PyOut) h) (.made fa r) := by
  cases r with
  | ok a =>
    obtain ⟨q, h', he, hq, hn, hm'⟩ := exec_makes_ok (E := E) hh hp hx hk (.inl ho) hm
    simp only [PM.bind_apply, call_ok he, asPtr, PM.pure_apply, AOut.made]
    rw [← h2 a]
    refine .new ?_ hq hn ?_
    · rw [h1]; simp
    · rw [hm', ho, Mem.putSize_zero, h1]
  | err e =>
    simp only [PM.bind_apply, call_abort (exec_makes_panic (E := E) hh hp hx hk (.inl ho) hm), AOut.made]
    exact .panic
  | panic =>
    simp only [PM.bind_apply, call_abort (exec_makes_panic (E := E) hh hp hx hk (.inl ho) hm), AOut.made]
    exact .panic

/-- Methods that read a list through a size parameter. -/
theorem real_list (c : Ptr → Call) (hh : ∀ s, (c s).handle = some (p, k)) (hp : p ≠ 0) (hx : h.get? p = some y)
    (hk : y.kind = some k) (ho : ∀ s, (c s).out = s) {a : AObj} {z : Obj} {fp : Ptr → Nat → PyObj}
    (hm : ∀ s, (c s).makes E y = some (.ok z)) (h1 : a.obj = some z) (h2 : ∀ q, a.py q = fp q z.size) :
    Real h.get? x p self ((do
      let size ← alloc E (.callerUsize 0)
      let q ← asPtr (← call E (c size))
      let n ← readUsize size
      dealloc size
      listInit q (fp q n) : PM PyOut) h) (.new a) := by
  have hs := E.fresh_ne h
  have hf := E.fresh_free h
  have hne : p ≠ E.fresh h := by rintro e; rw [e, hf] at hx; cases hx
  have hx1 : (h.insert (E.fresh h) (.callerUsize 0)).get? p = some y := by rw [HMap.get?_insert, if_neg hne, hx]
  obtain ⟨q, h', he, hq, hn, hm'⟩ := exec_makes_ok (E := E) (hh (E.fresh h)) hp hx1 hk
    (.inr ⟨0, by rw [ho, HMap.get?_insert, if_pos rfl]⟩) (hm _)
  have hqs : q ≠ E.fresh h := by rintro rfl; rw [HMap.get?_insert, if_pos rfl] at hn; cases hn
  rw [ho, get?_insert_put] at hm'
  have hrd : h'.get? (E.fresh h) = some (.callerUsize z.size) := by
    rw [hm']; simp [Mem.put, Mem.putSize, hs, hqs.symm]
  simp only [PM.bind_apply, alloc, call_ok he, asPtr, readUsize, hrd, dealloc, listInit, if_neg hq, PM.pure_apply]
  rw [← h2 q]
  refine .new (by rw [h1]; simp) hq ?_ ?_
  · rwa [HMap.get?_insert, if_neg hqs] at hn
  · rw [get?_remove_put, hm', h1]
    funext r
    simp only [Mem.put, Mem.putSize, hs, if_false]
    by_cases hr : r = E.fresh h
    · subst hr; simp [hqs.symm, hf]
    · simp [hr]

/-- Methods that return bytes. -/
theorem real_bytes (c : Ptr → Call) (hh : ∀ s, (c s).handle = some (p, k)) (hp : p ≠ 0) (hx : h.get? p = some y)
    (hk : y.kind = some k) (ho : ∀ s, (c s).out = s) {r : Res Bytes}
    (hm : ∀ s, (c s).makes E y = some (r.map .bytes)) :
    Real h.get? x p self ((do
      let size ← alloc E (.callerUsize 0)
      let q ← asPtr (← call E (c size))
      let n ← readUsize size
      let b ← sliceBytes q n
      let _ ← call E (.freeBytes q n)
      dealloc size
      pure (.val (.bytes b)) : PM PyOut) h) (.bytes r) := by
  have hs := E.fresh_ne h
  have hf := E.fresh_free h
  have hne : p ≠ E.fresh h := by rintro e; rw [e, hf] at hx; cases hx
  have hx1 : (h.insert (E.fresh h) (.callerUsize 0)).get? p = some y := by rw [HMap.get?_insert, if_neg hne, hx]
  have hout : (c (E.fresh h)).out = 0 ∨ ∃ n, (h.insert (E.fresh h) (.callerUsize 0)).get? (c (E.fresh h)).out =
      some (.callerUsize n) := .inr ⟨0, by rw [ho, HMap.get?_insert, if_pos rfl]⟩
  cases r with
  | ok b =>
    obtain ⟨q, h', he, hq, hn, hm'⟩ := exec_makes_ok (E := E) (hh (E.fresh h)) hp hx1 hk hout (hm _)
    have hqs : q ≠ E.fresh h := by rintro rfl; rw [HMap.get?_insert, if_pos rfl] at hn; cases hn
    rw [ho, get?_insert_put] at hm'
    have hrd : h'.get? (E.fresh h) = some (.callerUsize b.length) := by
      rw [hm']; simp [Mem.put, Mem.putSize, hs, hqs.symm, Obj.size]
    have hqb : h'.get? q = some (.bytes b) := by rw [hm']; simp [Mem.put]
    obtain ⟨h2, he2, hm2⟩ := Props.exec_free (E := E) (c := .freeBytes q b.length) rfl hq hqb ⟨b, rfl, rfl⟩
    have hsl : sliceBytes q b.length h' = .ok b h' := by
      unfold sliceBytes
      by_cases hb : b.length = 0
      · rw [if_pos hb, List.length_eq_zero_iff.1 hb]
      · rw [if_neg hb, hqb]; simp
    simp only [PM.bind_apply, alloc, call_ok he, asPtr, readUsize, hrd, hsl, call_ok he2, dealloc, PM.pure_apply, AOut.bytes]
    refine .val ?_
    rw [get?_remove_put, hm2, hm']
    rw [HMap.get?_insert, if_neg hqs] at hn
    funext r
    simp only [Mem.put, Mem.putSize, hs, if_false]
    by_cases hr : r = E.fresh h
    · subst hr; simp [hf]
    · by_cases hr2 : r = q
      · subst hr2; simp [hr, hn]
      · simp [hr, hr2]
  | err er =>
    obtain ⟨h', he, hm'⟩ := exec_makes_err (E := E) (hh (E.fresh h)) hp hx1 hk hout (hm _)
    rw [ho, get?_insert_put] at hm'
    have hrd : h'.get? (E.fresh h) = some (.callerUsize 0) := by
      rw [hm']; simp [Mem.put, Mem.putSize, hs]
    obtain he2 := Props.C59_free_null E (.freeBytes 0 0) _ h' rfl
    simp only [PM.bind_apply, alloc, call_ok he, asPtr, readUsize, hrd, sliceBytes, if_true, call_ok he2, dealloc,
      PM.pure_apply, AOut.bytes]
    refine .val ?_
    rw [get?_remove_put, hm']
    funext r
    simp only [Mem.put, Mem.putSize, hs, if_false]
    by_cases hr : r = E.fresh h
    · subst hr; simp [hf]
    · simp [hr]
  | panic =>
    simp only [PM.bind_apply, alloc, call_abort (exec_makes_panic (E := E) (hh (E.fresh h)) hp hx1 hk hout (hm _)), AOut.bytes]
    exact .panic

/-- Methods that return a string. -/
theorem real_text (hh : c.handle = some (p, k)) (hp : p ≠ 0) (hx : h.get? p = some y) (hk : y.kind = some k)
    (ho : c.out = 0) {r : Res (List Char)} (hm : c.makes E y = some (cstr r)) :
    Real h.get? x p self ((do let q ← asPtr (← call E c); takeString E q : PM PyOut) h) (.text r) := by
  have hnull : ∀ er, c.makes E y = some (.err er) →
      Real h.get? x p self ((do let q ← asPtr (← call E c); takeString E q : PM PyOut) h) (.raises .AttributeError) := by
    intro er her
    obtain ⟨h', he, hm'⟩ := exec_makes_err (E := E) hh hp hx hk (.inl ho) her
    obtain he2 := Props.C59_free_null E (.freeString 0) _ h' rfl
    simp only [PM.bind_apply, call_ok he, asPtr, takeString, readStr, if_true, call_ok he2, raise]
    refine .raised ?_
    rw [hm', ho, Mem.putSize_zero]
  cases r with
  | ok s =>
    by_cases hz : Char.ofNat 0 ∈ s
    · rw [AOut.text, if_pos hz]
      refine hnull (.InvalidFormat "") ?_
      rw [hm, cstr, if_pos hz]
    · rw [AOut.text, if_neg hz]
      rw [cstr, if_neg hz] at hm
      obtain ⟨q, h', he, hq, hn, hm'⟩ := exec_makes_ok (E := E) hh hp hx hk (.inl ho) hm
      have hqs : h'.get? q = some (.cstring s) := by rw [hm']; simp [Mem.put]
      obtain ⟨h2, he2, hm2⟩ := Props.exec_free (E := E) (c := .freeString q) rfl hq hqs ⟨s, rfl⟩
      simp only [PM.bind_apply, call_ok he, asPtr, takeString, readStr, if_neg hq, hqs, call_ok he2, PM.pure_apply]
      refine .val ?_
      rw [hm2, hm', ho, Mem.putSize_zero, Mem.put_put]
      exact put_same hn
  | err e => exact hnull e hm
  | panic =>
    simp only [PM.bind_apply, call_abort (exec_makes_panic (E := E) hh hp hx hk (.inl ho) hm), AOut.text]
    exact .panic

theorem u64_eq (i : Int) : u64 i = toId i := by unfold u64 toId; norm_num
theorem usize_eq (P : Platform) (i : Int) : usize P i = toSize P i := rfl

theorem u8_compressLevel (l : Int) : u8 (compressLevel l) = clampLevel l := by
  unfold u8 compressLevel clampLevel
  split
  · rw [min_eq_left (by omega)]; rfl
  · split
    · rw [min_eq_right (by omega), max_eq_left (by omega)]; rfl
    · rw [min_eq_right (by omega), max_eq_right (by omega)]; omega

theorem real_bool (hh : c.handle = some (p, k)) (hp : p ≠ 0) (hx : h.get? p = some y) (hk : y.kind = some k) {b : Bool}
    (ha : c.answer y = some (cbool b)) :
    Real h.get? x p self ((do let n ← asNum (← call E c); pure (.val (.bool (n != 0))) : PM PyOut) h) (.val (.bool b)) := by
  rw [cbool_eq] at ha
  exact real_num (f := fun n => .bool (n != 0)) hh hp hx hk ha (by cases b <;> rfl)

/-- Editing methods. -/
theorem real_edit (hh : c.handle = some (p, k)) (hp : p ≠ 0) {g : Graph} (hx : h.get? p = some (.graph g)) {e : Edit}
    (he : c.edit? h.get? = some e) :
    Real h.get? (.graph g) p self ((do let _ ← call E c; pure (.val .none) : PM PyOut) h) (.step (.graph (e.call g)) .none) := by
  obtain ⟨v, h', hx', hm⟩ := exec_edit (E := E) hh hp hx he
  simp only [PM.bind_apply, call_ok hx', PM.pure_apply]
  exact .edit rfl hm

theorem real_addVertex (hp : p ≠ 0) {g : Graph} (hx : h.get? p = some (.graph g)) (v : Int) (tos : Option (List Int)) :
    Real h.get? (.graph g) p self (graphAddVertex E p v tos h)
      (.step (.graph ((Edit.addVertex (toId v) (tos.map (List.map toId))).call g)) .none) := by
  have hfun : u64 = toId := funext u64_eq
  unfold graphAddVertex
  by_cases ht : (tos.getD []).length = 0
  · rw [if_pos ht]
    have := real_edit (E := E) (self := self) (c := .addVertex p (u64 v) 0 0) (e := .addVertex (toId v) none) rfl hp hx
      (by simp [Call.edit?, listAt, u64_eq])
    have heq : (Edit.addVertex (toId v) (tos.map (List.map toId))).call g = (Edit.addVertex (toId v) none).call g := by
      cases tos with
      | none => rfl
      | some l =>
        have : l = [] := List.length_eq_zero_iff.1 ht
        subst this
        rfl
    rw [heq]
    exact this
  · rw [if_neg ht]
    cases tos with
    | none => exact absurd rfl ht
    | some ts =>
      simp only [Option.getD_some] at ht ⊢
      have hs := E.fresh_ne h
      have hf := E.fresh_free h
      have hne : p ≠ E.fresh h := by rintro e; rw [e, hf] at hx; cases hx
      have hx1 : (h.insert (E.fresh h) (.callerU64s (ts.map u64))).get? p = some (.graph g) := by
        rw [HMap.get?_insert, if_neg hne, hx]
      obtain ⟨v', h', hx', hm⟩ := exec_edit (E := E) (c := .addVertex p (u64 v) (E.fresh h) ts.length)
        (e := .addVertex (u64 v) (some (ts.map u64))) rfl hp hx1
        (by
          simp only [Call.edit?]
          rw [if_neg (by simp [hs])]
          simp only [listAt]
          rw [if_neg ht, HMap.get?_insert, if_pos rfl]
          simp)
      simp only [PM.bind_apply, alloc, call_ok hx', dealloc, PM.pure_apply]
      have := Real.edit (M := h.get?) (x := .graph g) (p := p) (self := self) (g := g) (v := PyVal.none)
        (g' := (Edit.addVertex (toId v) (Option.map (List.map toId) (some ts))).call g) (h' := h'.remove (E.fresh h)) rfl (by
          rw [get?_remove_put, hm, get?_insert_put, Option.map_some, ← hfun]
          funext r
          simp only [Mem.put]
          by_cases hr : r = E.fresh h
          · subst hr; simp [hf, hne.symm]
          · simp [hr])
      exact this

/-- `__getitem__`. -/
theorem real_getitem {α : Type} {at' : Nat → PM α} {f : α → PyVal} {l : List α} (idx : Int)
    (hat : ∀ i, at' i h = match l[i]? with | some x => .ok x h | none => .ub) :
    Real h.get? x p self ((do let item ← at' (← index l.length idx); pure (.val (f item)) : PM PyOut) h) (.item (l.map f) idx) := by
  unfold index AOut.item
  simp only [List.length_map, List.getElem?_map, ge_iff_le]
  by_cases h1 : (l.length : Int) ≤ idx
  · rw [if_pos h1, if_pos h1]
    exact .raised rfl
  · rw [if_neg h1, if_neg h1]
    have hgo : ∀ i, i < l.length → Real h.get? x p self ((do let item ← at' i; pure (.val (f item)) : PM PyOut) h)
        ((Option.map f l[i]?).elim .panics .val) := by
      intro i hi
      rw [List.getElem?_eq_getElem hi]
      simp only [PM.bind_apply, hat, List.getElem?_eq_getElem hi, PM.pure_apply, Option.map_some, Option.elim]
      exact .val rfl
    by_cases h2 : idx < 0
    · rw [if_pos h2, if_neg (show ¬ (0 : Int) ≤ idx by omega)]
      by_cases h3 : l.length = 0
      · rw [if_pos h3, if_pos h3]; exact .raised rfl
      · rw [if_neg h3, if_neg h3]
        exact hgo _ (by omega)
    · rw [if_neg h2, if_pos (show (0 : Int) ≤ idx by omega)]
      exact hgo _ (by omega)

end Py

open Py in
/-- Every method of an object that owns a C object does what the specification says. -/
theorem real_method (E : Ctx) (a : AWorld) {h : Heap} {x : AObj} {p : Ptr} (self : Nat) (m : Method) (hp : p ≠ 0)
    (hx : h.get? p = x.obj) (hx0 : x.obj ≠ none) :
    Real h.get? x p self ((x.py p).method E self m h) (x.means E a self m) := by
  have hfun : u64 = toId := funext u64_eq
  cases x with
  | iter _ _ => exact absurd rfl hx0
  | graph g =>
    cases m with
    | bytes => exact real_bytes (fun s => .toBytes p s) (fun _ => rfl) hp hx rfl (fun _ => rfl) (fun _ => rfl)
    | duplicate => exact real_made (c := .duplicate p) (r := .ok g) rfl hp hx rfl rfl rfl (fun _ => rfl) (fun _ _ => rfl)
    | matrixString => exact real_text (c := .matrixString p) rfl hp hx rfl rfl rfl
    | isUndirected => exact real_bool (c := .isUndirected p) rfl hp hx rfl rfl
    | vertexCount => exact real_num (c := .vertexCount p) (f := .int) rfl hp hx rfl rfl rfl
    | edgeCount => exact real_num (c := .edgeCount p) (f := .int) rfl hp hx rfl rfl rfl
    | doesEdgeExist u v =>
      rw [AObj.means, ← hfun]
      exact real_bool (c := .doesEdgeExist p (u64 u) (u64 v)) rfl hp hx rfl rfl
    | addVertex v ts => exact real_addVertex hp hx v ts
    | addEdge u v =>
      rw [AObj.means, ← hfun]
      exact real_edit (c := .addEdge p (u64 u) (u64 v)) rfl hp hx rfl
    | deleteEdge u v =>
      rw [AObj.means, ← hfun]
      exact real_edit (c := .deleteEdge p (u64 u) (u64 v)) rfl hp hx rfl
    | findAvgPoolMatrix b =>
      rw [AObj.means, ← hfun]
      exact real_made (c := .findAvgPoolMatrix p (u64 b)) rfl hp hx rfl rfl rfl (fun _ => rfl) (fun _ _ => rfl)
    | approximate b t =>
      rw [AObj.means, ← hfun]
      exact real_made (c := .approximate p (u64 b) t) rfl hp hx rfl rfl rfl (fun _ => rfl) (fun _ _ => rfl)
    | compress l =>
      rw [AObj.means, ← u8_compressLevel]
      exact real_made (c := .compress p (u8 (compressLevel l))) rfl hp hx rfl rfl rfl (fun _ => rfl) (fun _ _ => rfl)
    | edgeList =>
      exact real_list (fun s => .getEdgeList p s) (fun _ => rfl) hp hx rfl (fun _ => rfl) (fun _ => rfl) rfl (fun _ => rfl)
    | vertexInEdges v =>
      rw [AObj.means, ← hfun]
      exact real_list (fun s => .getInEdgesList p (u64 v) s) (fun _ => rfl) hp hx rfl (fun _ => rfl) (fun _ => rfl) rfl (fun _ => rfl)
    | vertexOutEdges v =>
      rw [AObj.means, ← hfun]
      exact real_list (fun s => .getOutEdgesList p (u64 v) s) (fun _ => rfl) hp hx rfl (fun _ => rfl) (fun _ => rfl) rfl (fun _ => rfl)
    | vertexInDegree v =>
      rw [AObj.means, ← hfun]
      exact real_num (c := .getInDegree p (u64 v)) (f := .int) rfl hp hx rfl rfl rfl
    | vertexOutDegree v =>
      rw [AObj.means, ← hfun]
      exact real_num (c := .getOutDegree p (u64 v)) (f := .int) rfl hp hx rfl rfl rfl
    | _ => exact .raised rfl
  | cgraph g =>
    cases m with
    | bytes => exact real_bytes (fun s => .cToBytes p s) (fun _ => rfl) hp hx rfl (fun _ => rfl) (fun _ => rfl)
    | duplicate => exact real_made (c := .cDuplicate p) (r := .ok g) rfl hp hx rfl rfl rfl (fun _ => rfl) (fun _ _ => rfl)
    | matrixString => exact real_text (c := .cMatrixString p) rfl hp hx rfl rfl rfl
    | decompress => exact real_made (c := .decompress p) rfl hp hx rfl rfl rfl (fun _ => rfl) (fun _ _ => rfl)
    | compressionLevel => exact real_num (c := .cCompressionLevel p) (f := fun n => .float (F64.ofNat n)) rfl hp hx rfl rfl rfl
    | isUndirected => exact real_bool (c := .cIsUndirected p) rfl hp hx rfl rfl
    | vertexCount => exact real_num (c := .cVertexCount p) (f := .int) rfl hp hx rfl rfl rfl
    | edgeCount => exact real_num (c := .cEdgeCount p) (f := .int) rfl hp hx rfl rfl rfl
    | doesEdgeExist u v =>
      rw [AObj.means, ← hfun]
      exact real_bool (c := .cDoesEdgeExist p (u64 u) (u64 v)) rfl hp hx rfl rfl
    | getCompressedMatrixEntry u v =>
      rw [AObj.means, ← hfun]
      exact real_num (c := .cGetEntry p (u64 u) (u64 v)) (f := .int) rfl hp hx rfl rfl rfl
    | _ => exact .raised rfl
  | matrix m' =>
    cases m with
    | str => exact real_text (c := .mToStringWithPrecision p (usize E.P 2)) rfl hp hx rfl rfl rfl
    | toString d => exact real_text (c := .mToStringWithPrecision p (usize E.P d)) rfl hp hx rfl rfl rfl
    | duplicate => exact real_made (c := .mDuplicate p) (r := .ok m') rfl hp hx rfl rfl rfl (fun _ => rfl) (fun _ _ => rfl)
    | dimension => exact real_num (c := .mDimension p) (f := .int) rfl hp hx rfl rfl rfl
    | entryCount => exact real_num (c := .mEntryCount p) (f := .int) rfl hp hx rfl rfl rfl
    | getEntry c r =>
      rw [AObj.means, ← hfun]
      obtain ⟨h', he, hm⟩ := exec_answer (E := E) (c := .mGetEntry p (u64 c) (u64 r)) rfl hp hx rfl rfl
      simp only [AObj.py, PyObj.method, matrixGetEntry, PM.bind_apply, call_ok he, asF64, PM.pure_apply]
      exact .val hm
    | entryList =>
      exact real_list (fun s => .mGetEntryList p s) (fun _ => rfl) hp hx rfl (fun _ => rfl) (fun _ => rfl) rfl (fun _ => rfl)
    | _ => exact .raised rfl
  | edges l =>
    cases m with
    | getitem idx =>
      exact real_getitem (at' := edgeAt p) (f := fun e => .edge e.1 e.2) (l := l) idx
        (fun i => by unfold edgeAt; rw [hx]; simp only [AObj.obj]; cases l[i]? <;> rfl)
    | iter => 
      simp only [AObj.py, PyObj.method, edgeListIter, listInit, if_neg hp, PM.pure_apply]
      exact .iter (xs := _) rfl rfl
    | len => 
      simp only [AObj.py, PyObj.method, listLen, PM.pure_apply, AObj.means, AObj.items, List.length_map]
      exact .val rfl
    | _ => exact .raised rfl
  | vertices l =>
    cases m with
    | getitem idx =>
      exact real_getitem (at' := vertexAt p) (f := .int) (l := l) idx
        (fun i => by unfold vertexAt; rw [hx]; simp only [AObj.obj]; cases l[i]? <;> rfl)
    | iter => 
      simp only [AObj.py, PyObj.method, vertexListIter, listInit, if_neg hp, PM.pure_apply]
      exact .iter (xs := _) rfl rfl
    | len => 
      simp only [AObj.py, PyObj.method, listLen, PM.pure_apply, AObj.means, AObj.items, List.length_map]
      exact .val rfl
    | _ => exact .raised rfl
  | entries l =>
    cases m with
    | getitem idx =>
      exact real_getitem (at' := entryAt p) (f := fun e => .entry e.1 e.2.1 e.2.2) (l := l) idx
        (fun i => by unfold entryAt; rw [hx]; simp only [AObj.obj]; cases l[i]? <;> rfl)
    | iter => 
      simp only [AObj.py, PyObj.method, entryListIter, listInit, if_neg hp, PM.pure_apply]
      exact .iter (xs := _) rfl rfl
    | len => 
      simp only [AObj.py, PyObj.method, listLen, PM.pure_apply, AObj.means, AObj.items, List.length_map]
      exact .val rfl
    | _ => exact .raised rfl

end Verif
