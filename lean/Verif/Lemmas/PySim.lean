import Verif.Lemmas.Py

/-!
# Simulation between Python programs on memory and on values
-/

namespace Verif
open Spec

theorem owned_py {x : AObj} (hx : x.obj ≠ none) (p : Ptr) : (x.py p).owned = some p := by
  cases x <;> first | rfl | exact absurd rfl hx

theorem owned_pyIter {x : AObj} (p : Ptr) (pos l : Nat) : (x.pyIter p pos l).owned = none := by
  cases x <;> rfl

theorem listRef_py {x : AObj} (hx : x.obj ≠ none) (p : Ptr) : (x.py p).listRef = none := by
  cases x <;> first | rfl | exact absurd rfl hx

theorem listRef_pyIter {x : AObj} (p : Ptr) (pos l : Nat) : (x.pyIter p pos l).listRef = some l := by
  cases x <;> rfl

theorem items_obj {x : AObj} {xs : List PyVal} (h : x.items = some xs) : x.obj ≠ none := by
  cases x <;> simp_all [AObj.items, AObj.obj]

/-- A Python object represents a value. -/
inductive Rep (M : Mem) (objs : List (Option PyObj)) (a : AWorld) : Option PyObj → Option AObj → Prop
  | dead : Rep M objs a none none
  | owner {x p} : x.obj ≠ none → p ≠ 0 → M p = x.obj → Rep M objs a (some (x.py p)) (some x)
  | iter {l pos x p xs} : a[l]? = some (some x) → x.items = some xs → pos ≤ xs.length →
      objs[l]? = some (some (x.py p)) → Rep M objs a (some (x.pyIter p pos l)) (some (.iter l pos))

/-- The objects of a Python program represent values: each live object is represented, no two own the same C object, and
every C object in memory is owned. -/
structure Sim (M : Mem) (objs : List (Option PyObj)) (a : AWorld) : Prop where
  len : objs.length = a.length
  rep : ∀ (i : Nat) o x, objs[i]? = some o → a[i]? = some x → Rep M objs a o x
  distinct : ∀ (i j : Nat) o o' p, objs[i]? = some (some o) → objs[j]? = some (some o') → o.owned = some p → o'.owned = some p → i = j
  noleak : ∀ p y, M p = some y → ∃ (i : Nat) (o : PyObj), objs[i]? = some (some o) ∧ o.owned = some p

namespace Sim

variable {M : Mem} {objs : List (Option PyObj)} {a : AWorld}

theorem at_obj (s : Sim M objs a) {i : Nat} {o : Option PyObj} (h : objs[i]? = some o) :
    ∃ x, a[i]? = some x ∧ Rep M objs a o x := by
  have hi : i < a.length := by
    rw [← s.len]; exact (List.getElem?_eq_some_iff.1 h).1
  exact ⟨a[i], List.getElem?_eq_getElem hi, s.rep i o _ h (List.getElem?_eq_getElem hi)⟩

theorem at_val (s : Sim M objs a) {i : Nat} {x : Option AObj} (h : a[i]? = some x) :
    ∃ o, objs[i]? = some o ∧ Rep M objs a o x := by
  have hi : i < objs.length := by
    rw [s.len]; exact (List.getElem?_eq_some_iff.1 h).1
  exact ⟨objs[i], List.getElem?_eq_getElem hi, s.rep i _ x (List.getElem?_eq_getElem hi) h⟩

/-- A live object owns its address, and the value there is the one represented. -/
theorem owner_mem (s : Sim M objs a) {i : Nat} {x : AObj} {p : Ptr} (hx : x.obj ≠ none) (ho : objs[i]? = some (some (x.py p)))
    (ha : a[i]? = some (some x)) : p ≠ 0 ∧ M p = x.obj := by
  have := s.rep i _ _ ho ha
  generalize e1 : some (x.py p) = o at this
  generalize e2 : some x = y at this
  cases this with
  | dead => cases e1
  | @owner x' p' h1 h2 h3 =>
    cases e2
    have e3 := congrArg (fun o => o.bind PyObj.owned) e1
    simp only [Option.bind_some, owned_py hx, Option.some.injEq] at e3
    exact ⟨e3 ▸ h2, e3 ▸ h3⟩
  | iter => cases e2; exact absurd rfl hx

/-- A new object that owns fresh memory. -/
theorem push (s : Sim M objs a) {x : AObj} {q : Ptr} (hx : x.obj ≠ none) (hq : q ≠ 0) (hn : M q = none) :
    Sim (M.put q x.obj) (objs ++ [some (x.py q)]) (a ++ [some x]) := by
  have hput : ∀ p y, M p = some y → M.put q x.obj p = some y := by
    intro p y h
    unfold Mem.put
    rw [if_neg (by rintro rfl; rw [hn] at h; cases h), h]
  have hrep : ∀ o y, Rep M objs a o y → Rep (M.put q x.obj) (objs ++ [some (x.py q)]) (a ++ [some x]) o y := by
    intro o y h
    cases h with
    | dead => exact .dead
    | @owner x' p h1 h2 h3 =>
      obtain ⟨z, hz⟩ := Option.ne_none_iff_exists'.1 h1
      exact .owner h1 h2 (by rw [hz]; exact hput _ _ (by rw [h3, hz]))
    | iter h1 h2 h3 h4 =>
      exact .iter (List.getElem?_append_left (List.getElem?_eq_some_iff.1 h1).1 ▸ h1) h2 h3
        (List.getElem?_append_left (List.getElem?_eq_some_iff.1 h4).1 ▸ h4)
  have hold : ∀ (i : Nat) (o : PyObj), objs[i]? = some (some o) → o.owned ≠ some q := by
    intro i o h1 h2
    obtain ⟨y, h3, h4⟩ := s.at_obj h1
    generalize e1 : some o = o' at h4
    cases h4 with
    | dead => cases e1
    | owner h5 h6 h7 =>
      cases e1
      rw [owned_py h5] at h2
      cases h2
      rw [hn] at h7
      exact h5 h7.symm
    | iter => cases e1; rw [owned_pyIter] at h2; cases h2
  refine ⟨by simp [s.len], ?_, ?_, ?_⟩
  · intro i o y h1 h2
    by_cases hi : i < objs.length
    · rw [List.getElem?_append_left hi] at h1
      rw [List.getElem?_append_left (s.len ▸ hi)] at h2
      exact hrep _ _ (s.rep i o y h1 h2)
    · rw [List.getElem?_append_right (by omega)] at h1
      rw [List.getElem?_append_right (by rw [← s.len]; omega)] at h2
      rw [List.getElem?_singleton] at h1 h2
      split at h1
      · split at h2
        · cases h1; cases h2
          exact .owner hx hq (by simp [Mem.put])
        · cases h2
      · cases h1
  · intro i j o o' p h1 h2 h3 h4
    rw [List.getElem?_append] at h1 h2
    split at h1
    · split at h2
      · exact s.distinct i j o o' p h1 h2 h3 h4
      · rw [List.getElem?_singleton] at h2
        split at h2
        · cases h2
          rw [owned_py hx] at h4; cases h4
          exact absurd h3 (hold i o h1)
        · cases h2
    · rw [List.getElem?_singleton] at h1
      split at h1
      · cases h1
        rw [owned_py hx] at h3; cases h3
        split at h2
        · exact absurd h4 (hold j o' h2)
        · rw [List.getElem?_singleton] at h2
          split at h2
          · omega
          · cases h2
      · cases h1
  · intro p y h
    by_cases hp : p = q
    · subst hp
      exact ⟨objs.length, x.py p, by simp, owned_py hx p⟩
    · unfold Mem.put at h
      rw [if_neg hp] at h
      obtain ⟨i, o, h1, h2⟩ := s.noleak p y h
      exact ⟨i, o, by rw [List.getElem?_append_left (List.getElem?_eq_some_iff.1 h1).1, h1], h2⟩

/-- A new iterator. -/
theorem pushIter (s : Sim M objs a) {x : AObj} {p : Ptr} {l : Nat} {xs : List PyVal} (hx : x.items = some xs)
    (ha : a[l]? = some (some x)) (ho : objs[l]? = some (some (x.py p))) :
    Sim M (objs ++ [some (x.pyIter p 0 l)]) (a ++ [some (.iter l 0)]) := by
  have hrep : ∀ o y, Rep M objs a o y → Rep M (objs ++ [some (x.pyIter p 0 l)]) (a ++ [some (.iter l 0)]) o y := by
    intro o y h
    cases h with
    | dead => exact .dead
    | owner h1 h2 h3 => exact .owner h1 h2 h3
    | iter h1 h2 h3 h4 =>
      exact .iter (List.getElem?_append_left (List.getElem?_eq_some_iff.1 h1).1 ▸ h1) h2 h3
        (List.getElem?_append_left (List.getElem?_eq_some_iff.1 h4).1 ▸ h4)
  refine ⟨by simp [s.len], ?_, ?_, ?_⟩
  · intro i o y h1 h2
    by_cases hi : i < objs.length
    · rw [List.getElem?_append_left hi] at h1
      rw [List.getElem?_append_left (s.len ▸ hi)] at h2
      exact hrep _ _ (s.rep i o y h1 h2)
    · rw [List.getElem?_append_right (by omega)] at h1
      rw [List.getElem?_append_right (by rw [← s.len]; omega)] at h2
      rw [List.getElem?_singleton] at h1 h2
      split at h1
      · split at h2
        · cases h1; cases h2
          exact .iter (List.getElem?_append_left (List.getElem?_eq_some_iff.1 ha).1 ▸ ha) hx (Nat.zero_le _)
            (List.getElem?_append_left (List.getElem?_eq_some_iff.1 ho).1 ▸ ho)
        · cases h2
      · cases h1
  · intro i j o o' q h1 h2 h3 h4
    rw [List.getElem?_append] at h1 h2
    split at h1
    · split at h2
      · exact s.distinct i j o o' q h1 h2 h3 h4
      · rw [List.getElem?_singleton] at h2
        split at h2
        · cases h2; rw [owned_pyIter] at h4; cases h4
        · cases h2
    · rw [List.getElem?_singleton] at h1
      split at h1
      · cases h1; rw [owned_pyIter] at h3; cases h3
      · cases h1
  · intro q y h
    obtain ⟨i, o, h1, h2⟩ := s.noleak q y h
    exact ⟨i, o, by rw [List.getElem?_append_left (List.getElem?_eq_some_iff.1 h1).1, h1], h2⟩

/-- An edit of a graph. -/
theorem edit (s : Sim M objs a) {g g' : Graph} {p : Ptr} {i : Nat} (ha : a[i]? = some (some (.graph g)))
    (ho : objs[i]? = some (some (.graph p))) :
    Sim (M.put p (some (.graph g'))) objs (a.set i (some (.graph g'))) := by
  have hp := s.owner_mem (x := .graph g) (by simp [AObj.obj]) ho ha
  have hi : i < a.length := (List.getElem?_eq_some_iff.1 ha).1
  refine ⟨by simp [s.len], ?_, s.distinct, ?_⟩
  · intro j o y h1 h2
    rw [List.getElem?_set] at h2
    split at h2
    · next e =>
      subst e
      cases h2
      rw [ho] at h1; cases h1
      exact .owner (x := .graph g') (by simp [AObj.obj]) hp.1 (by simp [Mem.put, AObj.obj])
    · next e =>
      have hr := s.rep j o y h1 h2
      cases hr with
      | dead => exact .dead
      | @owner x' q h3 h4 h5 =>
        refine .owner h3 h4 ?_
        unfold Mem.put
        rw [if_neg, h5]
        rintro rfl
        exact e (s.distinct i j _ _ q ho h1 rfl (owned_py h3 q))
      | @iter l pos x q xs h3 h4 h5 h6 =>
        refine .iter ?_ h4 h5 h6
        rw [List.getElem?_set, if_neg, h3]
        rintro rfl
        rw [ha] at h3; cases h3; cases h4
  · intro q y h
    unfold Mem.put at h
    split at h
    · next e => subst e; exact ⟨i, _, ho, rfl⟩
    · exact s.noleak q y h

/-- An iterator moves on. -/
theorem advance (s : Sim M objs a) {x : AObj} {p : Ptr} {l pos pos' i : Nat} {xs : List PyVal} (hx : x.items = some xs)
    (ha : a[l]? = some (some x)) (ho : objs[l]? = some (some (x.py p))) (hi : a[i]? = some (some (.iter l pos)))
    (hpos : pos' ≤ xs.length) :
    Sim M (objs.set i (some (x.pyIter p pos' l))) (a.set i (some (.iter l pos'))) := by
  have hia : i < a.length := (List.getElem?_eq_some_iff.1 hi).1
  have hio : i < objs.length := by rw [s.len]; exact hia
  have hkeep : ∀ l' x', a[l']? = some (some x') → x'.items ≠ none → i ≠ l' := by
    rintro l' x' h1 h2 rfl
    rw [hi] at h1; cases h1
    exact h2 rfl
  have hiold : ∀ o, objs[i]? = some (some o) → o.owned = none := by
    intro o h
    have := s.rep i _ _ h hi
    generalize e1 : some o = o' at this
    generalize e2 : some (AObj.iter l pos) = y at this
    cases this with
    | dead => cases e1
    | owner h1 => cases e2; exact absurd rfl h1
    | iter => cases e1; exact owned_pyIter _ _ _
  refine ⟨by simp [s.len], ?_, ?_, ?_⟩
  · intro j o y h1 h2
    rw [List.getElem?_set] at h1 h2
    split at h2
    · next e =>
      subst e
      rw [if_pos rfl, if_pos hio] at h1
      cases h1; cases h2
      refine .iter ?_ hx hpos ?_
      · rw [List.getElem?_set, if_neg (hkeep l x ha (by simp [hx])), ha]
      · rw [List.getElem?_set, if_neg (hkeep l x ha (by simp [hx])), ho]
    · next e =>
      rw [if_neg e] at h1
      have hr := s.rep j o y h1 h2
      cases hr with
      | dead => exact .dead
      | owner h3 h4 h5 => exact .owner h3 h4 h5
      | @iter l' pos x' q xs' h3 h4 h5 h6 =>
        refine .iter ?_ h4 h5 ?_
        · rw [List.getElem?_set, if_neg (hkeep l' x' h3 (by simp [h4])), h3]
        · rw [List.getElem?_set, if_neg (hkeep l' x' h3 (by simp [h4])), h6]
  · intro j k o o' q h1 h2 h3 h4
    rw [List.getElem?_set] at h1 h2
    split at h1
    · cases h1; rw [owned_pyIter] at h3; cases h3
    · split at h2
      · cases h2; rw [owned_pyIter] at h4; cases h4
      · exact s.distinct j k o o' q h1 h2 h3 h4
  · intro q y h
    obtain ⟨j, o, h1, h2⟩ := s.noleak q y h
    refine ⟨j, o, ?_, h2⟩
    rw [List.getElem?_set, if_neg, h1]
    rintro rfl
    rw [hiold o h1] at h2; cases h2

/-- The end of an object that no iterator refers to. -/
theorem drop (s : Sim M objs a) {i : Nat} {o : PyObj} {x : AObj} (ho : objs[i]? = some (some o)) (ha : a[i]? = some (some x))
    (hn : ¬ a.iterated i) :
    Sim (match o.owned with | some p => M.put p none | none => M) (objs.set i none) (a.set i none) := by
  have hia : i < a.length := (List.getElem?_eq_some_iff.1 ha).1
  have hio : i < objs.length := (List.getElem?_eq_some_iff.1 ho).1
  have hmem : ∀ (q : Ptr) (j : Nat) (o' : PyObj), j ≠ i → objs[j]? = some (some o') → o'.owned = some q →
      (match o.owned with | some p => M.put p none | none => M) q = M q := by
    intro q j o' hj h1 h2
    cases hw : o.owned with
    | none => rfl
    | some p =>
      simp only [Mem.put]
      rw [if_neg]
      rintro rfl
      exact hj (s.distinct j i o' o q h1 ho h2 hw)
  refine ⟨by simp [s.len], ?_, ?_, ?_⟩
  · intro j o' y h1 h2
    rw [List.getElem?_set] at h1 h2
    split at h2
    · next e =>
      subst e
      rw [if_pos rfl, if_pos hio] at h1
      cases h1; cases h2
      exact .dead
    · next e =>
      rw [if_neg e] at h1
      have hr := s.rep j o' y h1 h2
      cases hr with
      | dead => exact .dead
      | @owner x' q h3 h4 h5 =>
        exact .owner h3 h4 ((hmem q j _ (Ne.symm e) h1 (owned_py h3 q)).trans h5)
      | @iter l' pos x' q xs' h3 h4 h5 h6 =>
        have hne : i ≠ l' := by
          rintro rfl
          exact hn ⟨pos, List.mem_of_getElem? h2⟩
        refine .iter ?_ h4 h5 ?_
        · rw [List.getElem?_set, if_neg hne, h3]
        · rw [List.getElem?_set, if_neg hne, h6]
  · intro j k o1 o2 q h1 h2 h3 h4
    rw [List.getElem?_set] at h1 h2
    split at h1
    · cases h1
    · split at h2
      · cases h2
      · exact s.distinct j k o1 o2 q h1 h2 h3 h4
  · intro q y h
    have hM : M q = some y ∧ o.owned ≠ some q := by
      cases hw : o.owned with
      | none => rw [hw] at h; exact ⟨h, by simp⟩
      | some p =>
        rw [hw] at h
        simp only [Mem.put] at h
        split at h
        · cases h
        · next e => exact ⟨h, by simpa using Ne.symm e⟩
    obtain ⟨j, o', h1, h2⟩ := s.noleak q y hM.1
    refine ⟨j, o', ?_, h2⟩
    rw [List.getElem?_set, if_neg, h1]
    rintro rfl
    rw [ho] at h1; cases h1
    exact hM.2 h2

/-- Is the object referred to by an iterator? -/
theorem referenced_iff {h : Heap} (s : Sim M objs a) (i : Nat) :
    (PyWorld.mk h objs).referenced i = true ↔ a.iterated i := by
  unfold PyWorld.referenced AWorld.iterated
  rw [List.any_eq_true]
  constructor
  · rintro ⟨o, ho, hr⟩
    obtain ⟨j, hj⟩ := List.mem_iff_getElem?.1 ho
    obtain ⟨x, hx, hrep⟩ := s.at_obj hj
    cases hrep with
    | dead => cases hr
    | owner h1 => simp [listRef_py h1] at hr
    | @iter l pos =>
      simp only [listRef_pyIter, beq_iff_eq, Option.some.injEq] at hr
      subst hr
      exact ⟨pos, List.mem_of_getElem? hx⟩
  · rintro ⟨pos, hm⟩
    obtain ⟨j, hj⟩ := List.mem_iff_getElem?.1 hm
    obtain ⟨o, ho, hrep⟩ := s.at_val hj
    refine ⟨o, List.mem_of_getElem? ho, ?_⟩
    generalize e : some (AObj.iter i pos) = y at hrep
    cases hrep with
    | dead => cases e
    | owner h1 => cases e; exact absurd rfl h1
    | iter => cases e; simp [listRef_pyIter]

end Sim

/-- Steps that agree. -/
inductive Agree : PyRes PyWorld PyVal → AStep → Prop
  | ret {v w a} : Sim w.mem.get? w.objs a → Agree (.ok v w) (.ret v a)
  | raises {e w a} : Sim w.mem.get? w.objs a → Agree (.raised e w) (.raises e a)
  | panics : Agree .abort .panics

section decode
variable {E : Ctx} {c : Call} {h : Heap} {buffer size error : Nat} {f : Bytes → Res Obj} {b : Bytes}

theorem exec_decode_ok (hd : c.decodes E = some (buffer, size, error, f)) (hbs : buffer = 0 → size = 0)
    (hb : bytesAt h.get? buffer size = some b) (he : error = 0 ∨ ∃ n, h.get? error = some (.callerU8 n)) {y : Obj}
    (hf : f b = .ok y) : ∃ q h', c.exec E h = .ok (.ptr q) h' ∧ q ≠ 0 ∧ h.get? q = none ∧
      h'.get? = (Mem.putError h.get? error 0).put q (some y) := by
  have hh : c.handle = none := by cases c <;> simp_all [Call.decodes, Call.handle]
  have hfr : c.frees = none := by cases c <;> simp_all [Call.decodes, Call.frees]
  rcases Props.C60_defined E c h (Props.decode_valid hd (.inr ⟨b, hb⟩) he) with ⟨v, h', hx⟩ | ⟨_, hp⟩
  · have m := Props.exec_ok_meaning hx
    rw [hx]
    have : ∃ q, v = .ptr q ∧ q ≠ 0 ∧ h.get? q = none ∧ h'.get? = (Mem.putError h.get? error 0).put q (some y) := by
      clear hx he
      revert m hb
      generalize h.get? = M
      generalize h'.get? = M'
      intro hb m
      cases m with
      | null h1 | answered h1 | created h1 | refused h1 | edited h1 => rw [hh] at h1; cases h1
      | ignored h1 h2 => cases hh
      | newUndirected | newDirected => cases hd
      | freeNull h1 | freed h1 => rw [hfr] at h1; cases h1
      | @decoded _ p n e f' b' y' q _ h1 h2 h3 h4 h5 h6 =>
        rw [hd] at h1; cases h1
        rw [hb] at h3; cases h3
        rw [hf] at h4; cases h4
        exact ⟨q, rfl, h5, h6, rfl⟩
      | @rejected _ p n e f' b' err _ h1 h2 h3 h4 =>
        rw [hd] at h1; cases h1
        rw [hb] at h3; cases h3
        rw [hf] at h4; cases h4
      | missing h1 h2 => rw [hd] at h1; cases h1; exact absurd (hbs rfl) h2
    obtain ⟨q, rfl, h1, h2, h3⟩ := this
    exact ⟨q, h', rfl, h1, h2, h3⟩
  · rcases hp with ⟨_, _, _, h1, _⟩ | ⟨p, n, e, f', b', h1, _, h3, h4⟩
    · rw [hh] at h1; cases h1
    · rw [hd] at h1; cases h1
      rw [hb] at h3; cases h3
      rw [hf] at h4; cases h4

theorem exec_decode_err (hd : c.decodes E = some (buffer, size, error, f)) (hbs : buffer = 0 → size = 0)
    (hb : bytesAt h.get? buffer size = some b) (he : error = 0 ∨ ∃ n, h.get? error = some (.callerU8 n)) {er : GraphRoxError}
    (hf : f b = .err er) : ∃ h', c.exec E h = .ok (.ptr 0) h' ∧ h'.get? = Mem.putError h.get? error 1 := by
  have hh : c.handle = none := by cases c <;> simp_all [Call.decodes, Call.handle]
  have hfr : c.frees = none := by cases c <;> simp_all [Call.decodes, Call.frees]
  rcases Props.C60_defined E c h (Props.decode_valid hd (.inr ⟨b, hb⟩) he) with ⟨v, h', hx⟩ | ⟨_, hp⟩
  · have m := Props.exec_ok_meaning hx
    rw [hx]
    have : v = .ptr 0 ∧ h'.get? = Mem.putError h.get? error 1 := by
      clear hx he
      revert m hb
      generalize h.get? = M
      generalize h'.get? = M'
      intro hb m
      cases m with
      | null h1 | answered h1 | created h1 | refused h1 | edited h1 => rw [hh] at h1; cases h1
      | ignored h1 h2 => cases hh
      | newUndirected | newDirected => cases hd
      | freeNull h1 | freed h1 => rw [hfr] at h1; cases h1
      | @decoded _ p n e f' b' y' q _ h1 h2 h3 h4 h5 h6 =>
        rw [hd] at h1; cases h1
        rw [hb] at h3; cases h3
        rw [hf] at h4; cases h4
      | @rejected _ p n e f' b' err _ h1 h2 h3 h4 =>
        rw [hd] at h1; cases h1
        exact ⟨rfl, rfl⟩
      | missing h1 h2 => rw [hd] at h1; cases h1; exact absurd (hbs rfl) h2
    obtain ⟨rfl, h3⟩ := this
    exact ⟨h', rfl, h3⟩
  · rcases hp with ⟨_, _, _, h1, _⟩ | ⟨p, n, e, f', b', h1, _, h3, h4⟩
    · rw [hh] at h1; cases h1
    · rw [hd] at h1; cases h1
      rw [hb] at h3; cases h3
      rw [hf] at h4; cases h4

theorem exec_decode_panic (hd : c.decodes E = some (buffer, size, error, f)) (hbs : buffer = 0 → size = 0)
    (hb : bytesAt h.get? buffer size = some b) (he : error = 0 ∨ ∃ n, h.get? error = some (.callerU8 n))
    (hf : f b = .panic) : c.exec E h = .abort := by
  have hh : c.handle = none := by cases c <;> simp_all [Call.decodes, Call.handle]
  have hfr : c.frees = none := by cases c <;> simp_all [Call.decodes, Call.frees]
  rcases Props.C60_defined E c h (Props.decode_valid hd (.inr ⟨b, hb⟩) he) with ⟨v, h', hx⟩ | ⟨hx, _⟩
  · exfalso
    have m := Props.exec_ok_meaning hx
    clear hx he
    revert m hb
    generalize h.get? = M
    generalize h'.get? = M'
    intro hb m
    cases m with
    | null h1 | answered h1 | created h1 | refused h1 | edited h1 => rw [hh] at h1; cases h1
    | ignored h1 h2 => cases hh
    | newUndirected | newDirected => cases hd
    | freeNull h1 | freed h1 => rw [hfr] at h1; cases h1
    | @decoded _ p n e f' b' y' q _ h1 h2 h3 h4 h5 h6 =>
      rw [hd] at h1; cases h1
      rw [hb] at h3; cases h3
      rw [hf] at h4; cases h4
    | @rejected _ p n e f' b' err _ h1 h2 h3 h4 =>
      rw [hd] at h1; cases h1
      rw [hb] at h3; cases h3
      rw [hf] at h4; cases h4
    | missing h1 h2 => rw [hd] at h1; cases h1; exact absurd (hbs rfl) h2
  · exact hx

end decode

namespace Py
open PM

/-- `from_bytes`. -/
theorem agree_decode {E : Ctx} {h : Heap} {objs : List (Option PyObj)} {a : AWorld} (s : Sim h.get? objs a) (b : Bytes)
    {α : Type} {r : Res α} {fo : α → Obj} {fa : α → AObj} {fp : Ptr → PyObj} (c : Ptr → Nat → Ptr → Call)
    {f : Bytes → Res Obj} (hd : ∀ p n e, (c p n e).decodes E = some (p, n, e, f)) (hf : f b = r.map fo)
    (h1 : ∀ a, (fa a).obj = some (fo a)) (h2 : ∀ a q, (fa a).py q = fp q) :
    Agree ((PyWorld.mk h objs).create ((do
      let arr ← alloc E (.callerBytes b)
      let error ← alloc E (.callerU8 0)
      let p ← asPtr (← call E (c arr b.length error))
      let e ← readU8 error
      dealloc error
      dealloc arr
      if e ≠ 0 then raise .TypeError else pure (fp p) : PM PyObj) h)) ((AOut.decoded fa r).apply a a.length) := by
  set A := E.fresh h with hA
  set h0 := h.insert A (.callerBytes b) with hh0
  set B := E.fresh h0 with hB
  set h00 := h0.insert B (.callerU8 0) with hh00
  have hA0 : A ≠ 0 := E.fresh_ne h
  have hB0 : B ≠ 0 := E.fresh_ne h0
  have hAf : h.get? A = none := E.fresh_free h
  have hBf : h0.get? B = none := E.fresh_free h0
  have hAB : A ≠ B := by
    intro e
    rw [← e, hh0, HMap.get?_insert, if_pos rfl] at hBf
    cases hBf
  have hBf' : h.get? B = none := by
    rw [hh0, HMap.get?_insert, if_neg hAB.symm] at hBf; exact hBf
  have hM : h00.get? = (Mem.put h.get? A (some (.callerBytes b))).put B (some (.callerU8 0)) := by
    rw [hh00, get?_insert_put, hh0, get?_insert_put]
  have hbytes : bytesAt h00.get? A b.length = some b := by
    unfold bytesAt
    by_cases hb : b.length = 0
    · rw [if_pos hb, List.length_eq_zero_iff.1 hb]
    · rw [if_neg hb, hM]; simp [Mem.put, hAB]
  have herr : B = 0 ∨ ∃ n, h00.get? B = some (.callerU8 n) := .inr ⟨0, by rw [hM]; simp [Mem.put]⟩
  simp only [PM.bind_apply, alloc]
  rw [← hA, ← hh0, ← hB, ← hh00]
  cases hr : r with
  | ok y =>
    obtain ⟨q, h', he, hq, hn, hm⟩ := exec_decode_ok (hd A b.length B) (fun e => absurd e hA0) hbytes herr
      (y := fo y) (by rw [hf, hr]; rfl)
    have hqB : q ≠ B := by rintro rfl; rw [hM] at hn; simp [Mem.put] at hn
    have hqA : q ≠ A := by rintro rfl; rw [hM] at hn; simp [Mem.put, hAB] at hn
    have hqf : h.get? q = none := by rw [hM] at hn; simpa [Mem.put, hqA, hqB] using hn
    have hrd : h'.get? B = some (.callerU8 0) := by rw [hm]; simp [Mem.put, Mem.putError, hB0, hqB.symm]
    simp only [call_ok he, asPtr, readU8, hrd, dealloc, ne_eq, not_true_eq_false, if_false, PM.pure_apply, PyWorld.create,
      AOut.decoded, AOut.apply, s.len]
    refine .ret ?_
    have := s.push (x := fa y) (q := q) (by rw [h1]; simp) hq hqf
    rw [h1, h2] at this
    convert this using 1
    show ((h'.remove B).remove A).get? = _
    rw [get?_remove_put, get?_remove_put, hm, hM]
    funext z
    simp only [Mem.put, Mem.putError, hB0, if_false]
    by_cases hzA : z = A
    · subst hzA; simp [hqA.symm, hAf]
    · by_cases hzB : z = B
      · subst hzB; simp [hzA, hqB.symm, hBf']
      · simp [hzA, hzB]
  | err er =>
    obtain ⟨h', he, hm⟩ := exec_decode_err (hd A b.length B) (fun e => absurd e hA0) hbytes herr
      (er := er) (by rw [hf, hr]; rfl)
    have hrd : h'.get? B = some (.callerU8 1) := by rw [hm]; simp [Mem.put, Mem.putError, hB0]
    simp only [call_ok he, asPtr, readU8, hrd, dealloc, ne_eq, one_ne_zero, not_false_eq_true, if_true, raise, PyWorld.create,
      AOut.decoded, AOut.apply]
    refine .raises ?_
    convert s using 1
    show ((h'.remove B).remove A).get? = _
    rw [get?_remove_put, get?_remove_put, hm, hM]
    funext z
    simp only [Mem.put, Mem.putError, hB0, if_false]
    by_cases hzA : z = A
    · subst hzA; simp [hAf]
    · by_cases hzB : z = B
      · subst hzB; simp [hzA, hBf']
      · simp [hzA, hzB]
  | panic =>
    have he := exec_decode_panic (hd A b.length B) (fun e => absurd e hA0) hbytes herr (by rw [hf, hr]; rfl)
    simp only [call_abort he, PyWorld.create, AOut.decoded, AOut.apply]
    exact .panics

theorem exec_new {E : Ctx} {h : Heap} (u : Bool) :
    ∃ q h', (if u then Call.newUndirected else .newDirected).exec E h = .ok (.ptr q) h' ∧ q ≠ 0 ∧ h.get? q = none ∧
      h'.get? = Mem.put h.get? q (some (.graph (if u then Graph.newUndirected else Graph.newDirected))) := by
  refine ⟨E.fresh h, h.insert (E.fresh h) (.graph (if u then Graph.newUndirected else Graph.newDirected)), ?_,
    E.fresh_ne h, E.fresh_free h, get?_insert_put _ _ _⟩
  cases u <;> rfl

theorem agree_new {E : Ctx} {h : Heap} {objs : List (Option PyObj)} {a : AWorld} (s : Sim h.get? objs a) (u : Bool) :
    Agree ((PyWorld.mk h objs).create (graphInit E u h))
      ((AOut.new (.graph (if u then Graph.newUndirected else Graph.newDirected))).apply a a.length) := by
  obtain ⟨q, h', he, hq, hn, hm⟩ := exec_new (E := E) (h := h) u
  simp only [graphInit, PM.bind_apply, call_ok he, asPtr, PM.pure_apply, PyWorld.create, AOut.apply, s.len]
  refine .ret ?_
  have := s.push (x := .graph (if u then Graph.newUndirected else Graph.newDirected)) (q := q) (by simp [AObj.obj]) hq hn
  show Sim h'.get? _ _
  rw [hm]
  exact this

/-- `__del__` of an object that owns `p`. -/
theorem del_owner {E : Ctx} {h : Heap} {x : AObj} {p : Ptr} (hx : x.obj ≠ none) (hp : p ≠ 0) (hm : h.get? p = x.obj) :
    ∃ h', (x.py p).del E h = .ok () h' ∧ h'.get? = Mem.put h.get? p none := by
  cases x with
  | iter => exact absurd rfl hx
  | graph g =>
    obtain ⟨h', he, hm'⟩ := Props.exec_free (E := E) (c := .freeGraph p) rfl hp hm ⟨g, rfl⟩
    exact ⟨h', by simp only [AObj.py, PyObj.del, graphDel, PM.bind_apply, call_ok he]; rfl, hm'⟩
  | cgraph g =>
    obtain ⟨h', he, hm'⟩ := Props.exec_free (E := E) (c := .freeCGraph p) rfl hp hm ⟨g, rfl⟩
    exact ⟨h', by simp only [AObj.py, PyObj.del, cgraphDel, PM.bind_apply, call_ok he]; rfl, hm'⟩
  | matrix m =>
    obtain ⟨h', he, hm'⟩ := Props.exec_free (E := E) (c := .freeMatrix p) rfl hp hm ⟨m, rfl⟩
    exact ⟨h', by simp only [AObj.py, PyObj.del, matrixDel, PM.bind_apply, call_ok he]; rfl, hm'⟩
  | edges l =>
    obtain ⟨h', he, hm'⟩ := Props.exec_free (E := E) (c := .freeEdgeList p l.length) rfl hp hm ⟨l, rfl, rfl⟩
    exact ⟨h', by simp only [AObj.py, PyObj.del, edgeListDel, PM.bind_apply, call_ok he]; rfl, hm'⟩
  | vertices l =>
    obtain ⟨h', he, hm'⟩ := Props.exec_free (E := E) (c := .freeVertexList p l.length) rfl hp hm ⟨l, rfl, rfl⟩
    exact ⟨h', by simp only [AObj.py, PyObj.del, vertexListDel, PM.bind_apply, call_ok he]; rfl, hm'⟩
  | entries l =>
    obtain ⟨h', he, hm'⟩ := Props.exec_free (E := E) (c := .freeEntryList p l.length) rfl hp hm ⟨l, rfl, rfl⟩
    exact ⟨h', by simp only [AObj.py, PyObj.del, entryListDel, PM.bind_apply, call_ok he]; rfl, hm'⟩

theorem del_iter {E : Ctx} {h : Heap} {x : AObj} {p : Ptr} {pos l : Nat} : (x.pyIter p pos l).del E h = .ok () h := by
  cases x <;> rfl

/-- `__next__`. -/
theorem agree_next {E : Ctx} {h : Heap} {objs : List (Option PyObj)} {a : AWorld} (s : Sim h.get? objs a) {i l pos : Nat}
    {x : AObj} {p : Ptr} {xs : List PyVal} (hl : a[l]? = some (some x)) (hx : x.items = some xs) (hpos : pos ≤ xs.length)
    (ho : objs[l]? = some (some (x.py p))) (hi : a[i]? = some (some (.iter l pos))) :
    Agree ((PyWorld.mk h objs).finish i ((x.pyIter p pos l).method E i .next h))
      (((AObj.iter l pos).means E a i .next).apply a i) := by
  obtain ⟨hp, hm⟩ := s.owner_mem (items_obj hx) ho hl
  simp only [AObj.means, hl, Option.join_some, Option.bind_some, hx]
  by_cases hend : pos = xs.length
  · rw [List.getElem?_eq_none (by omega)]
    have : (x.pyIter p pos l).method E i .next h = .raised .StopIteration h := by
      cases x with
      | edges L | vertices L | entries L =>
        cases hx
        rw [List.length_map] at hend
        simp only [AObj.pyIter, PyObj.method, edgeIterNext, vertexIterNext, entryIterNext, if_pos hend]
        rfl
      | _ => cases hx
    rw [this]
    exact .raises s
  · have hlt : pos < xs.length := by omega
    rw [List.getElem?_eq_getElem hlt]
    have : (x.pyIter p pos l).method E i .next h = .ok (.step (x.pyIter p (pos + 1) l) xs[pos]) h := by
      cases x with
      | edges L =>
        cases hx
        rw [List.length_map] at hend hlt
        simp only [AObj.pyIter, PyObj.method, edgeIterNext, if_neg hend, PM.bind_apply, edgeAt, hm, AObj.obj,
          List.getElem?_eq_getElem hlt, PM.pure_apply, List.getElem_map]
      | vertices L =>
        cases hx
        rw [List.length_map] at hend hlt
        simp only [AObj.pyIter, PyObj.method, vertexIterNext, if_neg hend, PM.bind_apply, vertexAt, hm, AObj.obj,
          List.getElem?_eq_getElem hlt, PM.pure_apply, List.getElem_map]
      | entries L =>
        cases hx
        rw [List.length_map] at hend hlt
        simp only [AObj.pyIter, PyObj.method, entryIterNext, if_neg hend, PM.bind_apply, entryAt, hm, AObj.obj,
          List.getElem?_eq_getElem hlt, PM.pure_apply, List.getElem_map]
      | _ => cases hx
    rw [this]
    exact .ret (s.advance hx hl ho hi hlt)

theorem iter_other {E : Ctx} {h : Heap} {a : AWorld} {i l pos : Nat} {x : AObj} {p : Ptr} {m : Method} (hm : m ≠ .next) :
    (x.pyIter p pos l).method E i m h = .raised .AttributeError h ∧
      (AObj.iter l pos).means E a i m = .raises .AttributeError := by
  constructor
  · cases x <;> cases m <;> first | rfl | exact absurd rfl hm
  · cases m <;> first | rfl | exact absurd rfl hm

end Py

/-- **Every step of a Python program agrees with the step on values.** -/
theorem agree_step (E : Ctx) (c : PyCall) {h : Heap} {objs : List (Option PyObj)} {a : AWorld} (s : Sim h.get? objs a) :
    Agree ((PyWorld.mk h objs).exec E c) (pyStep E c a) := by
  cases c with
  | newGraph u => exact Py.agree_new s u
  | graphFromBytes b =>
    exact Py.agree_decode s b (r := Graph.tryFrom E.P b) (fo := .graph) (fa := .graph) (fp := .graph)
      (fun p n e => .fromBytes p n e) (fun _ _ _ => rfl) rfl (fun _ => rfl) (fun _ _ => rfl)
  | cgraphFromBytes b =>
    exact Py.agree_decode s b (r := CGraph.tryFrom E.P b) (fo := .cgraph) (fa := .cgraph) (fp := .cgraph)
      (fun p n e => .cFromBytes p n e) (fun _ _ _ => rfl) rfl (fun _ => rfl) (fun _ _ => rfl)
  | call i m =>
    simp only [PyWorld.exec, pyStep]
    cases ho : objs[i]? with
    | none =>
      have ha : a[i]? = none := by
        rw [List.getElem?_eq_none_iff] at ho ⊢; rw [← s.len]; exact ho
      simp only [ha, Option.join_none]
      exact .raises s
    | some o =>
      obtain ⟨y, ha, hrep⟩ := s.at_obj ho
      simp only [ha, Option.join_some]
      cases hrep with
      | dead => exact .raises s
      | @owner x p h1 h2 h3 =>
        simp only
        have hr := real_method E a i m h2 h3 h1
        revert hr
        generalize (x.py p).method E i m h = r
        generalize x.means E a i m = t
        intro hr
        cases hr with
        | @val v h' e => exact .ret (by show Sim h'.get? _ _; rw [e]; exact s)
        | @new y q h' e1 e2 e3 e4 =>
          simp only [PyWorld.finish, AOut.apply, s.len]
          exact .ret (by show Sim h'.get? _ _; rw [e4]; exact s.push e1 e2 e3)
        | @iter xs h' e1 e2 =>
          simp only [PyWorld.finish, AOut.apply, s.len]
          exact .ret (by show Sim h'.get? _ _; rw [e2]; exact s.pushIter e1 ha ho)
        | @edit g g' v h' e1 e2 =>
          subst e1
          exact .ret (by show Sim h'.get? _ _; rw [e2]; exact s.edit ha ho)
        | @raised e h' e1 => exact .raises (by show Sim h'.get? _ _; rw [e1]; exact s)
        | panic => exact .panics
      | @iter l pos x p xs h1 h2 h3 h4 =>
        simp only
        by_cases hm : m = .next
        · subst hm
          exact Py.agree_next s h1 h2 h3 h4 ha
        · obtain ⟨e1, e2⟩ := Py.iter_other (E := E) (h := h) (a := a) (i := i) (l := l) (pos := pos) (x := x) (p := p) hm
          rw [e1, e2]
          exact .raises s
  | collect i =>
    simp only [PyWorld.exec, pyStep]
    cases ho : objs[i]? with
    | none =>
      have ha : a[i]? = none := by
        rw [List.getElem?_eq_none_iff] at ho ⊢; rw [← s.len]; exact ho
      simp only [ha, Option.join_none]
      exact .raises s
    | some o =>
      obtain ⟨y, ha, hrep⟩ := s.at_obj ho
      simp only [ha, Option.join_some]
      by_cases hi : a.iterated i
      · have hr := (s.referenced_iff (h := h) i).2 hi
        cases hrep with
        | dead => exact .raises s
        | owner | iter => simp only [hr, if_true, if_pos hi]; exact .ret s
      · have hr : (PyWorld.mk h objs).referenced i = false := by
          rw [← Bool.not_eq_true, s.referenced_iff]; exact hi
        cases hrep with
        | dead => exact .raises s
        | @owner x p h1 h2 h3 =>
          obtain ⟨h', e1, e2⟩ := Py.del_owner (E := E) h1 h2 h3
          simp only [hr, Bool.false_eq_true, if_false, if_neg hi, e1]
          have := s.drop ho ha hi
          rw [owned_py h1] at this
          exact .ret (by show Sim h'.get? _ _; rw [e2]; exact this)
        | @iter l pos x p xs h1 h2 h3 h4 =>
          simp only [hr, Bool.false_eq_true, if_false, if_neg hi, Py.del_iter]
          have := s.drop ho ha hi
          rw [owned_pyIter] at this
          exact .ret this

end Verif
