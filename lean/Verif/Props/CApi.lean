import Verif.Lemmas.CApi
import Verif.Props.CCodec

/-! # C59–C62: the C interface -/

namespace Verif.Props
open Verif Spec

/-! ## Reading off the specification -/

section inversion
variable {E : Ctx} {c : Call} {M M' : Mem} {v : Val} {p : Ptr} {k : Kind}

theorem handle_decodes (hh : c.handle = some (p, k)) : c.decodes E = none := by
  cases c <;> simp_all [Call.handle, Call.decodes]

theorem handle_frees (hh : c.handle = some (p, k)) : c.frees = none := by
  cases c <;> simp_all [Call.handle, Call.frees]

theorem meaning_null (hh : c.handle = some (0, k)) (m : Meaning E c M v M') : v = c.neutral ∧ M' = M.putSize c.out 0 := by
  have hd := handle_decodes (E := E) hh
  have hf := handle_frees hh
  cases m with
  | null => exact ⟨rfl, rfl⟩
  | answered h1 h2 | created h1 h2 | refused h1 h2 | edited h1 h2 => rw [hh] at h1; cases h1; exact absurd rfl h2
  | ignored h1 h2 => cases hh; exact absurd rfl h2
  | newUndirected | newDirected => cases hh
  | decoded h1 | rejected h1 | missing h1 => rw [hd] at h1; cases h1
  | freeNull h1 | freed h1 => rw [hf] at h1; cases h1

theorem answer_makes {x : Obj} (ha : c.answer x = some v) : c.makes E x = none ∧ c.edit? M = none ∧ c.out = 0 := by
  cases c <;> cases x <;> simp_all [Call.answer, Call.makes, Call.edit?, Call.out]

theorem makes_edit {x : Obj} {r : Res Obj} (ha : c.makes E x = some r) : c.edit? M = none := by
  cases c <;> cases x <;> simp_all [Call.makes, Call.edit?]

/-- What the specification says about a call on a live handle. -/
theorem meaning_handle {x : Obj} (hh : c.handle = some (p, k)) (hp : p ≠ 0) (hx : M p = some x) (m : Meaning E c M v M') :
    (∀ a, c.answer x = some a → v = a ∧ M' = M) ∧
    (∀ y, c.makes E x = some (.ok y) → ∃ q, v = .ptr q ∧ q ≠ 0 ∧ M q = none ∧
      M' = (M.putSize c.out y.size).put q (some y)) ∧
    (∀ e, c.makes E x = some (.err e) → v = .ptr 0 ∧ M' = M.putSize c.out 0) ∧
    (c.makes E x ≠ some .panic) ∧
    (∀ g e, x = .graph g → c.edit? M = some e → M' = M.put p (some (.graph (e.call g)))) := by
  have hd := handle_decodes (E := E) hh
  have hf := handle_frees hh
  cases m with
  | null h1 => rw [hh] at h1; cases h1; exact absurd rfl hp
  | answered h1 h2 h3 h4 =>
    rw [hh] at h1; cases h1
    rw [hx] at h3; cases h3
    obtain ⟨e1, e2, _⟩ := answer_makes (E := E) (M := M) h4
    simp [e1, e2, h4]
  | created h1 h2 h3 h4 h5 h6 =>
    rw [hh] at h1; cases h1
    rw [hx] at h3; cases h3
    have e2 := makes_edit (M := M) h4
    refine ⟨?_, ?_, by simp [h4], by simp [h4], by simp [e2]⟩
    · intro a ha
      rw [(answer_makes (E := E) (M := M) ha).1] at h4; cases h4
    · intro y hy
      rw [h4] at hy; cases hy
      exact ⟨_, rfl, h5, h6, rfl⟩
  | refused h1 h2 h3 h4 =>
    rw [hh] at h1; cases h1
    rw [hx] at h3; cases h3
    have e2 := makes_edit (M := M) h4
    refine ⟨?_, by simp [h4], by simp, by simp [h4], by simp [e2]⟩
    intro a ha
    rw [(answer_makes (E := E) (M := M) ha).1] at h4; cases h4
  | edited h1 h2 h3 h4 =>
    rw [hh] at h1; cases h1
    rw [hx] at h3; cases h3
    refine ⟨?_, ?_, ?_, ?_, ?_⟩
    · intro a ha
      rw [(answer_makes (E := E) (M := M) ha).2.1] at h4; cases h4
    · intro y hy; rw [makes_edit hy] at h4; cases h4
    · intro y hy; rw [makes_edit hy] at h4; cases h4
    · intro hy; rw [makes_edit hy] at h4; cases h4
    · intro g e hg he
      cases hg; rw [h4] at he; cases he; rfl
  | ignored h1 h2 =>
    refine ⟨?_, ?_, ?_, ?_, ?_⟩
    · intro a ha; cases x <;> cases ha
    · intro a ha; cases x <;> cases ha
    · intro a ha; cases x <;> cases ha
    · intro ha; cases x <;> cases ha
    · intro g e hg he; simp [Call.edit?, h1] at he
  | newUndirected | newDirected => cases hh
  | decoded h1 | rejected h1 | missing h1 => rw [hd] at h1; cases h1
  | freeNull h1 | freed h1 => rw [hf] at h1; cases h1

end inversion

theorem exec_ok_meaning {E : Ctx} {c : Call} {h h' : Heap} {v : Val} (he : c.exec E h = .ok v h') :
    Meaning E c h.get? v h'.get? := (c.outcome E h).ok v h' he

/-! ## C59 -/

/-- **C59.** A null handle: the call returns the neutral value; the only memory it touches is the size parameter, which
becomes 0.  No other pointer of the call needs to be valid. -/
theorem C59_null_handle (E : Ctx) (c : Call) (k : Kind) (h : Heap) (hc : c.handle = some (0, k))
    (ho : c.out = 0 ∨ ∃ n, h.get? c.out = some (.callerUsize n)) :
    ∃ h', c.exec E h = .ok c.neutral h' ∧
      (c.out ≠ 0 → h'.get? c.out = some (.callerUsize 0)) ∧ ∀ q, q ≠ c.out ∨ q = 0 → h'.get? q = h.get? q := by
  have hv : Valid h.get? c := by
    refine ⟨?_, ho, ?_, ?_, ?_⟩
    · intro p k' h1; rw [hc] at h1; cases h1; exact .inl rfl
    · intro p v tos n h1; subst h1; cases hc; exact .inl rfl
    · intro E p n e f h1; rw [handle_decodes hc] at h1; cases h1
    · intro p ok h1; rw [handle_frees hc] at h1; cases h1
  have ho := c.outcome E h
  cases he : c.exec E h with
  | ub => exact absurd hv (ho.ub he)
  | abort =>
    rcases ho.abort he with ⟨p, k', x, h1, h2, _⟩ | ⟨p, n, e, f, b, h1, _⟩
    · rw [hc] at h1; cases h1; exact absurd rfl h2
    · rw [handle_decodes hc] at h1; cases h1
  | ok v h' =>
    obtain ⟨rfl, hm⟩ := meaning_null hc (ho.ok v h' he)
    refine ⟨h', rfl, ?_, ?_⟩
    · intro h0; rw [hm]; simp [Mem.putSize, Mem.put, h0]
    · intro q hq
      rw [hm]
      unfold Mem.putSize Mem.put
      by_cases h0 : c.out = 0
      · rw [if_pos h0]
      · rw [if_neg h0, if_neg]
        rcases hq with hq | hq
        · exact hq
        · rw [hq]; exact fun h => h0 h.symm

/-- **C59.** Freeing null does nothing. -/
theorem C59_free_null (E : Ctx) (c : Call) (ok : Obj → Prop) (h : Heap) (hc : c.frees = some (0, ok)) :
    c.exec E h = .ok .unit h := by
  cases c <;> simp only [Call.frees, Option.some.injEq, Prod.mk.injEq, reduceCtorEq] at hc
  all_goals
    obtain ⟨rfl, _⟩ := hc
    rfl

/-- Which calls this is about: all functions of the interface except the constructors and decoders. -/
theorem C59_covers (c : Call) : (∃ p k, c.handle = some (p, k)) ∨ (∃ p ok, c.frees = some (p, ok)) ∨
    c = .newUndirected ∨ c = .newDirected ∨ (∃ p n e, c = .fromBytes p n e) ∨ (∃ p n e, c = .cFromBytes p n e) := by
  cases c <;> simp [Call.handle, Call.frees]

/-- An allocator for the examples: the address after the largest one in use. -/
def exFresh (h : Heap) : Ptr := (h.entries.map Prod.fst).foldr max 0 + 1

theorem exFresh_free (h : Heap) : h.get? (exFresh h) = none := by
  by_contra hne
  obtain ⟨v, hv⟩ := Option.ne_none_iff_exists'.1 hne
  have hm := HMap.mem_entries_iff.2 hv
  have : ∀ (l : List Nat) x, x ∈ l → x ≤ l.foldr max 0 := by
    intro l
    induction l with
    | nil => intro x hx; cases hx
    | cons a l ih =>
      intro x hx
      rcases List.mem_cons.1 hx with rfl | hx
      · exact Nat.le_max_left _ _
      · exact (ih x hx).trans (Nat.le_max_right _ _)
  have := this _ _ (List.mem_map_of_mem (f := Prod.fst) hm)
  unfold exFresh at this
  simp only at this
  omega

/-- The environment of the examples. -/
def exE : Ctx where
  P := exP
  fresh := exFresh
  fresh_ne _ := Nat.succ_ne_zero _
  fresh_free := exFresh_free
  o₁ := .id
  o₂ := .id

/-- A memory with a size cell at address 1, an error cell at 2, three vertex numbers at 3, four bytes at 4, and the
graph `exD` at 5. -/
def exH : Heap :=
  ((((HMap.empty.insert 1 (.callerUsize 9)).insert 2 (.callerU8 7)).insert 3 (.callerU64s [1, 4, 6])).insert 4
    (.callerBytes [1, 2, 3, 4])).insert 5 (.graph exD)

example : (Call.getEdgeList 0 1).handle = some (0, .graph) ∧ ∃ n, exH.get? (Call.getEdgeList 0 1).out = some (.callerUsize n) :=
  ⟨rfl, 9, rfl⟩

/-! ## C60 -/

/-- **C60.** As long as the calling program keeps its side of the contract (live handles of the right kind, out-parameters and
buffers as declared), no call is undefined, and a call aborts only if the Rust method panics. -/
theorem C60_defined (E : Ctx) (c : Call) (h : Heap) (hv : Valid h.get? c) :
    (∃ v h', c.exec E h = .ok v h') ∨ (c.exec E h = .abort ∧ Panics E h.get? c) := by
  have ho := c.outcome E h
  cases he : c.exec E h with
  | ub => exact absurd hv (ho.ub he)
  | abort => exact .inr ⟨rfl, ho.abort he⟩
  | ok v h' => exact .inl ⟨v, h', rfl⟩

theorem out_writes (c : Call) (h : c.out ≠ 0) : c.out ∈ c.writes := by
  cases c <;> simp_all [Call.out, Call.writes]

theorem decodes_writes {E : Ctx} {c : Call} {p n e f} (h : c.decodes E = some (p, n, e, f)) : e ∈ c.writes := by
  cases c <;> simp_all [Call.decodes, Call.writes]

theorem frees_writes {c : Call} {p ok} (h : c.frees = some (p, ok)) : p ∈ c.writes := by
  cases c <;> simp_all [Call.frees, Call.writes]

theorem edit_writes {c : Call} {p k M e} (h : c.handle = some (p, k)) (he : c.edit? M = some e) : p ∈ c.writes := by
  cases c <;> simp_all [Call.handle, Call.edit?, Call.writes]

theorem putSize_other {M : Mem} {c : Call} {q : Ptr} (n : Nat) (hq : q ∉ c.writes ∨ q = 0) : M.putSize c.out n q = M q := by
  unfold Mem.putSize Mem.put
  by_cases h0 : c.out = 0
  · rw [if_pos h0]
  · rw [if_neg h0, if_neg]
    intro h1
    rcases hq with hq | hq
    · exact hq (h1 ▸ out_writes c h0)
    · exact h0 (h1 ▸ hq)

theorem putError_other {M : Mem} {c : Call} {q e : Ptr} (n : Nat) (he : e ∈ c.writes) (hq : q ∉ c.writes ∨ q = 0) :
    M.putError e n q = M q := by
  unfold Mem.putError Mem.put
  by_cases h0 : e = 0
  · rw [if_pos h0]
  · rw [if_neg h0, if_neg]
    intro h1
    rcases hq with hq | hq
    · exact hq (h1 ▸ he)
    · exact h0 (h1 ▸ hq)

theorem meaning_frame {E : Ctx} {c : Call} {M M' : Mem} {v : Val} (m : Meaning E c M v M') (q : Ptr)
    (hq : q ∉ c.writes ∨ q = 0) : M' q = M q ∨ (M q = none ∧ v = .ptr q ∧ q ≠ 0) := by
  have hput : ∀ {M1 : Mem} {q' : Ptr} {x : Option Obj}, M1 q = M q → M q' = none → q' ≠ 0 →
      M1.put q' x q = M q ∨ (M q = none ∧ Val.ptr q' = .ptr q ∧ q ≠ 0) := by
    intro M1 q' x h1 h2 h3
    unfold Mem.put
    by_cases h : q = q'
    · right; subst h; exact ⟨h2, rfl, h3⟩
    · rw [if_neg h]; exact .inl h1
  cases m with
  | null h1 => exact .inl (putSize_other 0 hq)
  | answered h1 h2 h3 h4 => exact .inl rfl
  | created h1 h2 h3 h4 h5 h6 => exact hput (putSize_other _ hq) h6 h5
  | refused h1 h2 h3 h4 => exact .inl (putSize_other 0 hq)
  | edited h1 h2 h3 h4 =>
    left
    unfold Mem.put
    rw [if_neg]
    rintro rfl
    rcases hq with hq | hq
    · exact hq (edit_writes h1 h4)
    · exact h2 hq
  | ignored => exact .inl rfl
  | newUndirected h1 h2 | newDirected h1 h2 => exact hput rfl h2 h1
  | decoded h1 h2 h3 h4 h5 h6 => exact hput (putError_other _ (decodes_writes h1) hq) h6 h5
  | rejected h1 h2 h3 h4 => exact .inl (putError_other _ (decodes_writes h1) hq)
  | missing h1 h2 => exact .inl (putError_other _ (decodes_writes h1) hq)
  | freeNull => exact .inl rfl
  | freed h1 h2 =>
    left
    unfold Mem.put
    rw [if_neg]
    rintro rfl
    rcases hq with hq | hq
    · exact hq (frees_writes h1)
    · exact h2 hq

/-- **C60.** No call changes anything at addresses other than those it frees or edits and its out-parameters; a new
object comes to lie where nothing was. -/
theorem C60_frame {E : Ctx} {c : Call} {h h' : Heap} {v : Val} (he : c.exec E h = .ok v h') (q : Ptr)
    (hq : q ∉ c.writes ∨ q = 0) : h'.get? q = h.get? q ∨ (h.get? q = none ∧ v = .ptr q ∧ q ≠ 0) :=
  meaning_frame (exec_ok_meaning he) q hq

theorem setUsize_ok {α : Type} {out : Ptr} {n : Nat} {k : CM α} {w : α → Val} {h h' : Heap} {v : Val}
    (he : (CApi.setUsize out n >>= fun _ => k).ret w h = .ok v h') :
    out = 0 ∨ ∃ m, h.get? out = some (.callerUsize m) := by
  rcases setUsize_cases out n h with ⟨h1, _, _, hc⟩ | ⟨e, _⟩
  · rcases hc with hc | ⟨hc, _⟩
    · exact .inl hc
    · exact .inr hc
  · rw [CM.ret_apply, CM.bind_apply, e] at he; cases he

theorem setU8_ok {α : Type} {out : Ptr} {n : Nat} {k : CM α} {w : α → Val} {h h' : Heap} {v : Val}
    (he : (CApi.setU8 out n >>= fun _ => k).ret w h = .ok v h') :
    out = 0 ∨ ∃ m, h.get? out = some (.callerU8 m) := by
  rcases setU8_cases out n h with ⟨h1, _, _, hc⟩ | ⟨e, _⟩
  · rcases hc with hc | ⟨hc, _⟩
    · exact .inl hc
    · exact .inr hc
  · rw [CM.ret_apply, CM.bind_apply, e] at he; cases he

/-- A call that returned had usable out-parameters. -/
theorem exec_cells {E : Ctx} {c : Call} {h h' : Heap} {v : Val} (he : c.exec E h = .ok v h') :
    (c.out = 0 ∨ ∃ n, h.get? c.out = some (.callerUsize n)) ∧
      ∀ a n e f, c.decodes E = some (a, n, e, f) → e = 0 ∨ ∃ n, h.get? e = some (.callerU8 n) := by
  cases c with
  | toBytes p s => exact ⟨setUsize_ok he, by simp [Call.decodes]⟩
  | cToBytes p s => exact ⟨setUsize_ok he, by simp [Call.decodes]⟩
  | getEdgeList p s => exact ⟨setUsize_ok he, by simp [Call.decodes]⟩
  | getInEdgesList p v s => exact ⟨setUsize_ok he, by simp [Call.decodes]⟩
  | getOutEdgesList p v s => exact ⟨setUsize_ok he, by simp [Call.decodes]⟩
  | mGetEntryList p s => exact ⟨setUsize_ok he, by simp [Call.decodes]⟩
  | fromBytes p n e =>
    refine ⟨.inl rfl, ?_⟩
    intro a b e' f h1; cases h1; exact setU8_ok he
  | cFromBytes p n e =>
    refine ⟨.inl rfl, ?_⟩
    intro a b e' f h1; cases h1; exact setU8_ok he
  | _ => exact ⟨.inl rfl, by simp [Call.decodes]⟩

theorem after_nil (x : Obj) : x.after [] = x := by cases x <;> rfl

theorem after_append (x : Obj) (a b : List Edit) : x.after (a ++ b) = (x.after a).after b := by
  cases x <;> simp [Obj.after, List.foldl_append]

theorem after_isCaller (x : Obj) (a : List Edit) : (x.after a).isCaller = x.isCaller := by cases x <;> rfl

theorem edit_kind {c : Call} {p k M e} (h : c.handle = some (p, k)) (he : c.edit? M = some e) : k = .graph := by
  cases c <;> simp_all [Call.handle, Call.edit?]

/-- One call and an object of the library: it stays as it is, unless the call edits or frees it. -/
theorem exec_object {E : Ctx} {c : Call} {h h' : Heap} {v : Val} (he : c.exec E h = .ok v h') {p : Ptr} {x : Obj}
    (hp : p ≠ 0) (hx : h.get? p = some x) (hc : x.isCaller = false) (hf : ∀ ok, c.frees ≠ some (p, ok)) :
    h'.get? p = some (x.after ((Event.editOf p (.call E c h.get? v)).toList)) := by
  have hv := exec_cells he
  have m := exec_ok_meaning he
  revert hv m hx
  generalize h.get? = M
  generalize h'.get? = M'
  intro hx hv m
  have hsz : ∀ n, Mem.putSize M c.out n p = M p := by
    intro n
    unfold Mem.putSize Mem.put
    rcases hv.1 with h0 | ⟨m, h0⟩
    · rw [if_pos h0]
    · split
      · rfl
      · beta_reduce
        rw [if_neg]
        rintro rfl
        rw [hx] at h0; cases h0; cases hc
  have her : ∀ {a n e f} i, c.decodes E = some (a, n, e, f) → Mem.putError M e i p = M p := by
    intro a n e f i hd
    unfold Mem.putError Mem.put
    rcases hv.2 _ _ _ _ hd with h0 | ⟨m, h0⟩
    · rw [if_pos h0]
    · split
      · rfl
      · beta_reduce
        rw [if_neg]
        rintro rfl
        rw [hx] at h0; cases h0; cases hc
  have hput : ∀ {M1 : Mem} {q : Ptr} {y : Option Obj}, M1 p = M p → M q = none → M1.put q y p = some x := by
    intro M1 q y h1 h2
    unfold Mem.put
    rw [if_neg, h1, hx]
    rintro rfl
    rw [hx] at h2; cases h2
  by_cases hed : (c.handle.map Prod.fst) = some p ∧ ∃ e, c.edit? M = some e
  · obtain ⟨hh, e, hed⟩ := hed
    obtain ⟨⟨p', k⟩, hh', hpp⟩ := Option.map_eq_some_iff.1 hh
    replace hh := hh'
    simp only at hpp
    subst hpp
    have hk := edit_kind hh hed
    subst hk
    have hev : Event.editOf p' (.call E c M v) = some e := by simp [Event.editOf, hh, hed]
    rw [hev]
    cases m with
    | edited h1 h2 h3 h4 =>
      rw [hh] at h1; cases h1
      rw [h3] at hx; cases hx
      rw [h4] at hed; cases hed
      simp [Mem.put, Obj.after]
    | null h1 => rw [hh] at h1; cases h1; exact absurd rfl hp
    | answered h1 h2 h3 h4 => rw [(answer_makes (E := E) (M := M) h4).2.1] at hed; cases hed
    | created h1 h2 h3 h4 => rw [makes_edit h4] at hed; cases hed
    | refused h1 h2 h3 h4 => rw [makes_edit h4] at hed; cases hed
    | ignored h1 h2 => simp [Call.edit?, h1] at hed
    | newUndirected | newDirected => cases hh
    | decoded h1 | rejected h1 | missing h1 => rw [handle_decodes hh] at h1; cases h1
    | freeNull h1 | freed h1 => rw [handle_frees hh] at h1; cases h1
  · have hev : Event.editOf p (.call E c M v) = none := by
      unfold Event.editOf
      simp only
      split
      · next h1 =>
        cases h2 : c.edit? M with
        | none => rfl
        | some e => exact absurd ⟨h1, e, h2⟩ hed
      · rfl
    rw [hev]
    rw [show (none : Option Edit).toList = [] from rfl, after_nil]
    cases m with
    | null h1 => rw [hsz, hx]
    | answered h1 h2 h3 h4 => exact hx
    | created h1 h2 h3 h4 h5 h6 => exact hput (hsz _) h6
    | refused h1 h2 h3 h4 => rw [hsz, hx]
    | edited h1 h2 h3 h4 =>
      unfold Mem.put
      rw [if_neg, hx]
      rintro rfl
      exact hed ⟨by rw [h1]; rfl, _, h4⟩
    | ignored => exact hx
    | newUndirected h1 h2 | newDirected h1 h2 => exact hput rfl h2
    | decoded h1 h2 h3 h4 h5 h6 => exact hput (her _ h1) h6
    | rejected h1 h2 h3 h4 => rw [her _ h1, hx]
    | missing h1 h2 => rw [her _ h1, hx]
    | freeNull => exact hx
    | freed h1 h2 =>
      unfold Mem.put
      rw [if_neg, hx]
      rintro rfl
      exact hf _ h1

/-- **C60.** During any run of a C program, an object of the library that is not freed is exactly what its own
edits have made of it, whatever else the program calls. -/
theorem C60_own_history {h h' : Heap} {t : List Event} (hr : Run h t h') {p : Ptr} {x : Obj} (hp : p ≠ 0)
    (hx : h.get? p = some x) (hc : x.isCaller = false) (hf : ∀ ev ∈ t, ¬ ev.Frees p) :
    h'.get? p = some (x.after (editsOf p t)) := by
  induction hr generalizing x with
  | nil => rw [hx]; exact congrArg some (after_nil x).symm
  | @call h h1 h2 E c v t he _ ih =>
    have h3 := exec_object he hp hx hc (fun ok h4 => hf _ (List.mem_cons_self ..) ⟨ok, h4⟩)
    have := ih h3 (by rw [after_isCaller]; exact hc) (fun ev hev => hf ev (List.mem_cons_of_mem _ hev))
    rw [this, ← after_append]
    unfold editsOf
    rw [List.filterMap_cons]
    cases Event.editOf p (.call E c h.get? v) <;> rfl
  | @write h h2 q y t hq hold hnew _ ih =>
    have hne : p ≠ q := by
      rintro rfl
      rw [hold _ hx] at hc; cases hc
    have := ih (x := x) (by rw [HMap.get?_insert, if_neg hne]; exact hx) hc (fun ev hev => hf ev (List.mem_cons_of_mem _ hev))
    rw [this]; rfl
  | @drop h h2 q t hold _ ih =>
    have hne : p ≠ q := by
      rintro rfl
      rw [hold _ hx] at hc; cases hc
    have := ih (x := x) (by rw [HMap.get?_remove, if_neg hne]; exact hx) hc (fun ev hev => hf ev (List.mem_cons_of_mem _ hev))
    rw [this]; rfl

/-- The tables cover every call on a live handle of the right kind: it is a query, makes an object, or is an edit. -/
theorem C60_covers (E : Ctx) (c : Call) (p : Ptr) (k : Kind) (x : Obj) (hh : c.handle = some (p, k)) (hx : x.kind = some k) :
    (∃ a, c.answer x = some a) ∨ (∃ r, c.makes E x = some r) ∨
      (∃ u v, c = .addEdge p u v) ∨ (∃ u v, c = .deleteEdge p u v) ∨ (∃ v tos n, c = .addVertex p v tos n) := by
  cases c <;> simp only [Call.handle, Option.some.injEq, Prod.mk.injEq, reduceCtorEq] at hh
  all_goals
    obtain ⟨rfl, rfl⟩ := hh
    cases x <;> simp_all [Obj.kind, Call.answer, Call.makes]

/-- **C60.** Every call on a live handle returns what the Rust method returns for the object's own history: for
queries the value, for calls that make an object a new object holding what Rust made, and null if Rust reports an error. -/
theorem C60_returns {h h1 h2 : Heap} {t : List Event} (hr : Run h t h1) {p : Ptr} {x : Obj} {k : Kind} (hp : p ≠ 0)
    (hx : h.get? p = some x) (hk : x.kind = some k) (hf : ∀ ev ∈ t, ¬ ev.Frees p) {E : Ctx} {c : Call} {v : Val}
    (hh : c.handle = some (p, k)) (he : c.exec E h1 = .ok v h2) :
    (∀ a, c.answer (x.after (editsOf p t)) = some a → v = a) ∧
    (∀ y, c.makes E (x.after (editsOf p t)) = some (.ok y) →
      ∃ q, v = .ptr q ∧ q ≠ 0 ∧ h1.get? q = none ∧ h2.get? q = some y ∧
        (c.out ≠ 0 → h2.get? c.out = some (.callerUsize y.size))) ∧
    (∀ e, c.makes E (x.after (editsOf p t)) = some (.err e) →
      v = .ptr 0 ∧ (c.out ≠ 0 → h2.get? c.out = some (.callerUsize 0))) := by
  have hc : x.isCaller = false := by cases x <;> first | rfl | cases hk
  have h3 := C60_own_history hr hp hx hc hf
  have hcell := (exec_cells he).1
  obtain ⟨m1, m2, m3, m4, m5⟩ := meaning_handle hh hp h3 (exec_ok_meaning he)
  refine ⟨fun a ha => (m1 a ha).1, fun y hy => ?_, fun e hy => ?_⟩
  · obtain ⟨q, e1, e2, e3, e4⟩ := m2 y hy
    refine ⟨q, e1, e2, e3, ?_, fun h0 => ?_⟩
    · rw [e4]; simp [Mem.put]
    · have hne : c.out ≠ q := by
        rintro h5
        rcases hcell with h6 | ⟨n, h6⟩
        · exact h0 h6
        · rw [h5, e3] at h6; cases h6
      rw [e4]
      simp [Mem.put, Mem.putSize, hne, h0]
  · obtain ⟨e1, e2⟩ := m3 e hy
    refine ⟨e1, fun h0 => ?_⟩
    rw [e2]; simp [Mem.putSize, Mem.put, h0]

/-- **C60.** The whole story for one graph: created through the C interface, edited through its handle while the
program does anything else, it answers every query like the abstract graph of its own edits. -/
theorem C60_like_abstract {h h1 h2 : Heap} {E : Ctx} {t : List Event} {p : Ptr} (undirected : Bool)
    (hn : (if undirected then Call.newUndirected else Call.newDirected).exec E h = .ok (.ptr p) h1)
    (hr : Run h1 t h2) (hf : ∀ ev ∈ t, ¬ ev.Frees p) :
    ∃ g, h2.get? p = some (.graph g) ∧
      Agrees g ((editsOf p t).foldl AGraph.applyActual (AGraph.empty undirected)) := by
  have m := exec_ok_meaning hn
  have h1p : p ≠ 0 ∧ h1.get? p = some (.graph (if undirected then Graph.newUndirected else Graph.newDirected)) := by
    cases undirected with
    | true =>
      simp only [if_true] at m ⊢
      generalize h1.get? = M1 at m ⊢
      cases m with
      | newUndirected h1 h2 => exact ⟨h1, by simp [Mem.put]⟩
      | null h1 | answered h1 | created h1 | refused h1 | decoded h1 | rejected h1 | missing h1 => cases h1
    | false =>
      simp only [Bool.false_eq_true, if_false] at m ⊢
      generalize h1.get? = M1 at m ⊢
      cases m with
      | newDirected h1 h2 => exact ⟨h1, by simp [Mem.put]⟩
      | null h1 | answered h1 | created h1 | refused h1 | decoded h1 | rejected h1 | missing h1 => cases h1
  refine ⟨_, C60_own_history hr h1p.1 h1p.2 rfl hf, ?_⟩
  exact C01_history_refinement undirected (editsOf p t)

/-- A run with two graphs: creating one, editing both, and asking about the second. -/
example : ∃ h1 h2 h3 h4 v,
    Call.newUndirected.exec exE exH = .ok (.ptr 6) h1 ∧
    (Call.addVertex 6 2 3 2).exec exE h1 = .ok .unit h2 ∧ (Call.addEdge 5 3 3).exec exE h2 = .ok .unit h3 ∧
    (Call.edgeCount 6).exec exE h3 = .ok v h4 ∧
    Run h1 [.call exE (.addVertex 6 2 3 2) h1.get? .unit, .call exE (.addEdge 5 3 3) h2.get? .unit] h3 ∧
    editsOf 6 [.call exE (.addVertex 6 2 3 2) h1.get? .unit, .call exE (.addEdge 5 3 3) h2.get? .unit] =
      [.addVertex 2 (some [1, 4])] :=
  ⟨_, _, _, _, _, rfl, rfl, rfl, rfl, .call rfl (.call rfl .nil), rfl⟩

/-! ## C61 -/

theorem decode_valid {E : Ctx} {c : Call} {h : Heap} {buffer size error : Nat} {f : Bytes → Res Obj}
    (hd : c.decodes E = some (buffer, size, error, f)) (hb : buffer = 0 ∨ ∃ b, bytesAt h.get? buffer size = some b)
    (he : error = 0 ∨ ∃ n, h.get? error = some (.callerU8 n)) : Valid h.get? c := by
  have hh : c.handle = none := by cases c <;> simp_all [Call.decodes, Call.handle]
  have hf : c.frees = none := by cases c <;> simp_all [Call.decodes, Call.frees]
  have ho : c.out = 0 := by cases c <;> simp_all [Call.decodes, Call.out]
  refine ⟨?_, .inl ho, ?_, ?_, ?_⟩
  · intro p k h1; rw [hh] at h1; cases h1
  · intro p v tos n h1; subst h1; cases hh
  · intro E' p n e f' h1
    have : p = buffer ∧ n = size ∧ e = error := by
      cases c <;> simp only [Call.decodes, Option.some.injEq, Prod.mk.injEq, reduceCtorEq] at hd h1
      all_goals
        obtain ⟨rfl, rfl, rfl, _⟩ := hd
        obtain ⟨rfl, rfl, rfl, _⟩ := h1
        exact ⟨rfl, rfl, rfl⟩
    obtain ⟨rfl, rfl, rfl⟩ := this
    exact ⟨hb, he⟩
  · intro p ok h1; rw [hf] at h1; cases h1

/-- Decoding calls in general. -/
theorem decode_spec {E : Ctx} {c : Call} {h : Heap} {buffer size error : Nat} {f : Bytes → Res Obj} {b : Bytes}
    (hd : c.decodes E = some (buffer, size, error, f)) (hbs : buffer = 0 → size = 0)
    (hb : bytesAt h.get? buffer size = some b)
    (he : error = 0 ∨ ∃ n, h.get? error = some (.callerU8 n)) (hf : f b ≠ .panic) :
    ∃ q h', c.exec E h = .ok (.ptr q) h' ∧ (q ≠ 0 ↔ ∃ y, f b = .ok y) ∧
      (q ≠ 0 → h.get? q = none ∧ f b = (h'.get? q).elim .panic .ok) ∧
      (error ≠ 0 → h'.get? error = some (.callerU8 (if q = 0 then 1 else 0))) := by
  have hv := decode_valid hd (.inr ⟨b, hb⟩) he
  rcases C60_defined E c h hv with ⟨v, h', hx⟩ | ⟨_, hp⟩
  · have m := exec_ok_meaning hx
    have hh : c.handle = none := by cases c <;> simp_all [Call.decodes, Call.handle]
    have hfr : c.frees = none := by cases c <;> simp_all [Call.decodes, Call.frees]
    rw [hx]
    revert m hb he
    generalize h.get? = M
    generalize hM : h'.get? = M'
    intro hb he m
    cases m with
    | null h1 | answered h1 | created h1 | refused h1 | edited h1 => rw [hh] at h1; cases h1
    | ignored h1 h2 => cases hh
    | newUndirected | newDirected => cases hd
    | freeNull h1 | freed h1 => rw [hfr] at h1; cases h1
    | @decoded _ p n e f' b' y q _ h1 h2 h3 h4 h5 h6 =>
      rw [hd] at h1; cases h1
      rw [hb] at h3; cases h3
      refine ⟨q, h', rfl, ⟨fun _ => ⟨_, h4⟩, fun _ => h5⟩, fun _ => ⟨h6, ?_⟩, fun h0 => ?_⟩
      · rw [hM, h4]; simp [Mem.put]
      · have hne : error ≠ q := by
          rintro rfl
          rcases he with h7 | ⟨n, h7⟩
          · exact h0 h7
          · rw [h6] at h7; cases h7
        rw [hM]
        simp [Mem.put, Mem.putError, hne, h0, h5]
    | @rejected _ p n e f' b' er _ h1 h2 h3 h4 =>
      rw [hd] at h1; cases h1
      rw [hb] at h3; cases h3
      refine ⟨0, h', rfl, ⟨fun h0 => absurd rfl h0, fun ⟨y, hy⟩ => ?_⟩, fun h0 => absurd rfl h0, fun h0 => ?_⟩
      · rw [h4] at hy; cases hy
      · rw [hM]; simp [Mem.put, Mem.putError, h0]
    | missing h1 h2 =>
      rw [hd] at h1; cases h1
      exact absurd (hbs rfl) h2
  · rcases hp with ⟨p, k, x, h1, _⟩ | ⟨p, n, e, f', b', h1, h0, h2, h3⟩
    · rw [show c.handle = none by cases c <;> simp_all [Call.decodes, Call.handle]] at h1; cases h1
    · rw [hd] at h1; cases h1
      rw [hb] at h2; cases h2
      exact absurd h3 hf

/-- **C61.** `gphrx_from_bytes`, given readable bytes (any buffer if the size is 0): exactly for valid files it returns
a new non-null handle to the decoded graph and sets the error code to 0; otherwise it returns null and sets it to 1.  The
error pointer may be null. -/
theorem C61_from_bytes (E : Ctx) (h : Heap) (buffer size error : Nat) (b : Bytes) (hbs : buffer = 0 → size = 0)
    (hb : bytesAt h.get? buffer size = some b) (he : error = 0 ∨ ∃ n, h.get? error = some (.callerU8 n))
    (hP : b.length ≤ E.P.usizeMax) :
    ∃ q h', (Call.fromBytes buffer size error).exec E h = .ok (.ptr q) h' ∧ (q ≠ 0 ↔ ValidGraphFile b) ∧
      (q ≠ 0 → h.get? q = none ∧ ∃ g, Graph.tryFrom E.P b = .ok g ∧ h'.get? q = some (.graph g)) ∧
      (error ≠ 0 → h'.get? error = some (.callerU8 (if q = 0 then 1 else 0))) ∧
      ∀ p, p ≠ error → p ≠ q ∨ p = 0 → h'.get? p = h.get? p := by
  have hnp : (Graph.tryFrom E.P b).map Obj.graph ≠ .panic := by
    rcases C16_decode_total E.P b hP with ⟨g, hg⟩ | ⟨m, hm⟩
    · rw [hg]; simp [Res.map]
    · rw [hm]; simp [Res.map]
  obtain ⟨q, h', h1, h2, h3, h4⟩ := decode_spec (c := .fromBytes buffer size error) (E := E) rfl hbs hb he hnp
  have hiff : (∃ y, (Graph.tryFrom E.P b).map Obj.graph = .ok y) ↔ ∃ g, Graph.tryFrom E.P b = .ok g := by
    cases Graph.tryFrom E.P b <;> simp [Res.map]
  refine ⟨q, h', h1, by rw [h2]; rw [hiff, C18_accepts_iff hP], fun hq => ?_, h4, ?_⟩
  · obtain ⟨e1, e2⟩ := h3 hq
    obtain ⟨g, hg⟩ := hiff.1 (h2.1 hq)
    refine ⟨e1, g, hg, ?_⟩
    rw [hg] at e2
    cases hx : h'.get? q with
    | none => rw [hx] at e2; cases e2
    | some y => rw [hx] at e2; cases e2; rfl
  · intro p hpe hpq
    rcases C60_frame h1 p (.inl (by simpa [Call.writes] using hpe)) with h5 | ⟨_, h6, h7⟩
    · exact h5
    · cases h6
      rcases hpq with h8 | h8
      · exact absurd rfl h8
      · exact absurd h8 h7

/-- **C61.** The same for `gphrx_compressed_graph_from_bytes`. -/
theorem C61_compressed_from_bytes (E : Ctx) (h : Heap) (buffer size error : Nat) (b : Bytes) (hbs : buffer = 0 → size = 0)
    (hb : bytesAt h.get? buffer size = some b) (he : error = 0 ∨ ∃ n, h.get? error = some (.callerU8 n))
    (hP : b.length ≤ E.P.usizeMax) :
    ∃ q h', (Call.cFromBytes buffer size error).exec E h = .ok (.ptr q) h' ∧ (q ≠ 0 ↔ ValidCompressedFile b) ∧
      (q ≠ 0 → h.get? q = none ∧ ∃ g, CGraph.tryFrom E.P b = .ok g ∧ h'.get? q = some (.cgraph g)) ∧
      (error ≠ 0 → h'.get? error = some (.callerU8 (if q = 0 then 1 else 0))) ∧
      ∀ p, p ≠ error → p ≠ q ∨ p = 0 → h'.get? p = h.get? p := by
  have hnp : (CGraph.tryFrom E.P b).map Obj.cgraph ≠ .panic := by
    rcases C33_decode_total E.P b hP with ⟨g, hg⟩ | ⟨m, hm⟩
    · rw [hg]; simp [Res.map]
    · rw [hm]; simp [Res.map]
  obtain ⟨q, h', h1, h2, h3, h4⟩ := decode_spec (c := .cFromBytes buffer size error) (E := E) rfl hbs hb he hnp
  have hiff : (∃ y, (CGraph.tryFrom E.P b).map Obj.cgraph = .ok y) ↔ ∃ g, CGraph.tryFrom E.P b = .ok g := by
    cases CGraph.tryFrom E.P b <;> simp [Res.map]
  refine ⟨q, h', h1, by rw [h2]; rw [hiff, C66_accepts_iff hP], fun hq => ?_, h4, ?_⟩
  · obtain ⟨e1, e2⟩ := h3 hq
    obtain ⟨g, hg⟩ := hiff.1 (h2.1 hq)
    refine ⟨e1, g, hg, ?_⟩
    rw [hg] at e2
    cases hx : h'.get? q with
    | none => rw [hx] at e2; cases e2
    | some y => rw [hx] at e2; cases e2; rfl
  · intro p hpe hpq
    rcases C60_frame h1 p (.inl (by simpa [Call.writes] using hpe)) with h5 | ⟨_, h6, h7⟩
    · exact h5
    · cases h6
      rcases hpq with h8 | h8
      · exact absurd rfl h8
      · exact absurd h8 h7

/-- **C61.** A null buffer with a non-zero size is an error, not undefined behaviour. -/
theorem C61_null_buffer (E : Ctx) (h : Heap) (size error : Nat) (hs : size ≠ 0)
    (he : error = 0 ∨ ∃ n, h.get? error = some (.callerU8 n)) (c : Call)
    (hc : c = .fromBytes 0 size error ∨ c = .cFromBytes 0 size error) :
    ∃ h', c.exec E h = .ok (.ptr 0) h' ∧ (error ≠ 0 → h'.get? error = some (.callerU8 1)) ∧
      ∀ p, p ≠ error → h'.get? p = h.get? p := by
  have hd : ∃ f, c.decodes E = some (0, size, error, f) := by
    rcases hc with rfl | rfl
    · exact ⟨_, rfl⟩
    · exact ⟨_, rfl⟩
  obtain ⟨f, hd⟩ := hd
  have hw : c.writes = [error] := by rcases hc with rfl | rfl <;> rfl
  have hh : c.handle = none := by cases c <;> simp_all [Call.decodes, Call.handle]
  have hfr : c.frees = none := by cases c <;> simp_all [Call.decodes, Call.frees]
  rcases C60_defined E c h (decode_valid hd (.inl rfl) he) with ⟨v, h', hx⟩ | ⟨_, hp⟩
  · have m := exec_ok_meaning hx
    have hfr' := fun p hp => C60_frame hx p (.inl (by rw [hw]; simpa using hp))
    have key : v = .ptr 0 ∧ h'.get? = Mem.putError h.get? error 1 := by
      revert m
      generalize h.get? = M
      generalize h'.get? = M'
      intro m
      cases m with
      | null h1 | answered h1 | created h1 | refused h1 | edited h1 => rw [hh] at h1; cases h1
      | ignored h1 h2 => cases hh
      | newUndirected | newDirected => cases hd
      | freeNull h1 | freed h1 => rw [hfr] at h1; cases h1
      | decoded h1 h2 | rejected h1 h2 => rw [hd] at h1; cases h1; exact absurd (h2 rfl) hs
      | missing h1 h2 => rw [hd] at h1; cases h1; exact ⟨rfl, rfl⟩
    obtain ⟨rfl, hm⟩ := key
    refine ⟨h', hx, fun h0 => ?_, fun p hp => ?_⟩
    · rw [hm]; simp [Mem.putError, Mem.put, h0]
    · rcases hfr' p hp with h1 | ⟨_, h2, h3⟩
      · exact h1
      · cases h2; exact absurd rfl h3
  · rcases hp with ⟨p, k, x, h1, _⟩ | ⟨p, n, e, f', b', h1, h0, h2, h3⟩
    · rw [hh] at h1; cases h1
    · rw [hd] at h1; cases h1
      exact absurd (h0 rfl) hs

/-- Four bytes at address 4, of which three are passed: rejected. -/
example : bytesAt exH.get? 4 3 = some [1, 2, 3] ∧ (∃ n, exH.get? 2 = some (.callerU8 n)) ∧
    [1, 2, 3].length ≤ exE.P.usizeMax := ⟨rfl, ⟨7, rfl⟩, by decide⟩

/-- An accepted file: the bytes of the example graph. -/
example : ∃ b g, exD.toBytes exP .id = .ok b ∧
    bytesAt (exH.insert 9 (.callerBytes b)).get? 9 b.length = some b ∧ Graph.tryFrom exE.P b = .ok g := by
  obtain ⟨b, hb, hp⟩ := okAnd_elim (show okAnd (exD.toBytes exP .id)
    (fun b => okAnd (Graph.tryFrom exP b) (fun _ => true) && b.length != 0) = true by decide +kernel)
  simp only [Bool.and_eq_true, bne_iff_ne] at hp
  obtain ⟨g, hg, _⟩ := okAnd_elim hp.1
  refine ⟨b, g, hb, ?_, hg⟩
  rw [bytesAt, if_neg hp.2, HMap.get?_insert, if_pos rfl]
  simp

/-! ## C62 -/

/-- The function that frees what a call returned. -/
def freeFor : Call → Ptr → Nat → Call
  | .matrixString _ | .cMatrixString _ | .mToString _ | .mToStringWithPrecision _ _ => fun p _ => .freeString p
  | .toBytes _ _ | .cToBytes _ _ => .freeBytes
  | .getEdgeList _ _ => .freeEdgeList
  | .getInEdgesList _ _ _ | .getOutEdgesList _ _ _ => .freeVertexList
  | .mGetEntryList _ _ => .freeEntryList
  | .cDuplicate _ | .compress _ _ | .cFromBytes _ _ _ => fun p _ => .freeCGraph p
  | .mDuplicate _ | .findAvgPoolMatrix _ _ => fun p _ => .freeMatrix p
  | _ => fun p _ => .freeGraph p

theorem exec_free {E : Ctx} {c : Call} {h : Heap} {p : Ptr} {ok : Obj → Prop} {x : Obj} (hf : c.frees = some (p, ok))
    (hp : p ≠ 0) (hx : h.get? p = some x) (hok : ok x) :
    ∃ h', c.exec E h = .ok .unit h' ∧ h'.get? = Mem.put h.get? p none := by
  have hh : c.handle = none := by cases c <;> simp_all [Call.frees, Call.handle]
  have hd : ∀ E, c.decodes E = none := by intro E; cases c <;> simp_all [Call.frees, Call.decodes]
  have hv : Valid h.get? c := by
    refine ⟨?_, ?_, ?_, ?_, ?_⟩
    · intro p k h1; rw [hh] at h1; cases h1
    · left; cases c <;> simp_all [Call.frees, Call.out]
    · intro p v tos n h1; subst h1; cases hh
    · intro E p n e f h1; rw [hd] at h1; cases h1
    · intro p' ok' h1; rw [hf] at h1; cases h1; exact .inr ⟨x, hx, hok⟩
  rcases C60_defined E c h hv with ⟨v, h', hx'⟩ | ⟨_, hp'⟩
  · have m := exec_ok_meaning hx'
    refine ⟨h', ?_, ?_⟩
    · rw [hx']
      revert m
      generalize h.get? = M
      generalize h'.get? = M'
      intro m
      cases m with
      | null h1 | answered h1 | created h1 | refused h1 => rw [hh] at h1; cases h1
      | edited | ignored | freeNull | freed => rfl
      | newUndirected | newDirected => cases hf
      | decoded h1 | rejected h1 | missing h1 => rw [hd] at h1; cases h1
    · revert m
      generalize h.get? = M
      generalize h'.get? = M'
      intro m
      cases m with
      | null h1 | answered h1 | created h1 | refused h1 | edited h1 => rw [hh] at h1; cases h1
      | ignored h1 h2 => cases hh
      | newUndirected | newDirected => cases hf
      | decoded h1 | rejected h1 | missing h1 => rw [hd] at h1; cases h1
      | freeNull h1 => rw [hf] at h1; cases h1; exact absurd rfl hp
      | freed h1 => rw [hf] at h1; cases h1; rfl
  · rcases hp' with ⟨p, k, x, h1, _⟩ | ⟨p, n, e, f', b', h1, _⟩
    · rw [hh] at h1; cases h1
    · rw [hd] at h1; cases h1

theorem cstr_ok {r : Res (List Char)} {y : Obj} (h : cstr r = .ok y) : ∃ s, y = .cstring s ∧ r = .ok s := by
  cases r with
  | ok s =>
    unfold cstr at h
    simp only at h
    split at h
    · cases h
    · cases h; exact ⟨s, rfl, rfl⟩
  | err e => cases h
  | panic => cases h

theorem plain_ok {α : Type} {f : α → Obj} {r : Res α} {y : Obj} (h : plain f r = .ok y) : ∃ a, y = f a ∧ r = .ok a := by
  cases r <;> cases h; exact ⟨_, rfl, rfl⟩

theorem map_ok {α β : Type} {f : α → β} {r : Res α} {y : β} (h : r.map f = .ok y) : ∃ a, y = f a ∧ r = .ok a := by
  cases r <;> cases h; exact ⟨_, rfl, rfl⟩

/-- What a call created is of the kind that its free function expects. -/
theorem makes_free {E : Ctx} {c : Call} {x y : Obj} (hm : c.makes E x = some (.ok y)) (q : Ptr) :
    y.isCaller = false ∧ ∃ ok, (freeFor c q y.size).frees = some (q, ok) ∧ ∀ es, ok (y.after es) := by
  cases c <;> cases x <;> simp only [Call.makes, Option.some.injEq, reduceCtorEq] at hm
  all_goals
    first
    | obtain ⟨s, rfl, _⟩ := cstr_ok hm; exact ⟨rfl, _, rfl, fun _ => ⟨s, rfl⟩⟩
    | obtain ⟨b, rfl, _⟩ := map_ok hm; exact ⟨rfl, _, rfl, fun _ => ⟨b, rfl, rfl⟩⟩
    | obtain ⟨a, rfl, _⟩ := plain_ok hm; exact ⟨rfl, _, rfl, fun _ => ⟨_, rfl⟩⟩
    | cases hm; exact ⟨rfl, _, rfl, fun _ => ⟨_, rfl⟩⟩
    | cases hm; exact ⟨rfl, _, rfl, fun _ => ⟨_, rfl, rfl⟩⟩

theorem answer_not_ptr {c : Call} {x : Obj} {q : Ptr} : c.answer x ≠ some (.ptr q) := by
  have hb : ∀ b, cbool b ≠ .ptr q := by intro b; cases b <;> simp [cbool]
  cases c <;> cases x <;> simp [Call.answer, hb]

theorem neutral_ptr {c : Call} {q : Ptr} (h : c.neutral = .ptr q) : q = 0 := by
  cases c <;> simp [Call.neutral] at h <;> exact h.symm

/-- A call that returned a non-null pointer has put an object there that its free function accepts. -/
theorem returned_object {E : Ctx} {c : Call} {h h1 : Heap} {q : Ptr} (he : c.exec E h = .ok (.ptr q) h1) (hq : q ≠ 0) :
    ∃ y, h1.get? q = some y ∧ y.isCaller = false ∧ (c.out ≠ 0 → h1.get? c.out = some (.callerUsize y.size)) ∧
      ∃ ok, (freeFor c q y.size).frees = some (q, ok) ∧ ∀ es, ok (y.after es) := by
  have hcell := (exec_cells he).1
  have m := exec_ok_meaning he
  revert hcell m
  generalize h.get? = M
  generalize h1.get? = M'
  generalize hv : Val.ptr q = v
  intro hcell m
  cases m with
  | null h1 => exact absurd (neutral_ptr hv.symm) hq
  | answered h1 h2 h3 h4 => rw [← hv] at h4; exact absurd h4 answer_not_ptr
  | @created _ _ _ _ _ y _ h1 h2 h3 h4 h5 h6 =>
    cases hv
    obtain ⟨e1, e2⟩ := makes_free h4 q
    refine ⟨y, by simp [Mem.put], e1, fun h0 => ?_, e2⟩
    have hne : c.out ≠ q := by
      intro h7
      rcases hcell with h8 | ⟨n, h8⟩
      · exact h0 h8
      · rw [h7, h6] at h8; cases h8
    simp [Mem.put, Mem.putSize, hne, h0]
  | refused h1 h2 h3 h4 => cases hv; exact absurd rfl hq
  | edited | ignored | freeNull | freed => cases hv
  | newUndirected h1 h2 =>
    cases hv
    exact ⟨.graph Graph.newUndirected, by simp only [Mem.put, if_true], rfl, fun h0 => absurd rfl h0, _, rfl, fun _ => ⟨_, rfl⟩⟩
  | newDirected h1 h2 =>
    cases hv
    exact ⟨.graph Graph.newDirected, by simp only [Mem.put, if_true], rfl, fun h0 => absurd rfl h0, _, rfl, fun _ => ⟨_, rfl⟩⟩
  | @decoded _ p n e f b y _ _ h1 h2 h3 h4 h5 h6 =>
    cases hv
    refine ⟨y, by simp [Mem.put], ?_⟩
    cases c <;> simp only [Call.decodes, Option.some.injEq, Prod.mk.injEq, reduceCtorEq] at h1
    · obtain ⟨_, _, _, rfl⟩ := h1
      obtain ⟨g, rfl, _⟩ := map_ok h4
      exact ⟨rfl, fun h0 => absurd rfl h0, _, rfl, fun _ => ⟨_, rfl⟩⟩
    · obtain ⟨_, _, _, rfl⟩ := h1
      obtain ⟨g, rfl, _⟩ := map_ok h4
      exact ⟨rfl, fun h0 => absurd rfl h0, _, rfl, fun _ => ⟨_, rfl⟩⟩
  | rejected | missing => cases hv; exact absurd rfl hq

/-- **C62.** Whatever a call returned can be freed with the function for it, with the size that the call has written
(for the calls that write one), at any later time unless it has been freed before, and nothing else is freed. -/
theorem C62_size_frees {E : Ctx} {c : Call} {h h1 h2 : Heap} {q : Ptr} {t : List Event}
    (he : c.exec E h = .ok (.ptr q) h1) (hq : q ≠ 0) (hr : Run h1 t h2) (hf : ∀ ev ∈ t, ¬ ev.Frees q) :
    ∃ n, (c.out ≠ 0 → h1.get? c.out = some (.callerUsize n)) ∧
      ∀ E', ∃ h3, (freeFor c q n).exec E' h2 = .ok .unit h3 ∧ h3.get? = Mem.put h2.get? q none := by
  obtain ⟨y, e1, e2, e3, ok, e4, e5⟩ := returned_object he hq
  have h2q := C60_own_history hr hq e1 e2 hf
  exact ⟨y.size, e3, fun E' => exec_free e4 hq h2q (e5 _)⟩

/-- **C62.** Sizes written for the lists of a graph: edges, neighbours, bytes. -/
theorem C62_sizes {E : Ctx} {h h1 : Heap} {p out q : Ptr} {g : Graph} (hg : GReach g) (hp : p ≠ 0) (ho : out ≠ 0)
    (hx : h.get? p = some (.graph g)) :
    ((Call.getEdgeList p out).exec E h = .ok (.ptr q) h1 →
      h1.get? out = some (.callerUsize g.edgeCount) ∧
      ∃ l, h1.get? q = some (.edges l) ∧ l.length = g.edgeCount ∧ l.Nodup ∧ ∀ u v, (u, v) ∈ l ↔ g.doesEdgeExist u v = true) ∧
    (∀ v, (Call.getInEdgesList p v out).exec E h = .ok (.ptr q) h1 →
      h1.get? out = some (.callerUsize (g.getVertexInDegree v)) ∧
      ∃ l, h1.get? q = some (.vertices l) ∧ l.length = g.getVertexInDegree v ∧ l.Nodup ∧
        ∀ u, u ∈ l ↔ g.doesEdgeExist u v = true) ∧
    (∀ v, (Call.getOutEdgesList p v out).exec E h = .ok (.ptr q) h1 →
      h1.get? out = some (.callerUsize (g.getVertexOutDegree v)) ∧
      ∃ l, h1.get? q = some (.vertices l) ∧ l.length = g.getVertexOutDegree v ∧ l.Nodup ∧
        ∀ u, u ∈ l ↔ g.doesEdgeExist v u = true) ∧
    ((Call.toBytes p out).exec E h = .ok (.ptr q) h1 →
      (q = 0 ∧ h1.get? out = some (.callerUsize 0) ∧ ∃ e, g.toBytes E.P E.o₁ = .err e) ∨
      (q ≠ 0 ∧ h1.get? out = some (.callerUsize (26 + 16 * g.edgeCount)) ∧
        ∃ b, h1.get? q = some (.bytes b) ∧ g.toBytes E.P E.o₁ = .ok b)) := by
  refine ⟨fun he => ?_, fun v he => ?_, fun v he => ?_, fun he => ?_⟩
  · obtain ⟨_, m2, _⟩ := C60_returns .nil hp hx (k := .graph) rfl (by simp) rfl he
    obtain ⟨q', e1, e2, e3, e4, e5⟩ := m2 _ rfl
    cases e1
    obtain ⟨c1, c2, c3, _⟩ := C09_iteration_exactly_once hg E.o₁
    have := e5 ho
    refine ⟨?_, _, e4, c3, c1, c2⟩
    rw [show (Call.getEdgeList p out).out = out from rfl] at this
    rw [this]
    exact congrArg (fun n => some (Obj.callerUsize n)) c3
  · obtain ⟨_, m2, _⟩ := C60_returns .nil hp hx (k := .graph) rfl (by simp) rfl he
    obtain ⟨q', e1, e2, e3, e4, e5⟩ := m2 _ rfl
    cases e1
    obtain ⟨c1, c2, c3, c4, c5, c6, _⟩ := C10_neighbours hg E.o₁ v
    have := e5 ho
    refine ⟨?_, _, e4, c6.symm, c4, c2⟩
    rw [show (Call.getInEdgesList p v out).out = out from rfl] at this
    rw [this]
    exact congrArg (fun n => some (Obj.callerUsize n)) c6.symm
  · obtain ⟨_, m2, _⟩ := C60_returns .nil hp hx (k := .graph) rfl (by simp) rfl he
    obtain ⟨q', e1, e2, e3, e4, e5⟩ := m2 _ rfl
    cases e1
    obtain ⟨c1, c2, c3, c4, c5, c6, _⟩ := C10_neighbours hg E.o₁ v
    have := e5 ho
    refine ⟨?_, _, e4, c5.symm, c3, c1⟩
    rw [show (Call.getOutEdgesList p v out).out = out from rfl] at this
    rw [this]
    exact congrArg (fun n => some (Obj.callerUsize n)) c5.symm
  · obtain ⟨_, m2, m3⟩ := C60_returns .nil hp hx (k := .graph) rfl (by simp) rfl he
    have m2 : ∀ y, some ((g.toBytes E.P E.o₁).map Obj.bytes) = some (.ok y) → _ := m2
    have m3 : ∀ y, some ((g.toBytes E.P E.o₁).map Obj.bytes) = some (.err y) → _ := m3
    obtain ⟨c1, c2, _⟩ := C14_graph_bytes_layout hg E.P E.o₁
    cases hb : g.toBytes E.P E.o₁ with
    | panic => exact absurd hb c1
    | err e =>
      rw [hb] at m3
      obtain ⟨e1, e2⟩ := m3 _ rfl
      cases e1
      exact .inl ⟨rfl, e2 ho, e, rfl⟩
    | ok b =>
      rw [hb] at m2
      obtain ⟨q', e1, e2, e3, e4, e5⟩ := m2 _ rfl
      cases e1
      refine .inr ⟨e2, ?_, b, e4, rfl⟩
      rw [← (c2 b hb).1]
      exact e5 ho

/-- The hypotheses are met by the example memory. -/
example : ∃ q h1, (Call.getEdgeList 5 1).exec exE exH = .ok (.ptr q) h1 ∧ q ≠ 0 ∧ exH.get? 5 = some (.graph exD) ∧ GReach exD :=
  ⟨6, _, rfl, by decide, rfl, exD_reach⟩

end Verif.Props
