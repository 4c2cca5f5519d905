import Verif.Props.CApi
import Verif.Spec.CSafety

/-!
# C115: undefined behaviour in the C interface is exactly a broken contract
-/

namespace Verif.Props
open Verif Spec

theorem ret_ub {α : Type} {x : CM α} {h : Heap} (hx : x h = .ub) (w : α → Val) : x.ret w h = .ub := by
  rw [CM.ret_apply, hx]

theorem bind_ub {α β : Type} {x : CM α} {h : Heap} (hx : x h = .ub) (f : α → CM β) : (x >>= f) h = .ub := by
  rw [CM.bind_apply, hx]

theorem setUsize_ub {p : Ptr} {n : Nat} {h : Heap} (hp : p ≠ 0) (hc : ¬ ∃ n, h.get? p = some (.callerUsize n)) :
    CApi.setUsize p n h = .ub := by
  unfold CApi.setUsize
  rw [if_neg hp]
  split
  · next k e => exact absurd ⟨k, e⟩ hc
  · rfl

theorem setU8_ub {p : Ptr} {n : Nat} {h : Heap} (hp : p ≠ 0) (hc : ¬ ∃ n, h.get? p = some (.callerU8 n)) :
    CApi.setU8 p n h = .ub := by
  unfold CApi.setU8
  rw [if_neg hp]
  split
  · next k e => exact absurd ⟨k, e⟩ hc
  · rfl

/-- A function that writes its out-parameter before it looks at its handle. -/
theorem out_first_ub {α T : Type} {ref : Ptr → CM (Option T)} {inj : T → Obj} {k : Kind} (hr : IsRef ref inj k) {p out : Ptr}
    {h : Heap} (hp : p ≠ 0) (hd : ¬ ∃ x, h.get? p = some x ∧ x.kind = some k) (f : Option T → CM α) :
    (CApi.setUsize out 0 >>= fun _ => ref p >>= f) h = .ub := by
  rw [CM.bind_apply]
  unfold CApi.setUsize
  have hn : ∀ t, h.get? p ≠ some (inj t) := fun t e => hd ⟨_, e, (hr.kind _).2 ⟨t, rfl⟩⟩
  split
  · next h' e =>
    split at e
    · cases e
      exact bind_ub (hr.dead _ _ hp hn) _
    · split at e
      · cases e
        refine bind_ub (hr.dead _ _ hp ?_) _
        intro t e
        rw [HMap.get?_insert] at e
        split at e
        · have := (hr.kind (inj t)).2 ⟨t, rfl⟩
          rw [← Option.some.inj e] at this
          cases this
        · exact hn t e
      · cases e
  · rfl
  · next e =>
    split at e
    · cases e
    · split at e <;> cases e

theorem freeObj_ub {good : Obj → Bool} {p : Ptr} {h : Heap} (hp : p ≠ 0) (hd : ¬ ∃ x, h.get? p = some x ∧ good x = true) :
    CApi.freeObj good p h = .ub := by
  unfold CApi.freeObj
  rw [if_neg hp]
  split
  · next x e =>
    rw [if_neg]
    exact fun hg => hd ⟨x, e, hg⟩
  · rfl

theorem handle_ub {E : Ctx} {c : Call} {h : Heap} {p : Ptr} {k : Kind} (hh : c.handle = some (p, k)) (hp : p ≠ 0)
    (hd : ¬ ∃ x, h.get? p = some x ∧ x.kind = some k) : c.exec E h = .ub := by
  have hg : k = .graph → CApi.graphRef p h = .ub := by
    rintro rfl
    exact isRef_graph.dead _ _ hp fun t e => hd ⟨_, e, rfl⟩
  have hc : k = .cgraph → CApi.cgraphRef p h = .ub := by
    rintro rfl
    exact isRef_cgraph.dead _ _ hp fun t e => hd ⟨_, e, rfl⟩
  have hm : k = .matrix → CApi.matrixRef p h = .ub := by
    rintro rfl
    exact isRef_matrix.dead _ _ hp fun t e => hd ⟨_, e, rfl⟩
  cases c <;> cases hh
  all_goals first
    | exact ret_ub (bind_ub (hg rfl) _) _
    | exact ret_ub (bind_ub (hc rfl) _) _
    | exact ret_ub (bind_ub (hm rfl) _) _
    | exact ret_ub (out_first_ub isRef_graph hp hd _) _
    | exact ret_ub (out_first_ub isRef_cgraph hp hd _) _
    | exact ret_ub (out_first_ub isRef_matrix hp hd _) _

theorem out_ub {E : Ctx} {c : Call} {h : Heap} (ho : c.out ≠ 0) (hd : ¬ ∃ n, h.get? c.out = some (.callerUsize n)) :
    c.exec E h = .ub := by
  cases c
  all_goals first
    | exact absurd rfl ho
    | exact ret_ub (bind_ub (setUsize_ub ho hd) _) _

theorem free_ub {E : Ctx} {c : Call} {h : Heap} {p : Ptr} {ok : Obj → Prop} (hf : c.frees = some (p, ok)) (hp : p ≠ 0)
    (hd : ¬ ∃ x, h.get? p = some x ∧ ok x) : c.exec E h = .ub := by
  cases c <;> cases hf
  all_goals
    refine ret_ub (freeObj_ub hp ?_) _
    rintro ⟨x, h1, h2⟩
    refine hd ⟨x, h1, ?_⟩
    cases x <;> simp_all

theorem list_ub {E : Ctx} {h : Heap} {p tos : Ptr} {v n : Nat} (hp : p ≠ 0) (ht : tos ≠ 0)
    (hd : ¬ ∃ l, listAt h.get? tos n = some l) : (Call.addVertex p v tos n).exec E h = .ub := by
  by_cases hg : ∃ g, h.get? p = some (.graph g)
  · obtain ⟨g, hg⟩ := hg
    have hn : n ≠ 0 := by
      rintro rfl
      exact hd ⟨_, if_pos rfl⟩
    unfold listAt at hd
    rw [if_neg hn] at hd
    refine ret_ub ?_ _
    unfold CApi.addVertex
    rw [CM.bind_apply, isRef_graph.live p h g hp hg]
    simp only [ht, hn, false_and, if_false]
    refine bind_ub ?_ _
    unfold CApi.readU64s
    split
    · next l e =>
      rw [if_neg]
      intro hl
      rw [e] at hd
      exact hd ⟨some (l.take n), by simp only [if_pos hl]⟩
    · next l e =>
      rw [if_neg]
      intro hl
      rw [e] at hd
      exact hd ⟨some (l.take n), by simp only [if_pos hl]⟩
    · rfl
  · refine handle_ub (k := .graph) rfl hp ?_
    rintro ⟨x, h1, h2⟩
    obtain ⟨t, rfl⟩ := (isRef_graph.kind x).1 h2
    exact hg ⟨t, h1⟩

/-- The common beginning of the two decoding functions, whatever follows. -/
theorem input_ub {α : Type} {h : Heap} {p e : Ptr} {n : Nat} (hp : p ≠ 0) (hd : ¬ ∃ b, bytesAt h.get? p n = some b)
    (f : Bytes → CM α) : (CApi.setU8 e 0 >>= fun _ => CApi.inputBytes p n >>= f) h = .ub := by
  have hn : n ≠ 0 := by
    rintro rfl
    exact hd ⟨_, if_pos rfl⟩
  unfold bytesAt at hd
  rw [if_neg hn] at hd
  have hread : ∀ h' : Heap, (h'.get? p = h.get? p ∨ ∃ x, h'.get? p = some (.callerU8 x)) → CApi.readBytes p n h' = .ub := by
    rintro h' (h1 | ⟨x, h1⟩)
    · unfold CApi.readBytes
      rw [h1]
      split
      · next b e =>
        rw [if_neg]
        intro hl
        rw [e] at hd
        exact hd ⟨b.take n, by simp only [if_pos hl]⟩
      · next b e =>
        rw [if_neg]
        intro hl
        rw [e] at hd
        exact hd ⟨b.take n, by simp only [if_pos hl]⟩
      · rfl
    · unfold CApi.readBytes
      rw [h1]
  have hin : ∀ h', CApi.inputBytes p n h' = CApi.readBytes p n h' := by
    intro h'
    unfold CApi.inputBytes
    rw [if_neg hn]
  rw [CM.bind_apply]
  unfold CApi.setU8
  split
  · next h' e1 =>
    refine bind_ub ?_ _
    rw [hin]
    apply hread
    split at e1
    · cases e1; exact .inl rfl
    · split at e1
      · cases e1
        rw [HMap.get?_insert]
        split
        · exact .inr ⟨_, rfl⟩
        · exact .inl rfl
      · cases e1
  · rfl
  · next e1 =>
    split at e1
    · cases e1
    · split at e1 <;> cases e1

theorem decode_ub {E E' : Ctx} {c : Call} {h : Heap} {p e : Ptr} {n : Nat} {f : Bytes → Res Obj}
    (hc : c.decodes E' = some (p, n, e, f))
    (hd : ¬ ((p = 0 ∨ ∃ b, bytesAt h.get? p n = some b) ∧ (e = 0 ∨ ∃ x, h.get? e = some (.callerU8 x)))) :
    c.exec E h = .ub := by
  by_cases he : e = 0 ∨ ∃ x, h.get? e = some (.callerU8 x)
  · have hp : p ≠ 0 := fun hp => hd ⟨.inl hp, he⟩
    have hb : ¬ ∃ b, bytesAt h.get? p n = some b := fun hb => hd ⟨.inr hb, he⟩
    cases c <;> cases hc
    · refine ret_ub ?_ _
      unfold CApi.fromBytes
      simp only [hp, false_and, if_false]
      exact input_ub hp hb _
    · refine ret_ub ?_ _
      unfold CApi.cFromBytes
      simp only [hp, false_and, if_false]
      exact input_ub hp hb _
  · rw [not_or] at he
    cases c <;> cases hc
    all_goals exact ret_ub (bind_ub (setU8_ub he.1 he.2) _) _

/-- **C115.** A call is undefined exactly if the program breaks the contract: a handle that is not null and not alive or of another
kind, an out-parameter that is not null and does not point to a cell of its type, a list or buffer shorter than stated, an object freed with
the wrong function or length. Nothing less than the contract will do, whatever the platform, the allocator and the hash order. -/
theorem C115_undefined_iff (E : Ctx) (c : Call) (h : Heap) : c.exec E h = .ub ↔ ¬ Valid h.get? c := by
  refine ⟨(c.outcome E h).ub, ?_⟩
  intro hv
  by_contra hu
  apply hv
  refine ⟨?_, ?_, ?_, ?_, ?_⟩
  · intro p k hh
    by_contra hd
    rw [not_or] at hd
    exact hu (handle_ub hh hd.1 hd.2)
  · by_contra hd
    rw [not_or] at hd
    exact hu (out_ub hd.1 hd.2)
  · rintro p v tos n rfl
    by_contra hd
    rw [not_or, not_or] at hd
    exact hu (list_ub hd.1 hd.2.1 hd.2.2)
  · intro E' p n e f hc
    by_contra hd
    exact hu (decode_ub hc hd)
  · intro p ok hf
    by_contra hd
    rw [not_or] at hd
    exact hu (free_ub hf hd.1 hd.2)

/-- A call that returns was not one whose Rust method panics. -/
theorem meaning_not_panics {E : Ctx} {c : Call} {M M' : Mem} {v : Val} (hm : Meaning E c M v M') : ¬ Panics E M c := by
  rintro (⟨p, k, x, hh, hp, hx, hpan⟩ | ⟨p, n, e, f, b, hd, hn, hb, hf⟩)
  · cases hm with
    | null h1 => rw [hh] at h1; cases h1; exact hp rfl
    | answered h1 h2 h3 h4 =>
      rw [hh] at h1; cases h1
      rw [hx] at h3; cases h3
      cases c <;> cases x <;> first | cases h4; done | cases hpan
    | created h1 h2 h3 h4 =>
      rw [hh] at h1; cases h1
      rw [hx] at h3; cases h3
      rw [hpan] at h4; cases h4
    | refused h1 h2 h3 h4 =>
      rw [hh] at h1; cases h1
      rw [hx] at h3; cases h3
      rw [hpan] at h4; cases h4
    | edited h1 h2 h3 h4 =>
      rw [hh] at h1; cases h1
      rw [hx] at h3; cases h3
      cases c <;> first | cases h4; done | cases hpan
    | ignored => cases x <;> cases hpan
    | newUndirected => cases hh
    | newDirected => cases hh
    | decoded h1 => cases c <;> first | cases h1; done | cases hh
    | rejected h1 => cases c <;> first | cases h1; done | cases hh
    | missing h1 => cases c <;> first | cases h1; done | cases hh
    | freeNull h1 => cases c <;> first | cases h1; done | cases hh
    | freed h1 => cases c <;> first | cases h1; done | cases hh
  · cases hm with
    | null h1 => cases c <;> first | cases h1; done | cases hd
    | answered h1 => cases c <;> first | cases h1; done | cases hd
    | created h1 => cases c <;> first | cases h1; done | cases hd
    | refused h1 => cases c <;> first | cases h1; done | cases hd
    | edited h1 => cases c <;> first | cases h1; done | cases hd
    | ignored => cases hd
    | newUndirected => cases hd
    | newDirected => cases hd
    | decoded h1 h2 h3 h4 =>
      rw [hd] at h1; cases h1
      rw [hb] at h3; cases h3
      rw [hf] at h4; cases h4
    | rejected h1 h2 h3 h4 =>
      rw [hd] at h1; cases h1
      rw [hb] at h3; cases h3
      rw [hf] at h4; cases h4
    | missing h1 h2 =>
      rw [hd] at h1; cases h1
      exact h2 (hn rfl)
    | freeNull h1 => cases c <;> first | cases h1; done | cases hd
    | freed h1 => cases c <;> first | cases h1; done | cases hd

/-- **C115.** A call aborts exactly if the program keeps the contract and the Rust method behind the call panics. -/
theorem C115_aborts_iff (E : Ctx) (c : Call) (h : Heap) :
    c.exec E h = .abort ↔ Valid h.get? c ∧ Panics E h.get? c := by
  constructor
  · intro ha
    refine ⟨?_, (c.outcome E h).abort ha⟩
    by_contra hv
    rw [(C115_undefined_iff E c h).2 hv] at ha
    cases ha
  · rintro ⟨hv, hp⟩
    cases he : c.exec E h with
    | ub => exact absurd hv ((C115_undefined_iff E c h).1 he)
    | abort => rfl
    | ok v h' => exact absurd hp (meaning_not_panics ((c.outcome E h).ok v h' he))

/-- **C115.** A call returns exactly if the program keeps the contract and the Rust method does not panic, and then what it returns and
leaves in memory is what `Meaning` says. -/
theorem C115_returns_iff (E : Ctx) (c : Call) (h : Heap) :
    ((∃ v h', c.exec E h = .ok v h') ↔ Valid h.get? c ∧ ¬ Panics E h.get? c) ∧
    ∀ v h', c.exec E h = .ok v h' → Meaning E c h.get? v h'.get? := by
  refine ⟨?_, fun v h' he => (c.outcome E h).ok v h' he⟩
  have hu := C115_undefined_iff E c h
  have ha := C115_aborts_iff E c h
  cases he : c.exec E h with
  | ub =>
    refine ⟨?_, fun hv => absurd hv.1 (hu.1 he)⟩
    rintro ⟨v, h', e⟩; cases e
  | abort =>
    refine ⟨?_, fun hv => absurd (ha.1 he).2 hv.2⟩
    rintro ⟨v, h', e⟩; cases e
  | ok v h' =>
    refine ⟨fun _ => ⟨?_, meaning_not_panics ((c.outcome E h).ok v h' he)⟩, fun _ => ⟨v, h', rfl⟩⟩
    by_contra hv
    rw [hu.2 hv] at he; cases he

/-! ### Memory that the library owns -/

/-- The library has an object at `p`. -/
def Owned (M : Mem) (p : Ptr) : Prop := ∃ x, M p = some x ∧ x.isCaller = false

theorem owned_put {M : Mem} {q p : Ptr} {x : Option Obj} (h : Owned (M.put q x) p) :
    (p = q ∧ ∃ y, x = some y ∧ y.isCaller = false) ∨ (p ≠ q ∧ Owned M p) := by
  obtain ⟨y, h1, h2⟩ := h
  unfold Mem.put at h1
  split at h1
  · next e => exact .inl ⟨e, y, h1, h2⟩
  · next e => exact .inr ⟨e, y, h1, h2⟩

theorem owned_putSize {M : Mem} {q p : Ptr} {n : Nat} (h : Owned (M.putSize q n) p) : Owned M p := by
  unfold Mem.putSize at h
  split at h
  · exact h
  · rcases owned_put h with ⟨-, y, e, hc⟩ | ⟨-, h1⟩
    · cases e; cases hc
    · exact h1

theorem owned_putError {M : Mem} {q p : Ptr} {n : Nat} (h : Owned (M.putError q n) p) : Owned M p := by
  unfold Mem.putError at h
  split at h
  · exact h
  · rcases owned_put h with ⟨-, y, e, hc⟩ | ⟨-, h1⟩
    · cases e; cases hc
    · exact h1

/-- Where an object that is there after a call comes from. -/
theorem owned_before {E : Ctx} {c : Call} {M M' : Mem} {v : Val} (hm : Meaning E c M v M') {p : Ptr} (h0 : p ≠ 0) (h : Owned M' p) :
    v = .ptr p ∨ (Owned M p ∧ ¬ ∃ ok, c.frees = some (p, ok)) := by
  cases hm with
  | null h1 =>
    refine .inr ⟨owned_putSize h, ?_⟩
    rintro ⟨ok, hf⟩
    cases c <;> first | cases h1; done | cases hf
  | answered h1 =>
    refine .inr ⟨h, ?_⟩
    rintro ⟨ok, hf⟩
    cases c <;> first | cases h1; done | cases hf
  | created h1 =>
    rcases owned_put h with ⟨e, -⟩ | ⟨-, h2⟩
    · exact .inl (by rw [e])
    · refine .inr ⟨owned_putSize h2, ?_⟩
      rintro ⟨ok, hf⟩
      cases c <;> first | cases h1; done | cases hf
  | refused h1 =>
    refine .inr ⟨owned_putSize h, ?_⟩
    rintro ⟨ok, hf⟩
    cases c <;> first | cases h1; done | cases hf
  | @edited c q k M g e h1 h2 h3 h4 =>
    refine .inr ⟨?_, ?_⟩
    · rcases owned_put h with ⟨rfl, -⟩ | ⟨-, h2⟩
      · exact ⟨_, h3, rfl⟩
      · exact h2
    · rintro ⟨ok, hf⟩
      cases c <;> first | cases h1; done | cases hf
  | ignored => exact .inr ⟨h, by rintro ⟨ok, hf⟩; cases hf⟩
  | newUndirected =>
    rcases owned_put h with ⟨e, -⟩ | ⟨-, h2⟩
    · exact .inl (by rw [e])
    · exact .inr ⟨h2, by rintro ⟨ok, hf⟩; cases hf⟩
  | newDirected =>
    rcases owned_put h with ⟨e, -⟩ | ⟨-, h2⟩
    · exact .inl (by rw [e])
    · exact .inr ⟨h2, by rintro ⟨ok, hf⟩; cases hf⟩
  | decoded h1 =>
    rcases owned_put h with ⟨e, -⟩ | ⟨-, h2⟩
    · exact .inl (by rw [e])
    · refine .inr ⟨owned_putError h2, ?_⟩
      rintro ⟨ok, hf⟩
      cases c <;> first | cases h1; done | cases hf
  | rejected h1 =>
    refine .inr ⟨owned_putError h, ?_⟩
    rintro ⟨ok, hf⟩
    cases c <;> first | cases h1; done | cases hf
  | missing h1 =>
    refine .inr ⟨owned_putError h, ?_⟩
    rintro ⟨ok, hf⟩
    cases c <;> first | cases h1; done | cases hf
  | freeNull h1 =>
    refine .inr ⟨h, ?_⟩
    rintro ⟨ok, hf⟩
    rw [hf] at h1; cases h1; exact h0 rfl
  | freed h1 =>
    rcases owned_put h with ⟨-, y, e, -⟩ | ⟨h3, h2⟩
    · cases e
    · refine .inr ⟨h2, ?_⟩
      rintro ⟨ok, hf⟩
      rw [hf] at h1; cases h1; exact h3 rfl

theorem makes_owned {E : Ctx} {c : Call} {x y : Obj} (h : c.makes E x = some (.ok y)) : y.isCaller = false := by
  have hs : ∀ s, cstr s = .ok y → y.isCaller = false := by
    intro s hs
    unfold cstr at hs
    split at hs
    · split at hs
      · cases hs
      · cases hs; rfl
    · cases hs
    · cases hs
  have hp : ∀ {α : Type} (f : α → Obj) (r : Res α), (∀ a, (f a).isCaller = false) → plain f r = .ok y → y.isCaller = false := by
    intro α f r hf hs
    unfold plain at hs
    split at hs
    · cases hs; exact hf _
    · cases hs
  have hb : ∀ r : Res Bytes, r.map .bytes = .ok y → y.isCaller = false := by
    intro r hr
    cases r with
    | ok b => cases hr; rfl
    | err e => cases hr
    | panic => cases hr
  cases c <;> cases x <;> first
    | cases h; done
    | (cases h; rfl)
    | exact hs _ (Option.some.inj h)
    | exact hp _ _ (fun _ => rfl) (Option.some.inj h)
    | exact hb _ (Option.some.inj h)

theorem decodes_owned {E : Ctx} {c : Call} {p n e f b y} (h : c.decodes E = some (p, n, e, f)) (hy : f b = .ok y) :
    y.isCaller = false := by
  have hg : ∀ r : Res Graph, r.map .graph = .ok y → y.isCaller = false := by
    intro r hr
    cases r with
    | ok b => cases hr; rfl
    | err e => cases hr
    | panic => cases hr
  have hc : ∀ r : Res CGraph, r.map .cgraph = .ok y → y.isCaller = false := by
    intro r hr
    cases r with
    | ok b => cases hr; rfl
    | err e => cases hr
    | panic => cases hr
  cases c <;> cases h
  · exact hg _ hy
  · exact hc _ hy

/-- A pointer that a call returns, if not null, is an object of the library. -/
theorem returned_owned {E : Ctx} {c : Call} {M M' : Mem} {p : Ptr} (hm : Meaning E c M (.ptr p) M') (h0 : p ≠ 0) : Owned M' p := by
  have hput : ∀ (M : Mem) (y : Obj), y.isCaller = false → Owned (M.put p (some y)) p := fun M y hy => ⟨y, if_pos rfl, hy⟩
  generalize hv : Val.ptr p = v at hm
  cases hm with
  | null h1 => cases c <;> cases hv <;> exact absurd rfl h0
  | answered h1 h2 h3 h4 => subst hv; rename_i x; cases c <;> cases x <;> first | cases h4; done | skip
                            all_goals
                              simp only [Call.answer, cbool, Option.some.injEq] at h4
                              split at h4 <;> cases h4
  | created h1 h2 h3 h4 => cases hv; exact hput _ _ (makes_owned h4)
  | refused => cases hv; exact absurd rfl h0
  | edited => cases hv
  | ignored => cases hv
  | newUndirected => cases hv; exact hput _ _ rfl
  | newDirected => cases hv; exact hput _ _ rfl
  | decoded h1 h2 h3 h4 => cases hv; exact hput _ _ (decodes_owned h1 h4)
  | rejected => cases hv; exact absurd rfl h0
  | missing => cases hv; exact absurd rfl h0
  | freeNull => cases hv
  | freed => cases hv

theorem owned_run {h h' : Heap} {t : List Event} (hr : Run h t h') {p : Ptr} (h0 : p ≠ 0) (ho : Owned h'.get? p) :
    (Owned h.get? p ∧ ∀ ev ∈ t, ¬ ev.Frees p) ∨
    ∃ t₁ E c M t₂, t = t₁ ++ .call E c M (.ptr p) :: t₂ ∧ ∀ ev ∈ t₂, ¬ ev.Frees p := by
  induction hr with
  | nil => exact .inl ⟨ho, by simp⟩
  | @call h h1 h2 E c v t he _ ih =>
    rcases ih ho with ⟨h3, h4⟩ | ⟨t₁, E', c', M, t₂, rfl, h4⟩
    · rcases owned_before ((c.outcome E h).ok v h1 he) h0 h3 with rfl | ⟨h5, h6⟩
      · exact .inr ⟨[], E, c, _, t, rfl, h4⟩
      · exact .inl ⟨h5, fun ev hev => (List.mem_cons.1 hev).elim (fun e => by subst e; exact h6) (h4 ev)⟩
    · exact .inr ⟨_ :: t₁, E', c', M, t₂, rfl, h4⟩
  | @write h h2 q x t hq hc hx _ ih =>
    rcases ih ho with ⟨h3, h4⟩ | ⟨t₁, E', c', M, t₂, rfl, h4⟩
    · rw [get?_insert_put] at h3
      rcases owned_put h3 with ⟨-, y, e, h5⟩ | ⟨-, h5⟩
      · cases e; rw [hx] at h5; cases h5
      · exact .inl ⟨h5, fun ev hev => (List.mem_cons.1 hev).elim (fun e => by subst e; exact id) (h4 ev)⟩
    · exact .inr ⟨_ :: t₁, E', c', M, t₂, rfl, h4⟩
  | @drop h h2 q t hc _ ih =>
    rcases ih ho with ⟨h3, h4⟩ | ⟨t₁, E', c', M, t₂, rfl, h4⟩
    · rw [get?_remove_put] at h3
      rcases owned_put h3 with ⟨-, y, e, h5⟩ | ⟨-, h5⟩
      · cases e
      · exact .inl ⟨h5, fun ev hev => (List.mem_cons.1 hev).elim (fun e => by subst e; exact id) (h4 ev)⟩
    · exact .inr ⟨_ :: t₁, E', c', M, t₂, rfl, h4⟩

theorem run_split_at {h h' : Heap} {t₁ t₂ : List Event} (hr : Run h (t₁ ++ t₂) h') : ∃ h1, Run h t₁ h1 ∧ Run h1 t₂ h' := by
  induction t₁ generalizing h with
  | nil => exact ⟨h, .nil, hr⟩
  | cons ev t₁ ih =>
    cases hr with
    | call he hr => obtain ⟨h1, a, b⟩ := ih hr; exact ⟨h1, .call he a, b⟩
    | write h1 h2 h3 hr => obtain ⟨h1, a, b⟩ := ih hr; exact ⟨h1, .write ‹_› h2 h3 a, b⟩
    | drop h2 hr => obtain ⟨h1, a, b⟩ := ih hr; exact ⟨h1, .drop h2 a, b⟩

theorem after_owned {x : Obj} (h : x.isCaller = false) (es : List Edit) : (x.after es).isCaller = false := by
  cases x <;> first | cases h; done | rfl

/-- **C115.** In a program that began without using the library, the objects that the library has in memory are exactly those that it
returned to the program and that the program has not freed since: it keeps nothing else, and it gives nothing back by itself. -/
theorem C115_no_leak {h h' : Heap} {t : List Event} (hu : Untouched h) (hr : Run h t h') {p : Ptr} (h0 : p ≠ 0) :
    (∃ x, h'.get? p = some x ∧ x.isCaller = false) ↔
      ∃ t₁ E c M t₂, t = t₁ ++ .call E c M (.ptr p) :: t₂ ∧ ∀ ev ∈ t₂, ¬ ev.Frees p := by
  constructor
  · intro ho
    rcases owned_run hr h0 ho with ⟨⟨x, h1, h2⟩, -⟩ | h1
    · rw [hu p x h1] at h2; cases h2
    · exact h1
  · rintro ⟨t₁, E, c, M, t₂, rfl, hf⟩
    obtain ⟨h1, -, h2⟩ := run_split_at hr
    cases h2 with
    | @call _ h3 _ _ _ _ _ he hr2 =>
      obtain ⟨x, h4, h5⟩ := returned_owned ((c.outcome E h1).ok _ h3 he) h0
      exact ⟨_, C60_own_history hr2 h0 h4 h5 hf, after_owned h5 _⟩

/-- A graph, its copy, and the first freed: the copy at address 2 is all that is left. -/
example : ∃ t h, Untouched HMap.empty ∧ Run HMap.empty t h ∧ t.length = 3 ∧
    (∃ x, h.get? 2 = some x ∧ x.isCaller = false) ∧ ¬ ∃ x, h.get? 1 = some x ∧ x.isCaller = false := by
  refine ⟨_, _, by rintro p x ⟨⟩, .call (E := exE) (c := .newDirected) rfl (.call (E := exE) (c := .duplicate 1) rfl
    (.call (E := exE) (c := .freeGraph 1) rfl .nil)), rfl, ⟨_, rfl, rfl⟩, ?_⟩
  rintro ⟨x, h, -⟩
  cases h

/-- Freeing a graph twice: the second call is undefined on every platform. -/
example (E : Ctx) : (Call.freeGraph 1).exec E (HMap.empty.insert 2 (.graph Graph.newDirected)) = .ub := by
  rw [C115_undefined_iff]
  intro hv
  rcases hv.free 1 _ rfl with h | ⟨x, h, -⟩
  · cases h
  · cases h

/-- A byte buffer freed with a length that is not its own. -/
example (E : Ctx) : (Call.freeBytes 1 5).exec E (HMap.empty.insert 1 (.bytes (List.replicate 26 0))) = .ub := by
  rw [C115_undefined_iff]
  intro hv
  rcases hv.free 1 _ rfl with h | ⟨x, h, b, rfl, h2⟩
  · cases h
  · cases h; cases h2

/-- A graph pooled with blocks of dimension 2^32 in a build with overflow checks: within the contract, but an abort. -/
example : (Call.findAvgPoolMatrix 1 (2 ^ 32)).exec exE (HMap.empty.insert 1 (.graph (Graph.newDirected.addEdge 0 (2 ^ 33)))) = .abort ∧
    Valid (HMap.empty.insert 1 (.graph (Graph.newDirected.addEdge 0 (2 ^ 33)))).get?
      (.findAvgPoolMatrix 1 (2 ^ 32)) := by
  have h : (Call.findAvgPoolMatrix 1 (2 ^ 32)).exec exE (HMap.empty.insert 1 (.graph (Graph.newDirected.addEdge 0 (2 ^ 33)))) = .abort := by
    have h : (match (Call.findAvgPoolMatrix 1 (2 ^ 32)).exec exE (HMap.empty.insert 1 (.graph (Graph.newDirected.addEdge 0 (2 ^ 33)))) with
        | .abort => true | _ => false) = true := by decide +kernel
    split at h
    · next e => exact e
    · cases h
  exact ⟨h, ((C115_aborts_iff _ _ _).1 h).1⟩

end Verif.Props
