import Verif.Spec.CApi
import Verif.Lemmas.HMap
import Verif.Lemmas.F64

/-! # Lemmas about the C interface -/

namespace Verif
open Spec

namespace CM
variable {α β : Type}

theorem bind_apply (x : CM α) (f : α → CM β) (h : Heap) :
    (x >>= f) h = match x h with | .ok a h' => f a h' | .ub => .ub | .abort => .abort := rfl

theorem pure_apply (a : α) (h : Heap) : (pure a : CM α) h = .ok a h := rfl

theorem ret_apply (f : α → Val) (x : CM α) (h : Heap) :
    x.ret f h = match x h with | .ok a h' => .ok (f a) h' | .ub => .ub | .abort => .abort := rfl

end CM

theorem get?_insert_put (h : Heap) (p : Ptr) (x : Obj) : (h.insert p x).get? = Mem.put h.get? p (some x) := by
  funext q; rw [HMap.get?_insert]; rfl

theorem get?_remove_put (h : Heap) (p : Ptr) : (h.remove p).get? = Mem.put h.get? p none := by
  funext q; rw [HMap.get?_remove]; rfl

theorem Mem.put_put (M : Mem) (p : Ptr) (x y : Option Obj) : (M.put p x).put p y = M.put p y := by
  funext q; unfold Mem.put; split <;> simp_all

theorem Mem.putSize_putSize (M : Mem) (p : Ptr) (m n : Nat) : (M.putSize p m).putSize p n = M.putSize p n := by
  unfold Mem.putSize; split
  · rfl
  · exact Mem.put_put ..

theorem Mem.putError_putError (M : Mem) (p : Ptr) (m n : Nat) : (M.putError p m).putError p n = M.putError p n := by
  unfold Mem.putError; split
  · rfl
  · exact Mem.put_put ..

theorem Mem.putSize_zero (M : Mem) (n : Nat) : M.putSize 0 n = M := by simp [Mem.putSize]

theorem Mem.putSize_none {M : Mem} {out : Ptr} {n : Nat} {q : Ptr} (h : M.putSize out n q = none) : M q = none := by
  unfold Mem.putSize at h
  split at h
  · exact h
  · unfold Mem.put at h
    split at h
    · cases h
    · exact h

theorem Mem.putError_none {M : Mem} {out : Ptr} {n : Nat} {q : Ptr} (h : M.putError out n q = none) : M q = none := by
  unfold Mem.putError at h
  split at h
  · exact h
  · unfold Mem.put at h
    split at h
    · cases h
    · exact h

/-- The three possible outcomes of a call. -/
structure Outcome (E : Ctx) (c : Call) (h : Heap) (r : CRes Val) : Prop where
  ok : ∀ v h', r = .ok v h' → Meaning E c h.get? v h'.get?
  abort : r = .abort → Panics E h.get? c
  ub : r = .ub → ¬ Valid h.get? c

theorem Outcome.of_ok {E : Ctx} {c : Call} {h : Heap} {v : Val} {h' : Heap} (m : Meaning E c h.get? v h'.get?) :
    Outcome E c h (.ok v h') :=
  ⟨fun _ _ e => (by cases e; exact m), fun e => (by cases e), fun e => (by cases e)⟩

theorem Outcome.of_ub {E : Ctx} {c : Call} {h : Heap} (m : ¬ Valid h.get? c) : Outcome E c h .ub :=
  ⟨fun _ _ e => (by cases e), fun e => (by cases e), fun _ => m⟩

theorem Outcome.of_abort {E : Ctx} {c : Call} {h : Heap} (m : Panics E h.get? c) : Outcome E c h .abort :=
  ⟨fun _ _ e => (by cases e), fun _ => m, fun e => (by cases e)⟩

/-- What the three functions turning a pointer into a reference have in common. -/
structure IsRef {T : Type} (ref : Ptr → CM (Option T)) (inj : T → Obj) (k : Kind) : Prop where
  null : ∀ h, ref 0 h = .ok none h
  live : ∀ p h t, p ≠ 0 → h.get? p = some (inj t) → ref p h = .ok (some t) h
  dead : ∀ p h, p ≠ 0 → (∀ t, h.get? p ≠ some (inj t)) → ref p h = .ub
  kind : ∀ x, x.kind = some k ↔ ∃ t, x = inj t

theorem isRef_graph : IsRef CApi.graphRef .graph .graph where
  null h := by simp [CApi.graphRef]
  live p h t hp ht := by simp [CApi.graphRef, hp, ht]
  dead p h hp ht := by
    unfold CApi.graphRef
    rw [if_neg hp]
    split
    · next g e => exact absurd e (ht g)
    · rfl
  kind x := by cases x <;> simp [Obj.kind]

theorem isRef_cgraph : IsRef CApi.cgraphRef .cgraph .cgraph where
  null h := by simp [CApi.cgraphRef]
  live p h t hp ht := by simp [CApi.cgraphRef, hp, ht]
  dead p h hp ht := by
    unfold CApi.cgraphRef
    rw [if_neg hp]
    split
    · next g e => exact absurd e (ht g)
    · rfl
  kind x := by cases x <;> simp [Obj.kind]

theorem isRef_matrix : IsRef CApi.matrixRef .matrix .matrix where
  null h := by simp [CApi.matrixRef]
  live p h t hp ht := by simp [CApi.matrixRef, hp, ht]
  dead p h hp ht := by
    unfold CApi.matrixRef
    rw [if_neg hp]
    split
    · next g e => exact absurd e (ht g)
    · rfl
  kind x := by cases x <;> simp [Obj.kind]

section
variable {E : Ctx} {c : Call} {h : Heap} {α T : Type} {ref : Ptr → CM (Option T)} {inj : T → Obj} {k : Kind} {p : Ptr}
  {w : α → Val} {z : α} {body : T → CM α}

/-- A call that starts by turning its handle into a reference. -/
theorem outcome_handle (hr : IsRef ref inj k) (hh : c.handle = some (p, k)) (hz : w z = c.neutral) (ho : c.out = 0)
    (hx : c.exec E = (do match ← ref p with | none => pure z | some t => body t : CM α).ret w)
    (hb : ∀ t, p ≠ 0 → h.get? p = some (inj t) → Outcome E c h ((body t).ret w h)) :
    Outcome E c h (c.exec E h) := by
  rw [hx, CM.ret_apply, CM.bind_apply]
  by_cases hp : p = 0
  · subst hp
    rw [hr.null]
    simp only [CM.pure_apply]
    rw [hz]
    apply Outcome.of_ok
    have := Meaning.null (E := E) (M := h.get?) hh
    rwa [ho, Mem.putSize_zero] at this
  · by_cases hg : ∃ t, h.get? p = some (inj t)
    · obtain ⟨t, ht⟩ := hg
      rw [hr.live p h t hp ht]
      exact hb t hp ht
    · rw [hr.dead p h hp (fun t ht => hg ⟨t, ht⟩)]
      apply Outcome.of_ub
      intro hv
      rcases hv.handle _ _ hh with h0 | ⟨x, hx, hk⟩
      · exact hp h0
      · obtain ⟨t, rfl⟩ := (hr.kind x).1 hk
        exact hg ⟨t, hx⟩

theorem setUsize_cases (out n : Nat) (h : Heap) :
    (∃ h1, CApi.setUsize out n h = .ok () h1 ∧ h1.get? = Mem.putSize h.get? out n ∧
      (out = 0 ∨ ((∃ m, h.get? out = some (.callerUsize m)) ∧ ∃ m, h1.get? out = some (.callerUsize m)))) ∨
    (CApi.setUsize out n h = .ub ∧ out ≠ 0 ∧ ∀ m, h.get? out ≠ some (.callerUsize m)) := by
  unfold CApi.setUsize Mem.putSize
  by_cases h0 : out = 0
  · simp [h0]
  · simp only [h0, if_false, false_or]
    split
    · next m e =>
      refine .inl ⟨_, rfl, get?_insert_put _ _ _, ⟨m, e⟩, n, ?_⟩
      rw [HMap.get?_insert, if_pos rfl]
    · next hne => exact .inr ⟨rfl, h0, hne⟩

theorem setU8_cases (out n : Nat) (h : Heap) :
    (∃ h1, CApi.setU8 out n h = .ok () h1 ∧ h1.get? = Mem.putError h.get? out n ∧
      (out = 0 ∨ ((∃ m, h.get? out = some (.callerU8 m)) ∧ ∃ m, h1.get? out = some (.callerU8 m)))) ∨
    (CApi.setU8 out n h = .ub ∧ out ≠ 0 ∧ ∀ m, h.get? out ≠ some (.callerU8 m)) := by
  unfold CApi.setU8 Mem.putError
  by_cases h0 : out = 0
  · simp [h0]
  · simp only [h0, if_false, false_or]
    split
    · next m e =>
      refine .inl ⟨_, rfl, get?_insert_put _ _ _, ⟨m, e⟩, n, ?_⟩
      rw [HMap.get?_insert, if_pos rfl]
    · next hne => exact .inr ⟨rfl, h0, hne⟩

/-- A call that first stores 0 in its size parameter. -/
theorem outcome_out (hr : IsRef ref inj k) (hh : c.handle = some (p, k)) (hz : w z = c.neutral)
    (hx : c.exec E = (do
      CApi.setUsize c.out 0
      match ← ref p with | none => pure z | some t => body t : CM α).ret w)
    (hnk : ∀ t n, inj t ≠ .callerUsize n)
    (hb : ∀ t h1, p ≠ 0 → h.get? p = some (inj t) → h1.get? = Mem.putSize h.get? c.out 0 →
      (c.out = 0 ∨ ∃ m, h1.get? c.out = some (.callerUsize m)) → Outcome E c h ((body t).ret w h1)) :
    Outcome E c h (c.exec E h) := by
  rw [hx, CM.ret_apply, CM.bind_apply]
  rcases setUsize_cases c.out 0 h with ⟨h1, e, hm, hc⟩ | ⟨e, h0, hne⟩
  · rw [e]
    simp only
    rw [CM.bind_apply]
    by_cases hp : p = 0
    · subst hp
      rw [hr.null]
      simp only [CM.pure_apply]
      rw [hz]
      apply Outcome.of_ok
      have := Meaning.null (E := E) (M := h.get?) hh
      rwa [← hm] at this
    · have hiff : ∀ t, h1.get? p = some (inj t) ↔ h.get? p = some (inj t) := by
        intro t
        rw [hm]
        unfold Mem.putSize
        by_cases ho : c.out = 0
        · rw [if_pos ho]
        · rw [if_neg ho]
          unfold Mem.put
          by_cases hpo : p = c.out
          · rw [if_pos hpo]
            rcases hc with hc | ⟨⟨m, hc⟩, _⟩
            · exact absurd hc ho
            · rw [hpo, hc]
              constructor
              · intro e; exact absurd (Option.some.inj e).symm (hnk _ _)
              · intro e; exact absurd (Option.some.inj e).symm (hnk _ _)
          · rw [if_neg hpo]
      by_cases hg : ∃ t, h.get? p = some (inj t)
      · obtain ⟨t, ht⟩ := hg
        rw [hr.live p h1 t hp ((hiff t).2 ht)]
        refine hb t h1 hp ht hm ?_
        rcases hc with hc | ⟨_, hc⟩
        · exact .inl hc
        · exact .inr hc
      · rw [hr.dead p h1 hp (fun t ht => hg ⟨t, (hiff t).1 ht⟩)]
        apply Outcome.of_ub
        intro hv
        rcases hv.handle _ _ hh with h0 | ⟨x, hx, hk⟩
        · exact hp h0
        · obtain ⟨t, rfl⟩ := (hr.kind x).1 hk
          exact hg ⟨t, hx⟩
  · rw [e]
    apply Outcome.of_ub
    intro hv
    rcases hv.out with h1 | ⟨m, h1⟩
    · exact h0 h1
    · exact hne m h1

end

section bodies
variable {E : Ctx} {c : Call} {h h1 : Heap} {k : Kind} {p : Ptr} {x : Obj}

theorem body_pure {α : Type} {w : α → Val} {a : α} (hh : c.handle = some (p, k)) (hp : p ≠ 0) (hx : h.get? p = some x)
    (ha : c.answer x = some (w a)) : Outcome E c h ((pure a : CM α).ret w h) :=
  Outcome.of_ok (.answered hh hp hx ha)

/-- The memory after a new object has been made. -/
theorem body_box {y : Obj} (hh : c.handle = some (p, k)) (hp : p ≠ 0) (hx : h.get? p = some x)
    (hm : c.makes E x = some (.ok y)) (h1e : h1.get? = Mem.putSize h.get? c.out y.size) :
    Outcome E c h ((CApi.boxNew E y).ret .ptr h1) := by
  apply Outcome.of_ok
  rw [get?_insert_put, h1e]
  refine .created hh hp hx hm (E.fresh_ne _) ?_
  have := E.fresh_free h1
  rw [h1e] at this
  exact Mem.putSize_none this

theorem body_refused {e : GraphRoxError} (hh : c.handle = some (p, k)) (hp : p ≠ 0) (hx : h.get? p = some x)
    (hm : c.makes E x = some (.err e)) (h1e : h1.get? = Mem.putSize h.get? c.out 0) :
    Outcome E c h ((pure 0 : CM Ptr).ret .ptr h1) := by
  apply Outcome.of_ok
  rw [h1e]
  exact .refused hh hp hx hm

theorem body_panic (hh : c.handle = some (p, k)) (hp : p ≠ 0) (hx : h.get? p = some x)
    (hm : c.makes E x = some .panic) : Outcome E c h .abort :=
  Outcome.of_abort (.inl ⟨p, k, x, hh, hp, hx, hm⟩)

theorem body_string {r : Res (List Char)} (hh : c.handle = some (p, k)) (hp : p ≠ 0) (hx : h.get? p = some x)
    (hm : c.makes E x = some (cstr r)) (ho : c.out = 0) :
    Outcome E c h ((do CApi.cstringOrNull E (← CApi.rust r) : CM Ptr).ret .ptr h) := by
  have h1 : h.get? = Mem.putSize h.get? c.out 0 := by rw [ho, Mem.putSize_zero]
  rw [CM.ret_apply, CM.bind_apply]
  cases r with
  | panic => exact body_panic hh hp hx hm
  | err e => exact body_refused hh hp hx hm h1
  | ok s =>
    simp only [CApi.rust, CApi.cstringOrNull]
    by_cases hn : Char.ofNat 0 ∈ s
    · have hc : s.contains (Char.ofNat 0) = true := by simpa using hn
      rw [hc]
      simp only [cstr, if_pos hn] at hm
      exact body_refused hh hp hx hm h1
    · have hc : s.contains (Char.ofNat 0) = false := by simpa using hn
      rw [hc]
      simp only [cstr, if_neg hn] at hm
      exact body_box hh hp hx hm (by rw [ho, Mem.putSize_zero])

theorem body_text {r : Res (List Char)} (hh : c.handle = some (p, k)) (hp : p ≠ 0) (hx : h.get? p = some x)
    (hm : c.makes E x = some (cstr (plainText r))) (ho : c.out = 0) :
    Outcome E c h ((do CApi.cstringOrNull E (some (← CApi.rustTotal r)) : CM Ptr).ret .ptr h) := by
  cases r with
  | panic => exact body_panic hh hp hx hm
  | err e => exact body_panic hh hp hx hm
  | ok s => exact body_string (r := .ok s) hh hp hx hm ho

theorem body_plain {α : Type} {f : α → Obj} {r : Res α} (hh : c.handle = some (p, k)) (hp : p ≠ 0) (hx : h.get? p = some x)
    (hm : c.makes E x = some (plain f r)) (ho : c.out = 0) :
    Outcome E c h ((do CApi.boxNew E (f (← CApi.rustTotal r)) : CM Ptr).ret .ptr h) := by
  cases r with
  | panic => exact body_panic hh hp hx hm
  | err e => exact body_panic hh hp hx hm
  | ok a => exact body_box (h1 := h) hh hp hx hm (by rw [ho, Mem.putSize_zero])

theorem body_list {y : Obj} (hh : c.handle = some (p, k)) (hp : p ≠ 0) (hx : h.get? p = some x)
    (hm : c.makes E x = some (.ok y)) (h1e : h1.get? = Mem.putSize h.get? c.out 0)
    (hc : c.out = 0 ∨ ∃ m, h1.get? c.out = some (.callerUsize m)) :
    Outcome E c h ((do
      CApi.setUsize c.out y.size
      CApi.boxNew E y : CM Ptr).ret .ptr h1) := by
  rw [CM.ret_apply, CM.bind_apply]
  rcases setUsize_cases c.out y.size h1 with ⟨h2, e, hm2, _⟩ | ⟨e, h0, hne⟩
  · rw [e]
    refine body_box (h1 := h2) hh hp hx hm ?_
    rw [hm2, h1e, Mem.putSize_putSize]
  · rcases hc with hc | ⟨m, hc⟩
    · exact absurd hc h0
    · exact absurd hc (hne m)

theorem body_bytes {r : Res Bytes} (hh : c.handle = some (p, k)) (hp : p ≠ 0) (hx : h.get? p = some x)
    (hm : c.makes E x = some (r.map .bytes)) (h1e : h1.get? = Mem.putSize h.get? c.out 0)
    (hc : c.out = 0 ∨ ∃ m, h1.get? c.out = some (.callerUsize m)) :
    Outcome E c h ((do
      match ← CApi.rust r with
      | some b => CApi.boxedBytesToRaw E b c.out
      | none => pure 0 : CM Ptr).ret .ptr h1) := by
  cases r with
  | panic => exact body_panic hh hp hx hm
  | err e => exact body_refused hh hp hx hm h1e
  | ok b => exact body_list (y := .bytes b) hh hp hx hm h1e hc

end bodies

theorem outcome_decode {E : Ctx} {c : Call} {h : Heap} {T : Type} {inj : T → Obj} {buffer size error : Nat}
    {dec : Bytes → Res T}
    (hd : c.decodes E = some (buffer, size, error, fun b => (dec b).map inj))
    (hx : c.exec E = (do
      CApi.setU8 error 0
      if buffer = 0 ∧ size ≠ 0 then
        CApi.setU8 error CApi.ERROR_INVALID_FORMAT
        pure 0
      else
        let b ← CApi.inputBytes buffer size
        match ← CApi.rust (dec b) with
        | some g => CApi.boxNew E (inj g)
        | none =>
          CApi.setU8 error CApi.ERROR_INVALID_FORMAT
          pure 0 : CM Ptr).ret .ptr) :
    Outcome E c h (c.exec E h) := by
  rw [hx, CM.ret_apply, CM.bind_apply]
  rcases setU8_cases error 0 h with ⟨h1, e, hm, hc⟩ | ⟨e, h0, hne⟩
  · rw [e]
    simp only
    have herr : ∃ h2, CApi.setU8 error CApi.ERROR_INVALID_FORMAT h1 = .ok () h2 ∧ h2.get? = Mem.putError h.get? error 1 := by
      rcases setU8_cases error CApi.ERROR_INVALID_FORMAT h1 with ⟨h2, e2, hm2, _⟩ | ⟨e2, h0, hne⟩
      · exact ⟨h2, e2, by rw [hm2, hm, Mem.putError_putError]; rfl⟩
      · rcases hc with hc | ⟨_, m, hc⟩
        · exact absurd hc h0
        · exact absurd hc (hne m)
    by_cases hmiss : buffer = 0 ∧ size ≠ 0
    · rw [if_pos hmiss, CM.bind_apply]
      obtain ⟨h2, e2, hm2⟩ := herr
      rw [e2]
      simp only [CM.pure_apply]
      apply Outcome.of_ok
      rw [hm2]
      rw [hmiss.1] at hd
      exact .missing hd hmiss.2
    · rw [if_neg hmiss, CM.bind_apply]
      have hin : (∃ b, CApi.inputBytes buffer size h1 = .ok b h1 ∧ bytesAt h.get? buffer size = some b) ∨
          (CApi.inputBytes buffer size h1 = .ub ∧ bytesAt h.get? buffer size = none) := by
        unfold CApi.inputBytes bytesAt
        by_cases hs : size = 0
        · simp only [hs, if_true]; exact .inl ⟨[], rfl, rfl⟩
        · simp only [if_neg hs]
          unfold CApi.readBytes
          by_cases hbe : error ≠ 0 ∧ buffer = error
          · rcases hc with hc | ⟨⟨m, hc⟩, m', hc'⟩
            · exact absurd hc hbe.1
            · rw [hbe.2, hc, hc']; exact .inr ⟨rfl, rfl⟩
          · have : h1.get? buffer = h.get? buffer := by
              rw [hm]
              unfold Mem.putError Mem.put
              by_cases he : error = 0
              · rw [if_pos he]
              · rw [if_neg he, if_neg (fun hb => hbe ⟨he, hb⟩)]
            rw [this]
            cases hb : h.get? buffer with
            | none => exact .inr ⟨rfl, rfl⟩
            | some x =>
              cases x with
              | callerBytes b =>
                by_cases hl : size ≤ b.length
                · simp only [if_pos hl]; exact .inl ⟨_, rfl, rfl⟩
                · simp [if_neg hl]
              | bytes b =>
                by_cases hl : size ≤ b.length
                · simp only [if_pos hl]; exact .inl ⟨_, rfl, rfl⟩
                · simp [if_neg hl]
              | _ => exact .inr ⟨rfl, rfl⟩
      rcases hin with ⟨b, e1, hb⟩ | ⟨e1, hb⟩
      · rw [e1]
        simp only
        rw [CM.bind_apply]
        have hps : buffer = 0 → size = 0 := by
          intro h0; by_contra hs; exact hmiss ⟨h0, hs⟩
        cases hr : dec b with
        | panic =>
          exact Outcome.of_abort (.inr ⟨_, _, _, _, b, hd, hps, hb, by rw [hr]; rfl⟩)
        | err er =>
          simp only [CApi.rust]
          rw [CM.bind_apply]
          obtain ⟨h2, e2, hm2⟩ := herr
          rw [e2]
          simp only [CM.pure_apply]
          apply Outcome.of_ok
          rw [hm2]
          exact .rejected (err := er) hd hps hb (by rw [hr]; rfl)
        | ok g =>
          simp only [CApi.rust, CApi.boxNew]
          apply Outcome.of_ok
          rw [get?_insert_put, hm]
          refine .decoded hd hps hb (by rw [hr]; rfl) (E.fresh_ne _) ?_
          have := E.fresh_free h1
          rw [hm] at this
          exact Mem.putError_none this
      · rw [e1]
        apply Outcome.of_ub
        intro hv
        rcases (hv.input E _ _ _ _ hd).1 with h0 | ⟨b, h0⟩
        · apply hmiss
          refine ⟨h0, fun hs => ?_⟩
          rw [hs, bytesAt, if_pos rfl] at hb
          cases hb
        · rw [hb] at h0; cases h0
  · rw [e]
    apply Outcome.of_ub
    intro hv
    rcases (hv.input E _ _ _ _ hd).2 with h1 | ⟨m, h1⟩
    · exact h0 h1
    · exact hne m h1

theorem outcome_free {E : Ctx} {c : Call} {h : Heap} {p : Ptr} {good : Obj → Bool} {ok : Obj → Prop}
    (hf : c.frees = some (p, ok)) (hg : ∀ x, good x = true ↔ ok x)
    (hx : c.exec E = (CApi.freeObj good p).ret fun _ => .unit) : Outcome E c h (c.exec E h) := by
  rw [hx, CM.ret_apply]
  unfold CApi.freeObj
  by_cases hp : p = 0
  · rw [if_pos hp]
    rw [hp] at hf
    exact Outcome.of_ok (.freeNull hf)
  · rw [if_neg hp]
    cases hx : h.get? p with
    | none =>
      apply Outcome.of_ub
      intro hv
      rcases hv.free _ _ hf with h0 | ⟨x, h0, _⟩
      · exact hp h0
      · rw [hx] at h0; cases h0
    | some x =>
      simp only
      by_cases hgx : good x = true
      · rw [if_pos hgx]
        apply Outcome.of_ok
        rw [get?_remove_put]
        exact .freed hf hp hx ((hg x).1 hgx)
      · rw [if_neg hgx]
        apply Outcome.of_ub
        intro hv
        rcases hv.free _ _ hf with h0 | ⟨y, h0, h1⟩
        · exact hp h0
        · rw [hx] at h0; cases h0
          exact hgx ((hg x).2 h1)

theorem cbool_eq (b : Bool) : cbool b = .num (CApi.cBool b) := by cases b <;> rfl

set_option smartUnfolding false in
/-- Every call returns what the specification says, aborts only if the Rust method panics, and is undefined only if
the caller breaks the contract. -/
theorem Call.outcome (E : Ctx) (c : Call) (h : Heap) : Outcome E c h (c.exec E h) := by
  cases c with
  | freeString p =>
    refine outcome_free (p := p) rfl ?_ rfl
    intro x; cases x <;> simp
  | freeBytes p n =>
    refine outcome_free (p := p) rfl ?_ rfl
    intro x; cases x <;> simp; exact eq_comm
  | freeGraph p =>
    refine outcome_free (p := p) rfl ?_ rfl
    intro x; cases x <;> simp
  | freeEdgeList p n =>
    refine outcome_free (p := p) rfl ?_ rfl
    intro x; cases x <;> simp; exact eq_comm
  | freeVertexList p n =>
    refine outcome_free (p := p) rfl ?_ rfl
    intro x; cases x <;> simp; exact eq_comm
  | freeCGraph p =>
    refine outcome_free (p := p) rfl ?_ rfl
    intro x; cases x <;> simp
  | freeMatrix p =>
    refine outcome_free (p := p) rfl ?_ rfl
    intro x; cases x <;> simp
  | freeEntryList p n =>
    refine outcome_free (p := p) rfl ?_ rfl
    intro x; cases x <;> simp; exact eq_comm
  | newUndirected =>
    apply Outcome.of_ok
    rw [get?_insert_put]
    exact .newUndirected (E.fresh_ne _) (E.fresh_free _)
  | newDirected =>
    apply Outcome.of_ok
    rw [get?_insert_put]
    exact .newDirected (E.fresh_ne _) (E.fresh_free _)
  | fromBytes b n e => exact outcome_decode (inj := .graph) (dec := Graph.tryFrom E.P) rfl (by rfl)
  | cFromBytes b n e => exact outcome_decode (inj := .cgraph) (dec := CGraph.tryFrom E.P) rfl (by rfl)
  | duplicate p =>
    exact outcome_handle (w := .ptr) (z := 0) (p := p) isRef_graph rfl rfl rfl (by rfl) fun t hp hx => body_box (h1 := h) rfl hp hx rfl rfl
  | cDuplicate p =>
    exact outcome_handle (w := .ptr) (z := 0) (p := p) isRef_cgraph rfl rfl rfl (by rfl) fun t hp hx => body_box (h1 := h) rfl hp hx rfl rfl
  | mDuplicate p =>
    exact outcome_handle (w := .ptr) (z := 0) (p := p) isRef_matrix rfl rfl rfl (by rfl) fun t hp hx => body_box (h1 := h) rfl hp hx rfl rfl
  | matrixString p =>
    exact outcome_handle (w := .ptr) (z := 0) (p := p) isRef_graph rfl rfl rfl (by rfl) fun t hp hx => body_string rfl hp hx rfl rfl
  | cMatrixString p =>
    exact outcome_handle (w := .ptr) (z := 0) (p := p) isRef_cgraph rfl rfl rfl (by rfl) fun t hp hx => body_string rfl hp hx rfl rfl
  | mToString p =>
    exact outcome_handle (w := .ptr) (z := 0) (p := p) isRef_matrix rfl rfl rfl (by rfl) fun t hp hx => body_text rfl hp hx rfl rfl
  | mToStringWithPrecision p d =>
    exact outcome_handle (w := .ptr) (z := 0) (p := p) isRef_matrix rfl rfl rfl (by rfl) fun t hp hx => body_string rfl hp hx rfl rfl
  | toBytes p s =>
    exact outcome_out (w := .ptr) (z := 0) (p := p) isRef_graph rfl rfl (by rfl) (by simp) fun t h1 hp hx he hc => body_bytes rfl hp hx rfl he hc
  | cToBytes p s =>
    exact outcome_out (w := .ptr) (z := 0) (p := p) isRef_cgraph rfl rfl (by rfl) (by simp) fun t h1 hp hx he hc => body_bytes rfl hp hx rfl he hc
  | isUndirected p =>
    exact outcome_handle (w := .num) (z := 0) (p := p) isRef_graph rfl rfl rfl (by rfl) fun t hp hx =>
      body_pure rfl hp hx (congrArg some (cbool_eq _))
  | doesEdgeExist p u v =>
    exact outcome_handle (w := .num) (z := 0) (p := p) isRef_graph rfl rfl rfl (by rfl) fun t hp hx =>
      body_pure rfl hp hx (congrArg some (cbool_eq _))
  | cIsUndirected p =>
    exact outcome_handle (w := .num) (z := 0) (p := p) isRef_cgraph rfl rfl rfl (by rfl) fun t hp hx =>
      body_pure rfl hp hx (congrArg some (cbool_eq _))
  | cDoesEdgeExist p u v =>
    exact outcome_handle (w := .num) (z := 0) (p := p) isRef_cgraph rfl rfl rfl (by rfl) fun t hp hx =>
      body_pure rfl hp hx (congrArg some (cbool_eq _))
  | vertexCount p =>
    exact outcome_handle (w := .num) (z := 0) (p := p) isRef_graph rfl rfl rfl (by rfl) fun t hp hx => body_pure rfl hp hx rfl
  | edgeCount p =>
    exact outcome_handle (w := .num) (z := 0) (p := p) isRef_graph rfl rfl rfl (by rfl) fun t hp hx => body_pure rfl hp hx rfl
  | getInDegree p v =>
    exact outcome_handle (w := .num) (z := 0) (p := p) isRef_graph rfl rfl rfl (by rfl) fun t hp hx => body_pure rfl hp hx rfl
  | getOutDegree p v =>
    exact outcome_handle (w := .num) (z := 0) (p := p) isRef_graph rfl rfl rfl (by rfl) fun t hp hx => body_pure rfl hp hx rfl
  | cCompressionLevel p =>
    exact outcome_handle (w := .num) (z := 0) (p := p) isRef_cgraph rfl rfl rfl (by rfl) fun t hp hx => body_pure rfl hp hx rfl
  | cVertexCount p =>
    exact outcome_handle (w := .num) (z := 0) (p := p) isRef_cgraph rfl rfl rfl (by rfl) fun t hp hx => body_pure rfl hp hx rfl
  | cEdgeCount p =>
    exact outcome_handle (w := .num) (z := 0) (p := p) isRef_cgraph rfl rfl rfl (by rfl) fun t hp hx => body_pure rfl hp hx rfl
  | cGetEntry p a b =>
    exact outcome_handle (w := .num) (z := 0) (p := p) isRef_cgraph rfl rfl rfl (by rfl) fun t hp hx => body_pure rfl hp hx rfl
  | mDimension p =>
    exact outcome_handle (w := .num) (z := 0) (p := p) isRef_matrix rfl rfl rfl (by rfl) fun t hp hx => body_pure rfl hp hx rfl
  | mEntryCount p =>
    exact outcome_handle (w := .num) (z := 0) (p := p) isRef_matrix rfl rfl rfl (by rfl) fun t hp hx => body_pure rfl hp hx rfl
  | mGetEntry p a b =>
    exact outcome_handle (w := .f64) (z := F64.lit 0) (p := p) isRef_matrix rfl (congrArg Val.f64 F64.lit_zero) rfl (by rfl)
      fun t hp hx => body_pure rfl hp hx rfl
  | findAvgPoolMatrix p b =>
    exact outcome_handle (w := .ptr) (z := 0) (p := p) isRef_graph rfl rfl rfl (by rfl) fun t hp hx => body_plain rfl hp hx rfl rfl
  | approximate p b t =>
    exact outcome_handle (w := .ptr) (z := 0) (p := p) isRef_graph rfl rfl rfl (by rfl) fun t hp hx => body_plain rfl hp hx rfl rfl
  | compress p l =>
    exact outcome_handle (w := .ptr) (z := 0) (p := p) isRef_graph rfl rfl rfl (by rfl) fun t hp hx => body_plain rfl hp hx rfl rfl
  | decompress p =>
    exact outcome_handle (w := .ptr) (z := 0) (p := p) isRef_cgraph rfl rfl rfl (by rfl) fun t hp hx => body_plain rfl hp hx rfl rfl
  | getEdgeList p out =>
    exact outcome_out (w := .ptr) (z := 0) (p := p) isRef_graph rfl rfl (by rfl) (by simp) fun t h1 hp hx he hc =>
      body_list (y := .edges (t.items E.o₁)) rfl hp hx rfl he hc
  | getInEdgesList p v out =>
    exact outcome_out (w := .ptr) (z := 0) (p := p) isRef_graph rfl rfl (by rfl) (by simp) fun t h1 hp hx he hc =>
      body_list (y := .vertices (t.getVertexInEdges E.o₁ v)) rfl hp hx rfl he hc
  | getOutEdgesList p v out =>
    exact outcome_out (w := .ptr) (z := 0) (p := p) isRef_graph rfl rfl (by rfl) (by simp) fun t h1 hp hx he hc =>
      body_list (y := .vertices (t.getVertexOutEdges E.o₁ v)) rfl hp hx rfl he hc
  | mGetEntryList p out =>
    exact outcome_out (w := .ptr) (z := 0) (p := p) isRef_matrix rfl rfl (by rfl) (by simp) fun t h1 hp hx he hc =>
      body_list (y := .entries (t.items E.o₁)) rfl hp hx rfl he hc
  | addEdge p u v =>
    refine outcome_handle (w := fun _ : Unit => .unit) (z := ()) (p := p) isRef_graph rfl rfl rfl (by rfl) fun t hp hx => ?_
    apply Outcome.of_ok
    rw [get?_insert_put]
    exact Meaning.edited (c := .addEdge p u v) (e := .addEdge u v) rfl hp hx rfl
  | deleteEdge p u v =>
    refine outcome_handle (w := fun _ : Unit => .unit) (z := ()) (p := p) isRef_graph rfl rfl rfl (by rfl) fun t hp hx => ?_
    apply Outcome.of_ok
    rw [get?_insert_put]
    exact Meaning.edited (c := .deleteEdge p u v) (e := .deleteEdge u v) rfl hp hx rfl
  | addVertex p v tos n =>
    refine outcome_handle (w := fun _ : Unit => .unit) (z := ()) (p := p) isRef_graph rfl rfl rfl (by rfl) fun t hp hx => ?_
    by_cases hmiss : tos = 0 ∧ n ≠ 0
    · rw [if_pos hmiss]
      apply Outcome.of_ok
      rw [hmiss.1]
      exact .ignored hmiss.2 hp
    · rw [if_neg hmiss]
      by_cases hn : n = 0
      · rw [if_pos hn]
        apply Outcome.of_ok
        rw [get?_insert_put]
        refine Meaning.edited (c := .addVertex p v tos n) (e := .addVertex v none) rfl hp hx ?_
        simp [Call.edit?, listAt, hn]
      · rw [if_neg hn, CM.ret_apply, CM.bind_apply]
        have hlist : (∃ l, CApi.readU64s tos n h = .ok l h ∧ listAt h.get? tos n = some (some l)) ∨
            (CApi.readU64s tos n h = .ub ∧ listAt h.get? tos n = none) := by
          unfold CApi.readU64s listAt
          rw [if_neg hn]
          cases hb : h.get? tos with
          | none => exact .inr ⟨rfl, rfl⟩
          | some x =>
            cases x with
            | callerU64s l =>
              by_cases hl : n ≤ l.length
              · simp only [if_pos hl]; exact .inl ⟨_, rfl, rfl⟩
              · simp [if_neg hl]
            | vertices l =>
              by_cases hl : n ≤ l.length
              · simp only [if_pos hl]; exact .inl ⟨_, rfl, rfl⟩
              · simp [if_neg hl]
            | _ => exact .inr ⟨rfl, rfl⟩
        rcases hlist with ⟨l, e, hl⟩ | ⟨e, hl⟩
        · rw [e]
          apply Outcome.of_ok
          rw [get?_insert_put]
          refine Meaning.edited (c := .addVertex p v tos n) (e := .addVertex v (some l)) rfl hp hx ?_
          simp only [Call.edit?, if_neg hmiss, hl, Option.map_some]
        · rw [e]
          apply Outcome.of_ub
          intro hv
          rcases hv.list _ _ _ _ rfl with h0 | h0 | ⟨l, h0⟩
          · exact hp h0
          · exact hmiss ⟨h0, hn⟩
          · rw [hl] at h0; cases h0

end Verif
