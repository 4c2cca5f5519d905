import Verif.Lemmas.TextChars
import Verif.Props.Py
import Verif.Spec.CSafety

/-! # C71: whole programs using the C interface -/

namespace Verif.Props
open Verif Spec

/-- A property of all objects in memory is kept by a call. -/
theorem meaning_inv {Q : Obj → Prop} {E : Ctx} {c : Call} {M M' : Mem} {v : Val} (m : Meaning E c M v M')
    (hM : ∀ p x, M p = some x → Q x) (hcaller : ∀ x : Obj, x.isCaller = true → Q x)
    (hmakes : ∀ x y, Q x → c.makes E x = some (.ok y) → Q y)
    (hedit : ∀ g e, Q (.graph g) → Q (.graph (Edit.call g e)))
    (hnew : Q (.graph Graph.newUndirected) ∧ Q (.graph Graph.newDirected))
    (hdec : ∀ p n e f b y, c.decodes E = some (p, n, e, f) → f b = .ok y → Q y) : ∀ p x, M' p = some x → Q x := by
  have hput : ∀ {M1 : Mem} {q : Ptr} {y : Obj}, (∀ p x, M1 p = some x → Q x) → Q y → ∀ p x, M1.put q (some y) p = some x → Q x := by
    intro M1 q y h1 hy p x hx
    unfold Mem.put at hx
    split at hx
    · cases hx; exact hy
    · exact h1 p x hx
  have hsz : ∀ {M1 : Mem} {out : Ptr} {n : Nat}, (∀ p x, M1 p = some x → Q x) → ∀ p x, M1.putSize out n p = some x → Q x := by
    intro M1 out n h1
    unfold Mem.putSize
    split
    · exact h1
    · exact hput h1 (hcaller _ rfl)
  have her : ∀ {M1 : Mem} {out : Ptr} {n : Nat}, (∀ p x, M1 p = some x → Q x) → ∀ p x, M1.putError out n p = some x → Q x := by
    intro M1 out n h1
    unfold Mem.putError
    split
    · exact h1
    · exact hput h1 (hcaller _ rfl)
  cases m with
  | null h1 => exact hsz hM
  | answered h1 h2 h3 h4 => exact hM
  | created h1 h2 h3 h4 h5 h6 => exact hput (hsz hM) (hmakes _ _ (hM _ _ h3) h4)
  | refused h1 h2 h3 h4 => exact hsz hM
  | edited h1 h2 h3 h4 => exact hput hM (hedit _ _ (hM _ _ h3))
  | ignored => exact hM
  | newUndirected h1 h2 => exact hput hM hnew.1
  | newDirected h1 h2 => exact hput hM hnew.2
  | decoded h1 h2 h3 h4 h5 h6 => exact hput (her hM) (hdec _ _ _ _ _ _ h1 h4)
  | rejected h1 h2 h3 h4 => exact her hM
  | missing h1 h2 => exact her hM
  | freeNull => exact hM
  | freed h1 h2 =>
    intro p x hx
    unfold Mem.put at hx
    split at hx
    · cases hx
    · exact hM p x hx

theorem run_inv {Q : Obj → Prop} {h h' : Heap} {t : List Event} (r : Run h t h')
    (hM : ∀ p x, h.get? p = some x → Q x) (hcaller : ∀ x : Obj, x.isCaller = true → Q x)
    (hmakes : ∀ E c M v, Event.call E c M v ∈ t → ∀ x y, Q x → c.makes E x = some (.ok y) → Q y)
    (hedit : ∀ g e, Q (.graph g) → Q (.graph (Edit.call g e)))
    (hnew : Q (.graph Graph.newUndirected) ∧ Q (.graph Graph.newDirected))
    (hdec : ∀ (E : Ctx) (c : Call) p n e f b y, c.decodes E = some (p, n, e, f) → f b = .ok y → Q y) :
    ∀ p x, h'.get? p = some x → Q x := by
  induction r with
  | nil => exact hM
  | call he _ ih =>
    refine ih ?_ ?_
    rotate_left
    · exact (fun E c M v hc => hmakes E c M v (List.mem_cons_of_mem _ hc))
    exact meaning_inv (exec_ok_meaning he) hM hcaller (fun x y => hmakes _ _ _ _ List.mem_cons_self x y) hedit hnew (hdec _ _)
  | @write h h'' q x t h0 h1 hx _ ih =>
    refine ih ?_ ?_
    rotate_left
    · exact (fun E c M v hc => hmakes E c M v (List.mem_cons_of_mem _ hc))
    intro p y hy
    rw [HMap.get?_insert] at hy
    split at hy
    · cases hy; exact hcaller _ hx
    · exact hM p y hy
  | drop h1 _ ih =>
    refine ih ?_ ?_
    rotate_left
    · exact (fun E c M v hc => hmakes E c M v (List.mem_cons_of_mem _ hc))
    intro p y hy
    rw [HMap.get?_remove] at hy
    split at hy
    · cases hy
    · exact hM p y hy

theorem cs_cstr_ok {r : Res (List Char)} {y : Obj} (h : cstr r = .ok y) : ∃ s, y = .cstring s ∧ r = .ok s ∧ Char.ofNat 0 ∉ s := by
  unfold cstr at h
  split at h
  · split at h
    · cases h
    · next s hs => cases h; exact ⟨_, rfl, rfl, hs⟩
  · cases h
  · cases h

theorem cs_plain_ok {α : Type} {f : α → Obj} {r : Res α} {y : Obj} (h : plain f r = .ok y) : ∃ a, r = .ok a ∧ y = f a := by
  cases r with
  | ok a => cases h; exact ⟨a, rfl, rfl⟩
  | err | panic => cases h

theorem cs_map_ok {α : Type} {f : α → Obj} {r : Res α} {y : Obj} (h : r.map f = .ok y) : ∃ a, r = .ok a ∧ y = f a := by
  cases r with
  | ok a => cases h; exact ⟨a, rfl, rfl⟩
  | err | panic => cases h

theorem genuine_makes {E : Ctx} {c : Call} {x y : Obj} (hx : Genuine x) (h : c.makes E x = some (.ok y)) : Genuine y := by
  cases x with
  | graph g =>
    have hx : GReach g := hx
    cases c <;> simp only [Call.makes, Option.some.injEq, reduceCtorEq] at h
    case matrixString => obtain ⟨s, rfl, _, hs⟩ := cs_cstr_ok h; exact hs
    case toBytes => obtain ⟨s, _, rfl⟩ := cs_map_ok h; trivial
    case findAvgPoolMatrix b => obtain ⟨m, hm, rfl⟩ := cs_plain_ok h; exact ⟨g, _, _, _, hx, hm⟩
    case approximate b t => obtain ⟨m, hm, rfl⟩ := cs_plain_ok h; exact .approximate _ _ _ _ _ hx hm
    case compress l => obtain ⟨m, hm, rfl⟩ := cs_plain_ok h; exact .compress _ _ _ _ hx hm
    all_goals cases h
    case graph.duplicate.refl => exact hx
    all_goals trivial
  | cgraph g =>
    have hx : CReach g := hx
    cases c <;> simp only [Call.makes, Option.some.injEq, reduceCtorEq] at h
    case cMatrixString => obtain ⟨s, rfl, _, hs⟩ := cs_cstr_ok h; exact hs
    case cToBytes => obtain ⟨s, _, rfl⟩ := cs_map_ok h; trivial
    case decompress => obtain ⟨m, hm, rfl⟩ := cs_plain_ok h; exact .decompress _ _ hx hm
    case cDuplicate => cases h; exact hx
  | matrix m =>
    cases c <;> simp only [Call.makes, Option.some.injEq, reduceCtorEq] at h
    case mToString => obtain ⟨s, rfl, _, hs⟩ := cs_cstr_ok h; exact hs
    case mToStringWithPrecision => obtain ⟨s, rfl, _, hs⟩ := cs_cstr_ok h; exact hs
    case mDuplicate => cases h; exact hx
    case mGetEntryList => cases h; trivial
  | _ => cases c <;> cases h

theorem genuine_decodes {E : Ctx} {c : Call} {p n e f b y} (hd : c.decodes E = some (p, n, e, f)) (h : f b = .ok y) :
    Genuine y := by
  cases c <;> simp only [Call.decodes, reduceCtorEq] at hd
  case fromBytes => cases hd; obtain ⟨g, hg, rfl⟩ := cs_map_ok h; exact GReach.tryFrom _ _ hg
  case cFromBytes => cases hd; obtain ⟨g, hg, rfl⟩ := cs_map_ok h; exact CReach.tryFrom _ _ hg

theorem genuine_caller {x : Obj} (h : x.isCaller = true) : Genuine x := by cases x <;> trivial

/-- **C71.** In every execution of every C program, whatever it calls with whatever arguments: each live object of the library is
one that the Rust interface can produce (so that everything proved about those holds for it), and each string is free of zeros. -/
theorem C71_genuine {h₀ h : Heap} {t : List Event} (hu : Untouched h₀) (r : Run h₀ t h) (p : Ptr) (x : Obj)
    (hx : h.get? p = some x) : Genuine x :=
  run_inv r (fun p x hx => genuine_caller (hu p x hx)) (fun _ hx => genuine_caller hx)
    (fun _ _ _ _ _ _ _ hx hy => genuine_makes hx hy) (fun _ e hg => good_call hg e) ⟨.newUndirected, .newDirected⟩
    (fun _ _ _ _ _ _ _ _ hd hf => genuine_decodes hd hf) p x hx

/-- Matrices were pooled with blocks below `2^32`. -/
def TameObj (x : Obj) : Prop := Genuine x ∧ ∀ m, x = .matrix m → Tame (.matrix m)

theorem tame_makes {E : Ctx} {c : Call} (hc : ∀ p b, c = .findAvgPoolMatrix p b → b < 2 ^ 32) {x y : Obj} (hx : TameObj x)
    (h : c.makes E x = some (.ok y)) : TameObj y := by
  refine ⟨genuine_makes hx.1 h, ?_⟩
  rintro m rfl
  cases x with
  | graph g =>
    cases c <;> simp only [Call.makes, Option.some.injEq, reduceCtorEq] at h
    case matrixString => obtain ⟨s, hs, _⟩ := cs_cstr_ok h; cases hs
    case toBytes => obtain ⟨s, _, hs⟩ := cs_map_ok h; cases hs
    case findAvgPoolMatrix p b =>
      obtain ⟨m', hm, hs⟩ := cs_plain_ok h
      cases hs
      refine ⟨g, _, _, _, hx.1, ?_, hm⟩
      have : b < 2 ^ 32 := hc p b rfl
      unfold effBlock; omega
    case approximate b t => obtain ⟨m, _, hs⟩ := cs_plain_ok h; cases hs
    case compress l => obtain ⟨m, _, hs⟩ := cs_plain_ok h; cases hs
    all_goals cases h
  | cgraph g =>
    cases c <;> simp only [Call.makes, Option.some.injEq, reduceCtorEq] at h
    case cMatrixString => obtain ⟨s, hs, _⟩ := cs_cstr_ok h; cases hs
    case cToBytes => obtain ⟨s, _, hs⟩ := cs_map_ok h; cases hs
    case decompress => obtain ⟨m, _, hs⟩ := cs_plain_ok h; cases hs
    case cDuplicate => cases h
  | matrix m' =>
    cases c <;> simp only [Call.makes, Option.some.injEq, reduceCtorEq] at h
    case mToString => obtain ⟨s, hs, _⟩ := cs_cstr_ok h; cases hs
    case mToStringWithPrecision => obtain ⟨s, hs, _⟩ := cs_cstr_ok h; cases hs
    case mDuplicate => cases h; exact hx.2 _ rfl
    case mGetEntryList => cases h
  | _ => cases c <;> cases h

theorem smallBlocks_of_moderate {t : List Event} (hm : ModerateRun t) : SmallBlocks t :=
  fun E p b M v he => hm E (.findAvgPoolMatrix p b) M v he

theorem run_tame {h₀ h : Heap} {t : List Event} (hu : Untouched h₀) (r : Run h₀ t h) (hm : SmallBlocks t) (p : Ptr) (x : Obj)
    (hx : h.get? p = some x) : TameObj x := by
  have hcaller : ∀ x : Obj, x.isCaller = true → TameObj x := by
    intro x hx
    refine ⟨genuine_caller hx, ?_⟩
    rintro m rfl; cases hx
  refine run_inv r (fun p x hx => hcaller x (hu p x hx)) hcaller (fun E c M v he x y hx hy => tame_makes
      (by rintro p b rfl; exact hm E p b M v he) hx hy)
    (fun g e hg => ⟨good_call hg.1 e, by rintro m ⟨⟩⟩) ⟨⟨.newUndirected, by rintro m ⟨⟩⟩, ⟨.newDirected, by rintro m ⟨⟩⟩⟩ ?_ p x hx
  intro E c p n e f b y hd hf
  refine ⟨genuine_decodes hd hf, ?_⟩
  rintro m rfl
  cases c <;> simp only [Call.decodes, reduceCtorEq] at hd
  · cases hd; obtain ⟨g, _, hs⟩ := cs_map_ok hf; cases hs
  · cases hd; obtain ⟨g, _, hs⟩ := cs_map_ok hf; cases hs

theorem cstr_panic {r : Res (List Char)} : cstr r = .panic ↔ r = .panic := by
  unfold cstr
  split
  · split <;> simp
  · simp
  · simp

theorem map_panic {α : Type} {f : α → Obj} {r : Res α} : r.map f = .panic ↔ r = .panic := by
  cases r <;> simp [Res.map]

theorem matrixString_no_panic (g : Graph) (P : Platform) : g.matrixString P ≠ .panic := by
  intro this
  by_cases hn : g.vertexCount = 0
  · rw [(C49_matrix_string g P).1 hn] at this; cases this
  · have h2 := (C49_matrix_string g P).2 hn
    simp only at h2
    by_cases hs : 4 * g.vertexCount + 3 * (g.vertexCount * g.vertexCount) - 2 + 2 ≤ P.usizeMax ∧
        P.alloc (4 * g.vertexCount + 3 * (g.vertexCount * g.vertexCount) - 2) = true
    · rw [h2.1 hs.1 hs.2] at this; cases this
    · obtain ⟨msg, hmsg⟩ := h2.2.1 (by
        rcases Nat.lt_or_ge P.usizeMax (4 * g.vertexCount + 3 * (g.vertexCount * g.vertexCount) - 2 + 2) with h3 | h3
        · exact .inl h3
        · exact .inr (by simpa using fun h4 => hs ⟨h3, h4⟩))
      rw [hmsg] at this; cases this

theorem bytesAt_length {M : Mem} {p : Ptr} {n : Nat} {b : Bytes} (h : bytesAt M p n = some b) : b.length = n := by
  unfold bytesAt at h
  split at h
  · next hn => cases h; rw [hn]; rfl
  · split at h
    · split at h
      · cases h; rw [List.length_take]; omega
      · cases h
    · split at h
      · cases h; rw [List.length_take]; omega
      · cases h
    · cases h

/-- **C71 (partial: moderate arguments).** A C program that keeps its side of the contract never runs into undefined behaviour and
is never aborted: each call returns. -/
theorem C71_no_abort_partial {h₀ h : Heap} {t : List Event} (hu : Untouched h₀) (r : Run h₀ t h) (hm : ModerateRun t)
    (E : Ctx) (c : Call) (hus : 65535 ≤ E.P.usizeMax) (hf : 42 ≤ E.P.fmtMax) (hv : Valid h.get? c) (hc : c.Moderate E h.get?) :
    ∃ v h', c.exec E h = .ok v h' := by
  rcases C60_defined E c h hv with h1 | ⟨hab, hp⟩
  · exact h1
  · exfalso
    rcases hp with ⟨p, k, x, hh, hp0, hx, hpan⟩ | ⟨p, n, e, f, b, hd, _, hb, hpan⟩
    · have ht := run_tame hu r (smallBlocks_of_moderate hm) p x hx
      cases x with
      | graph g =>
        have hg : GReach g := ht.1
        cases c <;> simp only [Call.makes, Option.some.injEq, reduceCtorEq] at hpan
        case matrixString => exact matrixString_no_panic g E.P (cstr_panic.1 hpan)
        case toBytes => exact (C14_graph_bytes_layout hg E.P E.o₁).1 (map_panic.1 hpan)
        case findAvgPoolMatrix q b =>
          have hb : b < 2 ^ 32 := hc
          obtain ⟨⟨m, hm', _⟩, _⟩ := (C46_no_overflow_partial hg E.P E.o₁ E.o₂ b (F64.lit 0)).1 (by unfold effBlock; omega)
          rw [hm'] at hpan; cases hpan
        case approximate q b t =>
          have hb : b < 2 ^ 32 := hc
          obtain ⟨_, m, hm'⟩ := (C46_no_overflow_partial hg E.P E.o₁ E.o₂ b t).1 (by unfold effBlock; omega)
          rw [hm'] at hpan; cases hpan
        case compress q l =>
          obtain ⟨c, hc', _⟩ := C46_compress_never_fails hg E.P E.o₁ E.o₂ l
          rw [hc'] at hpan; cases hpan
      | cgraph g =>
        have hg : CReach g := ht.1
        cases c <;> simp only [Call.makes, Option.some.injEq, reduceCtorEq] at hpan
        case cMatrixString =>
          obtain ⟨_, _, _, h4⟩ := C51_compressed_matrix_string hg E.P hus (by omega)
          exact (h4 E.o₁ E.o₂).1 (cstr_panic.1 hpan)
        case cToBytes =>
          obtain ⟨_, _, _, _, h4, _⟩ := C31_compressed_bytes_layout hg E.P E.o₁
          exact h4 (map_panic.1 hpan)
        case decompress =>
          obtain ⟨d, hd, _⟩ := CGraph.decompress_spec hg.ok E.P E.o₁
          rw [hd] at hpan; cases hpan
      | matrix m =>
        have htm : Tame (.matrix m) := ht.2 m rfl
        cases c <;> simp only [Call.makes, Option.some.injEq, reduceCtorEq] at hpan
        case mToString q =>
          cases hh
          have hroom := hc m hx
          obtain ⟨g, P', o, b, hg, hb, hm'⟩ := htm
          rw [pool_platform P' E.P o hb] at hm'
          obtain ⟨m', h1, h2⟩ := C69_to_string_partial hg E.P o E.o₁ E.o₂ b hb hf hus
          rw [hm'] at h1
          cases h1
          simp only at h2
          rw [cstr_panic] at hpan
          have hpan : m.toText E.P f64Fmt E.o₁ E.o₂ = .panic := by
            cases hr : m.toText E.P f64Fmt E.o₁ E.o₂ with
            | ok s => rw [hr] at hpan; cases hpan
            | err e =>
              unfold SqMatrix.toText at hr
              split at hr <;> cases hr
            | panic => rfl
          by_cases hn : m.dimension = 0
          · rw [h2.1 hn] at hpan; cases hpan
          · have hle : (if g.edgeCount = 0 then 42 else 4) ≤ 42 := by split <;> omega
            have hle2 : ((if g.edgeCount = 0 then 42 else 4) + 2) * (m.dimension * m.dimension) ≤
                44 * (m.dimension * m.dimension) := Nat.mul_le_mul_right _ (by omega)
            obtain ⟨s, hs, _⟩ := h2.2.1 hn (by omega) (hroom.2 _ (by omega))
            rw [hs] at hpan; cases hpan
        case mToStringWithPrecision q d => exact tame_text htm E.P _ _ _ hc.1 hc.2 (cstr_panic.1 hpan)
      | _ => cases c <;> cases hpan
    · cases c <;> simp only [Call.decodes, reduceCtorEq] at hd
      case fromBytes q n' e' =>
        cases hd
        have hl : b.length ≤ E.P.usizeMax := (bytesAt_length hb).trans_le hc
        rcases C16_decode_total E.P b hl with ⟨g, hg⟩ | ⟨g, hg⟩ <;> simp only [hg] at hpan <;> cases hpan
      case cFromBytes q n' e' =>
        cases hd
        have hl : b.length ≤ E.P.usizeMax := (bytesAt_length hb).trans_le hc
        rcases C33_decode_total E.P b hl with ⟨g, hg⟩ | ⟨g, hg⟩ <;> simp only [hg] at hpan <;> cases hpan

theorem run_append {h h' h'' : Heap} {t t' : List Event} (r : Run h t h') (r' : Run h' t' h'') : Run h (t ++ t') h'' := by
  induction r with
  | nil => exact r'
  | call he _ ih => exact .call he (ih r')
  | write h1 h2 h3 _ ih => exact .write h1 h2 h3 (ih r')
  | drop h1 _ ih => exact .drop h1 (ih r')

/-- **C71 (full statement).** Each call of a program that keeps its side of the contract returns. -/
def C71_full : Prop := ∀ h₀ h t, Untouched h₀ → Run h₀ t h → ∀ E c, 65535 ≤ E.P.usizeMax → 42 ≤ E.P.fmtMax → Valid h.get? c →
  ∃ v h', c.exec E h = .ok v h'

/-- The full statement is false: `gphrx_matrix_to_string` aborts the program if the text is too large, and one vertex with
a large number is enough for that. -/
theorem C71_full_false : ¬ C71_full := by
  intro hC
  let g : Graph := Graph.newDirected.addVertex (2 ^ 40) none
  have hg : GReach g := .addVertex _ _ .newDirected
  have hok : okAnd (g.findAvgPoolMatrix exP HashOrder.id 1)
      (fun m => decide (m.toText exP f64Fmt HashOrder.id HashOrder.id = .panic)) = true := by decide +kernel
  obtain ⟨m, hm, hp⟩ := okAnd_elim hok
  have hp := of_decide_eq_true hp
  have r₁ : Run HMap.empty [.call exE .newDirected HMap.empty.get? (.ptr 1),
      .call exE (.addVertex 1 (2 ^ 40) 0 0) (HMap.empty.insert 1 (.graph Graph.newDirected)).get? .unit]
      ((HMap.empty.insert 1 (.graph Graph.newDirected)).insert 1 (.graph g)) := .call rfl (.call rfl .nil)
  have hu : Untouched HMap.empty := by rintro p x ⟨⟩
  generalize hh : (HMap.empty.insert 1 (Obj.graph Graph.newDirected)).insert 1 (Obj.graph g) = h at r₁
  have hget : h.get? 1 = some (.graph g) := by rw [← hh]; rfl
  have hv : Valid h.get? (.findAvgPoolMatrix 1 1) := by
    refine ⟨?_, .inl rfl, ?_, ?_, ?_⟩
    · rintro p k ⟨⟩; exact .inr ⟨_, hget, rfl⟩
    · rintro _ _ _ _ ⟨⟩
    · rintro _ _ _ _ _ ⟨⟩
    · rintro _ _ ⟨⟩
  obtain ⟨v, h', he⟩ := hC _ _ _ hu r₁ exE _ (by decide) (by decide) hv
  obtain ⟨q, rfl, hq, hq', hM'⟩ := (meaning_handle (p := 1) (k := .graph) rfl (by decide) hget (exec_ok_meaning he)).2.1
    (.matrix m) (by
      show some (plain Obj.matrix (g.findAvgPoolMatrix exP HashOrder.id 1)) = _
      rw [hm]; rfl)
  have hget' : h'.get? q = some (.matrix m) := by rw [hM']; simp [Mem.put]
  have r₂ : Run HMap.empty _ h' := run_append r₁ (.call he .nil)
  have hv' : Valid h'.get? (.mToString q) := by
    refine ⟨?_, .inl rfl, ?_, ?_, ?_⟩
    · rintro p k ⟨⟩; exact .inr ⟨_, hget', rfl⟩
    · rintro _ _ _ _ ⟨⟩
    · rintro _ _ _ _ _ ⟨⟩
    · rintro _ _ ⟨⟩
  obtain ⟨v, h'', he'⟩ := hC _ _ _ hu r₂ exE _ (by decide) (by decide) hv'
  refine (meaning_handle (p := q) (k := .matrix) rfl hq hget' (exec_ok_meaning he')).2.2.2.1 ?_
  show some (cstr (plainText (m.toText exP f64Fmt HashOrder.id HashOrder.id))) = _
  rw [hp]; rfl

/-- The Rust method behind a call that returns a string. -/
def _root_.Verif.Call.text (E : Ctx) : Call → Obj → Option (Res (List Char))
  | .matrixString _, .graph g => some (g.matrixString E.P)
  | .cMatrixString _, .cgraph g => some (g.matrixString E.P E.o₁ E.o₂)
  | .mToString _, .matrix m => some (m.toText E.P f64Fmt E.o₁ E.o₂)
  | .mToStringWithPrecision _ d, .matrix m => some (m.toStringWithPrecision E.P f64Fmt E.o₁ E.o₂ d)
  | _, _ => none

/-- **C71.** A null string always means that the Rust method reported an error; otherwise the string that is returned is exactly
the text of the Rust method (it is never refused because of a zero in it). -/
theorem C71_strings (h : Heap) (E : Ctx) (c : Call) {p : Ptr} {k : Kind}
    (hh : c.handle = some (p, k)) (hp : p ≠ 0) {x : Obj} (hx : h.get? p = some x) {res : Res (List Char)}
    (ht : c.text E x = some res) {v : Val} {h' : Heap} (he : c.exec E h = .ok v h') :
    (∃ s q, res = .ok s ∧ v = .ptr q ∧ q ≠ 0 ∧ h.get? q = none ∧ h'.get? q = some (.cstring s)) ∨
      ((∃ e, res = .err e) ∧ v = .ptr 0 ∧ h'.get? = h.get?) := by
  have hno : ∀ s, res = .ok s → NoNul s := by
    rintro s rfl
    cases x with
    | graph g =>
      cases c <;> simp only [Call.text, Option.some.injEq, reduceCtorEq] at ht
      exact Graph.matrixString_noNul ht
    | cgraph g =>
      cases c <;> simp only [Call.text, Option.some.injEq, reduceCtorEq] at ht
      exact CGraph.matrixString_noNul ht
    | matrix m =>
      cases c <;> simp only [Call.text, Option.some.injEq, reduceCtorEq] at ht
      · have : m.toStringWithPrecision E.P f64Fmt E.o₁ E.o₂ 2 = .ok s := by
          unfold SqMatrix.toText at ht
          split at ht
          · next s' hs' => cases ht; exact hs'
          · cases ht
          · cases ht
        exact f64_noNul this
      · exact f64_noNul ht
    | _ => cases c <;> cases ht
  have hmk : (c.makes E x = some (cstr res) ∨ (c.makes E x = some (cstr (plainText res)) ∧ ∀ e, res ≠ .err e)) ∧ c.out = 0 := by
    cases x with
    | graph g => cases c <;> cases ht; exact ⟨.inl rfl, rfl⟩
    | cgraph g => cases c <;> cases ht; exact ⟨.inl rfl, rfl⟩
    | matrix m =>
      cases c <;> cases ht
      · refine ⟨.inr ⟨rfl, ?_⟩, rfl⟩
        intro e h
        unfold SqMatrix.toText at h
        split at h <;> cases h
      · exact ⟨.inl rfl, rfl⟩
    | _ => cases c <;> cases ht
  obtain ⟨hmk, hout⟩ := hmk
  have hM := meaning_handle hh hp hx (exec_ok_meaning he)
  have hsz : ∀ (M : Mem) n, M.putSize c.out n = M := by intro M n; rw [hout]; rfl
  simp only [hsz] at hM
  cases res with
  | ok s =>
    have hns : Char.ofNat 0 ∉ s := hno s rfl
    have : c.makes E x = some (.ok (.cstring s)) := by
      rcases hmk with hmk | ⟨hmk, _⟩ <;> rw [hmk] <;> simp [cstr, plainText, hns]
    obtain ⟨q, rfl, h1, h2, h3⟩ := hM.2.1 _ this
    exact .inl ⟨s, q, rfl, rfl, h1, h2, by rw [h3]; simp [Mem.put]⟩
  | err e =>
    rcases hmk with hmk | ⟨hmk, hne⟩
    · obtain ⟨rfl, h2⟩ := hM.2.2.1 e (by rw [hmk]; rfl)
      exact .inr ⟨⟨e, rfl⟩, rfl, h2⟩
    · exact absurd rfl (hne e)
  | panic =>
    exfalso
    refine hM.2.2.2.1 ?_
    rcases hmk with hmk | ⟨hmk, _⟩ <;> rw [hmk] <;> rfl

/-- A program that creates a graph, adds an edge and stores the number 7 in memory of its own; it may then ask for the edges, the
pooled matrix or the text. -/
example : ∃ t h, Untouched HMap.empty ∧ Run HMap.empty t h ∧ ModerateRun t ∧ t.length = 3 ∧
    h.get? 1 = some (.graph (Graph.newDirected.addEdge 1 2)) ∧
    Valid h.get? (.getEdgeList 1 2) ∧ (Call.getEdgeList 1 2).Moderate exE h.get? ∧
    (Call.findAvgPoolMatrix 1 7).Moderate exE h.get? ∧
    Valid h.get? (.matrixString 1) ∧ (Call.matrixString 1).Moderate exE h.get? ∧
    (Call.matrixString 1).text exE (.graph (Graph.newDirected.addEdge 1 2)) ≠ none ∧
    65535 ≤ exE.P.usizeMax ∧ 42 ≤ exE.P.fmtMax := by
  refine ⟨[.call exE .newDirected _ _, .call exE (.addEdge 1 1 2) _ _, .own 2],
    ((HMap.empty.insert 1 (.graph Graph.newDirected)).insert 1 (.graph (Graph.newDirected.addEdge 1 2))).insert 2 (.callerUsize 7),
    ?_, .call rfl (.call rfl (.write (by decide) (by rintro y ⟨⟩) rfl .nil)), ?_, rfl, rfl, ?_, trivial, ?_, ?_, trivial, ?_,
    by decide, by decide⟩
  · rintro p x ⟨⟩
  · intro E c M v h
    simp only [List.mem_cons, List.not_mem_nil, or_false, reduceCtorEq] at h
    rcases h with h | h <;> cases h <;> trivial
  · refine ⟨?_, .inr ⟨7, rfl⟩, ?_, ?_, ?_⟩
    · rintro p k ⟨⟩; exact .inr ⟨_, rfl, rfl⟩
    · rintro _ _ _ _ ⟨⟩
    · rintro _ _ _ _ _ ⟨⟩
    · rintro _ _ ⟨⟩
  · show 7 < 2 ^ 32; decide
  · refine ⟨?_, .inl rfl, ?_, ?_, ?_⟩
    · rintro p k ⟨⟩; exact .inr ⟨_, rfl, rfl⟩
    · rintro _ _ _ _ ⟨⟩
    · rintro _ _ _ _ _ ⟨⟩
    · rintro _ _ ⟨⟩
  · simp [Call.text]

end Verif.Props
