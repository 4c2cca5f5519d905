import Verif.Props.CSafety
import Verif.Props.Ieee
import Verif.Props.TextPanic

/-!
# When exactly a C or Python program is aborted
-/

namespace Verif.Props
open Verif Spec

theorem plain_panic {α : Type} {f : α → Obj} {r : Res α} : plain f r = .panic ↔ r = .panic ∨ ∃ e, r = .err e := by
  cases r <;> simp [plain]

theorem panics_aborts {E : Ctx} {c : Call} {h : Heap} (hv : Valid h.get? c) (hp : ∀ v h', c.exec E h ≠ .ok v h') :
    c.exec E h = .abort := by
  rcases C60_defined E c h hv with ⟨v, h', h1⟩ | ⟨h1, _⟩
  · exact absurd h1 (hp v h')
  · exact h1

/-- **C71**, the exact rule: after any execution, a call that keeps the contract aborts the program in the cases of `Call.Aborts` and
otherwise returns. -/
theorem C71_aborts_iff {h₀ h : Heap} {t : List Event} (hu : Untouched h₀) (r : Run h₀ t h) (E : Ctx) (c : Call) (hP : Usual E.P)
    (hv : Valid h.get? c) (hc : c.Fits E) :
    (c.exec E h = .abort ↔ c.Aborts E h.get?) ∧ (¬ c.Aborts E h.get? → ∃ v h', c.exec E h = .ok v h') := by
  have hf := hP.fmt
  have hus : 65535 ≤ E.P.usizeMax := by have := hP.size; omega
  have key : c.exec E h = .abort ↔ c.Aborts E h.get? := by
    constructor
    · intro hab
      rcases C60_defined E c h hv with ⟨v, h', h1⟩ | ⟨-, hp⟩
      · rw [hab] at h1; cases h1
      clear hab
      rcases hp with ⟨p, k, x, hh, hp0, hx, hpan⟩ | ⟨p, n, e, f, b, hd, _, hb, hpan⟩
      · have ht := C71_genuine hu r p x hx
        cases x with
        | graph g =>
          have hg : GReach g := ht
          cases c <;> simp only [Call.makes, Option.some.injEq, reduceCtorEq] at hpan
          case matrixString => exact (matrixString_no_panic g E.P (cstr_panic.1 hpan)).elim
          case toBytes => exact ((C14_graph_bytes_layout hg E.P E.o₁).1 (map_panic.1 hpan)).elim
          case findAvgPoolMatrix q b =>
            cases hh
            refine ⟨hp0, ?_⟩
            rcases Nat.lt_or_ge (effBlock g.vertexCount b) (2 ^ 32) with hb | hb
            · obtain ⟨⟨m, hm', _⟩, _⟩ := (C46_no_overflow_partial hg E.P E.o₁ E.o₂ b (F64.lit 0)).1 hb
              rw [hm'] at hpan; cases hpan
            · refine ⟨?_, g, hx, hb⟩
              cases hprof : E.P.profile with
              | debug => rfl
              | release =>
                obtain ⟨_, m, hm', _⟩ := C46_release hg hprof E.o₁ E.o₂ b (F64.lit 0)
                rw [hm'] at hpan; cases hpan
          case approximate q b t =>
            cases hh
            refine ⟨hp0, ?_⟩
            rcases Nat.lt_or_ge (effBlock g.vertexCount b) (2 ^ 32) with hb | hb
            · obtain ⟨_, m, hm'⟩ := (C46_no_overflow_partial hg E.P E.o₁ E.o₂ b t).1 hb
              rw [hm'] at hpan; cases hpan
            · refine ⟨?_, g, hx, hb⟩
              cases hprof : E.P.profile with
              | debug => rfl
              | release =>
                obtain ⟨⟨m, hm'⟩, _⟩ := C46_release hg hprof E.o₁ E.o₂ b t
                rw [hm'] at hpan; cases hpan
          case compress q l =>
            obtain ⟨c, hc', _⟩ := C46_compress_never_fails hg E.P E.o₁ E.o₂ l
            rw [hc'] at hpan; cases hpan
        | cgraph g =>
          have hg : CReach g := ht
          cases c <;> simp only [Call.makes, Option.some.injEq, reduceCtorEq] at hpan
          case cMatrixString =>
            obtain ⟨_, _, _, h4⟩ := C51_compressed_matrix_string hg E.P hus (by omega)
            exact ((h4 E.o₁ E.o₂).1 (cstr_panic.1 hpan)).elim
          case cToBytes =>
            obtain ⟨_, _, _, _, h4, _⟩ := C31_compressed_bytes_layout hg E.P E.o₁
            exact (h4 (map_panic.1 hpan)).elim
          case decompress =>
            obtain ⟨d, hd, _⟩ := CGraph.decompress_spec hg.ok E.P E.o₁
            rw [hd] at hpan; cases hpan
        | matrix m =>
          obtain ⟨g, P', o, b, hg, hm'⟩ := ht
          cases c <;> simp only [Call.makes, Option.some.injEq, reduceCtorEq] at hpan
          case mToString q =>
            cases hh
            rw [cstr_panic] at hpan
            have hpan : m.toText E.P f64Fmt E.o₁ E.o₂ = .panic := by
              cases hr : m.toText E.P f64Fmt E.o₁ E.o₂ with
              | ok s => rw [hr] at hpan; cases hpan
              | err e =>
                unfold SqMatrix.toText at hr
                split at hr <;> cases hr
              | panic => rfl
            obtain ⟨k, hk, -, hiff⟩ := C109_to_string hg hm' hf (by omega) E.o₁ E.o₂
            exact ⟨hp0, m, k, hx, hk, hiff.1 hpan⟩
          case mToStringWithPrecision q d =>
            cases hh
            obtain ⟨k, hk, -, -, -, hiff⟩ := C109_panics_iff hg hm' hP E.o₁ E.o₂ hc
            exact ⟨hp0, m, k, hx, hk, hiff.1 (cstr_panic.1 hpan)⟩
        | _ => cases c <;> cases hpan
      · cases c <;> simp only [Call.decodes, reduceCtorEq] at hd
        case fromBytes q n' e' =>
          cases hd
          have hl : b.length ≤ E.P.usizeMax := (bytesAt_length hb).trans_le hc
          rcases C16_decode_total E.P b hl with ⟨g, hg⟩ | ⟨g, hg⟩ <;> simp only [hg] at hpan <;> cases hpan
        case cFromBytes q n' e' =>
          cases hd
          have hl : b.length ≤ E.P.usizeMax := (bytesAt_length hb).trans_le hc
          rcases C33_decode_total E.P b hl with ⟨g, hg⟩ | ⟨g, hg⟩ <;> simp only [hg] at hpan <;> cases hpan
    · intro ha
      refine panics_aborts hv fun v h' he => ?_
      have hM := exec_ok_meaning he
      cases c <;> simp only [Call.Aborts] at ha
      case findAvgPoolMatrix p b =>
        obtain ⟨hp0, hprof, g, hx, hb⟩ := ha
        refine (meaning_handle (p := p) (k := .graph) rfl hp0 hx hM).2.2.2.1 ?_
        have hg : GReach g := C71_genuine hu r p _ hx
        show some (plain Obj.matrix (g.findAvgPoolMatrix E.P E.o₁ b)) = _
        rw [((C46_no_overflow_partial hg E.P E.o₁ E.o₂ b (F64.lit 0)).2 hprof hb).1]; rfl
      case approximate p b t =>
        obtain ⟨hp0, hprof, g, hx, hb⟩ := ha
        refine (meaning_handle (p := p) (k := .graph) rfl hp0 hx hM).2.2.2.1 ?_
        have hg : GReach g := C71_genuine hu r p _ hx
        show some (plain Obj.graph (g.approximate E.P E.o₁ E.o₂ b t)) = _
        rw [((C46_no_overflow_partial hg E.P E.o₁ E.o₂ b t).2 hprof hb).2]; rfl
      case mToString p =>
        obtain ⟨hp0, m, k, hx, hk, hroom⟩ := ha
        refine (meaning_handle (p := p) (k := .matrix) rfl hp0 hx hM).2.2.2.1 ?_
        obtain ⟨g, P', o, b, hg, hm'⟩ := C71_genuine hu r p _ hx
        obtain ⟨k', hk', huniq, hiff⟩ := C109_to_string hg hm' hf (by omega) E.o₁ E.o₂
        rw [← huniq k hk] at hiff
        show some (cstr (plainText (m.toText E.P f64Fmt E.o₁ E.o₂))) = _
        rw [hiff.2 hroom]; rfl
      case mToStringWithPrecision p d =>
        obtain ⟨hp0, m, k, hx, hk, hpan⟩ := ha
        refine (meaning_handle (p := p) (k := .matrix) rfl hp0 hx hM).2.2.2.1 ?_
        obtain ⟨g, P', o, b, hg, hm'⟩ := C71_genuine hu r p _ hx
        obtain ⟨k', hk', huniq, -, -, hiff⟩ := C109_panics_iff hg hm' hP E.o₁ E.o₂ hc
        rw [← huniq k hk] at hiff
        show some (cstr (m.toStringWithPrecision E.P f64Fmt E.o₁ E.o₂ d)) = _
        rw [hiff.2 hpan]; rfl
  refine ⟨key, fun ha => ?_⟩
  rcases C60_defined E c h hv with h1 | ⟨h1, _⟩
  · exact h1
  · exact absurd (key.1 h1) ha

/-- On a usual platform, with overflow checks. -/
def exEU : Ctx := { exE with P := exUs }

/-- A program that keeps the contract: a graph with a large vertex at address 1.  Pooling with blocks of 7 returns, blocks of `2^32`
abort the program in a debug build but not in a release build. -/
example : ∃ t h, Untouched HMap.empty ∧ Run HMap.empty t h ∧ t.length = 2 ∧ Usual exEU.P ∧ Usual exER.P ∧
    Valid h.get? (.findAvgPoolMatrix 1 7) ∧ (Call.findAvgPoolMatrix 1 7).Fits exEU ∧
    ¬ (Call.findAvgPoolMatrix 1 7).Aborts exEU h.get? ∧ (Call.findAvgPoolMatrix 1 (2 ^ 32)).Aborts exEU h.get? ∧
    ¬ (Call.findAvgPoolMatrix 1 (2 ^ 32)).Aborts exER h.get? := by
  refine ⟨[.call exEU .newDirected _ _, .call exEU (.addVertex 1 (2 ^ 33) 0 0) _ _],
    (HMap.empty.insert 1 (.graph Graph.newDirected)).insert 1 (.graph (Graph.newDirected.addVertex (2 ^ 33) none)),
    by rintro p x ⟨⟩, .call rfl (.call rfl .nil), rfl, exUs_usual, ⟨by decide, by decide, ?_⟩, ?_, trivial, ?_, ?_, ?_⟩
  · intro k hk
    have : k < 2 ^ 40 := of_decide_eq_true hk
    show 2 * k ≤ U64_MAX
    unfold U64_MAX; omega
  · refine ⟨?_, .inl rfl, ?_, ?_, ?_⟩
    · rintro p k ⟨⟩; exact .inr ⟨_, rfl, rfl⟩
    · rintro _ _ _ _ ⟨⟩
    · rintro _ _ _ _ _ ⟨⟩
    · rintro _ _ ⟨⟩
  · rintro ⟨-, -, g, -, hb⟩
    have : effBlock g.vertexCount 7 ≤ 7 := by unfold effBlock; omega
    omega
  · exact ⟨by decide, rfl, _, rfl, by decide +kernel⟩
  · rintro ⟨-, h, -⟩; cases h

/-- What `TextPanics` says for a one-by-one matrix with an entry on a usual 64-bit platform. -/
theorem ex_panics {P : Platform} (hP : P.usizeMax = U64_MAX) (hf : P.fmtMax = 65535) (ha : ∀ k ≤ 100000, P.alloc k = true)
    {m : SqMatrix F64} (h1 : m.dimension = 1) (h2 : m.entryCount ≠ 0) {k : Nat} (hk1 : 1 ≤ k) (hk : k ≤ 39) :
    TextPanics P m k 70000 ∧ ¬ TextPanics P m k 10 ∧ TextRoom P m.dimension (k + 5) := by
  unfold TextPanics TextRoom
  rw [h1, hP, hf]
  unfold U64_MAX
  refine ⟨⟨by decide, ?_⟩, ?_, by omega, by omega, ha _ (by omega)⟩
  · simp only
    rw [if_pos (by omega)]
    exact ⟨⟨by omega, by omega, ha _ (by omega)⟩, h2, by omega⟩
  · rintro ⟨-, h⟩
    simp only at h
    rw [if_pos (by omega)] at h
    omega

/-- A program with a matrix at address `q`: printing with 70000 decimals aborts the program, with 10 decimals it does not. -/
example : ∃ t h q, Untouched HMap.empty ∧ Run HMap.empty t h ∧ t.length = 3 ∧ Valid h.get? (.mToStringWithPrecision q 70000) ∧
    (Call.mToStringWithPrecision q 70000).Fits exEU ∧ (Call.mToStringWithPrecision q 70000).Aborts exEU h.get? ∧
    ¬ (Call.mToStringWithPrecision q 10).Aborts exEU h.get? ∧ ¬ (Call.mToString q).Aborts exEU h.get? := by
  let g : Graph := Graph.newDirected.addEdge 0 0
  have hg : GReach g := .addEdge 0 0 .newDirected
  obtain ⟨m, hm, h⟩ := okAnd_elim (show okAnd (g.findAvgPoolMatrix exEU.P .id 1)
    (fun m => decide (m.dimension = 1 ∧ m.entryCount ≠ 0)) = true by decide +kernel)
  have hmd := of_decide_eq_true h
  clear h
  obtain ⟨k, hk, huniq, hk1, hk39, -⟩ := C109_panics_iff hg hm exUs_usual .id .id (d := 0) (by decide)
  have r₁ : Run HMap.empty [.call exEU .newDirected HMap.empty.get? (.ptr 1),
      .call exEU (.addEdge 1 0 0) (HMap.empty.insert 1 (.graph Graph.newDirected)).get? .unit]
      ((HMap.empty.insert 1 (.graph Graph.newDirected)).insert 1 (.graph g)) := .call rfl (.call rfl .nil)
  have hu : Untouched HMap.empty := by rintro p x ⟨⟩
  generalize hh : (HMap.empty.insert 1 (Obj.graph Graph.newDirected)).insert 1 (Obj.graph g) = h at r₁
  have hget : h.get? 1 = some (.graph g) := by rw [← hh]; rfl
  have hv : Valid h.get? (.findAvgPoolMatrix 1 1) := by
    refine ⟨?_, .inl rfl, ?_, ?_, ?_⟩
    · rintro p k ⟨⟩; exact .inr ⟨_, hget, rfl⟩
    · rintro _ _ _ _ ⟨⟩
    · rintro _ _ _ _ _ ⟨⟩
    · rintro _ _ ⟨⟩
  obtain ⟨v, h', he⟩ := (C71_aborts_iff hu r₁ exEU _ exUs_usual hv trivial).2 (by
    rintro ⟨-, -, g', -, hb⟩
    have : effBlock g'.vertexCount 1 ≤ 1 := by unfold effBlock; omega
    omega)
  obtain ⟨q, rfl, hq, hq', hM'⟩ := (meaning_handle (p := 1) (k := .graph) rfl (by decide) hget (exec_ok_meaning he)).2.1
    (.matrix m) (by
      show some (plain Obj.matrix (g.findAvgPoolMatrix exEU.P HashOrder.id 1)) = _
      rw [hm]; rfl)
  have hget' : h'.get? q = some (.matrix m) := by rw [hM']; simp [Mem.put]
  have r₂ : Run HMap.empty _ h' := run_append r₁ (.call he .nil)
  have hv' : Valid h'.get? (.mToStringWithPrecision q 70000) := by
    refine ⟨?_, .inl rfl, ?_, ?_, ?_⟩
    · rintro p k ⟨⟩; exact .inr ⟨_, hget', rfl⟩
    · rintro _ _ _ _ ⟨⟩
    · rintro _ _ _ _ _ ⟨⟩
    · rintro _ _ ⟨⟩
  have hex := ex_panics (P := exEU.P) rfl rfl (fun k hk => by
    show decide (2 * k ≤ U64_MAX) = true
    unfold U64_MAX
    exact decide_eq_true (by omega)) hmd.1 hmd.2 hk1 hk39
  refine ⟨_, h', q, hu, r₂, rfl, hv', by show 70000 ≤ U64_MAX; decide, ⟨hq, m, k, hget', hk, hex.1⟩, ?_, ?_⟩
  · rintro ⟨-, m', k', hx, hk', hp⟩
    rw [hget'] at hx; cases hx
    rw [huniq k' hk'] at hp
    exact hex.2.1 hp
  · rintro ⟨-, m', k', hx, hk', -, hp⟩
    rw [hget'] at hx; cases hx
    rw [huniq k' hk'] at hp
    exact hp hex.2.2

theorem toSize_le (P : Platform) (i : Int) : toSize P i ≤ P.usizeMax := by
  unfold toSize
  have := Int.emod_lt_of_pos i (show (0 : Int) < (P.usizeMax : Int) + 1 by omega)
  omega

/-- **C75**, the exact rule: after any execution, a call aborts the interpreter in the cases of `PyAborts`. -/
theorem C75_aborts_iff {t} {w : PyWorld} {a : AWorld} (h : Reached t w a) (E : Ctx) (c : PyCall) (hP : Usual E.P)
    (hc : PyFits E c) : w.exec E c = .abort ↔ PyAborts E a c := by
  have hf := hP.fmt
  have hu : 65535 ≤ E.P.usizeMax := by have := hP.size; omega
  rw [C72_abort_iff h]
  have happ : ∀ {o : AOut} {i : Nat}, o.apply a i = .panics → o = .panics := by
    intro o i h; cases o <;> first | rfl | cases h
  constructor
  · intro hp
    cases c with
    | newGraph u => cases hp
    | graphFromBytes b =>
      have := happ (o := .decoded .graph (Graph.tryFrom E.P b)) hp
      rcases C16_decode_total E.P b hc with ⟨g, hg⟩ | ⟨g, hg⟩ <;> rw [hg] at this <;> cases this
    | cgraphFromBytes b =>
      have := happ (o := .decoded .cgraph (CGraph.tryFrom E.P b)) hp
      rcases C33_decode_total E.P b hc with ⟨g, hg⟩ | ⟨g, hg⟩ <;> rw [hg] at this <;> cases this
    | collect i =>
      simp only [pyStep] at hp
      split at hp
      · split at hp <;> cases hp
      · cases hp
    | call i m =>
      simp only [pyStep] at hp
      split at hp
      · next x hx =>
        have hi : a[i]? = some (some x) := Option.join_eq_some_iff.1 hx
        have hg := reached_good h hi
        have hm := happ hp
        clear hp happ
        cases x with
        | graph g =>
          have hg : GReach g := hg
          cases m <;> simp only [AObj.means, AObj.items] at hm <;> first | cases hm | skip
          case bytes => exact ((C14_graph_bytes_layout hg E.P E.o₁).1 (bytes_panics.1 hm)).elim
          case matrixString => exact (matrixString_no_panic g E.P (text_panics.1 hm)).elim
          case findAvgPoolMatrix b =>
            rcases Nat.lt_or_ge (effBlock g.vertexCount (toId b)) (2 ^ 32) with hb | hb
            · obtain ⟨⟨m, hm', _⟩, _⟩ := (C46_no_overflow_partial hg E.P E.o₁ E.o₂ (toId b) (F64.lit 0)).1 hb
              rw [hm'] at hm; cases hm
            · refine ⟨?_, g, hi, hb⟩
              cases hprof : E.P.profile with
              | debug => rfl
              | release =>
                obtain ⟨_, m, hm', _⟩ := C46_release hg hprof E.o₁ E.o₂ (toId b) (F64.lit 0)
                rw [hm'] at hm; cases hm
          case approximate b t =>
            rcases Nat.lt_or_ge (effBlock g.vertexCount (toId b)) (2 ^ 32) with hb | hb
            · obtain ⟨_, m, hm'⟩ := (C46_no_overflow_partial hg E.P E.o₁ E.o₂ (toId b) t).1 hb
              rw [hm'] at hm; cases hm
            · refine ⟨?_, g, hi, hb⟩
              cases hprof : E.P.profile with
              | debug => rfl
              | release =>
                obtain ⟨⟨m, hm'⟩, _⟩ := C46_release hg hprof E.o₁ E.o₂ (toId b) t
                rw [hm'] at hm; cases hm
          case compress l =>
            obtain ⟨c, hc', _⟩ := C46_compress_never_fails hg E.P E.o₁ E.o₂ (clampLevel l)
            rw [hc'] at hm; cases hm
        | cgraph g =>
          have hg : CReach g := hg
          cases m <;> simp only [AObj.means, AObj.items] at hm <;> first | cases hm | skip
          case bytes =>
            obtain ⟨_, _, _, _, h4, _⟩ := C31_compressed_bytes_layout hg E.P E.o₁
            exact (h4 (bytes_panics.1 hm)).elim
          case matrixString =>
            obtain ⟨_, _, _, h4⟩ := C51_compressed_matrix_string hg E.P hu (by omega)
            exact ((h4 E.o₁ E.o₂).1 (text_panics.1 hm)).elim
          case decompress =>
            obtain ⟨d, hd, _⟩ := CGraph.decompress_spec hg.ok E.P E.o₁
            rw [hd] at hm; cases hm
        | matrix m' =>
          cases m <;> simp only [AObj.means, AObj.items] at hm <;> first | cases hm | skip
          case str =>
            have h2 : toSize E.P 2 = 2 := by unfold toSize; rw [Int.emod_eq_of_lt (by omega) (by omega)]; rfl
            obtain ⟨g, P', o, b, hg, hm'⟩ := hg
            rw [h2] at hm
            obtain ⟨k, hk, -, -, h39, hiff⟩ := C109_panics_iff hg hm' hP E.o₁ E.o₂ (d := 2) (by omega)
            have hpan := (hiff.1 (text_panics.1 hm)).2
            simp only at hpan
            rw [if_pos (by omega)] at hpan
            omega
          case toString d =>
            obtain ⟨g, P', o, b, hg, hm'⟩ := hg
            obtain ⟨k, hk, -, -, -, hiff⟩ := C109_panics_iff hg hm' hP E.o₁ E.o₂ (toSize_le E.P d)
            exact ⟨m', k, hi, hk, hiff.1 (text_panics.1 hm)⟩
        | edges l | vertices l | entries l =>
          cases m <;> simp only [AObj.means, AObj.items] at hm <;> first | cases hm | skip
          case getitem => exact (item_panics hm).elim
        | iter l pos =>
          cases m <;> simp only [AObj.means, AObj.items] at hm <;> first | cases hm | skip
          obtain ⟨y, xs, h1, h2, _⟩ := reached_iter h hi
          simp only [h1, Option.join_some, Option.bind_some, h2] at hm
          split at hm <;> cases hm
      · cases hp
  · intro ha
    unfold PyAborts at ha
    split at ha
    · next i b =>
      obtain ⟨hprof, g, hi, hb⟩ := ha
      have hg : GReach g := reached_good h hi
      rw [pyStep_call hi, AObj.means,
        ((C46_no_overflow_partial hg E.P E.o₁ E.o₂ (toId b) (F64.lit 0)).2 hprof hb).1]
      rfl
    · next i b t =>
      obtain ⟨hprof, g, hi, hb⟩ := ha
      have hg : GReach g := reached_good h hi
      rw [pyStep_call hi, AObj.means, ((C46_no_overflow_partial hg E.P E.o₁ E.o₂ (toId b) t).2 hprof hb).2]
      rfl
    · next i d =>
      obtain ⟨m, k, hi, hk, hpan⟩ := ha
      obtain ⟨g, P', o, b, hg, hm'⟩ := reached_good h hi
      obtain ⟨k', hk', huniq, -, -, hiff⟩ := C109_panics_iff hg hm' hP E.o₁ E.o₂ (toSize_le E.P d)
      rw [← huniq k hk] at hiff
      rw [pyStep_call hi, AObj.means, hiff.2 hpan]
      rfl
    · exact ha.elim

/-- A program with a matrix: `to_string(70000)` aborts the interpreter, `to_string(10)` does not, nor does pooling. -/
example : ∃ t w a, Reached t w a ∧ Usual exER.P ∧ PyFits exER (.call 1 (.toString 70000)) ∧
    PyAborts exER a (.call 1 (.toString 70000)) ∧ ¬ PyAborts exER a (.call 1 (.toString 10)) ∧
    ¬ PyAborts exER a (.call 0 (.findAvgPoolMatrix 7)) := by
  have hg : GReach (Graph.newDirected.addEdge 0 0) := .addEdge 0 0 .newDirected
  have hU : Usual exER.P := by
    refine ⟨by decide, by decide, fun k hk => ?_⟩
    have : k < 2 ^ 40 := of_decide_eq_true hk
    show 2 * k ≤ U64_MAX
    unfold U64_MAX; omega
  obtain ⟨m, hm, hmd⟩ := okAnd_elim (show okAnd ((Graph.newDirected.addEdge 0 0).findAvgPoolMatrix exER.P .id 1)
    (fun m => decide (m.dimension = 1 ∧ m.entryCount ≠ 0)) = true by decide +kernel)
  have hmd := of_decide_eq_true hmd
  obtain ⟨k, hk, huniq, hk1, hk39, -⟩ := C109_panics_iff hg hm hU .id .id (d := 0) (by decide)
  have hrun : ARun [] [(exER, .newGraph false, .value (.ref 0)), (exER, .call 0 (.addEdge 0 0), .value .none),
      (exER, .call 0 (.findAvgPoolMatrix 1), .value (.ref 1))]
      [some (.graph (Graph.newDirected.addEdge 0 0)), some (.matrix m)] := by
    refine .ret rfl (.ret (a' := [some (.graph (Graph.newDirected.addEdge 0 0))]) rfl (.ret ?_ .nil))
    rw [pyStep_call (x := .graph (Graph.newDirected.addEdge 0 0)) rfl, AObj.means]
    rw [show Graph.findAvgPoolMatrix exER.P exER.o₁ (Graph.newDirected.addEdge 0 0) (toId 1) = .ok m from hm]
    rfl
  obtain ⟨w, hw⟩ := reached_of_arun hrun
  have hex := ex_panics (P := exER.P) rfl rfl (fun k hk => by
    show decide (k < 2 ^ 40) = true
    exact decide_eq_true (by omega)) hmd.1 hmd.2 hk1 hk39
  refine ⟨_, w, _, hw, hU, trivial, ⟨m, k, rfl, hk, ?_⟩, ?_, ?_⟩
  · rw [show toSize exER.P 70000 = 70000 from by decide]
    exact hex.1
  · rintro ⟨m', k', hx, hk', hp⟩
    cases hx
    rw [huniq k' hk', show toSize exER.P 10 = 10 from by decide] at hp
    exact hex.2.1 hp
  · rintro ⟨h, -⟩; cases h

end Verif.Props
