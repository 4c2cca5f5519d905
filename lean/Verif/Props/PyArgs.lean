import Verif.Props.Py
import Verif.Spec.PyArgs
import Verif.Lemmas.Ieee

/-!
# C103: Python calls with arguments of any type
-/

namespace Verif.Props
open Verif Spec

theorem arrayItems_map (ts : List Int) (h : Heap) : Py.arrayItems (ts.map .int) h = .ok ts h := by
  induction ts with
  | nil => rfl
  | cons i l ih =>
    change PM.bind (Py.arrayItems (l.map .int)) _ h = _
    rw [PM.bind, ih]; rfl

theorem byteItems_map (b : Bytes) (h : Heap) : Py.byteItems (b.map fun x => .int x.toNat) h = .ok b h := by
  induction b with
  | nil => rfl
  | cons x l ih =>
    have hx : 0 ≤ (x.toNat : Int) ∧ (x.toNat : Int) < 256 := ⟨by omega, by have := x.toNat_lt; omega⟩
    rw [List.map_cons, Py.byteItems, if_pos hx]
    change PM.bind (Py.byteItems (l.map _)) _ h = _
    rw [PM.bind, ih]
    simp only [pure, Int.toNat_natCast, UInt8.ofNat_toNat]

theorem level_float (q : ℚ) (h : Heap) : Py.levelArg (.float (.fin q)) h =
    if 64 < q then .ok 64 h else if q < 1 then .ok 1 h else .raised .ArgumentError h := by
  have e1 : Py.gtInt (.fin q) 64 = decide (64 < q) := by
    unfold Py.gtInt F64.lt F64.le
    by_cases h : (64 : ℚ) < q
    · simp [h, h.le]
    · simp [h, not_lt.1 h]
  have e2 : Py.ltInt (.fin q) 1 = decide (q < 1) := by
    unfold Py.ltInt F64.lt F64.le
    by_cases h : q < (1 : ℚ)
    · simp [h, h.le]
    · simp [h, not_lt.1 h]
  rw [Py.levelArg, e1, e2]
  by_cases h1 : 64 < q
  · simp [h1]; rfl
  · by_cases h2 : q < 1
    · simp [h1, h2]; rfl
    · simp [h1, h2]; rfl

theorem level_reads {l : PyArg} {k : Int} (hl : LevelOf l k) (h : Heap) : Py.levelArg l h = .ok (Py.compressLevel k) h := by
  cases hl with
  | int => rfl
  | above q hq => rw [level_float, if_pos hq]; rfl
  | below q hq => rw [level_float, if_neg (by linarith), if_pos hq]; rfl
  | infinite neg => cases neg <;> rfl

theorem double_reads {t : PyArg} {x : F64} (ht : ThresholdOf t x) (h : Heap) : Py.argDouble t h = .ok x h := by
  cases ht with
  | float => rfl
  | int i q hq =>
    have := (F64.roundsTo _ _).1 hq
    rw [Py.argDouble, ← this]; rfl

theorem geInt_fin (q : ℚ) (n : Int) : Py.geInt (.fin q) n = decide ((n : ℚ) ≤ q) := rfl

theorem ltInt_fin (q : ℚ) (n : Int) : Py.ltInt (.fin q) n = decide (q < n) := by
  unfold Py.ltInt F64.lt F64.le
  by_cases h : q < (n : ℚ)
  · simp [h, h.le]
  · simp [h, not_lt.1 h]

/-- The rounded length of a list that is not empty is at least 1. -/
theorem rounds_pos {n : Nat} (hn : 0 < n) {s : ℚ} (hs : F64.ofNat n = .fin s) : 1 ≤ s := by
  unfold F64.ofNat F64.rnd at hs
  split_ifs at hs
  cases hs
  exact F64.one_le_rndQ (by exact_mod_cast hn)

theorem rem_lt_one {q s : ℚ} (hs : 1 ≤ s) (hq : 0 ≤ q) : q - s * ⌊q / s⌋ < 1 ↔ ∃ k : ℕ, k * s ≤ q ∧ q < k * s + 1 := by
  have hs0 : 0 < s := by linarith
  constructor
  · intro h
    refine ⟨⌊q / s⌋.toNat, ?_, ?_⟩
    · have h0 : 0 ≤ ⌊q / s⌋ := Int.floor_nonneg.2 (div_nonneg hq hs0.le)
      have : ((⌊q / s⌋.toNat : ℕ) : ℚ) = ⌊q / s⌋ := by exact_mod_cast Int.toNat_of_nonneg h0
      rw [this]
      exact (le_div_iff₀ hs0).1 (Int.floor_le _)
    · have h0 : 0 ≤ ⌊q / s⌋ := Int.floor_nonneg.2 (div_nonneg hq hs0.le)
      have : ((⌊q / s⌋.toNat : ℕ) : ℚ) = ⌊q / s⌋ := by exact_mod_cast Int.toNat_of_nonneg h0
      rw [this]; linarith
  · rintro ⟨k, h1, h2⟩
    have : ⌊q / s⌋ = (k : ℤ) := by
      rw [Int.floor_eq_iff]
      refine ⟨?_, ?_⟩
      · rw [le_div_iff₀ hs0]; exact_mod_cast h1
      · rw [div_lt_iff₀ hs0]; push_cast; nlinarith
    rw [this]; push_cast; linarith

/-- The index computation for floats. -/
theorem index_float (n : Nat) (q : ℚ) (h : Heap) :
    (∃ k, IndexOf n (.float (.fin q)) k ∧ Py.indexArg n (.float (.fin q)) h = Py.index n k h) ∨
    ((∀ k, ¬ IndexOf n (.float (.fin q)) k) ∧ ∃ e, Py.indexArg n (.float (.fin q)) h = .raised e h) := by
  rw [Py.indexArg, geInt_fin, ltInt_fin]
  by_cases h1 : ((n : ℤ) : ℚ) ≤ q
  · refine .inr ⟨?_, .IndexError, by rw [if_pos (decide_eq_true h1)]; rfl⟩
    intro k hk
    cases hk with
    | last _ s j hn hq _ _ _ => have : (0 : ℚ) ≤ ((n : ℤ) : ℚ) := by push_cast; exact Nat.cast_nonneg n
                                linarith
  by_cases h2 : q < 0
  · cases hs : F64.ofNat n with
    | nan | inf _ =>
      refine .inr ⟨?_, .OverflowError, ?_⟩
      · intro k hk
        cases hk with
        | last _ s j hn hq hr _ _ => have := (F64.roundsTo _ _).1 hr; rw [F64.ofNat, ← this] at hs; cases hs
      · simp only [h1, decide_false, h2, decide_true, Int.cast_zero, if_true, Bool.false_eq_true, if_false]
        change PM.bind (Py.absRem _ n) _ h = _
        rw [PM.bind, Py.absRem, hs]; rfl
    | fin s =>
      rcases Nat.eq_zero_or_pos n with rfl | hn
      · refine .inr ⟨?_, .ZeroDivisionError, ?_⟩
        · intro k hk
          cases hk with
          | last _ s j hn _ _ _ _ => omega
        · have h0 : s = 0 := by
            have := F64.ofNat_eq (n := 0) (by norm_num)
            rw [this] at hs; cases hs; rfl
          subst h0
          simp only [h1, decide_false, h2, decide_true, Int.cast_zero, if_true, Bool.false_eq_true, if_false]
          change PM.bind (Py.absRem _ 0) _ h = _
          rw [PM.bind, Py.absRem, hs]; rfl
      · have hs1 := rounds_pos hn hs
        have hs0 : s ≠ 0 := by linarith
        have habs : |q| = -q := abs_of_neg h2
        by_cases hr : |q| - s * ⌊|q| / s⌋ < 1
        · refine .inl ⟨-1, ?_, ?_⟩
          · obtain ⟨k, hk1, hk2⟩ := (rem_lt_one hs1 (abs_nonneg q)).1 hr
            rw [habs] at hk1 hk2
            exact .last q s k hn h2 ((F64.roundsTo _ _).2 (by rw [← hs]; rfl)) hk1 hk2
          · simp only [h1, decide_false, h2, decide_true, Int.cast_zero, if_true, Bool.false_eq_true, if_false]
            change PM.bind (Py.absRem _ n) _ h = _
            rw [PM.bind, Py.absRem, hs]
            simp only [hs0, if_false]
            change (if |q| - s * ⌊|q| / s⌋ < 1 then (pure (n - 1) : PM Nat) else Py.raise .TypeError) h = _
            rw [if_pos hr, Py.index, if_neg (by omega), if_pos (by omega), if_neg (by omega)]
            have : max ((-1 : Int).natAbs % n) 1 = 1 := by
              have : (-1 : Int).natAbs % n ≤ 1 := Nat.mod_le 1 n
              omega
            rw [this]
        · refine .inr ⟨?_, .TypeError, ?_⟩
          · intro k hk
            cases hk with
            | last _ s' j _ _ hr' hk1 hk2 =>
              have := (F64.roundsTo _ _).1 hr'
              rw [show F64.rnd (n : ℚ) = F64.ofNat n from rfl, hs] at this
              cases this
              apply hr
              rw [rem_lt_one hs1 (abs_nonneg q), habs]
              exact ⟨j, hk1, hk2⟩
          · simp only [h1, decide_false, h2, decide_true, Int.cast_zero, if_true, Bool.false_eq_true, if_false]
            change PM.bind (Py.absRem _ n) _ h = _
            rw [PM.bind, Py.absRem, hs]
            simp only [hs0, if_false]
            change (if |q| - s * ⌊|q| / s⌋ < 1 then (pure (n - 1) : PM Nat) else Py.raise .TypeError) h = _
            rw [if_neg hr]; rfl
  · refine .inr ⟨?_, .TypeError, by
      rw [if_neg (by rw [decide_eq_true_iff]; exact h1), if_neg (by rw [decide_eq_true_iff]; exact_mod_cast h2)]; rfl⟩
    intro k hk
    cases hk with
    | last _ s j _ hq _ _ _ => exact h2 hq

theorem index_infinite (n : Nat) (x : F64) (hx : ∀ q, x ≠ .fin q) (h : Heap) :
    (∀ k, ¬ IndexOf n (.float x) k) ∧ ∃ e, Py.indexArg n (.float x) h = .raised e h := by
  refine ⟨?_, ?_⟩
  · intro k hk; cases hk; exact hx _ rfl
  · cases x with
    | fin q => exact absurd rfl (hx q)
    | nan => exact ⟨.TypeError, rfl⟩
    | inf neg =>
      cases neg with
      | false => exact ⟨.IndexError, rfl⟩
      | true =>
        change ∃ e, PM.bind (Py.absRem _ n) _ h = _
        rw [PM.bind, Py.absRem]
        cases F64.ofNat n with
        | nan | inf _ => exact ⟨.OverflowError, rfl⟩
        | fin s =>
          by_cases hs : s = 0
          · exact ⟨.ZeroDivisionError, by simp only [hs, if_true]; rfl⟩
          · exact ⟨.TypeError, by simp only [hs, if_false]; rfl⟩

/-- Every index is understood or rejected. -/
theorem index_any (n : Nat) (x : PyArg) (h : Heap) :
    (∃ k, IndexOf n x k ∧ Py.indexArg n x h = Py.index n k h) ∨
    ((∀ k, ¬ IndexOf n x k) ∧ ∃ e, Py.indexArg n x h = .raised e h) := by
  cases x with
  | int i => exact .inl ⟨i, .int i, rfl⟩
  | other b => exact .inr ⟨(by intro k hk; cases hk), .TypeError, rfl⟩
  | float x =>
    cases x with
    | fin q => exact index_float n q h
    | nan => exact .inr (index_infinite n .nan (by simp) h)
    | inf b => exact .inr (index_infinite n (.inf b) (by simp) h)

theorem indexOf_unique {n : Nat} {x : PyArg} {k k' : Int} (h : IndexOf n x k) (h' : IndexOf n x k') : k = k' := by
  cases h <;> cases h' <;> rfl

theorem index_reads {n : Nat} {x : PyArg} {k : Int} (hx : IndexOf n x k) (h : Heap) : Py.indexArg n x h = Py.index n k h := by
  rcases index_any n x h with ⟨k', h1, h2⟩ | ⟨h1, _⟩
  · rw [h2, indexOf_unique h1 hx]
  · exact absurd hx (h1 k)

theorem truth_reads {x : PyArg} {b : Bool} (h : b = false ↔ x = .int 0 ∨ x = .float (.fin 0) ∨ x = .other false) :
    Py.truth x = b := by
  have : Py.truth x = false ↔ x = .int 0 ∨ x = .float (.fin 0) ∨ x = .other false := by
    cases x <;> simp [Py.truth]
  rw [← h] at this
  cases hb : b <;> cases ht : Py.truth x <;> simp_all

/-- The length that a list object knows is the length of the list. -/
theorem rep_length {t} {w : PyWorld} {a : AWorld} (h : Reached t w a) {i : Nat} {o : PyObj} (ho : w.objs[i]? = some (some o)) {p n}
    (hl : o = .edgeList p n ∨ o = .vertexList p n ∨ o = .entryList p n) : a.listLength i = n := by
  obtain ⟨x, hx, hr⟩ := (reached_sim h).at_obj ho
  have : a.listLength i = match x.bind AObj.items with | some xs => xs.length | none => 0 := by
    rw [AWorld.listLength, hx]; rfl
  rw [this]
  generalize e : some o = oo at hr
  cases hr with
  | dead => cases e
  | @iter _ _ x' =>
    rw [Option.some.injEq] at e; rw [e] at hl
    cases x' <;> rcases hl with hl | hl | hl <;> cases hl
  | @owner x' p' =>
    rw [Option.some.injEq] at e; rw [e] at hl
    cases x' <;> rcases hl with hl | hl | hl <;> cases hl <;> simp [AObj.items]

theorem pm_bind_ok {α β : Type} {x : PM α} {f : α → PM β} {h : Heap} {v : α} (hx : x h = .ok v h) : (x >>= f) h = f v h := by
  change PM.bind x f h = _
  rw [PM.bind, hx]

theorem pm_bind_raised {α β : Type} {x : PM α} {f : α → PM β} {h : Heap} {e : PyExc} (hx : x h = .raised e h) :
    (x >>= f) h = .raised e h := by
  change PM.bind x f h = _
  rw [PM.bind, hx]

/-- **C103.** A call whose arguments can be understood does what the call with integers, floats and bytes does: the same result, the
same exception, the same memory. -/
theorem C103_understood {t} {w : PyWorld} {a : AWorld} (h : Reached t w a) (E : Ctx) {c : AnyCall} {c' : PyCall}
    (hc : CallReads a c c') : w.execAny E c = w.exec E c' := by
  cases hc with
  | newGraph hb => rw [PyWorld.execAny, truth_reads hb]; rfl
  | graphFromBytes b | cgraphFromBytes b => rfl
  | graphFromInts b | cgraphFromInts b =>
    exact congrArg w.create (pm_bind_ok (byteItems_map b w.mem))
  | collect i => rfl
  | @call i m m' hm =>
    rw [PyWorld.execAny, PyWorld.exec]
    cases ho : w.objs[i]? with
    | none => rfl
    | some o' =>
      cases o' with
      | none => rfl
      | some o =>
        simp only [Option.join_some]
        congr 1
        cases hm with
        | plain m => cases o <;> rfl
        | addVertexTo v ts =>
          cases o <;> try rfl
          exact pm_bind_ok (arrayItems_map ts w.mem)
        | approximate b ht =>
          cases o <;> try rfl
          exact pm_bind_ok (double_reads ht w.mem)
        | compress hl =>
          cases o <;> try rfl
          exact pm_bind_ok (level_reads hl w.mem)
        | getitem hi =>
          cases o with
          | edgeList p n | vertexList p n | entryList p n =>
            rw [rep_length (p := p) (n := n) h ho (by simp)] at hi
            have := index_reads hi w.mem
            change PM.bind (Py.indexArg n _) _ w.mem = PM.bind (Py.index n _) _ w.mem
            simp only [PM.bind, this]
          | _ => rfl
        | _ => cases o <;> rfl

theorem arrayItems_any (l : List PyArg) (h : Heap) :
    (∃ ts : List Int, l = ts.map .int) ∨ ∃ e, Py.arrayItems l h = .raised e h := by
  induction l with
  | nil => exact .inl ⟨[], rfl⟩
  | cons x l ih =>
    cases x with
    | float | other => exact .inr ⟨_, rfl⟩
    | int i =>
      rcases ih with ⟨ts, rfl⟩ | ⟨e, he⟩
      · exact .inl ⟨i :: ts, rfl⟩
      · exact .inr ⟨e, pm_bind_raised he⟩

theorem byteItems_any (l : List PyArg) (h : Heap) :
    (∃ b : Bytes, l = b.map fun x => .int x.toNat) ∨ ∃ e, Py.byteItems l h = .raised e h := by
  induction l with
  | nil => exact .inl ⟨[], rfl⟩
  | cons x l ih =>
    cases x with
    | float | other => exact .inr ⟨_, rfl⟩
    | int i =>
      by_cases hi : 0 ≤ i ∧ i < 256
      · rcases ih with ⟨b, rfl⟩ | ⟨e, he⟩
        · refine .inl ⟨UInt8.ofNat i.toNat :: b, ?_⟩
          have : ((UInt8.ofNat i.toNat).toNat : Int) = i := by
            rw [UInt8.toNat_ofNat', Nat.mod_eq_of_lt (by omega)]; omega
          rw [List.map_cons, this]
        · refine .inr ⟨e, ?_⟩
          rw [Py.byteItems, if_pos hi]
          exact pm_bind_raised he
      · refine .inr ⟨.ValueError, ?_⟩
        rw [Py.byteItems, if_neg hi]; rfl

theorem level_any (l : PyArg) (h : Heap) : (∃ k, LevelOf l k) ∨ ∃ e, Py.levelArg l h = .raised e h := by
  cases l with
  | int l => exact .inl ⟨l, .int l⟩
  | other => exact .inr ⟨_, rfl⟩
  | float x =>
    cases x with
    | nan => exact .inr ⟨_, rfl⟩
    | inf neg => exact .inl ⟨_, .infinite neg⟩
    | fin q =>
      rw [level_float]
      by_cases h1 : 64 < q
      · exact .inl ⟨_, .above q h1⟩
      by_cases h2 : q < 1
      · exact .inl ⟨_, .below q h2⟩
      · exact .inr ⟨.ArgumentError, by rw [if_neg h1, if_neg h2]⟩

theorem double_any (t : PyArg) (h : Heap) : (∃ x, ThresholdOf t x) ∨ ∃ e, Py.argDouble t h = .raised e h := by
  cases t with
  | float x => exact .inl ⟨x, .float x⟩
  | other => exact .inr ⟨_, rfl⟩
  | int i =>
    cases hx : F64.rnd (i : ℚ) with
    | fin q => exact .inl ⟨_, .int i q ((F64.roundsTo _ _).2 hx.symm)⟩
    | nan | inf _ => exact .inr ⟨.ArgumentError, by rw [Py.argDouble, hx]; rfl⟩

/-- **C103.** A call whose arguments cannot be understood raises an exception and changes nothing at all. -/
theorem C103_rejected {t} {w : PyWorld} {a : AWorld} (h : Reached t w a) (E : Ctx) {c : AnyCall}
    (hc : ∀ c', ¬ CallReads a c c') : ∃ e, w.execAny E c = .raised e w := by
  cases c with
  | newGraph x =>
    refine absurd (CallReads.newGraph (b := Py.truth x) ?_) (hc _)
    cases x <;> simp [Py.truth]
  | graphFromBytes x | cgraphFromBytes x =>
    cases x with
    | bytes b => first | exact absurd (.graphFromBytes b) (hc _) | exact absurd (.cgraphFromBytes b) (hc _)
    | other => exact ⟨_, rfl⟩
    | seq l =>
      rcases byteItems_any l w.mem with ⟨b, rfl⟩ | ⟨e, he⟩
      · first | exact absurd (.graphFromInts b) (hc _) | exact absurd (.cgraphFromInts b) (hc _)
      · exact ⟨e, congrArg w.create (pm_bind_raised he)⟩
  | collect i => exact absurd (.collect i) (hc _)
  | call i m =>
    have hm : ∀ m', ¬ MethodReads (a.listLength i) m m' := fun m' hm => hc _ (.call hm)
    rw [PyWorld.execAny]
    cases ho : w.objs[i]? with
    | none => exact ⟨_, rfl⟩
    | some o' =>
      cases o' with
      | none => exact ⟨_, rfl⟩
      | some o =>
        simp only [Option.join_some]
        suffices ∃ e, o.anyMethod E i m w.mem = .raised e w.mem by
          obtain ⟨e, he⟩ := this
          exact ⟨e, by rw [he]; rfl⟩
        cases m with
        | plain m => exact absurd (.plain m) (hm _)
        | doesEdgeExist u v =>
          cases u <;> cases v <;> first | exact absurd (.doesEdgeExist _ _) (hm _) | (cases o <;> exact ⟨_, rfl⟩)
        | addEdge u v =>
          cases u <;> cases v <;> first | exact absurd (.addEdge _ _) (hm _) | (cases o <;> exact ⟨_, rfl⟩)
        | deleteEdge u v =>
          cases u <;> cases v <;> first | exact absurd (.deleteEdge _ _) (hm _) | (cases o <;> exact ⟨_, rfl⟩)
        | getCompressedMatrixEntry u v =>
          cases u <;> cases v <;> first | exact absurd (.getCompressedMatrixEntry _ _) (hm _) | (cases o <;> exact ⟨_, rfl⟩)
        | getEntry u v =>
          cases u <;> cases v <;> first | exact absurd (.getEntry _ _) (hm _) | (cases o <;> exact ⟨_, rfl⟩)
        | findAvgPoolMatrix u =>
          cases u <;> first | exact absurd (.findAvgPoolMatrix _) (hm _) | (cases o <;> exact ⟨_, rfl⟩)
        | vertexInEdges u => cases u <;> first | exact absurd (.vertexInEdges _) (hm _) | (cases o <;> exact ⟨_, rfl⟩)
        | vertexOutEdges u => cases u <;> first | exact absurd (.vertexOutEdges _) (hm _) | (cases o <;> exact ⟨_, rfl⟩)
        | vertexInDegree u => cases u <;> first | exact absurd (.vertexInDegree _) (hm _) | (cases o <;> exact ⟨_, rfl⟩)
        | vertexOutDegree u => cases u <;> first | exact absurd (.vertexOutDegree _) (hm _) | (cases o <;> exact ⟨_, rfl⟩)
        | toString u => cases u <;> first | exact absurd (.toString _) (hm _) | (cases o <;> exact ⟨_, rfl⟩)
        | approximate b x =>
          cases b with
          | float | other => cases o <;> exact ⟨_, rfl⟩
          | int b =>
            rcases double_any x w.mem with ⟨y, hy⟩ | ⟨e, he⟩
            · exact absurd (.approximate b hy) (hm _)
            · cases o with
              | graph p => exact ⟨e, pm_bind_raised (x := Py.argDouble x) he⟩
              | _ => exact ⟨_, rfl⟩
        | addVertex v tos =>
          cases o with
          | graph p =>
            cases tos with
            | other => exact ⟨_, rfl⟩
            | none => cases v <;> first | exact absurd (.addVertex _) (hm _) | exact ⟨_, rfl⟩
            | seq l =>
              rcases arrayItems_any l w.mem with ⟨ts, rfl⟩ | ⟨e, he⟩
              · cases v with
                | int v => exact absurd (.addVertexTo v ts) (hm _)
                | float | other => exact ⟨_, pm_bind_ok (arrayItems_map ts w.mem)⟩
              · exact ⟨e, pm_bind_raised he⟩
          | _ => exact ⟨_, rfl⟩
        | compress l =>
          rcases level_any l w.mem with ⟨k, hk⟩ | ⟨e, he⟩
          · exact absurd (.compress hk) (hm _)
          · cases o with
            | graph p => exact ⟨e, pm_bind_raised he⟩
            | _ => exact ⟨_, rfl⟩
        | getitem x =>
          cases o with
          | edgeList p n | vertexList p n | entryList p n =>
            rw [rep_length (p := p) (n := n) h ho (by simp)] at hm
            rcases index_any n x w.mem with ⟨k, hk, _⟩ | ⟨_, e, he⟩
            · exact absurd (.getitem hk) (hm _)
            · exact ⟨e, pm_bind_raised he⟩
          | _ => exact ⟨_, rfl⟩

/-- The step of a program on values that goes with a step on the memory. -/
theorem reached_step {t} {w w' : PyWorld} {a : AWorld} (h : Reached t w a) {E : Ctx} {c : PyCall} {s : Seen}
    (hs : PyRun w [(E, c, s)] w') : ∃ a', ARun a [(E, c, s)] a' ∧ Reached (t ++ [(E, c, s)]) w' a' := by
  obtain ⟨a', h1, _⟩ := sim_run hs (reached_sim h)
  exact ⟨a', h1, pyrun_append h.run hs, (arun_append).2 ⟨_, h.vals, h1⟩⟩

/-- **C103.** Every program with arguments of any type reaches a state that a program with integers, floats and bytes reaches, with
the same results for the calls that are understood and exceptions for the others. -/
theorem C103_program {t} {w : PyWorld} (h : AnyRun PyWorld.start t w) :
    ∃ t' a, Reached t' w a ∧ TraceReads [] t t' := by
  suffices ∀ w₀ t₀ a₀, Reached t₀ w₀ a₀ → AnyRun w₀ t w → ∃ t' a, Reached (t₀ ++ t') w a ∧ TraceReads a₀ t t' from
    this PyWorld.start [] [] ⟨.nil, .nil⟩ h
  clear h
  intro w₀ t₀ a₀ h₀ h
  induction h generalizing t₀ a₀ with
  | nil => exact ⟨[], a₀, by rwa [List.append_nil], .nil⟩
  | @ok w w' w'' E c v t he _ ih =>
    by_cases hc : ∃ c', CallReads a₀ c c'
    · obtain ⟨c', hc⟩ := hc
      rw [C103_understood h₀ E hc] at he
      obtain ⟨a', h1, h2⟩ := reached_step h₀ (.ok he .nil)
      obtain ⟨t', a'', h3, h4⟩ := ih _ _ h2
      exact ⟨_, a'', by rwa [List.append_assoc] at h3, .read hc h1 h4⟩
    · obtain ⟨e, h1⟩ := C103_rejected h₀ E (fun c' h' => hc ⟨c', h'⟩)
      rw [h1] at he; cases he
  | @raised w w' w'' E c e t he _ ih =>
    by_cases hc : ∃ c', CallReads a₀ c c'
    · obtain ⟨c', hc⟩ := hc
      rw [C103_understood h₀ E hc] at he
      obtain ⟨a', h1, h2⟩ := reached_step h₀ (.raised he .nil)
      obtain ⟨t', a'', h3, h4⟩ := ih _ _ h2
      exact ⟨_, a'', by rwa [List.append_assoc] at h3, .read hc h1 h4⟩
    · have hc' : ∀ c', ¬ CallReads a₀ c c' := fun c' h' => hc ⟨c', h'⟩
      obtain ⟨e', h1⟩ := C103_rejected h₀ E hc'
      rw [h1] at he; cases he
      obtain ⟨t', a'', h3, h4⟩ := ih _ _ h₀
      exact ⟨t', a'', h3, .rejected hc' h4⟩

/-- **C103.** No call with arguments of any type has undefined behaviour. -/
theorem C103_no_undefined {t} {w : PyWorld} (h : AnyRun PyWorld.start t w) (E : Ctx) (c : AnyCall) : w.execAny E c ≠ .ub := by
  obtain ⟨t', a, hr, _⟩ := C103_program h
  by_cases hc : ∃ c', CallReads a c c'
  · obtain ⟨c', hc⟩ := hc
    rw [C103_understood hr E hc]
    exact C72_no_undefined hr.run E c'
  · obtain ⟨e, he⟩ := C103_rejected hr E (c := c) (fun c' h' => hc ⟨c', h'⟩)
    rw [he]; simp

/-- **C103 (full statement).** Something that is not an integer is always rejected where an integer is expected. -/
def C103_full : Prop := ∀ t w a, Reached t w a → ∀ E i m, WrongType m → ∃ e, w.execAny E (.call i m) = .raised e w

/-- **C103 (partial: without `compress` and indexing).** Something that is not an integer, in the place of a vertex id, a dimension,
a position or a number of digits, is rejected, and the call changes nothing. -/
theorem C103_wrong_type_partial {t} {w : PyWorld} {a : AWorld} (h : Reached t w a) (E : Ctx) (i : Nat) {m : AnyMethod}
    (hm : WrongType m) (h1 : ∀ l, m ≠ .compress l) (h2 : ∀ x, m ≠ .getitem x) : ∃ e, w.execAny E (.call i m) = .raised e w := by
  refine C103_rejected h E ?_
  intro c' hc
  cases hc with
  | call hr =>
    cases hr with
    | compress => exact h1 _ rfl
    | getitem => exact h2 _ rfl
    | plain => exact hm
    | addVertex v =>
      rcases hm with hm | hm | ⟨l, x, hm, _⟩
      · exact hm _ rfl
      · cases hm
      · cases hm
    | addVertexTo v ts =>
      rcases hm with hm | hm | ⟨l, x, hl, hx, hn⟩
      · exact hm _ rfl
      · cases hm
      · cases hl
        obtain ⟨j, _, rfl⟩ := List.mem_map.1 hx
        exact hn j rfl
    | approximate b ht =>
      rcases hm with hm | ⟨y, rfl⟩
      · exact hm _ rfl
      · cases ht
    | doesEdgeExist | addEdge | deleteEdge | getCompressedMatrixEntry | getEntry =>
      rcases hm with hm | hm <;> exact hm _ rfl
    | _ => exact hm _ rfl

/-- **C103.** `compress` with a float: below 1 it works like level 1, above 64 like level 64; everything between, including whole
numbers such as `8.0`, is rejected. -/
theorem C103_compress {t} {w : PyWorld} {a : AWorld} (h : Reached t w a) {i : Nat} {g : Graph}
    (hi : a[i]? = some (some (.graph g))) (E : Ctx) (q : ℚ) :
    (∀ level : Nat, (q < 1 ∧ level = 1) ∨ (64 < q ∧ level = 64) →
      ∃ c w', g.compress E.P E.o₁ E.o₂ level = .ok c ∧ c.compressionLevel = level ∧
        w.execAny E (.call i (.compress (.float (.fin q)))) = .ok (.ref a.length) w' ∧ PyShows w' a.length c) ∧
    (1 ≤ q → q ≤ 64 → w.execAny E (.call i (.compress (.float (.fin q)))) = .raised .ArgumentError w) := by
  constructor
  · rintro level (⟨hq, rfl⟩ | ⟨hq, rfl⟩)
    · obtain ⟨c, w', h1, h2, h3, _, h5⟩ := C64_compress h hi E 1 1 (by simp) (by simp) (by simp)
      exact ⟨c, w', h1, h2, by rw [C103_understood h E (.call (.compress (.below q hq)))]; exact h3, h5⟩
    · obtain ⟨c, w', h1, h2, h3, _, h5⟩ := C64_compress h hi E 64 64 (by simp) (by simp) (by simp)
      exact ⟨c, w', h1, h2, by rw [C103_understood h E (.call (.compress (.above q hq)))]; exact h3, h5⟩
  · intro h1 h2
    obtain ⟨o, ho, hr⟩ := (reached_sim h).at_val hi
    generalize e : some (AObj.graph g) = x at hr
    cases hr with
    | dead => cases e
    | iter => cases e
    | @owner x' p =>
      cases e
      rw [PyWorld.execAny, ho]
      change w.finish i (PM.bind (Py.levelArg (.float (.fin q))) _ w.mem) = _
      rw [PM.bind, level_float, if_neg (not_lt.2 h2), if_neg (not_lt.2 h1)]
      rfl

/-- **C103.** Indexing a list with a float: the last element, if the index is less than 1 below a non-positive multiple of the length;
otherwise an exception. -/
theorem C103_index {t} {w : PyWorld} {a : AWorld} (h : Reached t w a) {i : Nat} {x : AObj} {xs : List PyVal}
    (hi : a[i]? = some (some x)) (hx : x.items = some xs) (hl : xs.length ≤ 2 ^ 53) (E : Ctx) (q : ℚ) :
    (∀ v, xs.getLast? = some v → q < 0 → (∃ k : ℕ, k * xs.length ≤ -q ∧ -q < k * xs.length + 1) →
      ∃ w', w.execAny E (.call i (.getitem (.float (.fin q)))) = .ok v w') ∧
    ((xs = [] ∨ 0 ≤ q ∨ ∀ k : ℕ, k * xs.length ≤ -q → k * xs.length + 1 ≤ -q) →
      ∃ e, w.execAny E (.call i (.getitem (.float (.fin q)))) = .raised e w) := by
  have hlen : a.listLength i = xs.length := by rw [AWorld.listLength, hi, Option.join_some, Option.bind_some, hx]
  have hs : F64.rnd (xs.length : ℚ) = .fin (xs.length : ℚ) := F64.ofNat_eq hl
  constructor
  · rintro v hv hq ⟨k, h1, h2⟩
    have hn : 0 < xs.length := by
      rcases xs with _ | ⟨y, l⟩
      · cases hv
      · simp
    have hr : IndexOf (a.listLength i) (.float (.fin q)) (-1) := by
      rw [hlen]
      exact .last q xs.length k hn hq ((F64.roundsTo _ _).2 hs.symm) h1 h2
    rw [C103_understood h E (.call (.getitem hr))]
    have hp := pyStep_call (E := E) hi (.getitem (-1))
    rw [show x.means E a i (.getitem (-1)) = .item xs (-1) by cases x <;> first | (cases hx; rfl) | cases hx] at hp
    have hmax : max ((-1 : Int).natAbs % xs.length) 1 = 1 := by
      have : (-1 : Int).natAbs % xs.length ≤ 1 := Nat.mod_le 1 _
      omega
    rw [AOut.item, if_neg (by omega), if_neg (by omega), if_neg (by omega), hmax, ← List.getLast?_eq_getElem?, hv] at hp
    obtain ⟨w', hw, _⟩ := reached_ret h hp
    exact ⟨w', hw⟩
  · intro hq
    refine C103_rejected h E ?_
    intro c' hc
    cases hc with
    | call hm =>
      cases hm with
      | getitem hr =>
        rw [hlen] at hr
        cases hr with
        | last _ s k hn hq0 hs' h1 h2 =>
          have := (F64.roundsTo _ _).1 hs'
          rw [hs] at this
          cases this
          rcases hq with rfl | hq | hq
          · cases hn
          · linarith
          · have := hq k h1; linarith

/-- The full statement is false: `compress(0.2)` makes a compressed graph (of level 1). -/
theorem C103_full_false : ¬ C103_full := by
  intro hfull
  obtain ⟨w, hw⟩ := exPy_reached
  obtain ⟨e, he⟩ := hfull _ _ _ hw exE 0 (.compress (.float (F64.lit (1 / 5)))) (by intro i hi; cases hi)
  have hl : F64.lit (1 / 5) = .fin (F64.rndQ (1 / 5)) :=
    F64.rnd_fin_of_le (by norm_num) (n := 0) (by norm_num) (by norm_num)
  have h1 : F64.rndQ (1 / 5) < 1 := by
    have := F64.rndQ_mono (q := 1 / 5) (q' := 1 / 2 ^ 1) (by norm_num) (by norm_num)
    rw [F64.rndQ_inv_pow2 (by norm_num)] at this
    exact lt_of_le_of_lt this (by norm_num)
  rw [hl] at he
  obtain ⟨_, w', _, _, h2, _⟩ := (C103_compress hw (i := 0) (g := exPyG) rfl exE (F64.rndQ (1 / 5))).1 1 (.inl ⟨h1, rfl⟩)
  rw [h2] at he
  cases he

/-- The hypotheses of the theorems about C103 hold: a call that is understood, one that is not, and a list. -/
example : ∃ w, Reached exPyT w exPyA ∧ CallReads exPyA (.call 0 (.addEdge (.int 3) (.int (-1)))) (.call 0 (.addEdge 3 (-1))) ∧
    CallReads exPyA (.call 1 (.getitem (.float (.fin (-1 / 2))))) (.call 1 (.getitem (-1))) ∧
    (∀ c', ¬ CallReads exPyA (.call 0 (.addEdge (.int 3) (.float (.fin 1)))) c') ∧
    WrongType (.addEdge (.int 3) (.float (.fin 1))) ∧
    exPyA[1]? = some (some (.edges [(0, 1), (1, 2)])) := by
  obtain ⟨w, hw⟩ := exPy_reached
  refine ⟨w, hw, .call (.addEdge _ _), .call (.getitem ?_), ?_, .inr (by intro i hi; cases hi), rfl⟩
  · change IndexOf 2 _ _
    exact .last (-1 / 2) 2 0 (by norm_num) (by norm_num) ((F64.roundsTo _ _).2 (F64.ofNat_eq (n := 2) (by norm_num)).symm)
      (by norm_num) (by norm_num)
  · intro c' hc
    cases hc with
    | call hm => cases hm

/-- A program that passes a string as a vertex id, then an integer. -/
example : ∃ w, AnyRun PyWorld.start [(exE, .newGraph (.other true), .value (.ref 0)),
    (exE, .call 0 (.addEdge (.other true) (.int 1)), .exception .ArgumentError),
    (exE, .call 0 (.addEdge (.int 0) (.int 1)), .value .none), (exE, .call 0 (.plain .edgeCount), .value (.int 2))] w :=
  ⟨_, .ok rfl (.raised rfl (.ok rfl (.ok rfl .nil)))⟩

end Verif.Props
