import Verif.Spec.Abi
import Mathlib.Data.List.Nodup

/-!
# C122: the three descriptions of the C interface agree
-/

namespace Verif.Props
open Verif Abi

/-! ### Memory -/

theorem Memory.write_frame {m : Memory} {a x : Nat} {bs : List Nat} (h : x < a ∨ a + bs.length ≤ x) : m.write a bs x = m x := by
  induction bs generalizing m a with
  | nil => rfl
  | cons b bs ih =>
    simp only [List.length_cons] at h
    unfold Memory.write
    rw [ih (by omega), if_neg (by omega)]

theorem Memory.read_congr {m m' : Memory} {a n : Nat} (h : ∀ x, a ≤ x → x < a + n → m x = m' x) : m.read a n = m'.read a n := by
  induction n generalizing a with
  | zero => rfl
  | succ n ih =>
    unfold Memory.read
    rw [h a le_rfl (by omega), ih fun x h1 h2 => h x (by omega) (by omega)]

theorem Memory.read_write (m : Memory) (a : Nat) (bs : List Nat) : (m.write a bs).read a bs.length = bs := by
  induction bs generalizing m a with
  | nil => rfl
  | cons b bs ih =>
    unfold Memory.write
    rw [List.length_cons]
    unfold Memory.read
    rw [ih, Memory.write_frame (by omega), if_pos rfl]

theorem wordBytes_length (n w : Nat) : (wordBytes n w).length = n := by
  induction n generalizing w with
  | zero => rfl
  | succ n ih => simp [wordBytes, ih]

theorem bytesWord_wordBytes {n w : Nat} (h : w < 256 ^ n) : bytesWord (wordBytes n w) = w := by
  induction n generalizing w with
  | zero =>
    simp at h
    simp [wordBytes, bytesWord, h]
  | succ n ih =>
    unfold wordBytes bytesWord
    rw [ih (by rw [pow_succ] at h; omega)]
    omega

theorem load_congr {M : Machine} {m m' : Memory} {a : Nat} {s : Scalar} (h : ∀ x, a ≤ x → x < a + M.size s → m x = m' x) :
    M.load m a s = M.load m' a s := by
  unfold Machine.load
  rw [Memory.read_congr h]

theorem store_frame {M : Machine} {m : Memory} {a x w : Nat} {s : Scalar} (h : x < a ∨ a + M.size s ≤ x) : M.store m a s w x = m x := by
  unfold Machine.store
  apply Memory.write_frame
  split <;> simpa [wordBytes_length] using h

theorem load_store {M : Machine} {m : Memory} {a w : Nat} {s : Scalar} (h : w < 256 ^ M.size s) : M.load (M.store m a s w) a s = w := by
  unfold Machine.load Machine.store
  cases M.bigEndian with
  | false =>
    have := Memory.read_write m a (wordBytes (M.size s) w)
    rw [wordBytes_length] at this
    simpa [this] using bytesWord_wordBytes h
  | true =>
    have := Memory.read_write m a (wordBytes (M.size s) w).reverse
    rw [List.length_reverse, wordBytes_length] at this
    simpa [this] using bytesWord_wordBytes h

theorem le_roundUp {n a : Nat} (h : 0 < a) : n ≤ roundUp n a := by
  unfold roundUp
  have := Nat.div_add_mod (n + (a - 1)) a
  have h2 := Nat.mod_lt (n + (a - 1)) h
  rw [mul_comm] at this
  omega

theorem roundUp_of_dvd {n a : Nat} (h : 0 < a) (hd : a ∣ n) : roundUp n a = n := by
  obtain ⟨k, rfl⟩ := hd
  unfold roundUp
  rw [Nat.mul_add_div h, Nat.div_eq_of_lt (by omega), Nat.add_zero, mul_comm]

theorem le_endOf {M : Machine} (hM : M.Sane) (a : Nat) (ss : List Scalar) : a ≤ M.endOf a ss := by
  induction ss generalizing a with
  | nil => exact le_rfl
  | cons s ss ih =>
    have := le_roundUp (n := a) (hM s).1
    exact le_trans (by omega) (ih _)

theorem structAlign_pos (M : Machine) (ss : List Scalar) : 0 < M.structAlign ss := by
  unfold Machine.structAlign
  induction ss with
  | nil => simp
  | cons s ss ih => simp only [List.map_cons, List.foldr_cons]; omega

theorem endOf_le_structSize (M : Machine) (ss : List Scalar) : M.endOf 0 ss ≤ M.structSize ss :=
  le_roundUp (structAlign_pos M ss)

theorem storeAt_frame {M : Machine} (hM : M.Sane) {ss : List Scalar} {ws : List Nat} {m : Memory} {p a x : Nat}
    (h : x < p + a ∨ p + M.endOf a ss ≤ x) : M.storeAt m p ((M.offsets a ss).zip (ss.zip ws)) x = m x := by
  induction ss generalizing a m ws with
  | nil => rfl
  | cons s ss ih =>
    cases ws with
    | nil => rfl
    | cons w ws =>
      have h1 := le_roundUp (n := a) (hM s).1
      have h2 := le_endOf hM (roundUp a (M.align s) + M.size s) ss
      unfold Machine.offsets Machine.storeAt
      simp only [List.zip_cons_cons]
      rw [ih, store_frame]
      · change x < p + a ∨ p + M.endOf (roundUp a (M.align s) + M.size s) ss ≤ x at h
        omega
      · change x < p + a ∨ p + M.endOf (roundUp a (M.align s) + M.size s) ss ≤ x at h
        omega

theorem loads_storeAt {M : Machine} (hM : M.Sane) {ss : List Scalar} {ws : List Nat} (hf : M.Fits ss ws) (m : Memory) (p a : Nat) :
    (((M.offsets a ss).zip ss).map fun e => M.load (M.storeAt m p ((M.offsets a ss).zip (ss.zip ws))) (p + e.1) e.2) = ws := by
  unfold Machine.Fits at hf
  induction hf generalizing a m with
  | nil => rfl
  | @cons s w ss ws hw _ ih =>
    unfold Machine.offsets Machine.storeAt
    simp only [List.zip_cons_cons, List.map_cons]
    rw [ih]
    congr 1
    rw [load_congr (m' := M.store m (p + roundUp a (M.align s)) s w), load_store hw]
    intro x h1 h2
    exact storeAt_frame hM (by omega)

theorem load_storeStruct {M : Machine} (hM : M.Sane) {ss : List Scalar} {ws : List Nat} (hf : M.Fits ss ws) (m : Memory) (p : Nat) :
    M.loadStruct (M.storeStruct m p ss ws) p ss = ws := loads_storeAt hM hf m p 0

theorem storeStruct_frame {M : Machine} (hM : M.Sane) {ss : List Scalar} {ws : List Nat} {m : Memory} {p x : Nat}
    (h : x < p ∨ p + M.structSize ss ≤ x) : M.storeStruct m p ss ws x = m x := by
  have := endOf_le_structSize M ss
  exact storeAt_frame hM (by omega)

theorem storeList_frame {M : Machine} (hM : M.Sane) {ss : List Scalar} {v : List (List Nat)} {m : Memory} {p x : Nat}
    (h : x < p ∨ p + v.length * M.structSize ss ≤ x) : M.storeList m p ss v x = m x := by
  induction v generalizing m p with
  | nil => rfl
  | cons ws v ih =>
    rw [List.length_cons, Nat.succ_mul] at h
    unfold Machine.storeList
    rw [ih (by omega), storeStruct_frame hM (by omega)]

theorem loadStruct_congr {M : Machine} (hM : M.Sane) {ss : List Scalar} {m m' : Memory} {p : Nat}
    (h : ∀ x, p ≤ x → x < p + M.structSize ss → m x = m' x) : M.loadStruct m p ss = M.loadStruct m' p ss := by
  have key : ∀ a, (∀ x, p ≤ x → x < p + M.endOf a ss → m x = m' x) →
      (((M.offsets a ss).zip ss).map fun e => M.load m (p + e.1) e.2) = ((M.offsets a ss).zip ss).map fun e => M.load m' (p + e.1) e.2 := by
    clear h
    induction ss with
    | nil => intros; rfl
    | cons s ss ih =>
      intro a h
      unfold Machine.offsets
      simp only [List.zip_cons_cons, List.map_cons]
      rw [ih _ h]
      congr 1
      have := le_endOf hM (roundUp a (M.align s) + M.size s) ss
      refine load_congr fun x h1 h2 => h x (by omega) ?_
      change x < p + M.endOf (roundUp a (M.align s) + M.size s) ss
      omega
  have := endOf_le_structSize M ss
  exact key 0 fun x h1 h2 => h x h1 (by omega)

theorem loadItem_storeList {M : Machine} (hM : M.Sane) {ss : List Scalar} {v : List (List Nat)} (hf : ∀ ws ∈ v, M.Fits ss ws)
    (m : Memory) (p i : Nat) (hi : i < v.length) : M.loadItem (M.storeList m p ss v) p ss i = v[i] := by
  induction v generalizing m p i with
  | nil => simp at hi
  | cons ws v ih =>
    unfold Machine.storeList
    cases i with
    | zero =>
      unfold Machine.loadItem
      rw [Nat.zero_mul, Nat.add_zero, loadStruct_congr hM (m' := M.storeStruct m p ss ws) fun x h1 h2 => storeList_frame hM (by omega)]
      exact load_storeStruct hM (hf ws (List.mem_cons_self ..)) m p
    | succ i =>
      have := ih (fun w hw => hf w (List.mem_cons_of_mem _ hw)) (M.storeStruct m p ss ws) (p + M.structSize ss) i (by simpa using hi)
      unfold Machine.loadItem at this ⊢
      rw [Nat.succ_mul, show p + (i * M.structSize ss + M.structSize ss) = p + M.structSize ss + i * M.structSize ss by omega, this]
      rfl

theorem offsets_length (M : Machine) (a : Nat) (ss : List Scalar) : (M.offsets a ss).length = ss.length := by
  induction ss generalizing a with
  | nil => rfl
  | cons s ss ih => simp [Machine.offsets, ih]

theorem lookup_zip {β : Type} {ks : List String} {vs : List β} (hn : ks.Nodup) {j : Nat} {k : String} {x : β} (hk : ks[j]? = some k)
    (hx : vs[j]? = some x) : (ks.zip vs).lookup k = some x := by
  induction ks generalizing vs j with
  | nil => simp at hk
  | cons k' ks ih =>
    cases vs with
    | nil => simp at hx
    | cons x' vs =>
      cases j with
      | zero =>
        simp at hk hx
        subst hk hx
        simp
      | succ j =>
        simp only [List.getElem?_cons_succ] at hk hx
        have hne : k ≠ k' := fun e => (List.nodup_cons.1 hn).1 (e ▸ List.mem_of_getElem? hk)
        rw [List.zip_cons_cons, List.lookup_cons, show (k == k') = false by simpa using hne]
        exact ih (List.nodup_cons.1 hn).2 hk hx

theorem exchange_self {fs : List (String × Scalar)} (hn : (fs.map Prod.fst).Nodup) : Exchange fs fs := by
  intro M hM m p v hf
  refine ⟨?_, fun _ hx => storeList_frame hM hx⟩
  intro i ws hi j n s w hj hw
  obtain ⟨hlt, he⟩ := List.getElem?_eq_some_iff.1 hi
  have h1 := loadItem_storeList hM hf m p i hlt
  rw [he] at h1
  have hs : (fs.map Prod.snd)[j]? = some s := by rw [List.getElem?_map, hj]; rfl
  have hjl : j < (M.offsets 0 (fs.map Prod.snd)).length := by
    rw [offsets_length]
    exact (List.getElem?_eq_some_iff.1 hs).1
  refine ⟨(M.offsets 0 (fs.map Prod.snd))[j], ?_, ?_⟩
  · refine lookup_zip hn (j := j) (by rw [List.getElem?_map, hj]; rfl) ?_
    rw [List.getElem?_zip_eq_some]
    exact ⟨List.getElem?_eq_getElem hjl, hs⟩
  · unfold Machine.loadItem Machine.loadStruct at h1
    have h2 := congrArg (fun l => l[j]?) h1
    simp only [List.getElem?_map] at h2
    rw [hw, show ((M.offsets 0 (fs.map Prod.snd)).zip (fs.map Prod.snd))[j]? = some ((M.offsets 0 (fs.map Prod.snd))[j], s) from by
      rw [List.getElem?_zip_eq_some]
      exact ⟨List.getElem?_eq_getElem hjl, hs⟩] at h2
    simpa using h2

/-! ### Declarations -/

/-- The declarations agree: a test that can be computed. -/
def agreeB {T T' : Type} (L : Lang T) (L' : Lang T') (f : Fn T) (f' : Fn T') : Bool :=
  (L.argLayouts f).isSome && decide (L.argLayouts f = L'.argLayouts f') && (L.retLayout f).isSome && decide (L.retLayout f = L'.retLayout f') &&
  ((f.args.zip f'.args) ++ (f.ret.toList.zip f'.ret.toList)).all fun p =>
    match L.pointee p.1, L'.pointee p.2 with
    | some u, some u' =>
      (match L.fields u with
      | some fs => decide (fs.map Prod.fst).Nodup
      | none => false) && decide (L.fields u = L'.fields u')
    | _, _ => true

theorem understood_of_agree {T T' : Type} {L : Lang T} {L' : Lang T'} {f : Fn T} {f' : Fn T'} (h : agreeB L L' f f' = true) :
    Understood L L' f f' := by
  unfold agreeB at h
  simp only [Bool.and_eq_true, decide_eq_true_eq, List.all_eq_true] at h
  obtain ⟨⟨⟨⟨h1, h2⟩, h3⟩, h4⟩, h5⟩ := h
  obtain ⟨ls, hls⟩ := Option.isSome_iff_exists.1 h1
  obtain ⟨r, hr⟩ := Option.isSome_iff_exists.1 h3
  refine ⟨⟨ls, ls, hls, h2 ▸ hls, fun M C vs hf => C.arrives ls vs hf⟩, ⟨r, r, hr, h4 ▸ hr, Iff.rfl, ?_⟩, ?_⟩
  · rintro a b rfl hb M C ws hf
    cases hb
    exact C.returns a ws hf
  · intro t t' hm u u' hu hu'
    have hm' : (t, t') ∈ (f.args.zip f'.args) ++ (f.ret.toList.zip f'.ret.toList) := by
      rcases hm with hm | ⟨ha, hb⟩
      · exact List.mem_append_left _ hm
      · exact List.mem_append_right _ (by simp [ha, hb])
    have := h5 _ hm'
    simp only [hu, hu', Bool.and_eq_true, decide_eq_true_eq] at this
    cases hl : L.fields u with
    | none => simp [hl] at this
    | some l =>
      rw [hl] at this
      have hn := of_decide_eq_true this.1
      exact ⟨l, l, rfl, this.2.symm, exchange_self hn, exchange_self hn⟩

theorem compatible_of {T T' : Type} {L : Lang T} {L' : Lang T'} (h1 : (L.fns.map Fn.name).Nodup)
    (h2 : (L.fns.map Fn.name).Perm (L'.fns.map Fn.name))
    (h3 : (L.fns.all fun f => L'.fns.all fun f' => !decide (f.name = f'.name) || agreeB L L' f f') = true) : Compatible L L' := by
  refine ⟨h1, h2, fun f hf f' hf' hn => understood_of_agree ?_⟩
  have := List.all_eq_true.1 (List.all_eq_true.1 h3 f hf) f' hf'
  simpa [hn] using this

/-- **C122**, header: a C program compiled with the header calls the library correctly. -/
theorem C122_header : Compatible rust header :=
  compatible_of (by decide +kernel) (by decide +kernel) (by decide +kernel)

/-- **C122**, `ctypes`: the Python module calls the library correctly. -/
theorem C122_python : Compatible rust python :=
  compatible_of (by decide +kernel) (by decide +kernel) (by decide +kernel)

/-- **C122**, declared before use: every library function that the Python classes call is declared to `ctypes`, once. -/
theorem C122_called {n : String} (h : n ∈ pythonCalls) : ∃! f, f ∈ python.fns ∧ f.name = n := by
  have hn : (python.fns.map Fn.name).Nodup := C122_python.2.1.nodup_iff.1 C122_python.1
  have hm : ∀ n ∈ pythonCalls, n ∈ python.fns.map Fn.name := by decide +kernel
  obtain ⟨f, hf, rfl⟩ := List.mem_map.1 (hm n h)
  exact ⟨f, ⟨hf, rfl⟩, fun g hg => List.inj_on_of_nodup_map hn hg.1 hf hg.2⟩

/-- **C122**, error codes: the three values of `GPHRX_ERROR_INVALID_FORMAT` are what the library stores, and Python can tell it from success. -/
theorem C122_codes : CApi.ERROR_INVALID_FORMAT = rustInvalidFormat ∧ headerInvalidFormat = rustInvalidFormat ∧
    pythonInvalidFormat = rustInvalidFormat ∧ pythonNoError ≠ rustInvalidFormat := by decide

/-- The declaration of a function. -/
def rustFn (n : String) : Option (Fn RTy) := rust.fns.find? fun f => f.name == n

theorem rustFn_mem {n : String} {f : Fn RTy} (h : rustFn n = some f) : f ∈ rust.fns ∧ f.name = n :=
  ⟨List.mem_of_find?_eq_some h, by simpa using List.find?_some h⟩

/-- Arguments and result of the call have the declared shape: a test that can be computed. -/
def shapeB (n : String) (ws : List Nat) (k : List (Option Layout)) : Bool :=
  match rustFn n with
  | none => false
  | some f =>
    (match rust.argLayouts f with
    | some ls => decide (ls.map (fun l => l.scalars.length) = ws)
    | none => false) &&
    match rust.retLayout f with
    | some r => decide (r ∈ k)
    | none => false

theorem C122_shape {c : Call} {bits : F64 → Nat} {k : List (Option Layout)} (h : shapeB c.name ((c.words bits).map List.length) k = true) :
    ∃ f ∈ rust.fns, f.name = c.name ∧ (∃ ls, rust.argLayouts f = some ls ∧
      List.Forall₂ (fun l ws => l.scalars.length = ws.length) ls (c.words bits)) ∧ ∃ r ∈ k, rust.retLayout f = some r := by
  unfold shapeB at h
  cases hf : rustFn c.name with
  | none => simp [hf] at h
  | some f =>
    rw [hf] at h
    simp only [Bool.and_eq_true] at h
    obtain ⟨h1, h2⟩ := h
    refine ⟨f, (rustFn_mem hf).1, (rustFn_mem hf).2, ?_, ?_⟩
    · cases hl : rust.argLayouts f with
      | none => simp [hl] at h1
      | some ls =>
        rw [hl] at h1
        refine ⟨ls, rfl, ?_⟩
        have := of_decide_eq_true h1
        rw [← List.forall₂_eq_eq_eq, List.forall₂_map_left_iff, List.forall₂_map_right_iff] at this
        exact this
    · cases hr : rust.retLayout f with
      | none => simp [hr] at h2
      | some r =>
        rw [hr] at h2
        exact ⟨r, of_decide_eq_true h2, rfl⟩

/-- What a computation returns, whenever it returns. -/
theorem ret_kind {α : Type} {f : α → Val} {x : CM α} {h h' : Heap} {v : Val} (hx : x.ret f h = .ok v h') : ∃ a, v = f a := by
  unfold CM.ret at hx
  cases hh : x h with
  | ok a h1 => rw [hh] at hx; cases hx; exact ⟨a, rfl⟩
  | ub => rw [hh] at hx; cases hx
  | abort => rw [hh] at hx; cases hx

/-- **C122**, the model: the calls of the model are the functions of the library: each call has the arguments and the result that the library
declares, and each function is modelled. -/
theorem C122_model (c : Call) (bits : F64 → Nat) :
    ∃ f ∈ rust.fns, f.name = c.name ∧
      (∃ ls, rust.argLayouts f = some ls ∧ List.Forall₂ (fun l ws => l.scalars.length = ws.length) ls (c.words bits)) ∧
      ∃ r, rust.retLayout f = some r ∧ ∀ E h v h', c.exec E h = .ok v h' → v.Is r := by
  have fin : ∀ k, shapeB c.name ((c.words bits).map List.length) k = true → (∀ r ∈ k, ∀ E h v h', c.exec E h = .ok v h' → v.Is r) →
      ∃ f ∈ rust.fns, f.name = c.name ∧
      (∃ ls, rust.argLayouts f = some ls ∧ List.Forall₂ (fun l ws => l.scalars.length = ws.length) ls (c.words bits)) ∧
      ∃ r, rust.retLayout f = some r ∧ ∀ E h v h', c.exec E h = .ok v h' → v.Is r := by
    intro k h1 h2
    obtain ⟨f, hf, hn, hl, r, hr, hr'⟩ := C122_shape h1
    exact ⟨f, hf, hn, hl, r, hr', h2 r hr⟩
  cases c
  all_goals first
    | (refine fin [none] (by simp only [Call.name, Call.words, List.map, List.length]; decide +kernel) ?_
       intro r hr E h v h' he
       unfold Call.exec at he
       obtain ⟨a, rfl⟩ := ret_kind he
       simp only [List.mem_singleton] at hr
       exact hr)
    | (refine fin [some (.one .ptr), some (.agg [.ptr])] (by simp only [Call.name, Call.words, List.map, List.length]; decide +kernel) ?_
       intro r hr E h v h' he
       unfold Call.exec at he
       obtain ⟨a, rfl⟩ := ret_kind he
       simp only [List.mem_cons, List.not_mem_nil, or_false] at hr
       exact hr)
    | (refine fin [some (.one .u8), some (.one .i8), some (.one .u64)] (by simp only [Call.name, Call.words, List.map, List.length]; decide +kernel) ?_
       intro r hr E h v h' he
       unfold Call.exec at he
       obtain ⟨a, rfl⟩ := ret_kind he
       simp only [List.mem_cons, List.not_mem_nil, or_false] at hr
       exact hr)
    | (refine fin [some (.one .f64)] (by simp only [Call.name, Call.words, List.map, List.length]; decide +kernel) ?_
       intro r hr E h v h' he
       unfold Call.exec at he
       obtain ⟨a, rfl⟩ := ret_kind he
       simp only [List.mem_singleton] at hr
       exact hr)

/-- **C122**, the model: every function of the library is modelled. -/
theorem C122_modelled {f : Fn RTy} (hf : f ∈ rust.fns) : ∃ c : Call, c.name = f.name := by
  let all : List Call := [.freeString 0, .freeBytes 0 0, .freeGraph 0, .freeEdgeList 0 0, .freeVertexList 0 0, .newUndirected, .newDirected,
    .fromBytes 0 0 0, .duplicate 0, .matrixString 0, .toBytes 0 0, .isUndirected 0, .vertexCount 0, .edgeCount 0, .doesEdgeExist 0 0 0,
    .findAvgPoolMatrix 0 0, .approximate 0 0 .nan, .compress 0 0, .getEdgeList 0 0, .addVertex 0 0 0 0, .addEdge 0 0 0, .deleteEdge 0 0 0,
    .getInEdgesList 0 0 0, .getOutEdgesList 0 0 0, .getInDegree 0 0, .getOutDegree 0 0, .freeCGraph 0, .cDuplicate 0, .cCompressionLevel 0,
    .cIsUndirected 0, .cVertexCount 0, .cEdgeCount 0, .cDoesEdgeExist 0 0 0, .cGetEntry 0 0 0, .cMatrixString 0, .cToBytes 0 0,
    .cFromBytes 0 0 0, .decompress 0, .freeMatrix 0, .mDuplicate 0, .freeEntryList 0 0, .mDimension 0, .mEntryCount 0, .mGetEntry 0 0 0,
    .mToString 0, .mToStringWithPrecision 0 0, .mGetEntryList 0 0]
  have h : ∀ n ∈ rust.fns.map Fn.name, n ∈ all.map Call.name := by decide +kernel
  obtain ⟨c, _, hc⟩ := List.mem_map.1 (h _ (List.mem_map_of_mem hf))
  exact ⟨c, hc⟩

/-- **C122**, sizes: on every platform the elements of the lists have no padding: edges take 16 bytes, vertices 8, entries 24. -/
theorem C122_sizes {M : Machine} (hM : M.Sane) :
    (∃ l, rust.layout (.struct "GphrxGraphEdge") = some l ∧ M.offsets 0 l.scalars = [0, 8] ∧ M.structSize l.scalars = 16) ∧
    (∃ l, rust.layout (.struct "GphrxGraphVertex") = some l ∧ M.offsets 0 l.scalars = [0] ∧ M.structSize l.scalars = 8) ∧
    (∃ l, rust.layout (.struct "GphrxMatrixEntry") = some l ∧ M.offsets 0 l.scalars = [0, 8, 16] ∧ M.structSize l.scalars = 24) := by
  obtain ⟨u1, u2⟩ := hM .u64
  obtain ⟨f1, f2⟩ := hM .f64
  change M.align .u64 ∣ 8 at u2
  change M.align .f64 ∣ 8 at f2
  have r0 : ∀ a, 0 < a → roundUp 0 a = 0 := fun a h => roundUp_of_dvd h (dvd_zero a)
  have r8 := roundUp_of_dvd u1 u2
  have r16 := roundUp_of_dvd u1 (u2.trans (by decide : 8 ∣ 16))
  have hmax : ∀ a b : Nat, 0 < a → 0 < b → a ∣ 8 → b ∣ 8 → 0 < max a (max b (max b 1)) ∧ max a (max b (max b 1)) ∣ 8 := by
    intro a b ha hb h1 h2
    rcases le_total a b with h | h
    · rw [show max a (max b (max b 1)) = b by omega]; exact ⟨hb, h2⟩
    · rw [show max a (max b (max b 1)) = a by omega]; exact ⟨ha, h1⟩
  refine ⟨⟨.agg [.u64, .u64], by decide +kernel, ?_, ?_⟩, ⟨.agg [.u64], by decide +kernel, ?_, ?_⟩,
    ⟨.agg [.f64, .u64, .u64], by decide +kernel, ?_, ?_⟩⟩
  · simp [Layout.scalars, Machine.offsets, Machine.size, r0 _ u1, r8]
  · simp only [Layout.scalars, Machine.structSize, Machine.endOf, Machine.size, r0 _ u1, r8, Nat.zero_add, Machine.structAlign, List.map_cons,
      List.map_nil, List.foldr_cons, List.foldr_nil]
    rw [show max (M.align .u64) (max (M.align .u64) 1) = M.align .u64 by omega]
    exact r16
  · simp [Layout.scalars, Machine.offsets, r0 _ u1]
  · simp only [Layout.scalars, Machine.structSize, Machine.endOf, Machine.size, r0 _ u1, Nat.zero_add, Machine.structAlign, List.map_cons,
      List.map_nil, List.foldr_cons, List.foldr_nil]
    rw [show max (M.align .u64) 1 = M.align .u64 by omega]
    exact r8
  · simp [Layout.scalars, Machine.offsets, Machine.size, r0 _ f1, r8, r16]
  · simp only [Layout.scalars, Machine.structSize, Machine.endOf, Machine.size, r0 _ f1, r8, r16, Nat.zero_add, Machine.structAlign, List.map_cons,
      List.map_nil, List.foldr_cons, List.foldr_nil]
    obtain ⟨h1, h2⟩ := hmax _ _ f1 u1 f2 u2
    exact roundUp_of_dvd h1 (h2.trans (by decide : 8 ∣ 24))

/-! ### Examples -/

/-- A 64-bit little-endian machine. -/
def exMachine : Machine := ⟨8, fun s => match s with | .u8 => 1 | .i8 => 1 | .char => 1 | _ => 8, false⟩

/-- A 32-bit big-endian machine that aligns 64-bit numbers to 4 bytes. -/
def exMachine32 : Machine := ⟨4, fun s => match s with | .u8 => 1 | .i8 => 1 | .char => 1 | _ => 4, true⟩

example : exMachine.Sane ∧ exMachine32.Sane := by
  constructor <;> intro s <;> cases s <;> decide

/-- A convention that keeps the layouts with the values: a callee that expects other layouts gets nothing. -/
def exConvention (M : Machine) : Convention M where
  Regs := List Layout × List (List Nat)
  put ls vs := (ls, vs)
  take ls r := if r.1 = ls then r.2 else []
  putRet l ws := ([l], [ws])
  takeRet l r := if r.1 = [l] then r.2.headD [] else []
  arrives ls vs _ := by simp
  returns l ws _ := by simp

example : exMachine.FitsAll [.agg [.ptr], .one .u64, .one .u64] [[4096], [2], [3]] := by
  unfold Machine.FitsAll Machine.Fits
  simp [Layout.scalars, Machine.size, exMachine]

-- Two edges written by the library are read by the other side; on the big-endian machine, the last byte is the lowest.
example : exMachine32.loadItem (exMachine32.storeList (fun _ => 7) 100 [.u64, .u64] [[1, 2], [3, 258]]) 100 [.u64, .u64] 1 = [3, 258] ∧
    exMachine32.storeList (fun _ => 7) 100 [.u64, .u64] [[1, 2], [3, 258]] 131 = 2 ∧
    exMachine32.storeList (fun _ => 7) 100 [.u64, .u64] [[1, 2], [3, 258]] 132 = 7 := by decide

-- A reader finds `row` where the library stored it, and would not find it there if two fields were exchanged.
example : exMachine.field [("entry", .f64), ("col", .u64), ("row", .u64)] "row" = some (16, .u64) ∧
    exMachine.field [("entry", .f64), ("row", .u64), ("col", .u64)] "row" = some (8, .u64) := by decide +kernel

-- A structure with fields of different sizes has padding.
example : exMachine.offsets 0 [.u8, .u64, .u8] = [0, 8, 16] ∧ exMachine.structSize [.u8, .u64, .u8] = 24 ∧
    exMachine32.structSize [.u8, .u64, .u8] = 16 := by decide

-- A handle passed as a structure and a bare pointer are not the same.
example : (exConvention exMachine).take [.agg [.ptr]] ((exConvention exMachine).put [.one .ptr] [[4096]]) = [] := by decide

example : "gphrx_add_edge" ∈ pythonCalls := by decide +kernel

end Verif.Props
