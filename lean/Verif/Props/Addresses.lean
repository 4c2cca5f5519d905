import Verif.Spec.Addresses
import Verif.Props.CUndef

/-!
# Programs that do not know addresses: C120
-/

namespace Verif.Props
open Verif Spec

/-- Two memories look the same through two assignments of addresses to the names outside `D`. -/
structure Alike (D : Nat → Prop) (a a' : Nat → Ptr) (h h' : Heap) : Prop where
  null : ∀ i, ¬ D i → (a i = 0 ↔ a' i = 0)
  content : ∀ i, ¬ D i → a i ≠ 0 → h'.get? (a' i) = h.get? (a i)
  alive : ∀ i, ¬ D i → a i ≠ 0 → h.get? (a i) ≠ none
  left : ∀ i j, ¬ D i → ¬ D j → i ≠ j → a i ≠ 0 → a i ≠ a j
  right : ∀ i j, ¬ D i → ¬ D j → i ≠ j → a' i ≠ 0 → a' i ≠ a' j

/-- Outcomes that look the same. -/
def Out {α : Type} (D : Nat → Prop) (a a' : Nat → Ptr) (R : α → α → Heap → Heap → Prop) : CRes α → CRes α → Prop
  | .ok v h, .ok v' h' => Alike D a a' h h' ∧ R v v' h h'
  | .ub, .ub => True
  | .abort, .abort => True
  | _, _ => False

/-- Two computations that look the same. -/
def Twin {α : Type} (D : Nat → Prop) (a a' : Nat → Ptr) (R : α → α → Heap → Heap → Prop) (x x' : CM α) : Prop :=
  ∀ h h', Alike D a a' h h' → Out D a a' R (x h) (x' h')

/-- Equal values. -/
def EqR {α : Type} : α → α → Heap → Heap → Prop := fun v v' _ _ => v = v'

/-- Both null, or new addresses with the same content. -/
def NewR (D : Nat → Prop) (a a' : Nat → Ptr) : Ptr → Ptr → Heap → Heap → Prop := fun q q' h h' =>
  (q = 0 ∧ q' = 0) ∨ (q ≠ 0 ∧ q' ≠ 0 ∧ h'.get? q' = h.get? q ∧ h.get? q ≠ none ∧ ∀ i, ¬ D i → a i ≠ q ∧ a' i ≠ q')

section twin
variable {D : Nat → Prop} {a a' : Nat → Ptr} {α β : Type}

theorem twin_pure (v : α) : Twin D a a' EqR (pure v) (pure v) := fun _ _ hi => ⟨hi, rfl⟩

theorem twin_null : Twin D a a' (NewR D a a') (pure 0) (pure 0) := fun _ _ hi => ⟨hi, .inl ⟨rfl, rfl⟩⟩

theorem twin_bind {R : β → β → Heap → Heap → Prop} {x x' : CM α} {f f' : α → CM β} (hx : Twin D a a' EqR x x')
    (hf : ∀ v, (∃ h h1, x h = .ok v h1) → Twin D a a' R (f v) (f' v)) : Twin D a a' R (x >>= f) (x' >>= f') := by
  intro h h' hi
  have e : ∀ (y : CM α) (g : α → CM β) k, (y >>= g) k = match y k with
    | .ok v k' => g v k' | .ub => .ub | .abort => .abort := fun _ _ _ => rfl
  rw [e, e]
  have := hx h h' hi
  cases hxe : x h with
  | ok v h1 =>
    cases hxe' : x' h' with
    | ok v' h1' =>
      rw [hxe, hxe'] at this
      obtain ⟨hi1, rfl⟩ := this
      exact hf v ⟨h, h1, hxe⟩ h1 h1' hi1
    | ub => rw [hxe, hxe'] at this; exact this.elim
    | abort => rw [hxe, hxe'] at this; exact this.elim
  | ub =>
    cases hxe' : x' h' with
    | ok v' h1' => rw [hxe, hxe'] at this; exact this.elim
    | ub => trivial
    | abort => rw [hxe, hxe'] at this; exact this.elim
  | abort =>
    cases hxe' : x' h' with
    | ok v' h1' => rw [hxe, hxe'] at this; exact this.elim
    | ub => rw [hxe, hxe'] at this; exact this.elim
    | abort => trivial

theorem twin_ret {R : Val → Val → Heap → Heap → Prop} {x x' : CM α} {f : α → Val}
    (hx : Twin D a a' (fun v v' => R (f v) (f v')) x x') : Twin D a a' R (x.ret f) (x'.ret f) := by
  intro h h' hi
  have := hx h h' hi
  unfold CM.ret
  cases hxe : x h <;> cases hxe' : x' h' <;> rw [hxe, hxe'] at this <;> exact this

theorem twin_mono {R R' : α → α → Heap → Heap → Prop} {x x' : CM α} (h : ∀ v v' k k', R v v' k k' → R' v v' k k')
    (hx : Twin D a a' R x x') : Twin D a a' R' x x' := by
  intro k k' hi
  have := hx k k' hi
  cases hxe : x k <;> cases hxe' : x' k' <;> rw [hxe, hxe'] at this <;> first | exact this | exact ⟨this.1, h _ _ _ _ this.2⟩

theorem twin_rust (r : Res α) : Twin D a a' EqR (CApi.rust r) (CApi.rust r) := by
  intro h h' hi
  cases r <;> first | exact ⟨hi, rfl⟩ | trivial

theorem twin_rustTotal (r : Res α) : Twin D a a' EqR (CApi.rustTotal r) (CApi.rustTotal r) := by
  intro h h' hi
  cases r <;> first | exact ⟨hi, rfl⟩ | trivial

/-- Reading through a name. -/
theorem twin_ref {x : Ptr → CM α} (f : Option Obj → Option α) (v0 : Option α)
    (hx : ∀ p h, x p h = if p = 0 then (match v0 with | some v => .ok v h | none => .ub) else
      match f (h.get? p) with | some v => .ok v h | none => .ub) {i : Nat} (hD : ¬ D i) : Twin D a a' EqR (x (a i)) (x (a' i)) := by
  intro h h' hi
  rw [hx, hx]
  by_cases hz : a i = 0
  · rw [if_pos hz, if_pos ((hi.null i hD).1 hz)]
    cases v0 with
    | none => trivial
    | some v => exact ⟨hi, rfl⟩
  · rw [if_neg hz, if_neg (fun e => hz ((hi.null i hD).2 e)), hi.content i hD hz]
    cases f (h.get? (a i)) with
    | none => trivial
    | some v => exact ⟨hi, rfl⟩

theorem twin_graphRef {i : Nat} (hD : ¬ D i) : Twin D a a' EqR (CApi.graphRef (a i)) (CApi.graphRef (a' i)) := by
  refine twin_ref (fun o => match o with | some (.graph g) => some (some g) | _ => none) (some none) ?_ hD
  intro p h
  unfold CApi.graphRef
  split
  · rfl
  · split <;> simp_all

theorem twin_cgraphRef {i : Nat} (hD : ¬ D i) : Twin D a a' EqR (CApi.cgraphRef (a i)) (CApi.cgraphRef (a' i)) := by
  refine twin_ref (fun o => match o with | some (.cgraph g) => some (some g) | _ => none) (some none) ?_ hD
  intro p h
  unfold CApi.cgraphRef
  split
  · rfl
  · split <;> simp_all

theorem twin_matrixRef {i : Nat} (hD : ¬ D i) : Twin D a a' EqR (CApi.matrixRef (a i)) (CApi.matrixRef (a' i)) := by
  refine twin_ref (fun o => match o with | some (.matrix g) => some (some g) | _ => none) (some none) ?_ hD
  intro p h
  unfold CApi.matrixRef
  split
  · rfl
  · split <;> simp_all

/-- Writing through a name. -/
theorem alike_insert {h h' : Heap} (hi : Alike D a a' h h') {i : Nat} (hD : ¬ D i) (hz : a i ≠ 0) (x : Obj) :
    Alike D a a' (h.insert (a i) x) (h'.insert (a' i) x) where
  null := hi.null
  left := hi.left
  right := hi.right
  alive j hj hz := by
    rw [HMap.get?_insert]
    split
    · exact Option.some_ne_none _
    · exact hi.alive j hj hz
  content j hj hzj := by
    rw [HMap.get?_insert, HMap.get?_insert]
    by_cases hij : j = i
    · subst hij; rw [if_pos rfl, if_pos rfl]
    · rw [if_neg (hi.left j i hj hD hij hzj), if_neg (hi.right j i hj hD hij fun e => hzj ((hi.null j hj).2 e)), hi.content j hj hzj]

theorem twin_setUsize {i : Nat} (hD : ¬ D i) (n : Nat) : Twin D a a' EqR (CApi.setUsize (a i) n) (CApi.setUsize (a' i) n) := by
  intro h h' hi
  unfold CApi.setUsize
  by_cases hz : a i = 0
  · rw [if_pos hz, if_pos ((hi.null i hD).1 hz)]; exact ⟨hi, rfl⟩
  · rw [if_neg hz, if_neg (fun e => hz ((hi.null i hD).2 e)), hi.content i hD hz]
    cases h.get? (a i) with
    | none => trivial
    | some o => cases o <;> first | trivial | exact ⟨alike_insert hi hD hz _, rfl⟩

theorem twin_setU8 {i : Nat} (hD : ¬ D i) (n : Nat) : Twin D a a' EqR (CApi.setU8 (a i) n) (CApi.setU8 (a' i) n) := by
  intro h h' hi
  unfold CApi.setU8
  by_cases hz : a i = 0
  · rw [if_pos hz, if_pos ((hi.null i hD).1 hz)]; exact ⟨hi, rfl⟩
  · rw [if_neg hz, if_neg (fun e => hz ((hi.null i hD).2 e)), hi.content i hD hz]
    cases h.get? (a i) with
    | none => trivial
    | some o => cases o <;> first | trivial | exact ⟨alike_insert hi hD hz _, rfl⟩

theorem twin_readBytes {i : Nat} (hD : ¬ D i) (hz : a i ≠ 0) (n : Nat) :
    Twin D a a' EqR (CApi.readBytes (a i) n) (CApi.readBytes (a' i) n) := by
  intro h h' hi
  unfold CApi.readBytes
  rw [hi.content i hD hz]
  cases h.get? (a i) with
  | none => trivial
  | some o =>
    cases o <;> try trivial
    all_goals
      simp only
      split
      · exact ⟨hi, rfl⟩
      · trivial

theorem twin_inputBytes {i n : Nat} (hD : ¬ D i) (hz : ¬ (a i = 0 ∧ n ≠ 0)) :
    Twin D a a' EqR (CApi.inputBytes (a i) n) (CApi.inputBytes (a' i) n) := by
  unfold CApi.inputBytes
  split
  · exact twin_pure _
  · next hn => exact twin_readBytes hD (fun h => hz ⟨h, hn⟩) n

theorem twin_readU64s {i : Nat} (hD : ¬ D i) (hz : a i ≠ 0) (n : Nat) :
    Twin D a a' EqR (CApi.readU64s (a i) n) (CApi.readU64s (a' i) n) := by
  intro h h' hi
  unfold CApi.readU64s
  rw [hi.content i hD hz]
  cases h.get? (a i) with
  | none => trivial
  | some o =>
    cases o <;> try trivial
    all_goals
      simp only
      split
      · exact ⟨hi, rfl⟩
      · trivial

theorem twin_writeGraph {i : Nat} (hD : ¬ D i) (hz : a i ≠ 0) (g : Graph) :
    Twin D a a' EqR (CApi.writeGraph (a i) g) (CApi.writeGraph (a' i) g) :=
  fun _ _ hi => ⟨alike_insert hi hD hz _, rfl⟩

/-- Allocating. -/
theorem alike_fresh {h h' : Heap} (hi : Alike D a a' h h') {q q' : Ptr} (hq : h.get? q = none) (hq' : h'.get? q' = none) (x : Obj) :
    Alike D a a' (h.insert q x) (h'.insert q' x) ∧ ∀ i, ¬ D i → a i ≠ 0 → a i ≠ q ∧ a' i ≠ q' := by
  have ne : ∀ i, ¬ D i → a i ≠ 0 → a i ≠ q ∧ a' i ≠ q' := by
    intro i hD hz
    refine ⟨fun e => hi.alive i hD hz (e ▸ hq), fun e => hi.alive i hD hz ?_⟩
    rw [← hi.content i hD hz, e, hq']
  refine ⟨⟨hi.null, ?_, ?_, hi.left, hi.right⟩, ne⟩
  · intro i hD hz
    rw [HMap.get?_insert, HMap.get?_insert, if_neg (ne i hD hz).1, if_neg (ne i hD hz).2, hi.content i hD hz]
  · intro i hD hz
    rw [HMap.get?_insert, if_neg (ne i hD hz).1]
    exact hi.alive i hD hz

theorem twin_boxNew {E F : Ctx} (x : Obj) : Twin D a a' (NewR D a a') (CApi.boxNew E x) (CApi.boxNew F x) := by
  intro h h' hi
  have hf := alike_fresh hi (E.fresh_free h) (F.fresh_free h') x
  refine ⟨hf.1, .inr ⟨E.fresh_ne h, F.fresh_ne h', ?_, ?_, ?_⟩⟩
  · rw [HMap.get?_insert, HMap.get?_insert, if_pos rfl, if_pos rfl]
  · rw [HMap.get?_insert, if_pos rfl]; exact Option.some_ne_none _
  · intro i hD
    by_cases hz : a i = 0
    · rw [hz, (hi.null i hD).1 hz]
      exact ⟨(E.fresh_ne h).symm, (F.fresh_ne h').symm⟩
    · exact hf.2 i hD hz

theorem twin_cstring {E F : Ctx} (s : Option (List Char)) :
    Twin D a a' (NewR D a a') (CApi.cstringOrNull E s) (CApi.cstringOrNull F s) := by
  unfold CApi.cstringOrNull
  cases s with
  | none => exact twin_null
  | some s =>
    simp only
    split
    · exact twin_null
    · exact twin_boxNew _

theorem twin_boxedBytes {E F : Ctx} {i : Nat} (hD : ¬ D i) (b : Bytes) :
    Twin D a a' (NewR D a a') (CApi.boxedBytesToRaw E b (a i)) (CApi.boxedBytesToRaw F b (a' i)) :=
  twin_bind (twin_setUsize hD _) fun _ _ => twin_boxNew _

end twin

/-- Returned values that look the same. -/
def ValR (D : Nat → Prop) (a a' : Nat → Ptr) : Val → Val → Heap → Heap → Prop := fun v v' h h' =>
  seen v = seen v' ∧ NewR D a a' (addressOf v) (addressOf v') h h'

theorem graphRef_ne {p : Ptr} {g : Graph} (h : ∃ k k1, CApi.graphRef p k = .ok (some g) k1) : p ≠ 0 := by
  rintro rfl
  obtain ⟨k, k1, h⟩ := h
  cases h

/-- Calls that free nothing look the same. -/
theorem exec_twin {E F : Ctx} (hP : F.P = E.P) (ho₁ : F.o₁ = E.o₁) (ho₂ : F.o₂ = E.o₂) {D : Nat → Prop} {a a' : Nat → Ptr} (c : Call)
    (hf : (Cmd.call c).frees = []) (hD : ∀ n ∈ c.pointers, ¬ D n) (hn : ∀ i, ¬ D i → (a i = 0 ↔ a' i = 0)) :
    Twin D a a' (ValR D a a') ((c.mapPtr a).exec E) ((c.mapPtr a').exec F) := by
  have h1 : ∀ q q' h h', NewR D a a' q q' h h' → ValR D a a' (.ptr q) (.ptr q') h h' := by
    intro q q' h h' hr
    refine ⟨?_, hr⟩
    unfold seen
    rcases hr with ⟨rfl, rfl⟩ | ⟨h1, h2, _⟩
    · rfl
    · simp only; rw [if_neg h1, if_neg h2]
  have h2 : ∀ v h h', addressOf v = 0 → ValR D a a' v v h h' := fun v h h' e => ⟨rfl, .inl ⟨e, e⟩⟩
  obtain ⟨P, f, f1, f2, o₁, o₂⟩ := E
  obtain ⟨P', f', f1', f2', o₁', o₂'⟩ := F
  simp only at hP ho₁ ho₂
  subst hP ho₁ ho₂
  have h3 : ∀ (α : Type) (w : α → Val), (∀ x, addressOf (w x) = 0) → ∀ v v' h h', EqR v v' h h' → ValR D a a' (w v) (w v') h h' := by
    intro α w hw v v' h h' e
    cases e
    exact h2 _ _ _ (hw v)
  cases c
  case' fromBytes b n e =>
    have hb : ¬ D b := hD b (by simp [Call.pointers])
    have he : ¬ D e := hD e (by simp [Call.pointers])
    refine twin_ret (twin_mono h1 (twin_bind (twin_setU8 he _) fun _ _ => ?_))
    by_cases hz : a b = 0 ∧ n ≠ 0
    · rw [if_pos hz, if_pos ⟨(hn b hb).1 hz.1, hz.2⟩]
      exact twin_bind (twin_setU8 he _) fun _ _ => twin_null
    · have hz2 : ¬ (a' b = 0 ∧ n ≠ 0) := fun hz' => hz ⟨(hn b hb).2 hz'.1, hz'.2⟩
      rw [if_neg hz, if_neg hz2]
      refine twin_bind (twin_inputBytes hb hz) fun _ _ => twin_bind (twin_rust _) fun r _ => ?_
      cases r
      · exact twin_bind (twin_setU8 he _) fun _ _ => twin_null
      · exact twin_boxNew _
  case' cFromBytes b n e =>
    have hb : ¬ D b := hD b (by simp [Call.pointers])
    have he : ¬ D e := hD e (by simp [Call.pointers])
    refine twin_ret (twin_mono h1 (twin_bind (twin_setU8 he _) fun _ _ => ?_))
    by_cases hz : a b = 0 ∧ n ≠ 0
    · rw [if_pos hz, if_pos ⟨(hn b hb).1 hz.1, hz.2⟩]
      exact twin_bind (twin_setU8 he _) fun _ _ => twin_null
    · have hz2 : ¬ (a' b = 0 ∧ n ≠ 0) := fun hz' => hz ⟨(hn b hb).2 hz'.1, hz'.2⟩
      rw [if_neg hz, if_neg hz2]
      refine twin_bind (twin_inputBytes hb hz) fun _ _ => twin_bind (twin_rust _) fun r _ => ?_
      cases r
      · exact twin_bind (twin_setU8 he _) fun _ _ => twin_null
      · exact twin_boxNew _
  case' addVertex p v l n =>
    have hp : ¬ D p := hD p (by simp [Call.pointers])
    have hl : ¬ D l := hD l (by simp [Call.pointers])
    refine twin_ret (twin_mono (h3 _ _ fun _ => rfl) (twin_bind (twin_graphRef hp) fun r hr => ?_))
    cases r with
    | none => exact twin_pure _
    | some g =>
      have hz := graphRef_ne hr
      simp only
      by_cases hn' : a l = 0 ∧ n ≠ 0
      · rw [if_pos hn', if_pos ⟨(hn l hl).1 hn'.1, hn'.2⟩]
        exact twin_pure _
      · have hn2 : ¬ (a' l = 0 ∧ n ≠ 0) := fun hz' => hn' ⟨(hn l hl).2 hz'.1, hz'.2⟩
        rw [if_neg hn', if_neg hn2]
        split
        · exact twin_writeGraph hp hz _
        · next h0 =>
          exact twin_bind (twin_readU64s hl (fun h => hn' ⟨h, h0⟩) _) fun _ _ => twin_writeGraph hp hz _
  case' addEdge p u v =>
    have hp : ¬ D p := hD p (by simp [Call.pointers])
    refine twin_ret (twin_mono (h3 _ _ fun _ => rfl) (twin_bind (twin_graphRef hp) fun r hr => ?_))
    cases r with
    | none => exact twin_pure _
    | some g => exact twin_writeGraph hp (graphRef_ne hr) _
  case' deleteEdge p u v =>
    have hp : ¬ D p := hD p (by simp [Call.pointers])
    refine twin_ret (twin_mono (h3 _ _ fun _ => rfl) (twin_bind (twin_graphRef hp) fun r hr => ?_))
    cases r with
    | none => exact twin_pure _
    | some g => exact twin_writeGraph hp (graphRef_ne hr) _
  all_goals
    simp only [Call.pointers, List.mem_cons, List.not_mem_nil, or_false, forall_eq_or_imp, forall_eq] at hD
    first
    | exact absurd hf (List.cons_ne_nil _ _)
    | exact twin_ret (twin_mono h1 (twin_boxNew _))
    | (refine twin_ret (twin_mono (h3 _ _ fun _ => rfl) (twin_bind (twin_graphRef hD) fun r _ => ?_)); cases r <;> exact twin_pure _)
    | (refine twin_ret (twin_mono (h3 _ _ fun _ => rfl) (twin_bind (twin_cgraphRef hD) fun r _ => ?_)); cases r <;> exact twin_pure _)
    | (refine twin_ret (twin_mono (h3 _ _ fun _ => rfl) (twin_bind (twin_matrixRef hD) fun r _ => ?_)); cases r <;> exact twin_pure _)
    | (refine twin_ret (twin_mono h1 (twin_bind (twin_graphRef hD) fun r _ => ?_))
       cases r
       · exact twin_null
       · first
         | exact twin_boxNew _
         | exact twin_bind (twin_rust _) fun _ _ => twin_cstring _
         | exact twin_bind (twin_rustTotal _) fun _ _ => twin_boxNew _)
    | (refine twin_ret (twin_mono h1 (twin_bind (twin_cgraphRef hD) fun r _ => ?_))
       cases r
       · exact twin_null
       · first
         | exact twin_boxNew _
         | exact twin_bind (twin_rust _) fun _ _ => twin_cstring _
         | exact twin_bind (twin_rustTotal _) fun _ _ => twin_boxNew _)
    | (refine twin_ret (twin_mono h1 (twin_bind (twin_matrixRef hD) fun r _ => ?_))
       cases r
       · exact twin_null
       · first
         | exact twin_boxNew _
         | exact twin_bind (twin_rust _) fun _ _ => twin_cstring _
         | exact twin_bind (twin_rustTotal _) fun _ _ => twin_cstring _)
    | (refine twin_ret (twin_mono h1 (twin_bind (twin_setUsize hD.2 _) fun _ _ => twin_bind (twin_graphRef hD.1) fun r _ => ?_))
       cases r
       · exact twin_null
       · first
         | exact twin_bind (twin_setUsize hD.2 _) fun _ _ => twin_boxNew _
         | (refine twin_bind (twin_rust _) fun b _ => ?_
            cases b
            · exact twin_null
            · exact twin_boxedBytes hD.2 _))
    | (refine twin_ret (twin_mono h1 (twin_bind (twin_setUsize hD.2 _) fun _ _ => twin_bind (twin_cgraphRef hD.1) fun r _ => ?_))
       cases r
       · exact twin_null
       · refine twin_bind (twin_rust _) fun b _ => ?_
         cases b
         · exact twin_null
         · exact twin_boxedBytes hD.2 _)
    | (refine twin_ret (twin_mono h1 (twin_bind (twin_setUsize hD.2 _) fun _ _ => twin_bind (twin_matrixRef hD.1) fun r _ => ?_))
       cases r
       · exact twin_null
       · exact twin_bind (twin_setUsize hD.2 _) fun _ _ => twin_boxNew _)

/-! ## Commands -/

theorem alike_mono {D D' : Nat → Prop} {a a' : Nat → Ptr} {h h' : Heap} (hi : Alike D a a' h h') (hd : ∀ i, D i → D' i) :
    Alike D' a a' h h' where
  null i h := hi.null i fun e => h (hd i e)
  content i h := hi.content i fun e => h (hd i e)
  alive i h := hi.alive i fun e => h (hd i e)
  left i j h h' := hi.left i j (fun e => h (hd i e)) (fun e => h' (hd j e))
  right i j h h' := hi.right i j (fun e => h (hd i e)) (fun e => h' (hd j e))

theorem newR_mono {D D' : Nat → Prop} {a a' : Nat → Ptr} {q q' : Ptr} {h h' : Heap} (hr : NewR D a a' q q' h h') (hd : ∀ i, D i → D' i) :
    NewR D' a a' q q' h h' := by
  rcases hr with hr | ⟨h1, h2, h3, h4, h5⟩
  · exact .inl hr
  · exact .inr ⟨h1, h2, h3, h4, fun i hi => h5 i fun e => hi (hd i e)⟩

/-- Freeing. -/
theorem alike_remove {D : Nat → Prop} {a a' : Nat → Ptr} {h h' : Heap} (hi : Alike D a a' h h') {n : Nat} (hD : ¬ D n) (hz : a n ≠ 0) :
    Alike (fun i => D i ∨ i = n) a a' (h.remove (a n)) (h'.remove (a' n)) where
  null i h := hi.null i fun e => h (.inl e)
  left i j h h' := hi.left i j (fun e => h (.inl e)) (fun e => h' (.inl e))
  right i j h h' := hi.right i j (fun e => h (.inl e)) (fun e => h' (.inl e))
  content i h hzi := by
    rw [not_or] at h
    rw [HMap.get?_remove, HMap.get?_remove, if_neg (hi.left i n h.1 hD h.2 hzi),
      if_neg (hi.right i n h.1 hD h.2 fun e => hzi ((hi.null i h.1).2 e)), hi.content i h.1 hzi]
  alive i h hzi := by
    rw [not_or] at h
    rw [HMap.get?_remove, if_neg (hi.left i n h.1 hD h.2 hzi)]
    exact hi.alive i h.1 hzi

/-- Outcomes of commands that look the same. -/
def StepOut (D : Nat → Prop) (a a' : Nat → Ptr) : Obs × Option (Ptr × Heap) → Obs × Option (Ptr × Heap) → Prop
  | (o, some (q, h)), (o', some (q', h')) => o = o' ∧ Alike D a a' h h' ∧ NewR D a a' q q' h h'
  | (o, none), (o', none) => o = o'
  | _, _ => False

theorem free_twin {D : Nat → Prop} {ν ν' : List Ptr} {h h' : Heap} (hi : Alike D (addr ν) (addr ν') h h') {n : Nat} (hD : ¬ D n)
    (ok : Obj → Bool) :
    StepOut (fun i => D i ∨ i ∈ [n]) (addr ν) (addr ν')
      (match (CApi.freeObj ok (addr ν n)).ret (fun _ => .unit) h with
        | .ok v h' => (seen v, some (addressOf v, h')) | .ub => (.undefined, none) | .abort => (.aborted, none))
      (match (CApi.freeObj ok (addr ν' n)).ret (fun _ => .unit) h' with
        | .ok v h' => (seen v, some (addressOf v, h')) | .ub => (.undefined, none) | .abort => (.aborted, none)) := by
  have hs : (fun i => D i ∨ i ∈ [n]) = fun i => D i ∨ i = n := by
    funext i; rw [List.mem_singleton]
  rw [hs]
  unfold CM.ret CApi.freeObj
  by_cases hz : addr ν n = 0
  · rw [if_pos hz, if_pos ((hi.null n hD).1 hz)]
    exact ⟨rfl, alike_mono hi fun _ => .inl, .inl ⟨rfl, rfl⟩⟩
  · rw [if_neg hz, if_neg (fun e => hz ((hi.null n hD).2 e)), hi.content n hD hz]
    cases h.get? (addr ν n) with
    | none => exact rfl
    | some x =>
      simp only
      cases ok x with
      | false => exact rfl
      | true => exact ⟨rfl, alike_remove hi hD hz, .inl ⟨rfl, rfl⟩⟩

theorem step_twin {E F : Ctx} (hP : F.P = E.P) (ho₁ : F.o₁ = E.o₁) (ho₂ : F.o₂ = E.o₂) {D : Nat → Prop} {ν ν' : List Ptr} {h h' : Heap}
    (hi : Alike D (addr ν) (addr ν') h h') (c : Cmd) (hD : ∀ n ∈ c.names, ¬ D n) :
    StepOut (fun i => D i ∨ i ∈ c.frees) (addr ν) (addr ν') (c.step E ν h) (c.step F ν' h') := by
  cases c with
  | call c =>
    by_cases hf : (Cmd.call c).frees = []
    · have := exec_twin hP ho₁ ho₂ (a := addr ν) (a' := addr ν') c hf hD hi.null h h' hi
      simp only [Cmd.step]
      have hd : ∀ i, D i → D i ∨ i ∈ (Cmd.call c).frees := fun _ => .inl
      cases hx : (c.mapPtr (addr ν)).exec E h <;> cases hx' : (c.mapPtr (addr ν')).exec F h' <;> rw [hx, hx'] at this <;>
        first | exact this.elim | skip
      · simp only [hx, hx']; exact ⟨this.2.1, alike_mono this.1 hd, newR_mono this.2.2 hd⟩
      · simp only [hx, hx']; exact rfl
      · simp only [hx, hx']; exact rfl
    · cases c
      case freeString p => exact free_twin hi (hD _ (List.mem_singleton.2 rfl)) _
      case freeBytes p n => exact free_twin hi (hD _ (List.mem_singleton.2 rfl)) _
      case freeGraph p => exact free_twin hi (hD _ (List.mem_singleton.2 rfl)) _
      case freeEdgeList p n => exact free_twin hi (hD _ (List.mem_singleton.2 rfl)) _
      case freeVertexList p n => exact free_twin hi (hD _ (List.mem_singleton.2 rfl)) _
      case freeCGraph p => exact free_twin hi (hD _ (List.mem_singleton.2 rfl)) _
      case freeMatrix p => exact free_twin hi (hD _ (List.mem_singleton.2 rfl)) _
      case freeEntryList p n => exact free_twin hi (hD _ (List.mem_singleton.2 rfl)) _
      all_goals exact absurd rfl hf
  | own x =>
    simp only [Cmd.step]
    by_cases hx : x.isCaller = true
    · rw [if_pos hx, if_pos hx]
      have hb := twin_boxNew (E := E) (F := F) (D := D) x h h' hi
      exact ⟨rfl, alike_mono hb.1 fun _ => .inl, newR_mono hb.2 fun _ => .inl⟩
    · rw [if_neg hx, if_neg hx]
      exact rfl
  | set n x =>
    have hn := hD n (List.mem_singleton.2 rfl)
    by_cases hz : addr ν n = 0
    · have hz' := (hi.null n hn).1 hz
      have e : ∀ (E : Ctx) (k : Heap) (ν : List Ptr), addr ν n = 0 → (Cmd.set n x).step E ν k = (.undefined, none) := by
        intro E k ν h0
        simp only [Cmd.step]
        split
        · exact if_neg fun h => h.1 h0
        · rfl
      rw [e E h ν hz, e F h' ν' hz']
      exact rfl
    · have hz' : addr ν' n ≠ 0 := fun e => hz ((hi.null n hn).2 e)
      simp only [Cmd.step, hi.content n hn hz]
      cases h.get? (addr ν n) with
      | none => exact rfl
      | some y =>
        simp only
        by_cases hc : x.isCaller = true ∧ y.isCaller = true
        · rw [if_pos ⟨hz, hc⟩, if_pos ⟨hz', hc⟩]
          exact ⟨rfl, alike_mono (alike_insert hi hn hz x) fun _ => .inl, .inl ⟨rfl, rfl⟩⟩
        · rw [if_neg fun h => hc h.2, if_neg fun h => hc h.2]
          exact rfl
  | drop n =>
    have hn := hD n (List.mem_singleton.2 rfl)
    by_cases hz : addr ν n = 0
    · have hz' := (hi.null n hn).1 hz
      have e : ∀ (E : Ctx) (k : Heap) (ν : List Ptr), addr ν n = 0 → (Cmd.drop n).step E ν k = (.undefined, none) := by
        intro E k ν h0
        simp only [Cmd.step]
        split
        · exact if_neg fun h => h.1 h0
        · rfl
      rw [e E h ν hz, e F h' ν' hz']
      exact rfl
    · have hz' : addr ν' n ≠ 0 := fun e => hz ((hi.null n hn).2 e)
      simp only [Cmd.step, hi.content n hn hz]
      cases h.get? (addr ν n) with
      | none => exact rfl
      | some y =>
        simp only
        by_cases hc : y.isCaller = true
        · rw [if_pos ⟨hz, hc⟩, if_pos ⟨hz', hc⟩]
          refine ⟨rfl, ?_, .inl ⟨rfl, rfl⟩⟩
          exact alike_mono (alike_remove hi hn hz) fun i h => h.imp_right fun e => List.mem_singleton.2 e
        · rw [if_neg fun h => hc h.2, if_neg fun h => hc h.2]
          exact rfl
  | read n =>
    have hn := hD n (List.mem_singleton.2 rfl)
    by_cases hz : addr ν n = 0
    · have hz' := (hi.null n hn).1 hz
      have e : ∀ (E : Ctx) (k : Heap) (ν : List Ptr), addr ν n = 0 → (Cmd.read n).step E ν k = (.undefined, none) := by
        intro E k ν h0
        simp only [Cmd.step]
        split
        · exact if_neg fun h => h h0
        · rfl
      rw [e E h ν hz, e F h' ν' hz']
      exact rfl
    · have hz' : addr ν' n ≠ 0 := fun e => hz ((hi.null n hn).2 e)
      simp only [Cmd.step, hi.content n hn hz]
      cases h.get? (addr ν n) with
      | none => exact rfl
      | some y =>
        simp only
        rw [if_pos hz, if_pos hz']
        exact ⟨rfl, alike_mono hi fun _ => .inl, .inl ⟨rfl, rfl⟩⟩
  | same i j =>
    have h1 := hD i (List.mem_cons_self ..)
    have h2 := hD j (List.mem_cons_of_mem _ (List.mem_singleton.2 rfl))
    simp only [Cmd.step]
    refine ⟨?_, alike_mono hi fun _ => .inl, .inl ⟨rfl, rfl⟩⟩
    congr 1
    rw [decide_eq_decide]
    by_cases hij : i = j
    · subst hij; exact ⟨fun _ => rfl, fun _ => rfl⟩
    · by_cases hz : addr ν i = 0
      · rw [hz, (hi.null i h1).1 hz]
        exact ⟨fun e => ((hi.null j h2).1 e.symm).symm, fun e => ((hi.null j h2).2 e.symm).symm⟩
      · exact ⟨fun e => absurd e (hi.left i j h1 h2 hij hz),
          fun e => absurd e (hi.right i j h1 h2 hij fun e => hz ((hi.null i h1).2 e))⟩

theorem addr_append (ν : List Ptr) (q : Ptr) (i : Nat) : addr (ν ++ [q]) i = if i = ν.length then q else addr ν i := by
  unfold addr
  rw [List.getD_eq_getElem?_getD, List.getD_eq_getElem?_getD]
  rcases Nat.lt_trichotomy i ν.length with h | h | h
  · rw [List.getElem?_append_left h, if_neg (by omega)]
  · subst h; simp
  · rw [if_neg (by omega), List.getElem?_eq_none (by simp; omega), List.getElem?_eq_none (by omega)]

theorem addr_length (ν : List Ptr) : addr ν ν.length = 0 := by
  unfold addr; simp

theorem alike_append {D : Nat → Prop} {ν ν' : List Ptr} {h h' : Heap} {q q' : Ptr} (hl : ν'.length = ν.length)
    (hi : Alike D (addr ν) (addr ν') h h') (hr : NewR D (addr ν) (addr ν') q q' h h') :
    Alike D (addr (ν ++ [q])) (addr (ν' ++ [q'])) h h' := by
  have e : ∀ i, addr (ν ++ [q]) i = if i = ν.length then q else addr ν i := addr_append ν q
  have e' : ∀ i, addr (ν' ++ [q']) i = if i = ν.length then q' else addr ν' i := by
    intro i; rw [addr_append, hl]
  have hq0 : q = 0 ↔ q' = 0 := by
    rcases hr with ⟨h1, h2⟩ | ⟨h1, h2, _⟩
    · exact ⟨fun _ => h2, fun _ => h1⟩
    · exact ⟨fun h => absurd h h1, fun h => absurd h h2⟩
  have hq : q ≠ 0 → h'.get? q' = h.get? q ∧ h.get? q ≠ none ∧ ∀ i, ¬ D i → addr ν i ≠ q ∧ addr ν' i ≠ q' := by
    intro h0
    rcases hr with ⟨h1, h2⟩ | ⟨h1, h2, h3⟩
    · exact absurd h1 h0
    · exact h3
  constructor
  · intro i hD
    rw [e, e']
    split
    · exact hq0
    · exact hi.null i hD
  · intro i hD hz
    rw [e] at hz ⊢
    rw [e']
    split
    · next h1 => rw [if_pos h1] at hz; exact (hq hz).1
    · next h1 => rw [if_neg h1] at hz; exact hi.content i hD hz
  · intro i hD hz
    rw [e] at hz ⊢
    split
    · next h1 => rw [if_pos h1] at hz; exact (hq hz).2.1
    · next h1 => rw [if_neg h1] at hz; exact hi.alive i hD hz
  · intro i j hDi hDj hij hz
    rw [e] at hz
    rw [e, e]
    by_cases h1 : i = ν.length
    · rw [if_pos h1] at hz ⊢
      rw [if_neg (fun h => hij (h1.trans h.symm))]
      exact ((hq hz).2.2 j hDj).1.symm
    · rw [if_neg h1] at hz ⊢
      by_cases h2 : j = ν.length
      · rw [if_pos h2]
        by_cases h0 : q = 0
        · rw [h0]; exact hz
        · exact ((hq h0).2.2 i hDi).1
      · rw [if_neg h2]
        exact hi.left i j hDi hDj hij hz
  · intro i j hDi hDj hij hz
    rw [e'] at hz
    rw [e', e']
    by_cases h1 : i = ν.length
    · rw [if_pos h1] at hz ⊢
      rw [if_neg (fun h => hij (h1.trans h.symm))]
      exact ((hq fun h => hz (hq0.1 h)).2.2 j hDj).2.symm
    · rw [if_neg h1] at hz ⊢
      by_cases h2 : j = ν.length
      · rw [if_pos h2]
        by_cases h0 : q = 0
        · rw [hq0.1 h0]; exact hz
        · exact ((hq h0).2.2 i hDi).2
      · rw [if_neg h2]
        exact hi.right i j hDi hDj hij hz

theorem observe_twin {E F : Nat → Ctx} (hE : ∀ k, (F k).P = (E k).P ∧ (F k).o₁ = (E k).o₁ ∧ (F k).o₂ = (E k).o₂) :
    ∀ {t : List Cmd} {D : Nat → Prop} {ν ν' : List Ptr} {h h' : Heap}, ν'.length = ν.length → Alike D (addr ν) (addr ν') h h' →
      (∀ c ∈ t, ∀ n ∈ c.names, ¬ D n) → NoUseAfterFree t → observe E ν h t = observe F ν' h' t := by
  intro t
  induction t with
  | nil => intros; rfl
  | cons c t ih =>
    intro D ν ν' h h' hl hi hD hu
    have hk := hE ν.length
    have hs := step_twin hk.1 hk.2.1 hk.2.2 hi c (hD c (List.mem_cons_self ..))
    unfold observe
    rw [hl]
    cases hc : c.step (E ν.length) ν h with
    | mk o r =>
      cases hc' : c.step (F ν.length) ν' h' with
      | mk o' r' =>
        rw [hc, hc'] at hs
        cases r with
        | none =>
          cases r' with
          | none => cases hs; rfl
          | some r' => exact hs.elim
        | some r =>
          cases r' with
          | none => exact hs.elim
          | some r' =>
            obtain ⟨q, h1⟩ := r
            obtain ⟨q', h1'⟩ := r'
            obtain ⟨rfl, hi1, hr⟩ := hs
            simp only
            rw [List.cons.injEq]
            refine ⟨rfl, ih (by simp [hl]) (alike_append hl hi1 hr) ?_ (List.pairwise_cons.1 hu).2⟩
            intro d hd n hn
            rw [not_or]
            exact ⟨hD d (List.mem_cons_of_mem _ hd) n hn, fun hf => (List.pairwise_cons.1 hu).1 d hd n hf hn⟩

/-- **C120.** What a C program sees does not depend on the addresses that it gets: two runs of a program that uses nothing after freeing it,
with any two allocators, see the same numbers, the same null pointers, the same content of memory, the same equalities between
addresses, and undefined behaviour or an abort at the same command, if at all. -/
theorem C120_addresses {E F : Nat → Ctx} (hE : ∀ k, (F k).P = (E k).P ∧ (F k).o₁ = (E k).o₁ ∧ (F k).o₂ = (E k).o₂) {t : List Cmd}
    (hu : NoUseAfterFree t) : observe E [] HMap.empty t = observe F [] HMap.empty t := by
  refine observe_twin (D := fun _ => False) hE rfl ?_ (fun _ _ _ _ h => h) hu
  have : ∀ i, addr [] i = 0 := fun i => rfl
  constructor
  · intro i _; exact ⟨fun _ => this i, fun _ => this i⟩
  · intro i _ h; exact absurd (this i) h
  · intro i _ h; exact absurd (this i) h
  · intro i j _ _ _ h; exact absurd (this i) h
  · intro i j _ _ _ h; exact absurd (this i) h

/-! ### Examples -/

/-- The environment of the examples with an allocator that leaves `k` addresses free. -/
def exEk (k : Nat) : Ctx where
  P := exP
  fresh h := exFresh h + k
  fresh_ne h := by
    have e : ∀ a b : Nat, a + 1 + b ≠ 0 := fun a b => by omega
    exact e _ _
  fresh_free h := by
    by_contra hne
    obtain ⟨x, hx⟩ := Option.ne_none_iff_exists'.1 hne
    have h1 := HMap.mem_entries_iff.2 hx
    have h2 : ∀ (l : List Nat) (n : Nat), n ∈ l → n ≤ l.foldr max 0 := by
      intro l
      induction l with
      | nil => intro n h; cases h
      | cons y l ih =>
        intro n h
        rw [List.foldr_cons]
        rcases List.mem_cons.1 h with rfl | h
        · exact Nat.le_max_left _ _
        · exact (ih n h).trans (Nat.le_max_right _ _)
    have := h2 _ _ (List.mem_map_of_mem (f := Prod.fst) h1)
    unfold exFresh at this
    simp only at this
    omega
  o₁ := .id
  o₂ := .id

/-- A graph (name 0), an edge, a copy (name 2), the graph is freed, a new one (name 4) is made. -/
def exProg : List Cmd :=
  [.call .newUndirected, .call (.addEdge 0 1 2), .call (.duplicate 0), .call (.freeGraph 0), .call .newDirected, .same 2 4,
    .call (.edgeCount 2), .call (.edgeCount 4), .call (.duplicate 9), .call (.freeString 2)]

example : NoUseAfterFree exProg ∧
    observe (fun _ => exE) [] HMap.empty exProg =
      [.address, .nothing, .address, .nothing, .address, .equal false, .num 2, .num 0, .null, .undefined] ∧
    observe exEk [] HMap.empty exProg = observe (fun _ => exE) [] HMap.empty exProg :=
  ⟨by unfold NoUseAfterFree; decide, rfl, C120_addresses (fun _ => ⟨rfl, rfl, rfl⟩) (by unfold NoUseAfterFree; decide)⟩

/-- Without the condition it is false: the program looks at memory that it has freed, and the allocator has reused it or not. -/
example : observe (fun _ => exE) [] HMap.empty [.own (.callerU8 1), .drop 0, .own (.callerU8 2), .read 0] =
      [.address, .nothing, .address, .content (.callerU8 2)] ∧
    observe exEk [] HMap.empty [.own (.callerU8 1), .drop 0, .own (.callerU8 2), .read 0] =
      [.address, .nothing, .address, .undefined] := ⟨rfl, rfl⟩

end Verif.Props
