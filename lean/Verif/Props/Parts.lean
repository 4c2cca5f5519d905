import Verif.Spec.Parts
import Verif.Props.Py

/-!
# C132: parts of a Python program that do not share objects
-/

namespace Verif.Props
open Verif Spec

/-! ### Own numbers -/

theorem ownNumber_succ_own {O : List Nat} {k i : Nat} (h : O[i]? = some k) : ownNumber O k (i + 1) = ownNumber O k i + 1 := by
  unfold ownNumber
  rw [List.take_add_one, List.count_append, h]
  simp

theorem ownNumber_succ_other {O : List Nat} {k i : Nat} (h : O[i]? ≠ some k) : ownNumber O k (i + 1) = ownNumber O k i := by
  unfold ownNumber
  rw [List.take_add_one, List.count_append]
  cases e : O[i]? with
  | none => simp
  | some j =>
    rw [e] at h
    have : j ≠ k := fun hj => h (by rw [hj])
    simp [this]

theorem ownNumber_le_succ (O : List Nat) (k i : Nat) : ownNumber O k i ≤ ownNumber O k (i + 1) := by
  by_cases h : O[i]? = some k
  · rw [ownNumber_succ_own h]; omega
  · rw [ownNumber_succ_other h]

theorem ownNumber_mono (O : List Nat) (k : Nat) {i j : Nat} (h : i ≤ j) : ownNumber O k i ≤ ownNumber O k j := by
  induction h with
  | refl => exact Nat.le_refl _
  | step _ ih => exact ih.trans (ownNumber_le_succ ..)

theorem ownNumber_lt {O : List Nat} {k i j : Nat} (hi : O[i]? = some k) (h : i < j) : ownNumber O k i < ownNumber O k j := by
  have := ownNumber_mono O k (i := i + 1) (j := j) h
  rw [ownNumber_succ_own hi] at this
  omega

theorem ownNumber_inj {O : List Nat} {k i j : Nat} (hi : O[i]? = some k) (hj : O[j]? = some k) (h : ownNumber O k i = ownNumber O k j) :
    i = j := by
  rcases Nat.lt_trichotomy i j with h1 | h1 | h1
  · have := ownNumber_lt hi h1; omega
  · exact h1
  · have := ownNumber_lt hj h1; omega

theorem ownNumber_surj {O : List Nat} {k n q : Nat} (h : q < ownNumber O k n) : ∃ i, i < n ∧ O[i]? = some k ∧ ownNumber O k i = q := by
  induction n with
  | zero => simp [ownNumber] at h
  | succ n ih =>
    by_cases hn : O[n]? = some k
    · rw [ownNumber_succ_own hn] at h
      by_cases hq : q = ownNumber O k n
      · exact ⟨n, Nat.lt_succ_self _, hn, hq.symm⟩
      · obtain ⟨i, h1, h2⟩ := ih (by omega)
        exact ⟨i, by omega, h2⟩
    · rw [ownNumber_succ_other hn] at h
      obtain ⟨i, h1, h2⟩ := ih h
      exact ⟨i, by omega, h2⟩

/-! ### Objects with other numbers -/

/-- An object whose list has another number. -/
def objWith (f : Nat → Nat) : AObj → AObj
  | .iter l p => .iter (f l) p
  | x => x

/-- The same for what a method does. -/
def outWith (f : Nat → Nat) : AOut → AOut
  | .new x => .new (objWith f x)
  | .step x v => .step (objWith f x) v
  | r => r

theorem items_with (f : Nat → Nat) (x : AObj) : (objWith f x).items = x.items := by cases x <;> rfl

theorem item_with (f : Nat → Nat) (l : List PyVal) (idx : Int) : outWith f (.item l idx) = .item l idx := by
  unfold AOut.item
  split
  · rfl
  · split
    · cases l[idx.toNat]? <;> rfl
    · split
      · rfl
      · cases l[l.length - max (idx.natAbs % l.length) 1]? <;> rfl

theorem text_with (f : Nat → Nat) (r : Res (List Char)) : outWith f (.text r) = .text r := by
  cases r with
  | ok s => unfold AOut.text; simp only; split <;> rfl
  | err e => rfl
  | panic => rfl

theorem bytes_with (f : Nat → Nat) (r : Res Bytes) : outWith f (.bytes r) = .bytes r := by cases r <;> rfl

theorem made_with {α : Type} (f : Nat → Nat) {c : α → AObj} (hc : ∀ x, objWith f (c x) = c x) (r : Res α) :
    outWith f (.made c r) = .made c r := by
  cases r with
  | ok x => exact congrArg AOut.new (hc x)
  | err e => rfl
  | panic => rfl

/-- What a method does when all objects have other numbers. -/
theorem means_with {f : Nat → Nat} {a L : AWorld} {E : Ctx} (i : Nat) (x : AObj) (m : Method)
    (hx : ∀ l p, x = .iter l p → L[f l]?.join = a[l]?.join.map (objWith f)) :
    (objWith f x).means E L (f i) m = outWith f (x.means E a i m) := by
  cases x with
  | graph g =>
    cases m
    case bytes => exact (bytes_with f _).symm
    case matrixString => exact (text_with f _).symm
    case findAvgPoolMatrix b => exact (made_with f (c := .matrix) (fun _ => rfl) _).symm
    case approximate b t => exact (made_with f (c := .graph) (fun _ => rfl) _).symm
    case compress l => exact (made_with f (c := .cgraph) (fun _ => rfl) _).symm
    all_goals rfl
  | cgraph g =>
    cases m
    case bytes => exact (bytes_with f _).symm
    case matrixString => exact (text_with f _).symm
    case decompress => exact (made_with f (c := .graph) (fun _ => rfl) _).symm
    all_goals rfl
  | matrix m' =>
    cases m
    case str => exact (text_with f _).symm
    case toString d => exact (text_with f _).symm
    all_goals rfl
  | edges l =>
    cases m
    case getitem idx => exact (item_with f _ _).symm
    all_goals rfl
  | vertices l =>
    cases m
    case getitem idx => exact (item_with f _ _).symm
    all_goals rfl
  | entries l =>
    cases m
    case getitem idx => exact (item_with f _ _).symm
    all_goals rfl
  | iter l p =>
    cases m
    case next =>
      have := hx l p rfl
      simp only [objWith, AObj.means, this, Option.bind_map]
      have he : (AObj.items ∘ objWith f) = AObj.items := funext fun x => items_with f x
      rw [he]
      cases (a[l]?.join).bind AObj.items with
      | none => rfl
      | some xs => cases h : xs[p]? <;> simp only [h] <;> rfl
    all_goals rfl

/-- No method returns a number of an object other than of a new one. -/
def NoRef : AOut → Prop
  | .val v => newRef (.value v) = none
  | .step _ v => newRef (.value v) = none
  | _ => True

theorem items_noref {x : AObj} {xs : List PyVal} (h : x.items = some xs) {v : PyVal} (hv : v ∈ xs) : newRef (.value v) = none := by
  cases x <;> simp only [AObj.items, Option.some.injEq] at h
  all_goals first
    | (subst h; rw [List.mem_map] at hv; obtain ⟨y, -, rfl⟩ := hv; rfl)
    | cases h

theorem item_noref {l : List PyVal} (h : ∀ v ∈ l, newRef (.value v) = none) (idx : Int) : NoRef (.item l idx) := by
  unfold AOut.item
  split
  · trivial
  · split
    · cases e : l[idx.toNat]? with
      | none => trivial
      | some v => exact h v (List.mem_of_getElem? e)
    · split
      · trivial
      · cases e : l[l.length - max (idx.natAbs % l.length) 1]? with
        | none => trivial
        | some v => exact h v (List.mem_of_getElem? e)

theorem text_noref (r : Res (List Char)) : NoRef (.text r) := by
  cases r with
  | ok s => unfold AOut.text; simp only; split <;> trivial
  | err e => trivial
  | panic => trivial

theorem bytes_noref (r : Res Bytes) : NoRef (.bytes r) := by cases r <;> first | rfl | trivial

theorem made_noref {α : Type} (c : α → AObj) (r : Res α) : NoRef (.made c r) := by cases r <;> trivial

theorem means_noref (E : Ctx) (a : AWorld) (i : Nat) (x : AObj) (m : Method) : NoRef (x.means E a i m) := by
  cases x with
  | graph g =>
    cases m
    case bytes => exact bytes_noref _
    case matrixString => exact text_noref _
    case findAvgPoolMatrix b => exact made_noref _ _
    case approximate b t => exact made_noref _ _
    case compress l => exact made_noref _ _
    all_goals first | rfl | trivial
  | cgraph g =>
    cases m
    case bytes => exact bytes_noref _
    case matrixString => exact text_noref _
    case decompress => exact made_noref _ _
    all_goals first | rfl | trivial
  | matrix m' =>
    cases m
    case str => exact text_noref _
    case toString d => exact text_noref _
    all_goals first | rfl | trivial
  | edges l =>
    cases m
    case getitem idx => exact item_noref (fun v hv => items_noref (x := .edges l) rfl hv) _
    all_goals first | rfl | trivial
  | vertices l =>
    cases m
    case getitem idx => exact item_noref (fun v hv => items_noref (x := .vertices l) rfl hv) _
    all_goals first | rfl | trivial
  | entries l =>
    cases m
    case getitem idx => exact item_noref (fun v hv => items_noref (x := .entries l) rfl hv) _
    all_goals first | rfl | trivial
  | iter l p =>
    cases m
    case next =>
      simp only [AObj.means]
      cases e : (a[l]?.join).bind AObj.items with
      | none => trivial
      | some xs =>
        cases h : xs[p]? with
        | none => simp only [h]; trivial
        | some v =>
          simp only [h]
          obtain ⟨y, -, hy⟩ := Option.bind_eq_some_iff.1 e
          exact items_noref hy (List.mem_of_getElem? h)
    all_goals trivial

/-- Iterators are made for the list whose method is called, and keep their list. -/
def IterOk (i : Nat) (x : AObj) : AOut → Prop
  | .new (.iter l _) => l = i
  | .step (.iter l _) _ => ∃ p, x = .iter l p
  | _ => True

theorem text_iterOk (i : Nat) (x : AObj) (r : Res (List Char)) : IterOk i x (.text r) := by
  cases r with
  | ok s => unfold AOut.text; simp only; split <;> trivial
  | err e => trivial
  | panic => trivial

theorem item_iterOk (i : Nat) (x : AObj) (l : List PyVal) (idx : Int) : IterOk i x (.item l idx) := by
  unfold AOut.item
  split
  · trivial
  · split
    · cases l[idx.toNat]? <;> trivial
    · split
      · trivial
      · cases l[l.length - max (idx.natAbs % l.length) 1]? <;> trivial

theorem bytes_iterOk (i : Nat) (x : AObj) (r : Res Bytes) : IterOk i x (.bytes r) := by cases r <;> trivial

theorem made_iterOk {α : Type} (i : Nat) (x : AObj) {c : α → AObj} (hc : ∀ y l p, c y ≠ .iter l p) (r : Res α) :
    IterOk i x (.made c r) := by
  cases r with
  | ok y =>
    show IterOk i x (.new (c y))
    have := hc y
    cases h : c y with
    | iter l p => exact absurd h (this l p)
    | _ => trivial
  | err e => trivial
  | panic => trivial

theorem means_iterOk (E : Ctx) (a : AWorld) (i : Nat) (x : AObj) (m : Method) : IterOk i x (x.means E a i m) := by
  cases x with
  | graph g =>
    cases m
    case bytes => exact bytes_iterOk _ _ _
    case matrixString => exact text_iterOk _ _ _
    case findAvgPoolMatrix b => exact made_iterOk _ _ (by intro y l p h; cases h) _
    case approximate b t => exact made_iterOk _ _ (by intro y l p h; cases h) _
    case compress l => exact made_iterOk _ _ (by intro y l p h; cases h) _
    all_goals first | rfl | trivial
  | cgraph g =>
    cases m
    case bytes => exact bytes_iterOk _ _ _
    case matrixString => exact text_iterOk _ _ _
    case decompress => exact made_iterOk _ _ (by intro y l p h; cases h) _
    all_goals first | rfl | trivial
  | matrix m' =>
    cases m
    case str => exact text_iterOk _ _ _
    case toString d => exact text_iterOk _ _ _
    all_goals first | rfl | trivial
  | edges l =>
    cases m
    case getitem idx => exact item_iterOk _ _ _ _
    all_goals first | rfl | trivial
  | vertices l =>
    cases m
    case getitem idx => exact item_iterOk _ _ _ _
    all_goals first | rfl | trivial
  | entries l =>
    cases m
    case getitem idx => exact item_iterOk _ _ _ _
    all_goals first | rfl | trivial
  | iter l p =>
    cases m
    case next =>
      simp only [AObj.means]
      cases (a[l]?.join).bind AObj.items with
      | none => trivial
      | some xs =>
        cases h : xs[p]? with
        | none => simp only [h]; trivial
        | some v => simp only [h]; exact ⟨p, rfl⟩
    all_goals trivial

/-! ### The objects of a part -/

/-- `L` are the objects of part `k` among `a`. -/
structure Loc (O : List Nat) (k : Nat) (a L : AWorld) : Prop where
  len : L.length = ownNumber O k a.length
  at' : ∀ i, i < a.length → O[i]? = some k → L[ownNumber O k i]? = a[i]?.map (Option.map (objWith (ownNumber O k)))

/-- `L k` are the objects of part `k`. -/
structure Worlds (O : List Nat) (a : AWorld) (L : Nat → AWorld) : Prop where
  lists : ∀ (i l p : Nat), a[i]? = some (some (AObj.iter l p)) → l < a.length ∧ O[l]? = O[i]?
  loc : ∀ k, Loc O k a (L k)

variable {O : List Nat} {a : AWorld} {L : Nat → AWorld}

theorem Worlds.lookup (W : Worlds O a L) (hO : a.length ≤ O.length) {k i : Nat} (hs : ∀ j, O[i]? = some j → j = k) :
    (L k)[ownNumber O k i]?.join = a[i]?.join.map (objWith (ownNumber O k)) := by
  by_cases hi : i < a.length
  · have : O[i]? = some k := by
      rw [List.getElem?_eq_getElem (by omega)]
      rw [hs _ (List.getElem?_eq_getElem (by omega))]
    rw [(W.loc k).at' i hi this]
    cases h : a[i]? with
    | none => rfl
    | some y => rfl
  · rw [List.getElem?_eq_none (l := a) (by omega), List.getElem?_eq_none]
    · rfl
    · rw [(W.loc k).len]
      exact ownNumber_mono O k (by omega)

theorem Worlds.set (W : Worlds O a L) {k i : Nat} (hi : i < a.length) (hk : O[i]? = some k) {y : Option AObj}
    (hy : ∀ l p, y = some (.iter l p) → l < a.length ∧ O[l]? = some k) :
    Worlds O (a.set i y) (Function.update L k ((L k).set (ownNumber O k i) (y.map (objWith (ownNumber O k))))) := by
  refine ⟨fun j l p h => ?_, fun k' => ?_⟩
  · rw [List.length_set]
    by_cases hj : i = j
    · subst hj
      rw [List.getElem?_set_self hi] at h
      rw [hk]
      exact hy l p (Option.some.inj h)
    · rw [List.getElem?_set_ne hj] at h
      exact W.lists j l p h
  · by_cases hk' : k' = k
    · subst hk'
      rw [Function.update_self]
      refine ⟨by rw [List.length_set, List.length_set]; exact (W.loc k').len, fun j hj hjk => ?_⟩
      rw [List.length_set] at hj
      by_cases he : i = j
      · subst he
        rw [List.getElem?_set_self hi, List.getElem?_set_self]
        · rfl
        · rw [(W.loc k').len]
          exact ownNumber_lt hk hi
      · rw [List.getElem?_set_ne he, List.getElem?_set_ne fun h => he (ownNumber_inj hk hjk h)]
        exact (W.loc k').at' j hj hjk
    · rw [Function.update_of_ne hk']
      refine ⟨by rw [List.length_set]; exact (W.loc k').len, fun j hj hjk => ?_⟩
      rw [List.length_set] at hj
      have he : i ≠ j := by
        rintro rfl
        rw [hk] at hjk
        exact hk' (Option.some.inj hjk).symm
      rw [List.getElem?_set_ne he]
      exact (W.loc k').at' j hj hjk

theorem Worlds.push (W : Worlds O a L) {k : Nat} (hk : O[a.length]? = some k) {x : AObj}
    (hx : ∀ l p, x = .iter l p → l < a.length ∧ O[l]? = some k) :
    Worlds O (a ++ [some x]) (Function.update L k (L k ++ [some (objWith (ownNumber O k) x)])) := by
  refine ⟨fun j l p h => ?_, fun k' => ?_⟩
  · rw [List.length_append, List.length_singleton]
    by_cases hj : j < a.length
    · rw [List.getElem?_append_left hj] at h
      obtain ⟨h1, h2⟩ := W.lists j l p h
      exact ⟨by omega, h2⟩
    · have hj2 : j = a.length := by
        have := (List.getElem?_eq_some_iff.1 h).1
        rw [List.length_append, List.length_singleton] at this
        omega
      subst hj2
      rw [List.getElem?_concat_length] at h
      obtain ⟨h1, h2⟩ := hx l p (Option.some.inj (Option.some.inj h))
      exact ⟨by omega, by rw [h2, hk]⟩
  · have hlen : (a ++ [some x]).length = a.length + 1 := by rw [List.length_append, List.length_singleton]
    by_cases hk' : k' = k
    · subst hk'
      rw [Function.update_self]
      refine ⟨?_, fun j hj hjk => ?_⟩
      · rw [hlen, ownNumber_succ_own hk, List.length_append, List.length_singleton, (W.loc k').len]
      · rw [hlen] at hj
        by_cases he : j < a.length
        · rw [List.getElem?_append_left he, List.getElem?_append_left]
          · exact (W.loc k').at' j he hjk
          · rw [(W.loc k').len]
            exact ownNumber_lt hjk he
        · have : j = a.length := by omega
          subst this
          rw [List.getElem?_concat_length, ← (W.loc k').len, List.getElem?_concat_length]
          rfl
    · rw [Function.update_of_ne hk']
      have hne : O[a.length]? ≠ some k' := by
        rw [hk]
        exact fun h => hk' (Option.some.inj h).symm
      refine ⟨?_, fun j hj hjk => ?_⟩
      · rw [hlen, ownNumber_succ_other hne]
        exact (W.loc k').len
      · rw [hlen] at hj
        have he : j < a.length := by
          rcases Nat.lt_succ_iff_lt_or_eq.1 hj with h | h
          · exact h
          · subst h; exact absurd hjk hne
        rw [List.getElem?_append_left he]
        exact (W.loc k').at' j he hjk

theorem Worlds.iterated (W : Worlds O a L) {k i : Nat} (hk : O[i]? = some k) :
    a.iterated i ↔ (L k).iterated (ownNumber O k i) := by
  constructor
  · rintro ⟨p, hp⟩
    obtain ⟨j, hj⟩ := List.mem_iff_getElem?.1 hp
    obtain ⟨-, h2⟩ := W.lists j i p hj
    have hjl : j < a.length := (List.getElem?_eq_some_iff.1 hj).1
    have := (W.loc k).at' j hjl (h2.symm.trans hk)
    rw [hj] at this
    exact ⟨p, List.mem_of_getElem? this⟩
  · rintro ⟨p, hp⟩
    obtain ⟨q, hq⟩ := List.mem_iff_getElem?.1 hp
    have hql : q < (L k).length := (List.getElem?_eq_some_iff.1 hq).1
    rw [(W.loc k).len] at hql
    obtain ⟨j, hj, hjk, rfl⟩ := ownNumber_surj hql
    rw [(W.loc k).at' j hj hjk] at hq
    obtain ⟨y, hy, hy2⟩ := Option.map_eq_some_iff.1 hq
    obtain ⟨x, rfl, hx2⟩ := Option.map_eq_some_iff.1 hy2
    cases x with
    | iter l p' =>
      simp only [objWith, AObj.iter.injEq] at hx2
      obtain ⟨h1, h2⟩ := W.lists j l p' hy
      have : l = i := ownNumber_inj (h2.trans hjk) hk hx2.1
      subst this
      exact ⟨p', List.mem_of_getElem? hy⟩
    | _ => cases hx2

/-! ### One step -/

/-- How the steps of the whole program and of part `k` alone are related. -/
def SameStep (O : List Nat) (a : AWorld) (L : Nat → AWorld) (k : Nat) (r r' : AStep) : Prop :=
  (r = .panics ∧ r' = .panics) ∨
  (∃ e, r = .raises e a ∧ r' = .raises e (L k)) ∨
  (∃ v a1 L1, newRef (.value v) = none ∧ r = .ret v a1 ∧ r' = .ret v L1 ∧ a1.length = a.length ∧
    Worlds O a1 (Function.update L k L1)) ∨
  (∃ x, r = .ret (.ref a.length) (a ++ [some x]) ∧
    r' = .ret (.ref (L k).length) (L k ++ [some (objWith (ownNumber O k) x)]) ∧
    (O[a.length]? = some k → Worlds O (a ++ [some x]) (Function.update L k (L k ++ [some (objWith (ownNumber O k) x)]))))

theorem apply_sameStep (W : Worlds O a L) {k i : Nat} {r : AOut} (hn : NoRef r)
    (hnew : ∀ l p, r = .new (.iter l p) → l < a.length ∧ O[l]? = some k)
    (hstep : ∀ y v, r = .step y v → i < a.length ∧ O[i]? = some k ∧ ∀ l p, y = .iter l p → l < a.length ∧ O[l]? = some k) :
    SameStep O a L k (r.apply a i) ((outWith (ownNumber O k) r).apply (L k) (ownNumber O k i)) := by
  cases r with
  | val v =>
    refine .inr (.inr (.inl ⟨v, a, L k, hn, rfl, rfl, rfl, ?_⟩))
    rw [Function.update_eq_self]
    exact W
  | new x =>
    refine .inr (.inr (.inr ⟨x, rfl, rfl, fun hk => W.push hk fun l p h => hnew l p (by rw [h])⟩))
  | step x v =>
    obtain ⟨h1, h2, h3⟩ := hstep x v rfl
    exact .inr (.inr (.inl ⟨v, _, _, hn, rfl, rfl, List.length_set, W.set h1 h2 (y := some x)
      fun l p h => h3 l p (Option.some.inj h)⟩))
  | raises e => exact .inr (.inl ⟨e, rfl, rfl⟩)
  | panics => exact .inl ⟨rfl, rfl⟩

theorem decoded_with {α : Type} (f : Nat → Nat) {c : α → AObj} (hc : ∀ x, objWith f (c x) = c x) (r : Res α) :
    outWith f (.decoded c r) = .decoded c r := by
  cases r with
  | ok x => exact congrArg AOut.new (hc x)
  | err e => rfl
  | panic => rfl

theorem decoded_sameStep {α : Type} (W : Worlds O a L) {k : Nat} {c : α → AObj} (hc : ∀ f x, objWith f (c x) = c x)
    (hi : ∀ x l p, c x ≠ .iter l p) (r : Res α) :
    SameStep O a L k ((AOut.decoded c r).apply a a.length) ((AOut.decoded c r).apply (L k) (L k).length) := by
  have := apply_sameStep W (k := k) (i := a.length) (r := .decoded c r) (by cases r <;> trivial)
    (by
      intro l p h
      cases r with
      | ok x => exact absurd (AOut.new.inj h) (hi x l p)
      | err e => cases h
      | panic => cases h)
    (by intro y v h; cases r <;> cases h)
  rw [decoded_with _ (hc _), ← (W.loc k).len] at this
  exact this

/-- A call of part `k` does in the whole program what it does when the part is alone. -/
theorem part_step (W : Worlds O a L) (hO : a.length ≤ O.length) (E : Ctx) {c : PyCall} {k : Nat}
    (hs : ∀ i, usedObject c = some i → ∀ j, O[i]? = some j → j = k) :
    SameStep O a L k (pyStep E c a) (pyStep E (callWith (ownNumber O k) c) (L k)) := by
  have hown : ∀ i, usedObject c = some i → ∀ x, a[i]?.join = some x → i < a.length ∧ O[i]? = some k ∧ a[i]? = some (some x) := by
    intro i hi x hx
    have h1 := Option.join_eq_some_iff.1 hx
    have h2 : i < a.length := (List.getElem?_eq_some_iff.1 h1).1
    refine ⟨h2, ?_, h1⟩
    rw [List.getElem?_eq_getElem (by omega)]
    rw [hs i hi _ (List.getElem?_eq_getElem (by omega))]
  cases c with
  | newGraph u =>
    have := apply_sameStep W (k := k) (i := a.length) (r := .new (.graph (if u then Graph.newUndirected else Graph.newDirected)))
      trivial (by intro l p h; cases h) (by intro y v h; cases h)
    rw [← (W.loc k).len] at this
    exact this
  | graphFromBytes b => exact decoded_sameStep W (fun _ _ => rfl) (by intro x l p h; cases h) _
  | cgraphFromBytes b => exact decoded_sameStep W (fun _ _ => rfl) (by intro x l p h; cases h) _
  | call i m =>
    have hl := W.lookup hO (hs i rfl)
    simp only [pyStep, callWith, hl]
    cases hx : a[i]?.join with
    | none => exact .inr (.inl ⟨_, rfl, rfl⟩)
    | some x =>
      obtain ⟨h1, h2, h3⟩ := hown i rfl x hx
      have hit : ∀ l p, x = .iter l p → l < a.length ∧ O[l]? = some k := by
        rintro l p rfl
        obtain ⟨h4, h5⟩ := W.lists i l p h3
        exact ⟨h4, h5.trans h2⟩
      have hm := means_with (f := ownNumber O k) (a := a) (L := L k) (E := E) i x m (by
        rintro l p rfl
        refine W.lookup hO fun j hj => ?_
        rw [(hit l p rfl).2] at hj
        exact (Option.some.inj hj).symm)
      simp only [Option.map_some, hm]
      have hok := means_iterOk E a i x m
      refine apply_sameStep W (means_noref E a i x m) ?_ ?_
      · intro l p h
        rw [h] at hok
        have : l = i := hok
        subst this
        exact ⟨h1, h2⟩
      · intro y v h
        refine ⟨h1, h2, ?_⟩
        rintro l p rfl
        rw [h] at hok
        obtain ⟨p', hp'⟩ := hok
        exact hit l p' hp'
  | collect i =>
    have hl := W.lookup hO (hs i rfl)
    simp only [pyStep, callWith, hl]
    cases hx : a[i]?.join with
    | none => exact .inr (.inl ⟨_, rfl, rfl⟩)
    | some x =>
      obtain ⟨h1, h2, -⟩ := hown i rfl x hx
      simp only [Option.map_some]
      have hit := W.iterated h2
      by_cases hi : a.iterated i
      · rw [if_pos hi, if_pos (hit.1 hi)]
        refine .inr (.inr (.inl ⟨.none, a, L k, rfl, rfl, rfl, rfl, ?_⟩))
        rw [Function.update_eq_self]
        exact W
      · rw [if_neg hi, if_neg fun h => hi (hit.2 h)]
        exact .inr (.inr (.inl ⟨.none, _, _, rfl, rfl, rfl, List.length_set, W.set h1 h2 (y := none) (by intro l p h; cases h)⟩))

/-! ### Executions -/

theorem arun_cons {a a'' : AWorld} {s : Ctx × PyCall × Seen} {t : List (Ctx × PyCall × Seen)} : ARun a (s :: t) a'' ↔
    ∃ a', ((∃ v, s.2.2 = .value v ∧ pyStep s.1 s.2.1 a = .ret v a') ∨ (∃ e, s.2.2 = .exception e ∧ pyStep s.1 s.2.1 a = .raises e a')) ∧
      ARun a' t a'' := by
  constructor
  · intro h
    cases h with
    | ret h1 h2 => exact ⟨_, .inl ⟨_, rfl, h1⟩, h2⟩
    | raises h1 h2 => exact ⟨_, .inr ⟨_, rfl, h1⟩, h2⟩
  · rintro ⟨a', ⟨v, h1, h2⟩ | ⟨v, h1, h2⟩, h3⟩ <;> obtain ⟨E, c, sn⟩ := s <;> cases h1
    · exact .ret h2 h3
    · exact .raises h2 h3

/-- The steps of part `k`; objects were created by the parts `O`. -/
def stepsIn (O : List Nat) (t : Parted) (k : Nat) : List (Ctx × PyCall × Seen) :=
  (t.filter fun s => s.1 == k).map fun s => (s.2.1, callWith (ownNumber O k) s.2.2.1, seenWith (ownNumber O k) s.2.2.2)

theorem stepsIn_own (O : List Nat) (s : Nat × Ctx × PyCall × Seen) (t : Parted) :
    stepsIn O (s :: t) s.1 = (s.2.1, callWith (ownNumber O s.1) s.2.2.1, seenWith (ownNumber O s.1) s.2.2.2) :: stepsIn O t s.1 := by
  simp [stepsIn]

theorem stepsIn_other (O : List Nat) {s : Nat × Ctx × PyCall × Seen} (t : Parted) {k : Nat} (h : k ≠ s.1) :
    stepsIn O (s :: t) k = stepsIn O t k := by
  have : (s.1 == k) = false := beq_false_of_ne (Ne.symm h)
  simp [stepsIn, this]

theorem seenWith_value {f : Nat → Nat} {s : Seen} {v : PyVal} (h : seenWith f s = .value v) (hv : newRef (.value v) = none) :
    s = .value v := by
  cases s with
  | exception e => exact h
  | value u =>
    cases u
    case ref n => cases h; cases hv
    all_goals exact h

theorem seenWith_ref {f : Nat → Nat} {s : Seen} {n : Nat} (h : seenWith f s = .value (.ref n)) : ∃ m, s = .value (.ref m) := by
  cases s with
  | exception e => cases h
  | value u =>
    cases u
    case ref m => exact ⟨m, rfl⟩
    all_goals cases h

theorem seenWith_exception {f : Nat → Nat} {s : Seen} {e : PyExc} (h : seenWith f s = .exception e) : s = .exception e := by
  cases s with
  | exception e => exact h
  | value u => cases u <;> cases h

theorem seenWith_same {f : Nat → Nat} {v : PyVal} (hv : newRef (.value v) = none) : seenWith f (.value v) = .value v := by
  cases v
  case ref n => cases hv
  all_goals rfl

theorem parts_iff (O : List Nat) (t : Parted) : ∀ (o : List Nat) (a : AWorld) (L : Nat → AWorld), O = o ++ creators t → a.length = o.length →
    Worlds O a L → (∀ s ∈ t, ∀ i, usedObject s.2.2.1 = some i → ∀ j, O[i]? = some j → j = s.1) →
    ((∃ a', ARun a (t.map Prod.snd) a') ↔
      t.filterMap (fun s => newRef s.2.2.2) = List.range' a.length (creators t).length ∧ ∀ k, ∃ L', ARun (L k) (stepsIn O t k) L') := by
  induction t with
  | nil =>
    intro o a L _ _ _ _
    exact ⟨fun _ => ⟨rfl, fun k => ⟨_, .nil⟩⟩, fun _ => ⟨_, .nil⟩⟩
  | cons s t ih =>
    intro o a L hO hlen W hs
    have hle : a.length ≤ O.length := by rw [hO, hlen, List.length_append]; omega
    have hstep := part_step W hle s.2.1 (c := s.2.2.1) (k := s.1) (hs s (List.mem_cons_self ..))
    have hs' : ∀ s ∈ t, ∀ i, usedObject s.2.2.1 = some i → ∀ j, O[i]? = some j → j = s.1 := fun s h => hs s (List.mem_cons_of_mem _ h)
    -- a step without a new object
    have other : ∀ {a1 : AWorld} {L1 : AWorld}, newRef s.2.2.2 = none → a1.length = a.length → Worlds O a1 (Function.update L s.1 L1) →
        ((∃ a', ARun a1 (t.map Prod.snd) a') ↔
          (s :: t).filterMap (fun s => newRef s.2.2.2) = List.range' a.length (creators (s :: t)).length ∧
          (∃ L', ARun L1 (stepsIn O t s.1) L') ∧ ∀ k, k ≠ s.1 → ∃ L', ARun (L k) (stepsIn O (s :: t) k) L') := by
      intro a1 L1 hn hl W1
      have hc : creators (s :: t) = creators t := by simp [creators, hn]
      rw [hc, List.filterMap_cons_none (f := fun s : Nat × Ctx × PyCall × Seen => newRef s.2.2.2) hn, ih o a1 _ (hO.trans (by rw [hc])) (hl.trans hlen) W1 hs', hl]
      refine and_congr_right fun _ => ⟨fun h => ⟨?_, fun k hk => ?_⟩, fun h k => ?_⟩
      · have := h s.1
        rwa [Function.update_self] at this
      · have := h k
        rw [Function.update_of_ne hk] at this
        rwa [stepsIn_other O t hk]
      · by_cases hk : k = s.1
        · subst hk
          rw [Function.update_self]
          exact h.1
        · rw [Function.update_of_ne hk]
          have := h.2 k hk
          rwa [stepsIn_other O t hk] at this
    -- a step with a new object
    have fresh : ∀ {x : AObj} {n : Nat}, newRef s.2.2.2 = some n →
        (O[a.length]? = some s.1 → Worlds O (a ++ [some x]) (Function.update L s.1 (L s.1 ++ [some (objWith (ownNumber O s.1) x)]))) →
        ((n = a.length ∧ ∃ a', ARun (a ++ [some x]) (t.map Prod.snd) a') ↔
          (s :: t).filterMap (fun s => newRef s.2.2.2) = List.range' a.length (creators (s :: t)).length ∧
          (∃ L', ARun (L s.1 ++ [some (objWith (ownNumber O s.1) x)]) (stepsIn O t s.1) L') ∧
          ∀ k, k ≠ s.1 → ∃ L', ARun (L k) (stepsIn O (s :: t) k) L') := by
      intro x n hn W1
      have hc : creators (s :: t) = s.1 :: creators t := by simp [creators, hn]
      have hO' : O = (o ++ [s.1]) ++ creators t := by rw [hO, hc]; simp
      have hl : (a ++ [some x]).length = a.length + 1 := by rw [List.length_append, List.length_singleton]
      have hk : O[a.length]? = some s.1 := by
        rw [hO', hlen, List.append_assoc, List.getElem?_append_right (Nat.le_refl _), Nat.sub_self]
        rfl
      rw [hc, List.filterMap_cons_some (f := fun s : Nat × Ctx × PyCall × Seen => newRef s.2.2.2) hn, List.length_cons, List.range'_succ, List.cons.injEq,
        ih (o ++ [s.1]) _ _ hO' (by simp [hlen]) (W1 hk) hs', hl, and_assoc]
      refine and_congr_right fun _ => and_congr_right fun _ => ⟨fun h => ⟨?_, fun k hk => ?_⟩, fun h k => ?_⟩
      · have := h s.1
        rwa [Function.update_self] at this
      · have := h k
        rw [Function.update_of_ne hk] at this
        rwa [stepsIn_other O t hk]
      · by_cases hk : k = s.1
        · subst hk
          rw [Function.update_self]
          exact h.1
        · rw [Function.update_of_ne hk]
          have := h.2 k hk
          rwa [stepsIn_other O t hk] at this
    have split : ∀ {P : Nat → Prop}, (∀ k, P k) ↔ P s.1 ∧ ∀ k, k ≠ s.1 → P k :=
      fun {P} => ⟨fun h => ⟨h _, fun k _ => h k⟩, fun h k => (em (k = s.1)).elim (fun e => e ▸ h.1) (h.2 k)⟩
    rw [split (P := fun k => ∃ L', ARun (L k) (stepsIn O (s :: t) k) L'), stepsIn_own, List.map_cons]
    rcases hstep with ⟨h1, h2⟩ | ⟨e, h1, h2⟩ | ⟨v, a1, L1, hv, h1, h2, hl, W1⟩ | ⟨x, h1, h2, W1⟩
    · constructor
      · rintro ⟨a', h⟩
        obtain ⟨b, ⟨v, -, h⟩ | ⟨v, -, h⟩, -⟩ := arun_cons.1 h <;> rw [h1] at h <;> cases h
      · rintro ⟨-, ⟨a', h⟩, -⟩
        obtain ⟨b, ⟨v, -, h⟩ | ⟨v, -, h⟩, -⟩ := arun_cons.1 h <;> rw [h2] at h <;> cases h
    · constructor
      · rintro ⟨a', h⟩
        obtain ⟨b, ⟨v, -, h⟩ | ⟨v, hv, h⟩, hr⟩ := arun_cons.1 h <;> rw [h1] at h <;> cases h
        obtain ⟨g1, ⟨L', g2⟩, g3⟩ := (other (by rw [hv]; rfl) rfl (by rw [Function.update_eq_self]; exact W)).1 ⟨a', hr⟩
        exact ⟨g1, ⟨L', arun_cons.2 ⟨L s.1, .inr ⟨e, by show seenWith _ s.2.2.2 = _; rw [hv]; rfl, h2⟩, g2⟩⟩, g3⟩
      · rintro ⟨g1, ⟨a', h⟩, g3⟩
        obtain ⟨b, ⟨v, -, h⟩ | ⟨v, hv, h⟩, hr⟩ := arun_cons.1 h <;> rw [h2] at h <;> cases h
        have hv := seenWith_exception hv
        obtain ⟨a2, h3⟩ := (other (by rw [hv]; rfl) rfl (by rw [Function.update_eq_self]; exact W)).2 ⟨g1, ⟨a', hr⟩, g3⟩
        exact ⟨a2, arun_cons.2 ⟨a, .inr ⟨e, hv, h1⟩, h3⟩⟩
    · constructor
      · rintro ⟨a', h⟩
        obtain ⟨b, ⟨u, hu, h⟩ | ⟨u, -, h⟩, hr⟩ := arun_cons.1 h <;> rw [h1] at h <;> cases h
        obtain ⟨g1, ⟨L', g2⟩, g3⟩ := (other (by rw [hu]; exact hv) hl W1).1 ⟨a', hr⟩
        exact ⟨g1, ⟨L', arun_cons.2 ⟨L1, .inl ⟨v, by show seenWith _ s.2.2.2 = _; rw [hu]; exact seenWith_same hv, h2⟩, g2⟩⟩, g3⟩
      · rintro ⟨g1, ⟨a', h⟩, g3⟩
        obtain ⟨b, ⟨u, hu, h⟩ | ⟨u, -, h⟩, hr⟩ := arun_cons.1 h <;> rw [h2] at h <;> cases h
        have hu := seenWith_value hu hv
        obtain ⟨a2, h3⟩ := (other (by rw [hu]; exact hv) hl W1).2 ⟨g1, ⟨a', hr⟩, g3⟩
        exact ⟨a2, arun_cons.2 ⟨a1, .inl ⟨v, hu, h1⟩, h3⟩⟩
    · constructor
      · rintro ⟨a', h⟩
        obtain ⟨b, ⟨u, hu, h⟩ | ⟨u, -, h⟩, hr⟩ := arun_cons.1 h <;> rw [h1] at h <;> cases h
        obtain ⟨g1, ⟨L', g2⟩, g3⟩ := (fresh (by rw [hu]; rfl) W1).1 ⟨rfl, a', hr⟩
        refine ⟨g1, ⟨L', arun_cons.2 ⟨_, .inl ⟨_, ?_, h2⟩, g2⟩⟩, g3⟩
        show seenWith _ s.2.2.2 = _
        rw [hu, (W.loc s.1).len]
        rfl
      · rintro ⟨g1, ⟨a', h⟩, g3⟩
        obtain ⟨b, ⟨u, hu, h⟩ | ⟨u, -, h⟩, hr⟩ := arun_cons.1 h <;> rw [h2] at h <;> cases h
        obtain ⟨n, hu⟩ := seenWith_ref hu
        obtain ⟨rfl, a2, h3⟩ := (fresh (by rw [hu]; rfl) W1).2 ⟨g1, ⟨a', hr⟩, g3⟩
        exact ⟨a2, arun_cons.2 ⟨_, .inl ⟨_, hu, h1⟩, h3⟩⟩

/-- **C132, parts and whole.** When no part uses an object of another part, an interleaving of steps is an execution of the program iff
the objects are numbered in the order of creation and the steps of every part, with the part's own numbers, are an execution. -/
theorem C132_parts {t : Parted} (hs : Separate t) : (∃ w, PyRun PyWorld.start (t.map Prod.snd) w) ↔
    Numbered t ∧ ∀ k, ∃ w, PyRun PyWorld.start (pyPart t k) w := by
  rw [C72_traces]
  have := parts_iff (creators t) t [] [] (fun _ => []) rfl rfl
    ⟨by intro i l p h; simp at h, fun k => ⟨by simp [ownNumber], by intro i hi; simp at hi⟩⟩ hs
  rw [this]
  refine and_congr ?_ (forall_congr' fun k => ?_)
  · show _ ↔ _ = _
    rw [List.range_eq_range']
    rfl
  · rw [C72_traces]
    rfl

/-- **C132, alone.** Every part sees the values and exceptions that it would see alone. -/
theorem C132_alone {t : Parted} {w : PyWorld} (r : PyRun PyWorld.start (t.map Prod.snd) w) (hs : Separate t) (k : Nat) :
    ∃ w', PyRun PyWorld.start (pyPart t k) w' :=
  ((C132_parts hs).1 ⟨w, r⟩).2 k

/-- **C132, schedules.** In whatever order the steps of the parts are interleaved, the parts see the same. -/
theorem C132_schedules {t t' : Parted} (hs : Separate t) (hs' : Separate t') (hn : Numbered t') (hp : ∀ k, pyPart t k = pyPart t' k)
    {w : PyWorld} (r : PyRun PyWorld.start (t.map Prod.snd) w) : ∃ w', PyRun PyWorld.start (t'.map Prod.snd) w' :=
  (C132_parts hs').2 ⟨hn, fun k => hp k ▸ C132_alone r hs k⟩

/-- Part 0 creates an undirected graph, part 1 a directed one; both add an edge and count. -/
def exTwo : Parted :=
  [(0, exE, .newGraph true, .value (.ref 0)), (1, exE, .newGraph false, .value (.ref 1)),
   (1, exE, .call 1 (.addEdge 3 4), .value .none), (0, exE, .call 0 (.addEdge 1 2), .value .none),
   (1, exE, .call 1 .edgeCount, .value (.int 1)), (0, exE, .call 0 .edgeCount, .value (.int 2)),
   (1, exE, .call 7 .len, .exception .NameError)]

example : Separate exTwo ∧ Numbered exTwo ∧ (∃ w, PyRun PyWorld.start (exTwo.map Prod.snd) w) ∧
    pyPart exTwo 1 = [(exE, .newGraph false, .value (.ref 0)), (exE, .call 0 (.addEdge 3 4), .value .none),
      (exE, .call 0 .edgeCount, .value (.int 1)), (exE, .call 1 .len, .exception .NameError)] := by
  refine ⟨?_, rfl, (C72_traces _).2 ⟨_, .ret rfl (.ret rfl (.ret rfl (.ret rfl (.ret rfl (.ret rfl (.raises rfl .nil))))))⟩, rfl⟩
  intro s hs i hi j hj
  have hO : creators exTwo = [0, 1] := rfl
  rw [hO] at hj
  simp only [exTwo, List.mem_cons, List.not_mem_nil, or_false] at hs
  rcases hs with rfl | rfl | rfl | rfl | rfl | rfl | rfl <;> cases hi <;> cases hj <;> rfl

/-- **C132, sharing.** With shared objects this is false: part 1 adds an edge to the graph of part 0, which counts it. -/
theorem C132_sharing_matters : ∃ (t : Parted) (w : PyWorld), PyRun PyWorld.start (t.map Prod.snd) w ∧ Numbered t ∧ ¬ Separate t ∧
    ¬ ∃ w', PyRun PyWorld.start (pyPart t 0) w' := by
  let t : Parted := [(0, exE, .newGraph false, .value (.ref 0)), (1, exE, .call 0 (.addEdge 3 4), .value .none),
    (0, exE, .call 0 .edgeCount, .value (.int 1))]
  obtain ⟨w, hw⟩ := (C72_traces (t.map Prod.snd)).2 ⟨_, .ret rfl (.ret rfl (.ret rfl .nil))⟩
  have hno : ¬ ∃ w', PyRun PyWorld.start (pyPart t 0) w' := by
    rw [C72_traces]
    rintro ⟨a, h⟩
    obtain ⟨b, ⟨v, hv, h1⟩ | ⟨v, hv, h1⟩, h⟩ := arun_cons.1 h <;> cases hv
    cases h1
    obtain ⟨b, ⟨v, hv, h1⟩ | ⟨v, hv, h1⟩, h⟩ := arun_cons.1 h <;> cases hv
    exact absurd h1 (by intro h; injection h with h; injection h with h; exact absurd h (by decide +kernel))
  exact ⟨t, w, hw, rfl, fun hs => hno (C132_alone hw hs 0), hno⟩

end Verif.Props
