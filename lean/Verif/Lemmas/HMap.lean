import Verif.Model.Std
import Mathlib.Data.List.Nodup
import Mathlib.Data.List.Perm.Basic

/-! Lemmas about finite maps and the table iterator. -/

namespace Verif
namespace HMap

variable {V W : Type}

theorem lookup_eq_some_of_mem {l : List (Nat × V)} (hn : (l.map Prod.fst).Nodup) {k v}
    (h : (k, v) ∈ l) : lookup k l = some v := by
  induction l with
  | nil => simp at h
  | cons e l ih =>
    obtain ⟨k', v'⟩ := e
    simp only [List.map_cons, List.nodup_cons] at hn
    rcases List.mem_cons.1 h with h | h
    · cases h; simp [lookup]
    · have : k' ≠ k := by
        rintro rfl
        exact hn.1 (List.mem_map.2 ⟨_, h, rfl⟩)
      simp [lookup, this, ih hn.2 h]

theorem mem_of_lookup {l : List (Nat × V)} {k v} (h : lookup k l = some v) : (k, v) ∈ l := by
  induction l with
  | nil => simp [lookup] at h
  | cons e l ih =>
    obtain ⟨k', v'⟩ := e
    simp only [lookup] at h
    split at h
    · next hk => cases h; simp [hk]
    · exact List.mem_cons_of_mem _ (ih h)

theorem mem_entries_iff {m : HMap V} {k v} : (k, v) ∈ m.entries ↔ m.get? k = some v :=
  ⟨lookup_eq_some_of_mem m.nodup, mem_of_lookup⟩

@[simp] theorem get?_empty (k : Nat) : (empty : HMap V).get? k = none := rfl

theorem lookup_filter_ne {l : List (Nat × V)} {k k' : Nat} :
    lookup k' (l.filter (fun e => e.1 != k)) = if k' = k then none else lookup k' l := by
  induction l with
  | nil => simp [lookup]
  | cons e l ih =>
    obtain ⟨a, v⟩ := e
    by_cases h : a = k
    · subst h
      simp only [bne_self_eq_false, Bool.false_eq_true, not_false_eq_true, List.filter_cons_of_neg, ih, lookup]
      split
      · rfl
      · next h' => rw [if_neg (Ne.symm h')]
    · have hb : (a != k) = true := by simp [h]
      simp only [List.filter_cons, hb, if_true, lookup, ih]
      by_cases h2 : a = k'
      · subst h2; simp [h]
      · simp [h2]

theorem get?_remove (m : HMap V) (k k' : Nat) :
    (m.remove k).get? k' = if k' = k then none else m.get? k' := lookup_filter_ne

theorem get?_insert (m : HMap V) (k k' : Nat) (v : V) :
    (m.insert k v).get? k' = if k' = k then some v else m.get? k' := by
  have h := get?_remove m k k'
  unfold get? at *
  simp only [insert, lookup, h]
  by_cases h' : k = k'
  · simp [h']
  · rw [if_neg h', if_neg (Ne.symm h'), if_neg (Ne.symm h')]

theorem lookup_map {l : List (Nat × V)} {f : V → W} {k} :
    lookup k (l.map (fun e => (e.1, f e.2))) = (lookup k l).map f := by
  induction l with
  | nil => rfl
  | cons e l ih => obtain ⟨a, v⟩ := e; simp only [List.map_cons, lookup, ih]; split <;> rfl

theorem get?_mapValues (m : HMap V) (f : V → W) (k : Nat) :
    (m.mapValues f).get? k = (m.get? k).map f := lookup_map

theorem contains_iff {m : HMap V} {k} : m.contains k = true ↔ ∃ v, m.get? k = some v := by
  simp [contains, Option.isSome_iff_exists]

theorem mem_keys_iff {m : HMap V} {k} : k ∈ m.entries.map Prod.fst ↔ m.contains k = true := by
  rw [contains_iff]
  constructor
  · rintro h
    obtain ⟨⟨k', v⟩, hm, rfl⟩ := List.mem_map.1 h
    exact ⟨v, mem_entries_iff.1 hm⟩
  · rintro ⟨v, h⟩
    exact List.mem_map.2 ⟨(k, v), mem_entries_iff.2 h, rfl⟩

end HMap

/-- Lookup in a table of tables. -/
def get2 {V : Type} (t : HMap (HMap V)) (c r : Nat) : Option V := (t.get? c).bind (·.get? r)

/-- Flat enumeration of a table of tables, in storage order. -/
def flat {V : Type} (t : HMap (HMap V)) : List (Nat × Nat × V) :=
  t.entries.flatMap (fun e => e.2.entries.map (fun x => (e.1, x.1, x.2)))

/-- Flat enumeration in hash order `o`. -/
def flatO {V : Type} (o : HashOrder) (t : HMap (HMap V)) : List (Nat × Nat × V) :=
  (o.cols t.entries).flatMap (fun e => (o.rows e.1 e.2.entries).map (fun x => (e.1, x.1, x.2)))

section flat
variable {V : Type}

theorem mem_flat {t : HMap (HMap V)} {c r v} : (c, r, v) ∈ flat t ↔ get2 t c r = some v := by
  unfold flat get2
  simp only [List.mem_flatMap, List.mem_map, Prod.mk.injEq, Prod.exists, Option.bind_eq_some_iff]
  constructor
  · rintro ⟨c', rows, hc, r', v', hr, rfl, rfl, rfl⟩
    exact ⟨rows, HMap.mem_entries_iff.1 hc, HMap.mem_entries_iff.1 hr⟩
  · rintro ⟨rows, hc, hr⟩
    exact ⟨c, rows, HMap.mem_entries_iff.2 hc, r, v, HMap.mem_entries_iff.2 hr, rfl, rfl, rfl⟩

theorem flatO_perm (o : HashOrder) (t : HMap (HMap V)) : (flatO o t).Perm (flat t) := by
  unfold flatO flat
  refine (List.Perm.flatMap_right _ (o.cols_perm t.entries)).trans ?_
  apply List.Perm.flatMap_left
  intro e _
  exact (o.rows_perm e.1 e.2.entries).map _

theorem flat_keys_nodup (t : HMap (HMap V)) :
    ((flat t).map (fun x => (x.1, x.2.1))).Nodup := by
  unfold flat
  have h := t.nodup
  generalize t.entries = l at h
  induction l with
  | nil => simp
  | cons e l ih =>
    simp only [List.map_cons, List.nodup_cons] at h
    simp only [List.flatMap_cons, List.map_append, List.map_map, Function.comp_def]
    rw [List.nodup_append]
    refine ⟨?_, ih h.2, ?_⟩
    · have hn := e.2.nodup
      have : (e.2.entries.map (fun x => (e.1, x.1))) = (e.2.entries.map Prod.fst).map (fun r => (e.1, r)) := by
        simp [List.map_map, Function.comp_def]
      rw [this]
      exact hn.map (fun a b hab => (Prod.mk.inj hab).2)
    · intro a ha b hb hab
      subst hab
      obtain ⟨x, hx, rfl⟩ := List.mem_map.1 ha
      obtain ⟨y, hy, hy'⟩ := List.mem_map.1 hb
      obtain ⟨e', he', hy''⟩ := List.mem_flatMap.1 hy
      obtain ⟨z, hz, rfl⟩ := List.mem_map.1 hy''
      simp only [Prod.mk.injEq] at hy'
      exact h.1 (List.mem_map.2 ⟨e', he', hy'.1⟩)

theorem get2_insert (t : HMap (HMap V)) (c : Nat) (rows : HMap V) (c' r' : Nat) :
    get2 (t.insert c rows) c' r' = if c' = c then rows.get? r' else get2 t c' r' := by
  unfold get2
  rw [HMap.get?_insert]
  split <;> simp

end flat

namespace TableIter
variable {V : Type}

/-- What is still to come from an iterator state. -/
def pending (it : TableIter V) : List (Nat × Nat × V) :=
  if it.isEmptyMatrix then [] else
  (it.rowIter.getD []).map (fun x => (it.currCol, x.1, x.2)) ++
  it.colIter.flatMap (fun e => (it.order.rows e.1 e.2.entries).map (fun x => (e.1, x.1, x.2)))

theorem loop_spec (o : HashOrder) (cols : List (Nat × HMap V)) :
    ∀ (ri : Option (List (Nat × V))) (cur : Nat),
      match loop o false cols ri cur with
      | (none, it') => pending ⟨false, o, cols, ri, cur⟩ = [] ∧ pending it' = [] ∧ it'.isEmptyMatrix = false
      | (some x, it') => pending ⟨false, o, cols, ri, cur⟩ = x :: pending it' := by
  induction cols with
  | nil =>
    intro ri cur
    match ri with
    | none => simp [loop, pending]
    | some [] => simp [loop, pending]
    | some ((r, v) :: rest) => simp [loop, pending]
  | cons c cols ih =>
    intro ri cur
    match ri with
    | none =>
      have := ih (some (o.rows c.1 c.2.entries)) c.1
      have he : pending ⟨false, o, c :: cols, none, cur⟩ = pending ⟨false, o, cols, some (o.rows c.1 c.2.entries), c.1⟩ := by
        simp [pending]
      rw [he]; exact this
    | some [] =>
      have := ih (some (o.rows c.1 c.2.entries)) c.1
      have he : pending ⟨false, o, c :: cols, some [], cur⟩ = pending ⟨false, o, cols, some (o.rows c.1 c.2.entries), c.1⟩ := by
        simp [pending]
      rw [he]; exact this
    | some ((r, v) :: rest) => simp [loop, pending]

theorem next_none {it it' : TableIter V} (h : it.next = (none, it')) :
    it.pending = [] ∧ it'.pending = [] := by
  unfold next at h
  split at h
  · next he => cases h; simp [pending, he]
  · next he =>
    have hs := loop_spec it.order it.colIter it.rowIter it.currCol
    have he' : it.isEmptyMatrix = false := by simpa using he
    rw [he'] at h
    rw [h] at hs
    obtain ⟨h1, h2, _⟩ := hs
    refine ⟨?_, h2⟩
    rw [← h1]; cases it; simp_all

theorem next_some {it it' : TableIter V} {x} (h : it.next = (some x, it')) :
    it.pending = x :: it'.pending := by
  unfold next at h
  split at h
  · simp at h
  · next he =>
    have hs := loop_spec it.order it.colIter it.rowIter it.currCol
    have he' : it.isEmptyMatrix = false := by simpa using he
    rw [he'] at h
    rw [h] at hs
    rw [← hs]; cases it; simp_all

theorem collect_eq_pending (it : TableIter V) : it.collect = it.pending := by
  fun_induction collect it with
  | case1 it it' h => exact (next_none h).1.symm
  | case2 it x it' h ih => rw [next_some h, ih]

end TableIter
end Verif
