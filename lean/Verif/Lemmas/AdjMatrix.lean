import Verif.Model.AdjMatrix
import Verif.Lemmas.HMap
import Mathlib.Data.Finset.Card
import Mathlib.Tactic.Ring
import Mathlib.Tactic.Linarith

/-! Lemmas about `AdjMatrix`: every operation in terms of the finite set of stored pairs. -/

namespace Verif
namespace AdjMatrix

/-- The set of stored pairs. -/
def pairs (m : AdjMatrix) : Finset (Nat × Nat) :=
  ((flat m.edgesTable).map (fun x => (x.1, x.2.1))).toFinset

theorem mem_pairs {m : AdjMatrix} {p : Nat × Nat} :
    p ∈ m.pairs ↔ get2 m.edgesTable p.1 p.2 = some () := by
  unfold pairs
  rw [List.mem_toFinset, List.mem_map]
  constructor
  · rintro ⟨⟨c, r, v⟩, h, rfl⟩
    exact mem_flat.1 h
  · intro h
    exact ⟨(p.1, p.2, ()), mem_flat.2 h, rfl⟩

theorem pairs_card (m : AdjMatrix) : m.pairs.card = (flat m.edgesTable).length := by
  unfold pairs
  rw [List.toFinset_card_of_nodup (flat_keys_nodup _), List.length_map]

theorem contains_iff_get2 {m : HMap Unit} {r} : m.contains r = true ↔ m.get? r = some () := by
  rw [HMap.contains_iff]
  exact ⟨fun ⟨_, h⟩ => h, fun h => ⟨_, h⟩⟩

theorem getEntry_eq (m : AdjMatrix) (c r : Nat) :
    m.getEntry c r = if (c, r) ∈ m.pairs then 1 else 0 := by
  unfold getEntry
  have h := @mem_pairs m (c, r)
  simp only [get2] at h
  cases hc : m.edgesTable.get? c with
  | none => rw [hc] at h; simp [h]
  | some rows =>
    rw [hc] at h
    simp only [Option.bind_some, ← contains_iff_get2] at h
    by_cases hm : (c, r) ∈ m.pairs
    · simp [hm, h.1 hm]
    · have : rows.contains r = false := by
        cases hx : rows.contains r
        · rfl
        · exact absurd (h.2 hx) hm
      simp [hm, this]

theorem getEntry_ne_zero {m : AdjMatrix} {c r : Nat} : m.getEntry c r ≠ 0 ↔ (c, r) ∈ m.pairs := by
  rw [getEntry_eq]; split <;> simp_all

theorem getEntry_eq_one {m : AdjMatrix} {c r : Nat} : m.getEntry c r = 1 ↔ (c, r) ∈ m.pairs := by
  rw [getEntry_eq]; split <;> simp_all

theorem checkedAdd_one (x : Nat) :
    checkedAdd x 1 = if x < U64_MAX then some (x + 1) else none := by
  unfold checkedAdd; congr 1

/-- `set_entry` ignores calls with an index `u64::MAX`. -/
theorem setEntry_overflow {m : AdjMatrix} {e c r : Nat} (h : ¬ (c < U64_MAX ∧ r < U64_MAX)) :
    m.setEntry e c r = m := by
  unfold setEntry
  rw [checkedAdd_one, checkedAdd_one]
  by_cases hc : c < U64_MAX
  · have hr : ¬ r < U64_MAX := fun hr => h ⟨hc, hr⟩
    simp [hc, hr]
  · simp [hc]

theorem growDimension_eq (d a b : Nat) : growDimension d a b = max d (max a b) := by
  simp only [growDimension]; grind

theorem setEntry_dimension {m : AdjMatrix} {e c r : Nat} (hc : c < U64_MAX) (hr : r < U64_MAX) :
    (m.setEntry e c r).dimension = max m.dimension (max (c + 1) (r + 1)) := by
  unfold setEntry
  rw [checkedAdd_one, checkedAdd_one]
  simp only [hc, hr, if_true]
  rw [← growDimension_eq]
  split <;> rfl

theorem setEntry_zero {m : AdjMatrix} {c r : Nat} (hc : c < U64_MAX) (hr : r < U64_MAX) :
    m.setEntry 0 c r = { m with dimension := max m.dimension (max (c + 1) (r + 1)) } := by
  unfold setEntry
  rw [checkedAdd_one, checkedAdd_one]
  simp only [hc, hr, if_true]
  rw [← growDimension_eq]

theorem get2_getD (t : HMap (HMap Unit)) (c r : Nat) :
    ((t.get? c).getD HMap.empty).get? r = get2 t c r := by
  unfold get2
  cases t.get? c <;> rfl

theorem setEntry_pairs {m : AdjMatrix} {e c r : Nat} (he : e ≠ 0) (hc : c < U64_MAX) (hr : r < U64_MAX) :
    (m.setEntry e c r).pairs = insert (c, r) m.pairs := by
  ext ⟨c', r'⟩
  rw [Finset.mem_insert, mem_pairs, mem_pairs]
  unfold setEntry
  rw [checkedAdd_one, checkedAdd_one]
  simp only [hc, hr, he, if_true, if_false]
  rw [get2_insert, HMap.get?_insert, get2_getD]
  by_cases h1 : c' = c
  · subst h1
    by_cases h2 : r' = r
    · subst h2; simp
    · simp [h2]
  · simp [h1]

theorem setEntry_entryCount {m : AdjMatrix} {e c r : Nat} (he : e ≠ 0) (hc : c < U64_MAX) (hr : r < U64_MAX) :
    (m.setEntry e c r).entryCount = if (c, r) ∈ m.pairs then m.entryCount else m.entryCount + 1 := by
  unfold setEntry
  rw [checkedAdd_one, checkedAdd_one]
  simp only [hc, hr, he, if_true, if_false]
  have h := @mem_pairs m (c, r)
  rw [← get2_getD, ← contains_iff_get2] at h
  simp only at h
  by_cases hm : (c, r) ∈ m.pairs
  · simp [hm, h.1 hm]
  · have : ((m.edgesTable.get? c).getD HMap.empty).contains r = false := by
      cases hx : ((m.edgesTable.get? c).getD HMap.empty).contains r
      · rfl
      · exact absurd (h.2 hx) hm
    simp [hm, this]

theorem zeroEntry_dimension (m : AdjMatrix) (c r : Nat) : (m.zeroEntry c r).dimension = m.dimension := by
  unfold zeroEntry; split <;> rfl

theorem zeroEntry_pairs (m : AdjMatrix) (c r : Nat) :
    (m.zeroEntry c r).pairs = m.pairs.erase (c, r) := by
  ext ⟨c', r'⟩
  rw [Finset.mem_erase, mem_pairs, mem_pairs]
  unfold zeroEntry
  cases hc : m.edgesTable.get? c with
  | none =>
    simp only [ne_eq, Prod.mk.injEq, iff_and_self, not_and]
    rintro h rfl
    simp [get2, hc] at h
  | some rows =>
    simp only
    rw [get2_insert, HMap.get?_remove]
    by_cases h1 : c' = c
    · subst h1
      by_cases h2 : r' = r
      · subst h2; simp
      · simp [h2, get2, hc]
    · simp [h1]

theorem zeroEntry_entryCount (m : AdjMatrix) (c r : Nat) :
    (m.zeroEntry c r).entryCount = if (c, r) ∈ m.pairs then m.entryCount - 1 else m.entryCount := by
  have h := @mem_pairs m (c, r)
  unfold zeroEntry
  unfold get2 at h
  cases hc : m.edgesTable.get? c with
  | none => rw [hc] at h; simp [h]
  | some rows =>
    rw [hc] at h
    simp only [Option.bind_some, ← contains_iff_get2] at h
    by_cases hm : (c, r) ∈ m.pairs
    · simp [hm, h.1 hm]
    · have : rows.contains r = false := by
        cases hx : rows.contains r
        · rfl
        · exact absurd (h.2 hx) hm
      simp [hm, this]

/-- Well-formed matrices: the counter is right and all pairs are inside the dimension. -/
structure WF (m : AdjMatrix) : Prop where
  count : m.entryCount = m.pairs.card
  bound : ∀ p ∈ m.pairs, p.1 < m.dimension ∧ p.2 < m.dimension
  dim : m.dimension ≤ U64_MAX

theorem new_pairs : new.pairs = ∅ := rfl

theorem WF.new : WF new := ⟨rfl, by simp [new_pairs], by simp [AdjMatrix.new]⟩

theorem WF.setEntry {m : AdjMatrix} (h : WF m) (e c r : Nat) : WF (m.setEntry e c r) := by
  by_cases hb : c < U64_MAX ∧ r < U64_MAX
  · obtain ⟨hc, hr⟩ := hb
    have hd := @setEntry_dimension m e c r hc hr
    by_cases he : e = 0
    · subst he
      rw [setEntry_zero hc hr]
      refine ⟨h.count, ?_, ?_⟩
      · intro p hp
        have := h.bound p hp
        simp only; omega
      · have := h.dim
        simp only; omega
    · refine ⟨?_, ?_, ?_⟩
      · rw [setEntry_entryCount he hc hr, setEntry_pairs he hc hr, h.count]
        split
        · next hm => rw [Finset.insert_eq_of_mem hm]
        · next hm => rw [Finset.card_insert_of_notMem hm]
      · intro p hp
        rw [setEntry_pairs he hc hr, Finset.mem_insert] at hp
        rw [hd]
        rcases hp with rfl | hp
        · simp only; omega
        · have := h.bound p hp; omega
      · rw [hd]; have := h.dim; omega
  · rwa [setEntry_overflow hb]

theorem WF.zeroEntry {m : AdjMatrix} (h : WF m) (c r : Nat) : WF (m.zeroEntry c r) := by
  refine ⟨?_, ?_, ?_⟩
  · rw [zeroEntry_entryCount, zeroEntry_pairs, h.count]
    split
    · next hm => rw [Finset.card_erase_of_mem hm]
    · next hm => rw [Finset.erase_eq_of_notMem hm]
  · intro p hp
    rw [zeroEntry_pairs] at hp
    rw [zeroEntry_dimension]
    exact h.bound p (Finset.mem_of_mem_erase hp)
  · rw [zeroEntry_dimension]; exact h.dim

theorem intoIter_pending (o : HashOrder) (m : AdjMatrix) (hd : m.dimension ≠ 0) :
    (m.intoIter o).pending = flatO o m.edgesTable := by
  unfold intoIter TableIter.pending flatO
  simp [hd]

/-- The items of an iteration are a permutation of the stored pairs. -/
theorem items_perm {m : AdjMatrix} (h : WF m) (o : HashOrder) :
    (m.items o).Perm ((flat m.edgesTable).map (fun x => (x.1, x.2.1))) := by
  unfold items
  rw [TableIter.collect_eq_pending]
  by_cases hd : m.dimension = 0
  · have he : m.pairs = ∅ := by
      rw [Finset.eq_empty_iff_forall_notMem]
      intro p hp
      have := (h.bound p hp).1
      omega
    have hl : (flat m.edgesTable).length = 0 := by rw [← pairs_card, he]; rfl
    rw [List.length_eq_zero_iff.1 hl]
    simp [TableIter.pending, intoIter, hd]
  · rw [intoIter_pending o m hd]
    exact (flatO_perm o _).map _

theorem items_nodup {m : AdjMatrix} (h : WF m) (o : HashOrder) : (m.items o).Nodup :=
  (items_perm h o).nodup_iff.2 (flat_keys_nodup _)

theorem mem_items {m : AdjMatrix} (h : WF m) (o : HashOrder) {p : Nat × Nat} :
    p ∈ m.items o ↔ p ∈ m.pairs := by
  rw [(items_perm h o).mem_iff]; simp [pairs]

theorem items_toFinset {m : AdjMatrix} (h : WF m) (o : HashOrder) : (m.items o).toFinset = m.pairs := by
  ext p; rw [List.mem_toFinset, mem_items h]

theorem items_length {m : AdjMatrix} (h : WF m) (o : HashOrder) : (m.items o).length = m.entryCount := by
  rw [h.count, ← items_toFinset h o, List.toFinset_card_of_nodup (items_nodup h o)]

theorem mem_getSparseColVector {m : AdjMatrix} {o c r} :
    r ∈ m.getSparseColVector o c ↔ (c, r) ∈ m.pairs := by
  rw [mem_pairs]
  unfold getSparseColVector get2
  cases hc : m.edgesTable.get? c with
  | none => simp
  | some rows =>
    simp only [Option.bind_some, ← contains_iff_get2, ← HMap.mem_keys_iff]
    exact ((o.rows_perm c rows.entries).map Prod.fst).mem_iff

theorem getSparseColVector_nodup (m : AdjMatrix) (o c) : (m.getSparseColVector o c).Nodup := by
  unfold getSparseColVector
  cases hc : m.edgesTable.get? c with
  | none => simp
  | some rows => exact ((o.rows_perm c rows.entries).map Prod.fst).nodup_iff.2 rows.nodup

theorem getSparseColVector_length (m : AdjMatrix) (o c) :
    (m.getSparseColVector o c).length = m.colNonzeroEntryCount c := by
  unfold getSparseColVector colNonzeroEntryCount
  cases hc : m.edgesTable.get? c with
  | none => simp
  | some rows => simp [(o.rows_perm c rows.entries).length_eq, HMap.size]

theorem getSparseRowVector_eq (m : AdjMatrix) (o r) :
    m.getSparseRowVector o r =
      ((o.cols m.edgesTable.entries).filter (fun e => e.2.contains r)).map Prod.fst := by
  unfold getSparseRowVector
  generalize o.cols m.edgesTable.entries = l
  suffices h : ∀ acc : List Nat, l.foldl
    (fun vector e => if e.2.contains r then vector ++ [e.1] else vector) acc =
      acc ++ (l.filter (fun e => e.2.contains r)).map Prod.fst by simpa using h []
  induction l with
  | nil => simp
  | cons e l ih =>
    intro acc
    rw [List.foldl_cons, ih, List.filter_cons]
    split <;> simp

theorem getSparseRowVector_perm (m : AdjMatrix) (o r) :
    (m.getSparseRowVector o r).Perm ((m.edgesTable.entries.filter (fun e => e.2.contains r)).map Prod.fst) := by
  rw [getSparseRowVector_eq]
  exact ((o.cols_perm _).filter _).map _

theorem mem_getSparseRowVector {m : AdjMatrix} {o c r} :
    c ∈ m.getSparseRowVector o r ↔ (c, r) ∈ m.pairs := by
  rw [mem_pairs, (getSparseRowVector_perm m o r).mem_iff]
  unfold get2
  simp only [List.mem_map, List.mem_filter, Prod.exists, exists_and_right, exists_eq_right,
    Option.bind_eq_some_iff, HMap.mem_entries_iff, contains_iff_get2]

theorem getSparseRowVector_nodup (m : AdjMatrix) (o r) : (m.getSparseRowVector o r).Nodup := by
  rw [(getSparseRowVector_perm m o r).nodup_iff]
  exact m.edgesTable.nodup.sublist (List.Sublist.map _ List.filter_sublist)

theorem getSparseRowVector_length (m : AdjMatrix) (o r) :
    (m.getSparseRowVector o r).length = m.rowNonzeroEntryCount r := by
  rw [(getSparseRowVector_perm m o r).length_eq, List.length_map]; rfl

theorem colNonzeroEntryCount_eq (m : AdjMatrix) (c : Nat) :
    m.colNonzeroEntryCount c = (m.pairs.filter (fun p => p.1 = c)).card := by
  rw [← getSparseColVector_length m HashOrder.id c,
    ← List.toFinset_card_of_nodup (getSparseColVector_nodup m _ c)]
  refine Finset.card_bij (fun r _ => (c, r)) ?_ ?_ ?_
  · intro r hr
    rw [List.mem_toFinset, mem_getSparseColVector] at hr
    simp [hr]
  · intro a _ b _ h; exact (Prod.mk.inj h).2
  · rintro ⟨c', r⟩ h
    rw [Finset.mem_filter] at h
    obtain ⟨h, rfl⟩ := h
    exact ⟨r, by rw [List.mem_toFinset, mem_getSparseColVector]; exact h, rfl⟩

theorem rowNonzeroEntryCount_eq (m : AdjMatrix) (r : Nat) :
    m.rowNonzeroEntryCount r = (m.pairs.filter (fun p => p.2 = r)).card := by
  rw [← getSparseRowVector_length m HashOrder.id r,
    ← List.toFinset_card_of_nodup (getSparseRowVector_nodup m _ r)]
  refine Finset.card_bij (fun c _ => (c, r)) ?_ ?_ ?_
  · intro c hc
    rw [List.mem_toFinset, mem_getSparseRowVector] at hc
    simp [hc]
  · intro a _ b _ h; exact (Prod.mk.inj h).1
  · rintro ⟨c, r'⟩ h
    rw [Finset.mem_filter] at h
    obtain ⟨h, rfl⟩ := h
    exact ⟨c, by rw [List.mem_toFinset, mem_getSparseRowVector]; exact h, rfl⟩

end AdjMatrix
end Verif
