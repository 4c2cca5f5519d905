import Verif.Model.SqMatrix
import Verif.Lemmas.HMap
import Verif.Lemmas.AdjMatrix

/-! Lemmas about `SqMatrix`: every operation in terms of the lookup function. -/

namespace Verif
namespace SqMatrix

variable {T : Type}

/-- What is stored at `(c, r)`. -/
abbrev at? (m : SqMatrix T) (c r : Nat) : Option T := get2 m.edgesTable c r

/-- The set of stored coordinates. -/
def keys (m : SqMatrix T) : Finset (Nat × Nat) :=
  ((flat m.edgesTable).map (fun x => (x.1, x.2.1))).toFinset

theorem mem_keys {m : SqMatrix T} {p : Nat × Nat} : p ∈ m.keys ↔ ∃ v, m.at? p.1 p.2 = some v := by
  unfold keys
  rw [List.mem_toFinset, List.mem_map]
  constructor
  · rintro ⟨⟨c, r, v⟩, h, rfl⟩
    exact ⟨v, mem_flat.1 h⟩
  · rintro ⟨v, h⟩
    exact ⟨(p.1, p.2, v), mem_flat.2 h, rfl⟩

theorem notMem_keys {m : SqMatrix T} {p : Nat × Nat} : p ∉ m.keys ↔ m.at? p.1 p.2 = none := by
  rw [mem_keys]
  cases m.at? p.1 p.2 <;> simp

theorem keys_card (m : SqMatrix T) : m.keys.card = (flat m.edgesTable).length := by
  unfold keys
  rw [List.toFinset_card_of_nodup (flat_keys_nodup _), List.length_map]

theorem getEntry_eq (N : Numeric T) (m : SqMatrix T) (c r : Nat) :
    m.getEntry N c r = (m.at? c r).getD N.zero := by
  unfold getEntry at? get2
  cases m.edgesTable.get? c with
  | none => rfl
  | some t => simp only [Option.bind_some]; cases t.get? r <;> rfl

theorem get2_getD' (t : HMap (HMap T)) (c r : Nat) :
    ((t.get? c).getD HMap.empty).get? r = get2 t c r := by
  unfold get2
  cases t.get? c <;> rfl

theorem growDimension_eq (d a b : Nat) : growDimension d a b = max d (max a b) := by
  simp only [growDimension]; grind

theorem setEntry_overflow {N : Numeric T} {m : SqMatrix T} {e : T} {c r : Nat}
    (h : ¬ (c < U64_MAX ∧ r < U64_MAX)) : m.setEntry N e c r = m := by
  unfold setEntry
  rw [AdjMatrix.checkedAdd_one, AdjMatrix.checkedAdd_one]
  by_cases hc : c < U64_MAX
  · have hr : ¬ r < U64_MAX := fun hr => h ⟨hc, hr⟩
    simp [hc, hr]
  · simp [hc]

theorem setEntry_zero {N : Numeric T} {m : SqMatrix T} {e : T} {c r : Nat}
    (hc : c < U64_MAX) (hr : r < U64_MAX) (he : N.eq e N.zero = true) :
    m.setEntry N e c r = { m with dimension := max m.dimension (max (c + 1) (r + 1)) } := by
  unfold setEntry
  rw [AdjMatrix.checkedAdd_one, AdjMatrix.checkedAdd_one]
  simp only [hc, hr, he, if_true, growDimension_eq]

theorem setEntry_dimension {N : Numeric T} {m : SqMatrix T} {e : T} {c r : Nat}
    (hc : c < U64_MAX) (hr : r < U64_MAX) :
    (m.setEntry N e c r).dimension = max m.dimension (max (c + 1) (r + 1)) := by
  unfold setEntry
  rw [AdjMatrix.checkedAdd_one, AdjMatrix.checkedAdd_one]
  simp only [hc, hr, if_true, growDimension_eq]
  split <;> rfl

theorem setEntry_at {N : Numeric T} {m : SqMatrix T} {e : T} {c r : Nat}
    (hc : c < U64_MAX) (hr : r < U64_MAX) (he : N.eq e N.zero = false) (c' r' : Nat) :
    (m.setEntry N e c r).at? c' r' = if c' = c ∧ r' = r then some e else m.at? c' r' := by
  unfold setEntry at?
  rw [AdjMatrix.checkedAdd_one, AdjMatrix.checkedAdd_one]
  simp only [hc, hr, he, if_true, Bool.false_eq_true, if_false]
  rw [get2_insert, HMap.get?_insert, get2_getD']
  by_cases h1 : c' = c
  · subst h1; by_cases h2 : r' = r <;> simp [h2]
  · simp [h1]

theorem setEntry_entryCount {N : Numeric T} {m : SqMatrix T} {e : T} {c r : Nat}
    (hc : c < U64_MAX) (hr : r < U64_MAX) (he : N.eq e N.zero = false) :
    (m.setEntry N e c r).entryCount = if (c, r) ∈ m.keys then m.entryCount else m.entryCount + 1 := by
  unfold setEntry
  rw [AdjMatrix.checkedAdd_one, AdjMatrix.checkedAdd_one]
  simp only [hc, hr, he, if_true, Bool.false_eq_true, if_false, get2_getD']
  by_cases h : (c, r) ∈ m.keys
  · obtain ⟨v, hv⟩ := mem_keys.1 h
    simp only at hv
    simp [h, hv]
  · have := notMem_keys.1 h
    simp only at this
    simp [h, this]

theorem zeroEntry_dimension (m : SqMatrix T) (c r : Nat) : (m.zeroEntry c r).dimension = m.dimension := by
  unfold zeroEntry; split <;> rfl

theorem zeroEntry_at (m : SqMatrix T) (c r c' r' : Nat) :
    (m.zeroEntry c r).at? c' r' = if c' = c ∧ r' = r then none else m.at? c' r' := by
  unfold zeroEntry at?
  cases hc : m.edgesTable.get? c with
  | none =>
    simp only
    split
    · next h => rw [h.1, get2, hc]; rfl
    · rfl
  | some t =>
    simp only
    rw [get2_insert, HMap.get?_remove]
    by_cases h1 : c' = c
    · subst h1; by_cases h2 : r' = r <;> simp [h2, get2, hc]
    · simp [h1]

theorem zeroEntry_entryCount (m : SqMatrix T) (c r : Nat) :
    (m.zeroEntry c r).entryCount = if (c, r) ∈ m.keys then m.entryCount - 1 else m.entryCount := by
  have h := @mem_keys T m (c, r)
  unfold at? get2 at h
  unfold zeroEntry
  cases hc : m.edgesTable.get? c with
  | none => rw [hc] at h; simp at h; simp [h]
  | some t =>
    rw [hc] at h
    simp only [Option.bind_some, ← Option.isSome_iff_exists] at h
    simp only [← h]

theorem keys_of_at {m m' : SqMatrix T} {c r : Nat} {x : T}
    (h : ∀ c' r', m'.at? c' r' = if c' = c ∧ r' = r then some x else m.at? c' r') :
    m'.keys = insert (c, r) m.keys := by
  ext ⟨a, b⟩
  rw [Finset.mem_insert, mem_keys, mem_keys]
  simp only [h, Prod.mk.injEq]
  split <;> simp_all

theorem keys_of_at_none {m m' : SqMatrix T} {c r : Nat}
    (h : ∀ c' r', m'.at? c' r' = if c' = c ∧ r' = r then none else m.at? c' r') :
    m'.keys = m.keys.erase (c, r) := by
  ext ⟨a, b⟩
  rw [Finset.mem_erase, mem_keys, mem_keys]
  simp only [h, Prod.mk.injEq, ne_eq]
  split <;> simp_all

/-- Well-formed matrices: the counter is right and all coordinates are inside the dimension. -/
structure WF (m : SqMatrix T) : Prop where
  count : m.entryCount = m.keys.card
  bound : ∀ p ∈ m.keys, p.1 < m.dimension ∧ p.2 < m.dimension
  dim : m.dimension ≤ U64_MAX

theorem new_at (c r : Nat) : (new : SqMatrix T).at? c r = none := rfl
theorem new_keys : (new : SqMatrix T).keys = ∅ := rfl

theorem WF.new : WF (new : SqMatrix T) := ⟨rfl, by simp [new_keys], by simp [SqMatrix.new]⟩

theorem WF.setEntry {m : SqMatrix T} (h : WF m) (N : Numeric T) (e : T) (c r : Nat) :
    WF (m.setEntry N e c r) := by
  by_cases hb : c < U64_MAX ∧ r < U64_MAX
  · obtain ⟨hc, hr⟩ := hb
    have hd := @setEntry_dimension T N m e c r hc hr
    by_cases he : N.eq e N.zero = true
    · have hz := setEntry_zero (m := m) hc hr he
      have hk : (m.setEntry N e c r).keys = m.keys := by rw [hz]; rfl
      refine ⟨?_, ?_, ?_⟩
      · rw [hk, hz]; exact h.count
      · intro p hp
        rw [hk] at hp
        have := h.bound p hp
        rw [hd]; omega
      · rw [hd]; have := h.dim; omega
    · have he : N.eq e N.zero = false := by simpa using he
      have hk := keys_of_at (setEntry_at (m := m) hc hr he)
      refine ⟨?_, ?_, ?_⟩
      · rw [setEntry_entryCount hc hr he, hk, h.count]
        split
        · next hm => rw [Finset.insert_eq_of_mem hm]
        · next hm => rw [Finset.card_insert_of_notMem hm]
      · intro p hp
        rw [hk, Finset.mem_insert] at hp
        rw [hd]
        rcases hp with rfl | hp
        · simp only; omega
        · have := h.bound p hp; omega
      · rw [hd]; have := h.dim; omega
  · rwa [setEntry_overflow hb]

theorem WF.zeroEntry {m : SqMatrix T} (h : WF m) (c r : Nat) : WF (m.zeroEntry c r) := by
  have hk := keys_of_at_none (zeroEntry_at m c r)
  refine ⟨?_, ?_, ?_⟩
  · rw [zeroEntry_entryCount, hk, h.count]
    split
    · next hm => rw [Finset.card_erase_of_mem hm]
    · next hm => rw [Finset.erase_eq_of_notMem hm]
  · intro p hp
    rw [hk] at hp
    rw [zeroEntry_dimension]
    exact h.bound p (Finset.mem_of_mem_erase hp)
  · rw [zeroEntry_dimension]; exact h.dim

/-! ### increment -/

theorem incrementEntry_overflow {N : Numeric T} {P : Platform} {m : SqMatrix T} {c r : Nat}
    (h : ¬ (c < U64_MAX ∧ r < U64_MAX)) : m.incrementEntry N P c r = .ok m := by
  unfold incrementEntry
  rw [AdjMatrix.checkedAdd_one, AdjMatrix.checkedAdd_one]
  by_cases hc : c < U64_MAX
  · have hr : ¬ r < U64_MAX := fun hr => h ⟨hc, hr⟩
    simp [hc, hr]
  · simp [hc]

/-- The new value written by `increment_entry`. -/
def incValue (N : Numeric T) (P : Platform) : Option T → Res T
  | none => .ok N.one
  | some e => N.addOne P e

theorem incrementEntry_ok {N : Numeric T} {P : Platform} {m m' : SqMatrix T} {c r : Nat}
    (hc : c < U64_MAX) (hr : r < U64_MAX) (h : m.incrementEntry N P c r = .ok m') :
    ∃ e', incValue N P (m.at? c r) = .ok e' ∧
      (∀ c' r', m'.at? c' r' = if c' = c ∧ r' = r then some e' else m.at? c' r') ∧
      m'.dimension = max m.dimension (max (c + 1) (r + 1)) ∧
      m'.entryCount = if (c, r) ∈ m.keys then m.entryCount else m.entryCount + 1 := by
  unfold incrementEntry at h
  rw [AdjMatrix.checkedAdd_one, AdjMatrix.checkedAdd_one] at h
  simp only [hc, hr, if_true, get2_getD', growDimension_eq] at h
  have hins : ∀ (x : T) c' r', get2 (m.edgesTable.insert c
      (((m.edgesTable.get? c).getD HMap.empty).insert r x)) c' r' =
      if c' = c ∧ r' = r then some x else get2 m.edgesTable c' r' := by
    intro x c' r'
    rw [get2_insert, HMap.get?_insert, get2_getD']
    by_cases h1 : c' = c
    · subst h1; by_cases h2 : r' = r <;> simp [h2]
    · simp [h1]
  cases hv : get2 m.edgesTable c r with
  | none =>
    rw [hv] at h
    simp only [Res.ok.injEq] at h
    subst h
    have hk : (c, r) ∉ m.keys := notMem_keys.2 hv
    refine ⟨N.one, ?_, fun c' r' => hins _ _ _, rfl, ?_⟩
    · rw [at?, hv]; rfl
    · simp [hk]
  | some e =>
    rw [hv] at h
    simp only at h
    have hk : (c, r) ∈ m.keys := mem_keys.2 ⟨e, hv⟩
    cases ha : N.addOne P e with
    | ok e' =>
      rw [ha] at h
      simp only [Res.bind, Res.ok.injEq] at h
      subst h
      refine ⟨e', ?_, fun c' r' => hins _ _ _, rfl, ?_⟩
      · rw [at?, hv]; exact ha
      · simp [hk]
    | err x => rw [ha] at h; simp [Res.bind] at h
    | panic => rw [ha] at h; simp [Res.bind] at h

theorem incrementEntry_isOk {N : Numeric T} {P : Platform} (m : SqMatrix T) (c r : Nat)
    (hN : ∀ x, ∃ y, N.addOne P x = .ok y) : ∃ m', m.incrementEntry N P c r = .ok m' := by
  by_cases hb : c < U64_MAX ∧ r < U64_MAX
  · unfold incrementEntry
    rw [AdjMatrix.checkedAdd_one, AdjMatrix.checkedAdd_one]
    simp only [hb.1, hb.2, if_true]
    split
    · exact ⟨_, rfl⟩
    · next e _ =>
      obtain ⟨y, hy⟩ := hN e
      rw [hy]
      exact ⟨_, rfl⟩
  · exact ⟨m, incrementEntry_overflow hb⟩

theorem WF.incrementEntry {m m' : SqMatrix T} (h : WF m) {N : Numeric T} {P : Platform} {c r : Nat}
    (he : m.incrementEntry N P c r = .ok m') : WF m' := by
  by_cases hb : c < U64_MAX ∧ r < U64_MAX
  · obtain ⟨e', _, hat, hd, hcnt⟩ := incrementEntry_ok hb.1 hb.2 he
    have hk := keys_of_at hat
    refine ⟨?_, ?_, ?_⟩
    · rw [hcnt, hk, h.count]
      split
      · next hm => rw [Finset.insert_eq_of_mem hm]
      · next hm => rw [Finset.card_insert_of_notMem hm]
    · intro p hp
      rw [hk, Finset.mem_insert] at hp
      rw [hd]
      rcases hp with rfl | hp
      · simp only; omega
      · have := h.bound p hp; omega
    · rw [hd]; have := h.dim; omega
  · rw [incrementEntry_overflow hb] at he
    cases he; exact h

/-! ### minimum dimension, multiplication -/

theorem setMinimumDimension_eq (m : SqMatrix T) (d : Nat) :
    m.setMinimumDimension d = { m with dimension := max m.dimension d } := by
  unfold setMinimumDimension
  split
  · next h => rw [max_eq_right (le_of_lt h)]
  · next h => rw [max_eq_left (by omega)]

theorem multiplyEntriesBy_at (m : SqMatrix F64) (x : F64) (c r : Nat) :
    (m.multiplyEntriesBy x).at? c r = (m.at? c r).map (fun e => F64.mul e x) := by
  unfold multiplyEntriesBy at? get2
  simp only
  rw [HMap.get?_mapValues]
  cases m.edgesTable.get? c with
  | none => rfl
  | some t => simp [HMap.get?_mapValues]

theorem multiplyEntriesBy_keys (m : SqMatrix F64) (x : F64) : (m.multiplyEntriesBy x).keys = m.keys := by
  ext p
  rw [mem_keys, mem_keys, multiplyEntriesBy_at]
  cases m.at? p.1 p.2 <;> simp

theorem WF.multiplyEntriesBy {m : SqMatrix F64} (h : WF m) (x : F64) : WF (m.multiplyEntriesBy x) := by
  refine ⟨?_, ?_, ?_⟩
  · rw [multiplyEntriesBy_keys]; exact h.count
  · rw [multiplyEntriesBy_keys]; exact h.bound
  · exact h.dim

theorem WF.setMinimumDimension {m : SqMatrix T} (h : WF m) {d : Nat} (hd : d ≤ U64_MAX) :
    WF (m.setMinimumDimension d) := by
  rw [setMinimumDimension_eq]
  refine ⟨h.count, ?_, ?_⟩
  · intro p hp
    have := h.bound p hp
    simp only; omega
  · have := h.dim
    simp only; omega

/-! ### iteration -/

theorem items_perm {m : SqMatrix T} (h : WF m) (o : HashOrder) :
    (m.items o).Perm ((flat m.edgesTable).map (fun x => (x.2.2, x.1, x.2.1))) := by
  unfold items
  rw [TableIter.collect_eq_pending]
  by_cases hd : m.dimension = 0
  · have he : m.keys = ∅ := by
      rw [Finset.eq_empty_iff_forall_notMem]
      intro p hp
      have := (h.bound p hp).1
      omega
    have hl : (flat m.edgesTable).length = 0 := by rw [← keys_card, he]; rfl
    rw [List.length_eq_zero_iff.1 hl]
    simp [TableIter.pending, intoIter, hd]
  · have : (m.intoIter o).pending = flatO o m.edgesTable := by
      unfold intoIter TableIter.pending flatO
      simp [hd]
    rw [this]
    exact (flatO_perm o _).map _

theorem mem_items {m : SqMatrix T} (h : WF m) (o : HashOrder) {v : T} {c r : Nat} :
    (v, c, r) ∈ m.items o ↔ m.at? c r = some v := by
  rw [(items_perm h o).mem_iff, List.mem_map, ← mem_flat]
  constructor
  · rintro ⟨⟨c', r', v'⟩, hm, heq⟩
    simp only [Prod.mk.injEq] at heq
    obtain ⟨rfl, rfl, rfl⟩ := heq
    exact hm
  · intro hm; exact ⟨_, hm, rfl⟩

theorem items_keys_nodup {m : SqMatrix T} (h : WF m) (o : HashOrder) :
    ((m.items o).map (fun x => (x.2.1, x.2.2))).Nodup := by
  rw [((items_perm h o).map _).nodup_iff, List.map_map]
  exact flat_keys_nodup m.edgesTable

theorem items_length {m : SqMatrix T} (h : WF m) (o : HashOrder) : (m.items o).length = m.entryCount := by
  rw [h.count, keys_card, (items_perm h o).length_eq, List.length_map]

end SqMatrix
end Verif
