/-!
# Model of the pieces of the Rust standard library that graphrox uses

Integers are `Nat`s with explicit range checks, `HashMap<u64, V>` is a finite map with an
arbitrary iteration order, fallible functions return `Res`.
-/

namespace Verif

/-- `u64::MAX`. std; used implicitly at `/repo/graphrox-rs/src/matrix/csr_adjacency_matrix.rs:260-265`. -/
def U64_MAX : Nat := 18446744073709551615

/-- The error type of the crate.  `/repo/graphrox-rs/src/error/mod.rs` (whole file: three variants,
each with a message). -/
inductive GraphRoxError where
  | InvalidFormat (msg : String)
  | InvalidInput (msg : String)
  | CapacityOverflow (msg : String)
  deriving DecidableEq, Repr

/-- Outcome of a Rust function that may return `Err` or panic.  Plain functions of the crate that
cannot fail are modelled without `Res`. -/
inductive Res (α : Type) where
  | ok (a : α)
  | err (e : GraphRoxError)
  | panic
  deriving DecidableEq, Repr

namespace Res

/-- Sequencing (`?` for errors, unwinding for panics). std semantics. -/
def bind {α β : Type} (x : Res α) (f : α → Res β) : Res β :=
  match x with
  | ok a => f a
  | err e => err e
  | panic => panic

instance : Monad Res where
  pure := Res.ok
  bind := Res.bind

/-- `Option::ok_or_else`. std semantics. -/
def ofOption {α : Type} (o : Option α) (e : GraphRoxError) : Res α :=
  match o with
  | some a => ok a
  | none => err e

/-- Mapping the success value. std `Result::map`. -/
def map {α β : Type} (f : α → β) (x : Res α) : Res β :=
  match x with
  | ok a => ok (f a)
  | err e => err e
  | panic => panic

/-- A `for` loop over a list whose body may fail. std semantics of `for`. -/
def foldl {α β : Type} (f : β → α → Res β) : β → List α → Res β
  | b, [] => ok b
  | b, a :: l => (f b a).bind fun b' => foldl f b' l

end Res

/-- Build profile: unchecked integer arithmetic panics on overflow in `debug` builds and wraps
around in `release` builds (default cargo profiles; `/repo/graphrox-rs/Cargo.toml` does not
override `overflow-checks`). -/
inductive Profile where
  | debug
  | release
  deriving DecidableEq, Repr

/-- `u64::checked_add`. std semantics. -/
def checkedAdd (a b : Nat) : Option Nat := if a + b ≤ U64_MAX then some (a + b) else none

/-- `u64::checked_mul`. std semantics. -/
def checkedMul (a b : Nat) : Option Nat := if a * b ≤ U64_MAX then some (a * b) else none

/-- `u64::saturating_add`. std semantics. -/
def saturatingAdd (a b : Nat) : Nat := if a + b ≤ U64_MAX then a + b else U64_MAX

/-- The platform: largest `usize`, which `try_reserve_exact` requests (in bytes) succeed, the build
profile, and the largest width/precision accepted by `format!` (`u16::MAX` since Rust 1.87, where a
larger run-time width panics; `usize::MAX` before). -/
structure Platform where
  usizeMax : Nat
  alloc : Nat → Bool
  profile : Profile
  fmtMax : Nat

/-- An unchecked operation whose mathematical result is `x`, on an unsigned type with maximum `max`:
panics in `debug`, wraps in `release`. std semantics. -/
def Platform.wrapTo (P : Platform) (max x : Nat) : Res Nat :=
  if x ≤ max then .ok x else
    match P.profile with
    | .debug => .panic
    | .release => .ok (x % (max + 1))

/-- Unchecked `a + b` on `u64`. std semantics. -/
def Platform.u64Add (P : Platform) (a b : Nat) : Res Nat := P.wrapTo U64_MAX (a + b)

/-- Unchecked `a * b` on `u64`. std semantics. -/
def Platform.u64Mul (P : Platform) (a b : Nat) : Res Nat := P.wrapTo U64_MAX (a * b)

/-- Unchecked `a + b` on `usize`. std semantics. -/
def Platform.usizeAdd (P : Platform) (a b : Nat) : Res Nat := P.wrapTo P.usizeMax (a + b)

/-- Unchecked `a * b` on `usize`. std semantics. -/
def Platform.usizeMul (P : Platform) (a b : Nat) : Res Nat := P.wrapTo P.usizeMax (a * b)

/-- Unchecked `a - b` on `usize`. std semantics. -/
def Platform.usizeSub (P : Platform) (a b : Nat) : Res Nat :=
  if b ≤ a then .ok (a - b) else
    match P.profile with
    | .debug => .panic
    | .release => .ok (P.usizeMax + 1 + a - b)

/-- `usize::try_from(u64)`. std semantics. -/
def Platform.usizeTryFrom (P : Platform) (x : Nat) : Option Nat :=
  if x ≤ P.usizeMax then some x else none

/-- `usize::checked_mul`. std semantics. -/
def Platform.checkedMul (P : Platform) (a b : Nat) : Option Nat :=
  if a * b ≤ P.usizeMax then some (a * b) else none

/-- `usize::checked_add`. std semantics. -/
def Platform.checkedAdd (P : Platform) (a b : Nat) : Option Nat :=
  if a + b ≤ P.usizeMax then some (a + b) else none

/-- `usize::checked_sub`. std semantics. -/
def checkedSub (a b : Nat) : Option Nat := if b ≤ a then some (a - b) else none

/-- `HashMap<u64, V>`: a finite map, stored as an association list without duplicate keys.
`HashSet<u64>` is `HMap Unit`, exactly as in std.  Simplification: hashing, buckets and capacity
are not modelled; the iteration order is supplied from outside (`HashOrder`). -/
structure HMap (V : Type) where
  entries : List (Nat × V)
  nodup : (entries.map Prod.fst).Nodup

namespace HMap

variable {V : Type}

/-- `HashMap::default()`. std semantics. -/
def empty : HMap V := ⟨[], by simp⟩

/-- Association list lookup. -/
def lookup (k : Nat) : List (Nat × V) → Option V
  | [] => none
  | (k', v) :: l => if k' = k then some v else lookup k l

/-- `HashMap::get`. std semantics. -/
def get? (m : HMap V) (k : Nat) : Option V := lookup k m.entries

/-- `HashMap::remove` / `HashSet::remove` (resulting map). std semantics. -/
def remove (m : HMap V) (k : Nat) : HMap V :=
  ⟨m.entries.filter (fun e => e.1 != k), by
    have h := m.nodup
    exact List.Nodup.sublist (List.Sublist.map _ List.filter_sublist) h⟩

/-- `HashMap::insert` / `HashSet::insert` (resulting map): overwrites an existing binding. std semantics. -/
def insert (m : HMap V) (k : Nat) (v : V) : HMap V :=
  ⟨(k, v) :: (m.remove k).entries, by
    simp only [List.map_cons, List.nodup_cons]
    refine ⟨?_, (m.remove k).nodup⟩
    simp [remove]⟩

/-- `HashMap::contains_key` / `HashSet::contains`. std semantics. -/
def contains (m : HMap V) (k : Nat) : Bool := (m.get? k).isSome

/-- Number of bindings (`len`, or `iter().count()`). std semantics. -/
def size (m : HMap V) : Nat := m.entries.length

/-- Updating every value in place (`values_mut`). std semantics. -/
def mapValues {W : Type} (f : V → W) (m : HMap V) : HMap W :=
  ⟨m.entries.map (fun e => (e.1, f e.2)), by
    have h := m.nodup
    simpa [List.map_map, Function.comp_def] using h⟩

end HMap

/-- An adversarial choice of hash iteration orders: `cols` for the outer table, `rows c` for the
inner table stored under column `c`.  `RandomState` may produce any permutation, so every iterating
function takes a `HashOrder` and every theorem quantifies over it. -/
structure HashOrder where
  cols : {V : Type} → List (Nat × V) → List (Nat × V)
  rows : Nat → {V : Type} → List (Nat × V) → List (Nat × V)
  cols_perm : ∀ {V : Type} (l : List (Nat × V)), (cols l).Perm l
  rows_perm : ∀ (c : Nat) {V : Type} (l : List (Nat × V)), (rows c l).Perm l

/-- The order in which the association lists are stored (used in examples). -/
def HashOrder.id : HashOrder where
  cols l := l
  rows _ _ l := l
  cols_perm _ := .refl _
  rows_perm _ _ _ := .refl _

/-- The reversed order (used in examples). -/
def HashOrder.rev : HashOrder where
  cols l := l.reverse
  rows _ _ l := l.reverse
  cols_perm l := l.reverse_perm
  rows_perm _ _ l := l.reverse_perm

/-- State of the iterators over a table of tables: remaining columns, the iterator over the rows of
the current column, current column.
`/repo/graphrox-rs/src/matrix/csr_adjacency_matrix.rs:371-376` and
`/repo/graphrox-rs/src/matrix/csr_square_matrix.rs:487-492` (the two structs differ only in the
item type; `isEmptyMatrix` stands for `matrix.dimension() == 0`, the only use of the `matrix` field). -/
structure TableIter (V : Type) where
  isEmptyMatrix : Bool
  order : HashOrder
  colIter : List (Nat × HMap V)
  rowIter : Option (List (Nat × V))
  currCol : Nat

namespace TableIter

variable {V : Type}

/-- The `loop` of `next`: try the row iterator, otherwise move to the next column and try again.
`csr_adjacency_matrix.rs:386-415`, `csr_square_matrix.rs:502-531`. -/
def loop (o : HashOrder) (e : Bool) : List (Nat × HMap V) → Option (List (Nat × V)) → Nat →
    Option (Nat × Nat × V) × TableIter V
  | cols, some ((r, v) :: rest), cur => (some (cur, r, v), ⟨e, o, cols, some rest, cur⟩)
  | (c, rows) :: cols, some [], _ => loop o e cols (some (o.rows c rows.entries)) c
  | (c, rows) :: cols, none, _ => loop o e cols (some (o.rows c rows.entries)) c
  | [], some [], cur => (none, ⟨e, o, [], some [], cur⟩)
  | [], none, cur => (none, ⟨e, o, [], none, cur⟩)

/-- `Iterator::next`.  `csr_adjacency_matrix.rs:381-416` (returns `(col, row)`, here with `v : Unit`),
`csr_square_matrix.rs:497-532` (returns `(entry, col, row)`). -/
def next (it : TableIter V) : Option (Nat × Nat × V) × TableIter V :=
  if it.isEmptyMatrix then (none, it)
  else loop it.order it.isEmptyMatrix it.colIter it.rowIter it.currCol

/-- How many items can still come: bounds the number of calls of `next`. -/
def remaining (it : TableIter V) : Nat :=
  (it.rowIter.getD []).length + (it.colIter.map (fun c => c.2.entries.length)).sum

theorem loop_remaining (o : HashOrder) (e : Bool) (cols : List (Nat × HMap V)) :
    ∀ (ri : Option (List (Nat × V))) (cur : Nat) (x) (it' : TableIter V),
      loop o e cols ri cur = (some x, it') →
      it'.remaining < (ri.getD []).length + (cols.map (fun c => c.2.entries.length)).sum := by
  induction cols with
  | nil =>
    intro ri cur x it' h
    match ri with
    | none => simp [loop] at h
    | some [] => simp [loop] at h
    | some ((r, v) :: rest) =>
      simp only [loop, Prod.mk.injEq] at h
      rw [← h.2]; simp [remaining]
  | cons c cols ih =>
    intro ri cur x it' h
    match ri with
    | none =>
      have := ih _ _ _ _ h
      have hp := (o.rows_perm c.1 c.2.entries).length_eq
      simp only [Option.getD_some, hp, Option.getD_none, List.length_nil, List.map_cons, List.sum_cons] at this ⊢
      omega
    | some [] =>
      have := ih _ _ _ _ h
      have hp := (o.rows_perm c.1 c.2.entries).length_eq
      simp only [Option.getD_some, hp, List.length_nil, List.map_cons, List.sum_cons] at this ⊢
      omega
    | some ((r, v) :: rest) =>
      simp only [loop, Prod.mk.injEq] at h
      rw [← h.2]; simp [remaining]

theorem next_remaining {it it' : TableIter V} {x} (h : it.next = (some x, it')) :
    it'.remaining < it.remaining := by
  unfold next at h
  split at h
  · simp at h
  · exact loop_remaining _ _ _ _ _ _ _ h

/-- `for x in &matrix { … }`: call `next` until it returns `None`, collecting the items in order.
std semantics of `for`. -/
def collect (it : TableIter V) : List (Nat × Nat × V) :=
  match _h : it.next with
  | (none, _) => []
  | (some x, it') => x :: collect it'
termination_by it.remaining
decreasing_by exact next_remaining _h

end TableIter

/-- A byte buffer (`Vec<u8>`, `&[u8]`). -/
abbrev Bytes := List UInt8

/-- `to_be_bytes` of a `k`-byte unsigned integer. std semantics. -/
def toBE : (k : Nat) → Nat → Bytes
  | 0, _ => []
  | k + 1, x => UInt8.ofNat (x / 256 ^ k) :: toBE k x

/-- `from_be_bytes`. std semantics. -/
def fromBE (b : Bytes) : Nat := b.foldl (fun acc x => acc * 256 + x.toNat) 0

/-- `bytes.get(offset..end)`. std semantics: `None` if the range is not inside the slice. -/
def sliceGet (b : Bytes) (s e : Nat) : Option Bytes :=
  if s ≤ e ∧ e ≤ b.length then some ((b.drop s).take (e - s)) else none

end Verif
