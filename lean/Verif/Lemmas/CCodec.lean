import Verif.Lemmas.Compress

/-! The byte codec of `CompressedGraph`. -/

namespace Verif
open Spec

theorem ones_eq (e : Nat) : ones e = popCount e := by
  rw [popCount_eq, countOf_card]; rfl

namespace CGraph

theorem readBE_ok {P : Platform} {k : Nat} {b : Bytes} {off : Nat}
    (h : off + k ≤ b.length) (hP : b.length ≤ P.usizeMax) : readBE P k b off = .ok (field b off k) := by
  unfold readBE
  have h1 : P.checkedAdd off k = some (off + k) := by
    unfold Platform.checkedAdd; rw [if_pos (by omega)]
  rw [h1]
  simp only [Res.ofOption, Res.bind_ok, sliceGet_eq h]
  have h2 : ((b.drop off).take k).length = k := by simp; omega
  rw [if_pos h2, fromBE_eq_beValue, field]

/-- The bits of a block are inside the graph. -/
def BitsIn (n : Nat) (e : Nat × Nat × Nat) : Prop :=
  ∀ i < 64, e.1.testBit i = true → e.2.1 * 8 + i % 8 < n ∧ e.2.2 * 8 + i / 8 < n

theorem bitsIn_iff {n : Nat} {e : Nat × Nat × Nat} :
    BitsIn n e ↔ ∀ u v, blockEdge e u v → u < n ∧ v < n := by
  constructor
  · rintro h u v ⟨h1, h2, h3⟩
    have := h _ (by omega) h3
    omega
  · intro h i hi hb
    refine h _ _ ⟨by omega, by omega, ?_⟩
    have : 8 * ((e.2.2 * 8 + i / 8) % 8) + (e.2.1 * 8 + i % 8) % 8 = i := by omega
    rw [this]; exact hb

theorem validateBit_eq {e c r n i : Nat} (hn : n ≤ U64_MAX) :
    (validateBit e c r n i = .ok () ∧ (e.testBit i = true → c * 8 + i % 8 < n ∧ r * 8 + i / 8 < n)) ∨
    ((∃ msg, validateBit e c r n i = .err (.InvalidFormat msg)) ∧
      ¬ (e.testBit i = true → c * 8 + i % 8 < n ∧ r * 8 + i / 8 < n)) := by
  unfold validateBit
  by_cases hb : e.testBit i = true
  · have h1 := (shift_and_one e i).2 hb
    rw [if_neg (by rw [h1]; norm_num)]
    unfold checkedMul checkedAdd COMPRESSION_BLOCK_DIMENSION
    by_cases hc : c * 8 ≤ U64_MAX
    swap
    · right
      simp only [hc, if_false, Option.bind_none, Res.ofOption, Res.bind_err]
      exact ⟨⟨_, rfl⟩, fun h => by have := h hb; omega⟩
    by_cases hc' : c * 8 + i % 8 ≤ U64_MAX
    swap
    · right
      simp only [hc, hc', if_false, if_true, Option.bind_some, Res.ofOption, Res.bind_err]
      exact ⟨⟨_, rfl⟩, fun h => by have := h hb; omega⟩
    by_cases hr : r * 8 ≤ U64_MAX
    swap
    · right
      simp only [hc, hc', hr, if_false, if_true, Option.bind_some, Option.bind_none, Res.ofOption, Res.bind_ok,
        Res.bind_err]
      exact ⟨⟨_, rfl⟩, fun h => by have := h hb; omega⟩
    by_cases hr' : r * 8 + i / 8 ≤ U64_MAX
    swap
    · right
      simp only [hc, hc', hr, hr', if_false, if_true, Option.bind_some, Res.ofOption, Res.bind_ok,
        Res.bind_err]
      exact ⟨⟨_, rfl⟩, fun h => by have := h hb; omega⟩
    simp only [hc, hc', hr, hr', if_true, Option.bind_some, Res.ofOption, Res.bind_ok]
    by_cases hx : c * 8 + i % 8 ≥ n ∨ r * 8 + i / 8 ≥ n
    · right
      rw [if_pos hx]
      exact ⟨⟨_, rfl⟩, fun h => by have := h hb; omega⟩
    · left
      rw [if_neg hx]
      exact ⟨rfl, fun _ => by omega⟩
  · left
    have h1 : (e >>> i) &&& 1 = 0 := by
      rw [shift_and_zero]; simpa using hb
    rw [if_pos h1]
    exact ⟨rfl, fun h => absurd h hb⟩

theorem validateEntryBounds_eq {e c r n : Nat} (hn : n ≤ U64_MAX) :
    (validateEntryBounds e c r n = .ok () ∧ BitsIn n (e, c, r)) ∨
    ((∃ msg, validateEntryBounds e c r n = .err (.InvalidFormat msg)) ∧ ¬ BitsIn n (e, c, r)) := by
  unfold validateEntryBounds BitsIn
  have key : ∀ l : List Nat,
      (Res.foldl (fun _ bit => validateBit e c r n bit) () l = .ok () ∧
        ∀ i ∈ l, e.testBit i = true → c * 8 + i % 8 < n ∧ r * 8 + i / 8 < n) ∨
      ((∃ msg, Res.foldl (fun _ bit => validateBit e c r n bit) () l = .err (.InvalidFormat msg)) ∧
        ¬ ∀ i ∈ l, e.testBit i = true → c * 8 + i % 8 < n ∧ r * 8 + i / 8 < n) := by
    intro l
    induction l with
    | nil => left; exact ⟨rfl, by simp⟩
    | cons a l ih =>
      change ((validateBit e c r n a >>= fun _ => Res.foldl (fun _ bit => validateBit e c r n bit) () l) = _ ∧ _) ∨
        ((∃ msg, (validateBit e c r n a >>= fun _ => Res.foldl (fun _ bit => validateBit e c r n bit) () l) = _) ∧ _)
      rcases validateBit_eq (e := e) (c := c) (r := r) (i := a) hn with ⟨h, h'⟩ | ⟨⟨msg, h⟩, h'⟩
      · rw [h, Res.bind_ok]
        rcases ih with ⟨g, g'⟩ | ⟨g, g'⟩
        · left; exact ⟨g, by rw [List.forall_mem_cons]; exact ⟨h', g'⟩⟩
        · right; exact ⟨g, fun hh => g' fun i hi => hh i (by simp [hi])⟩
      · right
        rw [h, Res.bind_err]
        exact ⟨⟨msg, rfl⟩, fun hh => h' (hh a (by simp))⟩
  simpa using key (List.range 64)

/-- The loop of `try_from` over an already parsed list of blocks. -/
def readLoop (dim n : Nat) : List (Nat × Nat × Nat) → Nat → CGraph → Res (Nat × CGraph)
  | [], parsed, g => .ok (parsed, g)
  | e :: l, parsed, g =>
    if e.1 = 0 then .err (.InvalidFormat "CompressedGraph entry cannot be zero")
    else if e.2.1 ≥ dim ∨ e.2.2 ≥ dim then .err (.InvalidFormat "CompressedGraph entry exceeds matrix dimension")
    else do
      validateEntryBounds e.1 e.2.1 e.2.2 n
      let parsed ← Res.ofOption (checkedAdd parsed (popCount e.1))
          (.InvalidFormat "CompressedGraph edge count overflowed")
      readLoop dim n l parsed (g.builderAdd e.1 e.2.1 e.2.2 (some (popCount e.1)))

theorem readEntries_eq {P : Platform} {b : Bytes} {dim n count : Nat}
    (hlen : b.length = 42 + 24 * count) (hP : b.length ≤ P.usizeMax) :
    ∀ (fuel i parsed : Nat) (g : CGraph), i ≤ count → count - i < fuel →
      readEntries P b dim n (42 + 24 * count) fuel (42 + 24 * i) parsed g =
        readLoop dim n ((List.range' i (count - i)).map (listedBlock b)) parsed g := by
  intro fuel
  induction fuel with
  | zero => intro i parsed g _ h; omega
  | succ fuel ih =>
    intro i parsed g hi hf
    unfold readEntries
    by_cases h : i < count
    · rw [if_pos (by omega)]
      rw [readBE_ok (by omega) hP, Res.bind_ok]
      simp only
      rw [readBE_ok (by omega) hP, Res.bind_ok]
      rw [readBE_ok (by omega) hP, Res.bind_ok]
      have hr : count - i = (count - (i + 1)) + 1 := by omega
      rw [hr, List.range'_succ, List.map_cons, readLoop]
      have he : listedBlock b i = (field b (42 + 24 * i) 8, field b (42 + 24 * i + 8) 8,
        field b (42 + 24 * i + 16) 8) := rfl
      rw [he]
      simp only
      refine ite_congr rfl (fun _ => rfl) fun _ => ?_
      refine ite_congr rfl (fun _ => rfl) fun _ => ?_
      congr 1
      funext _
      congr 1
      funext parsed'
      have := ih (i + 1) parsed' (g.builderAdd (field b (42 + 24 * i) 8) (field b (42 + 24 * i + 8) 8)
        (field b (42 + 24 * i + 16) 8) (some (popCount (field b (42 + 24 * i) 8)))) (by omega) (by omega)
      rw [← this]
      congr 1
    · rw [if_neg (by omega)]
      have : count - i = 0 := by omega
      rw [this]; rfl

/-- What the decoder demands of a listed block. -/
def Good (dim n : Nat) (e : Nat × Nat × Nat) : Prop := Fits dim e ∧ BitsIn n e

theorem readLoop_eq {dim n : Nat} (hn : n ≤ U64_MAX) (l : List (Nat × Nat × Nat)) (parsed : Nat) (hp : parsed ≤ U64_MAX)
    (g : CGraph) :
    (readLoop dim n l parsed g = .ok (parsed + (l.map fun e => popCount e.1).sum, g.addBlocks l) ∧
      (∀ e ∈ l, Good dim n e) ∧ parsed + (l.map fun e => popCount e.1).sum ≤ U64_MAX) ∨
    ((∃ msg, readLoop dim n l parsed g = .err (.InvalidFormat msg)) ∧
      ¬ ((∀ e ∈ l, Good dim n e) ∧ parsed + (l.map fun e => popCount e.1).sum ≤ U64_MAX)) := by
  induction l generalizing g parsed with
  | nil => left; exact ⟨rfl, by simp, by simpa using hp⟩
  | cons e l ih =>
    unfold readLoop
    by_cases h0 : e.1 = 0
    · right
      rw [if_pos h0]
      exact ⟨⟨_, rfl⟩, fun h => (h.1 e (by simp)).1.1 h0⟩
    rw [if_neg h0]
    by_cases hd : e.2.1 ≥ dim ∨ e.2.2 ≥ dim
    · right
      rw [if_pos hd]
      exact ⟨⟨_, rfl⟩, fun h => by have := (h.1 e (by simp)).1.2; omega⟩
    rw [if_neg hd]
    rcases validateEntryBounds_eq (e := e.1) (c := e.2.1) (r := e.2.2) hn with ⟨h, h'⟩ | ⟨⟨msg, h⟩, h'⟩
    swap
    · right
      rw [h, Res.bind_err]
      exact ⟨⟨_, rfl⟩, fun h => h' (h.1 e (by simp)).2⟩
    rw [h, Res.bind_ok]
    have hg : Good dim n e := ⟨⟨h0, by omega, by omega⟩, h'⟩
    unfold checkedAdd
    by_cases ho : parsed + popCount e.1 ≤ U64_MAX
    swap
    · right
      rw [if_neg ho]
      simp only [Res.ofOption, Res.bind_err]
      refine ⟨⟨_, rfl⟩, fun h => ?_⟩
      have := h.2
      rw [List.map_cons, List.sum_cons] at this
      omega
    rw [if_pos ho]
    simp only [Res.ofOption, Res.bind_ok]
    rw [List.map_cons, List.sum_cons, ← Nat.add_assoc, List.forall_mem_cons]
    rcases ih _ ho (g.builderAdd e.1 e.2.1 e.2.2 (some (popCount e.1))) with ⟨k1, k2, k3⟩ | ⟨k1, k2⟩
    · left; exact ⟨by rw [k1, addBlocks_cons], ⟨hg, k2⟩, k3⟩
    · right; exact ⟨k1, fun h => k2 ⟨h.1.2, h.2⟩⟩

theorem listed_lt {b : Bytes} {k : Nat} {e : Nat × Nat × Nat} (h : e ∈ listedBlocks b k) :
    e.1 < 2 ^ 64 ∧ e.2.1 < 2 ^ 64 ∧ e.2.2 < 2 ^ 64 := by
  unfold listedBlocks at h
  rw [List.mem_map] at h
  obtain ⟨i, _, rfl⟩ := h
  exact ⟨field_lt, field_lt, field_lt⟩

/-- A non-zero 64-bit word has a set bit. -/
theorem exists_bit {e : Nat} (h0 : e ≠ 0) (h : e < 2 ^ 64) : ∃ i < 64, e.testBit i = true := by
  by_contra hc
  push Not at hc
  apply h0
  apply Nat.eq_of_testBit_eq
  intro i
  rw [Nat.zero_testBit]
  by_cases hi : i < 64
  · simpa using hc i hi
  · apply Nat.testBit_lt_two_pow
    exact lt_of_lt_of_le h (Nat.pow_le_pow_right (by norm_num) (by omega))

/-- In-range bits force in-range blocks. -/
theorem good_iff {n : Nat} {e : Nat × Nat × Nat} (h : e.1 < 2 ^ 64) :
    Good (compressedMatrixDimension n) n e ↔ e.1 ≠ 0 ∧ BitsIn n e := by
  constructor
  · exact fun h => ⟨h.1.1, h.2⟩
  · rintro ⟨h0, hb⟩
    obtain ⟨i, hi, ht⟩ := exists_bit h0 h
    have := hb i hi ht
    refine ⟨⟨h0, ?_, ?_⟩, hb⟩
    · have := div8_lt_dim this.1; omega
    · have := div8_lt_dim this.2; omega

theorem ite_err_ok {α : Type} {c : Prop} [Decidable c] {e : GraphRoxError} {X : Res α} {g : α}
    (h : (if c then .err e else X) = .ok g) : X = .ok g ∧ ¬ c := by
  by_cases hc : c
  · rw [if_pos hc] at h; cases h
  · rw [if_neg hc] at h; exact ⟨h, hc⟩

theorem tryFrom_length {P : Platform} {b : Bytes} {g : CGraph} (h : tryFrom P b = .ok g) :
    b.length ≤ P.usizeMax := by
  unfold tryFrom at h
  replace h := (ite_err_ok h).1
  iterate 8 (rw [Res.bind_eq_ok] at h; obtain ⟨_, _, h⟩ := h)
  iterate 7 replace h := (ite_err_ok h).1
  rw [Res.bind_eq_ok] at h
  obtain ⟨exp, he, h⟩ := h
  have h1 := ite_err_ok h
  have h2 := ite_err_ok h1.1
  rw [Graph.expectedSize P _ 3 _ (Or.inr rfl)] at he
  split at he
  · simp only [Res.ofOption, Res.ok.injEq] at he
    omega
  · cases he

/-- What the decoder builds from a valid file. -/
def decoded (b : Bytes) : CGraph :=
  (builderNew (field b 40 1 == 1) (field b 32 8) (field b 41 1)).addBlocks (listedBlocks b (field b 16 8))

theorem tryFrom_eq {P : Platform} {b : Bytes} (hP : b.length ≤ P.usizeMax) :
    (tryFrom P b = .ok (decoded b) ∧ ValidCompressedFile b) ∨
    ((∃ msg, tryFrom P b = .err (.InvalidFormat msg)) ∧ ¬ ValidCompressedFile b) := by
  unfold tryFrom
  by_cases h42 : b.length < 42
  · right
    rw [if_pos (by unfold HEADER_SIZE; omega)]
    exact ⟨⟨_, rfl⟩, fun h => by have := h.length; omega⟩
  rw [if_neg (by unfold HEADER_SIZE; omega)]
  rw [readBE_ok (by omega) hP, Res.bind_ok, readBE_ok (by omega) hP, Res.bind_ok,
    readBE_ok (by omega) hP, Res.bind_ok, readBE_ok (by omega) hP, Res.bind_ok,
    readBE_ok (by omega) hP, Res.bind_ok, readBE_ok (by omega) hP, Res.bind_ok,
    Graph.index_ok (by omega), Res.bind_ok, Graph.index_ok (by omega), Res.bind_ok]
  have bad : ∀ (msg : String) (X : Res CGraph) (c : Prop) [Decidable c],
      (c → ¬ ValidCompressedFile b) →
      (¬ c → (X = .ok (decoded b) ∧ ValidCompressedFile b) ∨
        ((∃ msg, X = .err (.InvalidFormat msg)) ∧ ¬ ValidCompressedFile b)) →
      ((if c then .err (.InvalidFormat msg) else X) = .ok (decoded b) ∧ ValidCompressedFile b) ∨
        ((∃ msg', (if c then .err (.InvalidFormat msg) else X) = .err (.InvalidFormat msg')) ∧
          ¬ ValidCompressedFile b) := by
    intro msg X c _ h1 h2
    split
    · next hc => right; exact ⟨⟨_, rfl⟩, h1 hc⟩
    · next hc => exact h2 hc
  refine bad _ _ _ (fun h hv => h hv.magic) fun h1 => ?_
  refine bad _ _ _ (fun h hv => by have := hv.version; unfold VERSION at h; omega) fun _ => ?_
  refine bad _ _ _ (fun h hv => h hv.version) fun h2 => ?_
  refine bad _ _ _ (fun h hv => by have := hv.direction; omega) fun h3 => ?_
  refine bad _ _ _ (fun h hv => h hv.level) fun h4 => ?_
  have hdim : compressedMatrixDimension (field b 32 8) = max 1 ((field b 32 8 + 7) / 8) := by
    rw [dim_eq_ceil]; unfold ceilDiv; rfl
  refine bad _ _ _ (fun h hv => h (by rw [hdim]; exact hv.dimension)) fun h5 => ?_
  have h5' : field b 8 8 = compressedMatrixDimension (field b 32 8) := not_not.1 h5
  refine bad _ _ _ (fun h _ => by have := dim_pos (field b 32 8); omega) fun _ => ?_
  rw [Graph.expectedSize P _ 3 _ (Or.inr rfl)]
  have hsz : field b 16 8 * 3 * 8 + HEADER_SIZE = 42 + 24 * field b 16 8 := by unfold HEADER_SIZE; ring
  rw [hsz]
  by_cases hov : 42 + 24 * field b 16 8 ≤ P.usizeMax
  swap
  · right
    rw [if_neg hov]
    simp only [Res.ofOption, Res.bind_err]
    exact ⟨⟨_, rfl⟩, fun hv => by have := hv.length; omega⟩
  rw [if_pos hov]
  simp only [Res.ofOption, Res.bind_ok]
  refine bad _ _ _ (fun h hv => by have := hv.length; omega) fun h6 => ?_
  refine bad _ _ _ (fun h hv => by have := hv.length; omega) fun h7 => ?_
  have hlen : b.length = 42 + 24 * field b 16 8 := by omega
  have hn : field b 32 8 ≤ U64_MAX := by
    have : field b 32 8 < 256 ^ 8 := field_lt
    rw [U64_eq] at this; omega
  have hre := readEntries_eq (dim := field b 8 8) (n := field b 32 8) hlen hP (42 + 24 * field b 16 8 + 1) 0 0
    (builderNew (field b 40 1 == 1) (field b 32 8) (field b 41 1)) (by omega) (by omega)
  simp only [Nat.mul_zero, Nat.add_zero, Nat.sub_zero, ← List.range_eq_range'] at hre
  unfold HEADER_SIZE
  rw [hre, show (List.range (field b 16 8)).map (listedBlock b) = listedBlocks b (field b 16 8) from rfl]
  have hgood : (∀ e ∈ listedBlocks b (field b 16 8), Good (field b 8 8) (field b 32 8) e) ↔
      (∀ e ∈ listedBlocks b (field b 16 8), e.1 ≠ 0) ∧
      ∀ e ∈ listedBlocks b (field b 16 8), ∀ u v, blockEdge e u v → u < field b 32 8 ∧ v < field b 32 8 := by
    rw [h5']
    constructor
    · intro h
      exact ⟨fun e he => (h e he).1.1, fun e he => bitsIn_iff.1 (h e he).2⟩
    · intro h e he
      exact (good_iff (listed_lt he).1).2 ⟨h.1 e he, bitsIn_iff.2 (h.2 e he)⟩
  have hsum : ((listedBlocks b (field b 16 8)).map fun e => ones e.1).sum =
      ((listedBlocks b (field b 16 8)).map fun e => popCount e.1).sum := by
    simp only [ones_eq]
  rcases readLoop_eq (dim := field b 8 8) hn (listedBlocks b (field b 16 8)) 0 (by decide)
    (builderNew (field b 40 1 == 1) (field b 32 8) (field b 41 1)) with ⟨k1, k2, k3⟩ | ⟨⟨msg, k1⟩, k2⟩
  · rw [k1, Res.bind_ok]
    simp only [Nat.zero_add] at k1 k3 ⊢
    refine bad _ _ _ (fun h hv => h (by rw [← hsum]; exact hv.edgeCount)) fun h8 => ?_
    left
    refine ⟨rfl, ?_⟩
    exact { magic := not_not.1 h1, version := not_not.1 h2, direction := by omega, level := not_not.1 h4,
            dimension := by rw [← hdim]; exact h5', length := hlen, nonzero := (hgood.1 k2).1,
            inRange := (hgood.1 k2).2, edgeCount := by rw [hsum]; exact not_not.1 h8 }
  · right
    rw [k1, Res.bind_err]
    refine ⟨⟨_, rfl⟩, fun hv => k2 ⟨hgood.2 ⟨hv.nonzero, hv.inRange⟩, ?_⟩⟩
    rw [Nat.zero_add, ← hsum, hv.edgeCount]
    have : field b 24 8 < 256 ^ 8 := field_lt
    rw [U64_eq] at this; omega

theorem tryFrom_iff {P : Platform} {b : Bytes} (hP : b.length ≤ P.usizeMax) (g : CGraph) :
    tryFrom P b = .ok g ↔ ValidCompressedFile b ∧ g = decoded b := by
  rcases tryFrom_eq hP with ⟨h, hv⟩ | ⟨⟨msg, h⟩, hv⟩
  · rw [h, Res.ok.injEq]; exact ⟨fun h => ⟨hv, h.symm⟩, fun h => h.2.symm⟩
  · rw [h]; simp [hv]

theorem clampLevel_id {l : Nat} (h : 1 ≤ l ∧ l ≤ 64) : clampCompressionLevel l = l := by
  unfold clampCompressionLevel
  split <;> (try split) <;> omega

/-- The parts of a decoded graph. -/
theorem decoded_spec {b : Bytes} (hv : ValidCompressedFile b) :
    (decoded b).OK ∧ (decoded b).vertexCount = field b 32 8 ∧ (decoded b).edgeCount = field b 24 8 ∧
    (decoded b).isUndirected = (field b 40 1 == 1) ∧ (decoded b).compressionLevel = field b 41 1 ∧
    ∀ c r, (decoded b).at? c r = ((listedBlocks b (field b 16 8)).reverse.find?
      (fun e => decide (e.2.1 = c ∧ e.2.2 = r))).map Prod.fst := by
  have hn : field b 32 8 ≤ U64_MAX := by
    have : field b 32 8 < 256 ^ 8 := field_lt
    rw [U64_eq] at this; omega
  have hE : field b 24 8 ≤ U64_MAX := by
    have : field b 24 8 < 256 ^ 8 := field_lt
    rw [U64_eq] at this; omega
  obtain ⟨n1, n2, n3⟩ := builderNew_at (field b 40 1 == 1) hn (field b 41 1)
  have hgood : ∀ e ∈ listedBlocks b (field b 16 8), Good (compressedMatrixDimension (field b 32 8)) (field b 32 8) e :=
    fun e he => (good_iff (listed_lt he).1).2 ⟨hv.nonzero e he, bitsIn_iff.2 (hv.inRange e he)⟩
  obtain ⟨a1, a2, a3⟩ := addBlocks_matrix n3 (listedBlocks b (field b 16 8))
    (by rw [n2]; exact fun e he => (hgood e he).1)
  have hat : ∀ c r, (decoded b).at? c r = ((listedBlocks b (field b 16 8)).reverse.find?
      (fun e => decide (e.2.1 = c ∧ e.2.2 = r))).map Prod.fst := by
    intro c r
    have := a3 c r
    rw [n1, Option.or_none] at this
    exact this
  have hmem : ∀ c r e, (decoded b).at? c r = some e → (e, c, r) ∈ listedBlocks b (field b 16 8) := by
    intro c r e he
    rw [hat, Option.map_eq_some_iff] at he
    obtain ⟨⟨x, c', r'⟩, hf, rfl⟩ := he
    have h1 := List.find?_some hf
    have h2 := List.mem_reverse.1 (List.mem_of_find?_eq_some hf)
    simp only [decide_eq_true_eq] at h1
    obtain ⟨rfl, rfl⟩ := h1
    exact h2
  have hvc : (decoded b).vertexCount = field b 32 8 := by unfold decoded; rw [addBlocks_vertexCount]; rfl
  have hec : (decoded b).edgeCount = field b 24 8 := by
    unfold decoded
    rw [addBlocks_edgeCount (by simp [builderNew])]
    have : (builderNew (field b 40 1 == 1) (field b 32 8) (field b 41 1)).edgeCount = 0 := rfl
    rw [this, Nat.zero_add]
    have h := hv.edgeCount
    simp only [ones_eq] at h
    rw [h]; omega
  have hlv : (decoded b).compressionLevel = field b 41 1 := by
    unfold decoded; rw [addBlocks_level]; exact clampLevel_id hv.level
  refine ⟨?_, hvc, hec, by unfold decoded; rw [addBlocks_isUndirected]; rfl, hlv, hat⟩
  exact
    { wf := a1
      dim := by rw [hvc]; exact a2.trans n2
      word := fun c r e he => ⟨hv.nonzero _ (hmem c r e he), (listed_lt (hmem c r e he)).1⟩
      range := by
        intro u v he
        rw [doesEdgeExist_iff] at he
        obtain ⟨e, he, hb⟩ := he
        rw [hvc]
        exact hv.inRange _ (hmem _ _ _ he) u v ⟨rfl, rfl, hb⟩
      level := by rw [hlv]; exact hv.level
      vc := by rw [hvc]; exact hn
      ec := by rw [hec]; exact hE }

theorem OK.tryFrom {P : Platform} {b : Bytes} {g : CGraph} (h : CGraph.tryFrom P b = .ok g) : g.OK := by
  obtain ⟨hv, rfl⟩ := (tryFrom_iff (tryFrom_length h) g).1 h
  exact (decoded_spec hv).1

end CGraph

theorem CReach.ok {c : CGraph} : CReach c → c.OK
  | .compress P o₁ o₂ l hg h => by
    obtain ⟨c', hc', hok, _⟩ := Graph.compress_spec hg.ok P o₁ o₂ l
    rw [hc'] at h
    cases h
    exact hok
  | .tryFrom _ _ h => CGraph.OK.tryFrom h

end Verif
