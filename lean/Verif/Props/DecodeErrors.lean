import Verif.Spec.Checks
import Verif.Props.Codec
import Verif.Props.CCodec

/-!
# Which error the decoders return: C95
-/

namespace Verif.Props
open Verif Spec

theorem reports_nil (msg : String) : ¬ Reports [] msg := by
  rintro ⟨l, c, r, h, _⟩
  cases l <;> simp at h

theorem reports_cons (p : Prop) (m : String) (L : List (Prop × String)) (msg : String) :
    Reports ((p, m) :: L) msg ↔ (¬ p ∧ msg = m) ∨ (p ∧ Reports L msg) := by
  constructor
  · rintro ⟨l, c, r, h, hl, hc⟩
    cases l with
    | nil =>
      simp only [List.nil_append, List.cons.injEq, Prod.mk.injEq] at h
      obtain ⟨⟨rfl, rfl⟩, _⟩ := h
      exact .inl ⟨hc, rfl⟩
    | cons a l =>
      simp only [List.cons_append, List.cons.injEq] at h
      obtain ⟨rfl, rfl⟩ := h
      exact .inr ⟨hl (p, m) (by simp), l, c, r, rfl, fun c h => hl c (by simp [h]), hc⟩
  · rintro (⟨hp, rfl⟩ | ⟨hp, l, c, r, rfl, hl, hc⟩)
    · exact ⟨[], p, L, rfl, by simp, hp⟩
    · exact ⟨(p, m) :: l, c, r, rfl, by simp only [List.forall_mem_cons]; exact ⟨hp, hl⟩, hc⟩

/-- The errors of `x` are the complaints of the checks. -/
def Cascade {α : Type} (x : Res α) (L : List (Prop × String)) : Prop :=
  ∀ e, x = .err e ↔ ∃ msg, e = .InvalidFormat msg ∧ Reports L msg

theorem Cascade.nil {α : Type} (a : α) : Cascade (.ok a) [] := by
  intro e
  constructor
  · intro h; cases h
  · rintro ⟨_, _, h⟩; exact absurd h (reports_nil _)

theorem Cascade.fail {α : Type} {p : Prop} {m : String} {L} (hp : ¬ p) :
    Cascade (.err (.InvalidFormat m) : Res α) ((p, m) :: L) := by
  intro e
  simp only [Res.err.injEq, reports_cons]
  constructor
  · rintro rfl; exact ⟨m, rfl, .inl ⟨hp, rfl⟩⟩
  · rintro ⟨_, rfl, ⟨_, rfl⟩ | ⟨h, _⟩⟩
    · rfl
    · exact absurd h hp

theorem Cascade.pass {α : Type} {x : Res α} {p : Prop} {m : String} {L} (hp : p) (h : Cascade x L) :
    Cascade x ((p, m) :: L) := by
  intro e
  rw [h e]
  simp only [reports_cons]
  exact ⟨fun ⟨m, h, h'⟩ => ⟨m, h, .inr ⟨hp, h'⟩⟩, fun ⟨m, h, h'⟩ => ⟨m, h, h'.elim (fun h => absurd hp h.1) (·.2)⟩⟩

theorem Cascade.ite {α : Type} {x : Res α} {c p : Prop} [Decidable c] {m : String} {L} (hc : c ↔ ¬ p)
    (h : p → Cascade x L) : Cascade (if c then .err (.InvalidFormat m) else x) ((p, m) :: L) := by
  by_cases hp : p
  · rw [if_neg (by rw [hc]; exact not_not.2 hp)]; exact .pass hp (h hp)
  · rw [if_pos (hc.2 hp)]; exact .fail hp

/-- A check made on every item of a list. -/
theorem Cascade.all {α β : Type} {x : Res α} {c : Prop} [Decidable c] {q : β → Prop} {m : String} (l : List β) {L}
    (hc : c ↔ ¬ ∀ e ∈ l, q e) (h : (∀ e ∈ l, q e) → Cascade x L) :
    Cascade (if c then .err (.InvalidFormat m) else x) (l.map (fun e => (q e, m)) ++ L) := by
  by_cases hp : ∀ e ∈ l, q e
  · rw [if_neg (by rw [hc]; exact not_not.2 hp)]
    have := h hp
    clear hc h
    induction l with
    | nil => exact this
    | cons a l ih => exact .pass (hp a (by simp)) (ih fun e h => hp e (by simp [h]))
  · rw [if_pos (hc.2 hp)]
    clear hc h
    induction l with
    | nil => simp at hp
    | cons a l ih =>
      by_cases ha : q a
      · exact .pass ha (ih fun h => hp (by rw [List.forall_mem_cons]; exact ⟨ha, h⟩))
      · exact .fail ha

/-- **C95**, graphs: the error `Graph::try_from` returns is the complaint of the first check that fails. -/
theorem C95_graph_error {P : Platform} {b : Bytes} (hP : b.length ≤ P.usizeMax) (e : GraphRoxError) :
    Graph.tryFrom P b = .err e ↔ ∃ msg, e = .InvalidFormat msg ∧ Reports (graphChecks P.usizeMax b) msg := by
  revert e
  change Cascade (Graph.tryFrom P b) _
  unfold graphChecks
  simp only [List.cons_append, List.nil_append]
  by_cases h26 : 26 ≤ b.length
  swap
  · unfold Graph.tryFrom
    rw [if_pos (by unfold Graph.HEADER_SIZE; omega)]
    exact .fail h26
  refine .pass h26 ?_
  rw [Graph.tryFrom_eq h26 hP]
  refine .ite Iff.rfl fun _ => ?_
  refine .ite Iff.rfl fun _ => ?_
  refine .ite (by omega) fun _ => ?_
  refine .ite Iff.rfl fun _ => ?_
  refine .ite (by omega) fun _ => ?_
  refine .ite (by omega) fun _ => ?_
  refine .ite (by omega) fun _ => ?_
  refine .ite (by omega) fun _ => ?_
  refine .all (q := fun e : Nat × Nat => e.1 < field b 8 8 ∧ e.2 < field b 8 8) _ Iff.rfl fun h9 => ?_
  have hcard : (Graph.buildFrom (field b 24 1 == 1) (listedEdges b (field b 16 8))).edgeCount =
      (meantEdges (field b 24 1 == 1) (listedEdges b (field b 16 8))).card := by
    rw [Graph.edgeCount_eq (Graph.OK.buildFrom _ _), meantEdges_eq _ _ (inRange_lt h9)]
  rw [hcard]
  refine .ite Iff.rfl fun _ => ?_
  split
  · exact .nil _
  · exact .nil _

theorem validateBit_in {e c r n i : Nat} (hc : c * 8 + 7 ≤ U64_MAX) (hr : r * 8 + 7 ≤ U64_MAX) (hi : i < 64) :
    CGraph.validateBit e c r n i =
      if e.testBit i = true → c * 8 + i % 8 < n ∧ r * 8 + i / 8 < n then .ok ()
      else .err (.InvalidFormat "CompressedGraph entry contains edge outside vertex count") := by
  unfold CGraph.validateBit
  by_cases hb : e.testBit i = true
  · have h1 := (shift_and_one e i).2 hb
    rw [if_neg (by rw [h1]; norm_num)]
    unfold checkedMul checkedAdd COMPRESSION_BLOCK_DIMENSION
    simp only [show c * 8 ≤ U64_MAX by omega, show c * 8 + i % 8 ≤ U64_MAX by omega,
      show r * 8 ≤ U64_MAX by omega, show r * 8 + i / 8 ≤ U64_MAX by omega, if_true, Option.bind_some, Res.ofOption,
      Res.bind_ok, hb, forall_const]
    by_cases hx : c * 8 + i % 8 < n ∧ r * 8 + i / 8 < n
    · rw [if_pos hx, if_neg (by omega)]
    · rw [if_neg hx, if_pos (by omega)]
  · have h1 : (e >>> i) &&& 1 = 0 := by
      rw [shift_and_zero]; simpa using hb
    rw [if_pos h1, if_pos fun h => absurd h hb]

theorem validateEntryBounds_in {e c r n : Nat} (hc : c * 8 + 7 ≤ U64_MAX) (hr : r * 8 + 7 ≤ U64_MAX)
    [Decidable (CGraph.BitsIn n (e, c, r))] :
    CGraph.validateEntryBounds e c r n =
      if CGraph.BitsIn n (e, c, r) then .ok ()
      else .err (.InvalidFormat "CompressedGraph entry contains edge outside vertex count") := by
  have key : ∀ l : List Nat, (∀ i ∈ l, i < 64) →
      [Decidable (∀ i ∈ l, e.testBit i = true → c * 8 + i % 8 < n ∧ r * 8 + i / 8 < n)] →
      Res.foldl (fun _ bit => CGraph.validateBit e c r n bit) () l =
      if ∀ i ∈ l, e.testBit i = true → c * 8 + i % 8 < n ∧ r * 8 + i / 8 < n then .ok ()
      else .err (.InvalidFormat "CompressedGraph entry contains edge outside vertex count") := by
    intro l hl
    induction l with
    | nil => intro _; rw [if_pos (by simp)]; rfl
    | cons a l ih =>
      intro _
      change (CGraph.validateBit e c r n a >>= fun _ => Res.foldl (fun _ bit => CGraph.validateBit e c r n bit) () l) = _
      rw [validateBit_in hc hr (hl a (by simp))]
      by_cases h : e.testBit a = true → c * 8 + a % 8 < n ∧ r * 8 + a / 8 < n
      · rw [if_pos h, Res.bind_ok]
        classical
        rw [ih fun i hi => hl i (by simp [hi])]
        refine ite_congr (propext ?_) (fun _ => rfl) (fun _ => rfl)
        rw [List.forall_mem_cons]; exact ⟨fun x => ⟨h, x⟩, fun x => x.2⟩
      · rw [if_neg h, Res.bind_err, if_neg]
        intro hh; exact h (hh a (by simp))
  classical
  unfold CGraph.validateEntryBounds
  rw [key _ (by simp)]
  refine ite_congr (propext ?_) (fun _ => rfl) (fun _ => rfl)
  unfold CGraph.BitsIn
  simp

theorem readLoop_cascade {dim n : Nat} (hd : dim * 8 ≤ U64_MAX + 1) {β : Type} (k : Nat × CGraph → Res β)
    (l : List (Nat × Nat × Nat)) (parsed : Nat) (g : CGraph) {L : List (Prop × String)}
    (h : ∀ g, Cascade (k (parsed + (l.map fun e => ones e.1).sum, g)) L) :
    Cascade (CGraph.readLoop dim n l parsed g >>= k) (blockChecks dim n parsed l ++ L) := by
  induction l generalizing parsed g with
  | nil => simpa [CGraph.readLoop, blockChecks, Res.bind_ok] using h g
  | cons e l ih =>
    unfold CGraph.readLoop blockChecks
    simp only [List.cons_append, List.nil_append]
    by_cases h0 : e.1 = 0
    · rw [if_pos h0, Res.bind_err]; exact .fail (not_not.2 h0)
    rw [if_neg h0]
    refine .pass h0 ?_
    by_cases hdd : e.2.1 ≥ dim ∨ e.2.2 ≥ dim
    · rw [if_pos hdd, Res.bind_err]; exact .fail (by omega)
    rw [if_neg hdd]
    refine .pass (by omega) ?_
    classical
    rw [validateEntryBounds_in (by omega) (by omega)]
    by_cases hb : CGraph.BitsIn n (e.1, e.2.1, e.2.2)
    swap
    · rw [if_neg hb, Res.bind_err, Res.bind_err]; exact .fail fun hh => hb (CGraph.bitsIn_iff.2 hh)
    rw [if_pos hb, Res.bind_ok]
    refine .pass (CGraph.bitsIn_iff.1 hb) ?_
    have hU : U64_MAX + 1 = 2 ^ 64 := rfl
    rw [← ones_eq]
    unfold checkedAdd
    by_cases ho : parsed + ones e.1 ≤ U64_MAX
    swap
    · rw [if_neg ho]
      simp only [Res.ofOption, Res.bind_err]
      exact .fail (by omega)
    rw [if_pos ho]
    refine .pass (by omega) ?_
    simp only [Res.ofOption, Res.bind_ok]
    refine ih _ _ fun g => ?_
    have := h g
    rwa [List.map_cons, List.sum_cons, ← Nat.add_assoc] at this

/-- **C95**, compressed graphs: the error `CompressedGraph::try_from` returns is the complaint of the first check that
fails. -/
theorem C95_compressed_error {P : Platform} {b : Bytes} (hP : b.length ≤ P.usizeMax) (e : GraphRoxError) :
    CGraph.tryFrom P b = .err e ↔
      ∃ msg, e = .InvalidFormat msg ∧ Reports (compressedChecks P.usizeMax b) msg := by
  revert e
  change Cascade (CGraph.tryFrom P b) _
  unfold compressedChecks CGraph.tryFrom
  simp only [List.cons_append, List.nil_append]
  have hh : CGraph.HEADER_SIZE = 42 := rfl
  have hv : CGraph.VERSION = 2 := rfl
  refine .ite (by omega) fun h42 => ?_
  rw [CGraph.readBE_ok (by omega) hP, Res.bind_ok, CGraph.readBE_ok (by omega) hP, Res.bind_ok,
    CGraph.readBE_ok (by omega) hP, Res.bind_ok, CGraph.readBE_ok (by omega) hP, Res.bind_ok,
    CGraph.readBE_ok (by omega) hP, Res.bind_ok, CGraph.readBE_ok (by omega) hP, Res.bind_ok,
    Graph.index_ok (by omega), Res.bind_ok, Graph.index_ok (by omega), Res.bind_ok]
  have hdim : compressedMatrixDimension (field b 32 8) = max 1 ((field b 32 8 + 7) / 8) := by
    rw [CGraph.dim_eq_ceil]; unfold ceilDiv; rfl
  have hn : field b 32 8 ≤ U64_MAX := by
    have : field b 32 8 < 256 ^ 8 := field_lt
    rw [U64_eq] at this; omega
  refine .ite Iff.rfl fun _ => ?_
  refine .ite (by omega) fun _ => ?_
  refine .ite (by omega) fun _ => ?_
  refine .ite (by omega) fun _ => ?_
  refine .ite Iff.rfl fun _ => ?_
  refine .ite (by rw [hdim]) fun h5 => ?_
  rw [if_neg (by rw [h5]; omega), Graph.expectedSize P _ 3 _ (Or.inr rfl)]
  have hsz : field b 16 8 * 3 * 8 + CGraph.HEADER_SIZE = 42 + 24 * field b 16 8 := by rw [hh]; ring
  rw [hsz]
  by_cases hov : 42 + 24 * field b 16 8 ≤ P.usizeMax
  swap
  · rw [if_neg hov]
    simp only [Res.ofOption, Res.bind_err]
    exact .fail hov
  rw [if_pos hov]
  refine .pass hov ?_
  simp only [Res.ofOption, Res.bind_ok]
  refine .ite (by omega) fun h6 => ?_
  refine .ite (by omega) fun h7 => ?_
  have hlen : b.length = 42 + 24 * field b 16 8 := by omega
  have hre := CGraph.readEntries_eq (dim := field b 8 8) (n := field b 32 8) hlen hP (42 + 24 * field b 16 8 + 1) 0 0
    (CGraph.builderNew (field b 40 1 == 1) (field b 32 8) (field b 41 1)) (by omega) (by omega)
  simp only [Nat.mul_zero, Nat.add_zero, Nat.sub_zero, ← List.range_eq_range'] at hre
  rw [hh, hre, show (List.range (field b 16 8)).map (listedBlock b) = listedBlocks b (field b 16 8) from rfl]
  have hU : U64_MAX + 1 = 2 ^ 64 := rfl
  refine readLoop_cascade (by omega) _ _ _ _ fun g => ?_
  refine .ite (by simp only [Nat.zero_add]) fun _ => .nil _

/-- Both halves of the theorems at work: a graph file with an edge outside the graph, listed twice. -/
def badG : Bytes := graphFile false 2 [(0, 1), (1, 2), (1, 2)]

example : Graph.tryFrom exP badG = .err (.InvalidFormat "Graph edge exceeds matrix dimension") :=
  (C95_graph_error (by decide) _).2 ⟨_, rfl, by
    have h : listedEdges badG (field badG 16 8) = [(0, 1), (1, 2), (1, 2)] := by decide +kernel
    unfold graphChecks
    rw [h]
    simp only [List.cons_append, List.nil_append, List.map_cons, reports_cons]
    repeat refine .inr ⟨by decide +kernel, ?_⟩
    exact .inl ⟨by decide +kernel, trivial⟩⟩

example : ¬ Reports (graphChecks U64_MAX badG) "Graph edge count does not match header" := fun h => by
  have h1 := (C95_graph_error (P := exP) (b := badG) (by decide) _).2 ⟨_, rfl, h⟩
  have h2 : errIs (Graph.tryFrom exP badG) (.InvalidFormat "Graph edge exceeds matrix dimension") = true := by
    decide +kernel
  rw [h1] at h2
  exact absurd h2 (by decide)

/-- **C95**, old files: every file of at least 42 bytes that starts with the number of compressed graphs and an
earlier version is rejected as outdated, whatever else is in it. -/
theorem C95_outdated {P : Platform} {b : Bytes} (hP : b.length ≤ P.usizeMax) (h42 : 42 ≤ b.length)
    (hm : field b 0 4 = 0x71ff7aed) (hv : field b 4 4 < 2) :
    CGraph.tryFrom P b = .err (.InvalidFormat "Outdated CompressedGraph version") := by
  refine (C95_compressed_error hP _).2 ⟨_, rfl, ?_⟩
  unfold compressedChecks
  simp only [List.cons_append, reports_cons]
  exact .inr ⟨h42, .inr ⟨hm, .inl ⟨by omega, trivial⟩⟩⟩

/-- The first 49 bytes of `sample-graphs/ca-HepPh.cgphrx`. -/
def heppHeader : Bytes :=
  [113, 255, 122, 237, 0, 0, 0, 1, 0, 0, 0, 0, 0, 0, 5, 221, 0, 0, 0, 0, 0, 0, 105, 158, 0, 56, 34, 4, 43, 115, 128, 2,
   0, 0, 0, 0, 0, 0, 233, 203, 0, 0, 0, 0, 0, 0, 46, 232, 1]

/-- The first 49 bytes of `sample-graphs/ca-AstroPh.cgphrx`. -/
def astroHeader : Bytes :=
  [113, 255, 122, 237, 0, 0, 0, 1, 0, 0, 0, 0, 0, 0, 9, 43, 0, 0, 0, 0, 0, 0, 114, 47, 0, 60, 101, 104, 241, 46, 128, 2,
   0, 0, 0, 0, 0, 0, 241, 89, 0, 0, 0, 0, 0, 0, 73, 84, 1]

/-- **C95**, the compressed graphs shipped with the repository: every file that starts like one of them is rejected as
outdated. -/
theorem C95_shipped_samples {P : Platform} (rest : Bytes) (h : Bytes) (hh : h = heppHeader ∨ h = astroHeader)
    (hP : (h ++ rest).length ≤ P.usizeMax) :
    CGraph.tryFrom P (h ++ rest) = .err (.InvalidFormat "Outdated CompressedGraph version") := by
  have hl : h.length = 49 := by rcases hh with rfl | rfl <;> rfl
  refine C95_outdated hP (by rw [List.length_append]; omega) ?_ ?_
  · rw [field_append_left _ _ _ _ (by omega)]
    rcases hh with rfl | rfl <;> decide +kernel
  · rw [field_append_left _ _ _ _ (by omega)]
    rcases hh with rfl | rfl <;> decide +kernel

example : (heppHeader ++ [0, 0, 0]).length ≤ exP.usizeMax := by decide

/-- **C95**, the texts: whatever the bytes, the complaint is one of these.  In particular the texts about overflowing
coordinates and about a zero matrix dimension are never returned. -/
theorem C95_compressed_texts {P : Platform} {b : Bytes} (hP : b.length ≤ P.usizeMax) {e : GraphRoxError}
    (h : CGraph.tryFrom P b = .err e) :
    ∃ msg, e = .InvalidFormat msg ∧ msg ∈
      ["Slice is too short to contain CompressedGraph header", "Incorrect magic number",
       "Outdated CompressedGraph version", "Unrecognized CompressedGraph version",
       "Invalid compressed graph direction flag", "Invalid compression level",
       "CompressedGraph matrix dimension does not match vertex count", "CompressedGraph byte size overflowed",
       "Slice is too short to contain all expected graph edges",
       "Slice is too long represent the expected graph edges", "CompressedGraph entry cannot be zero",
       "CompressedGraph entry exceeds matrix dimension", "CompressedGraph entry contains edge outside vertex count",
       "CompressedGraph edge count overflowed", "CompressedGraph edge count does not match header"] := by
  obtain ⟨msg, he, before, check, after, hL, _⟩ := (C95_compressed_error hP e).1 h
  refine ⟨msg, he, ?_⟩
  have hmem : (check, msg) ∈ compressedChecks P.usizeMax b := by rw [hL]; simp
  have hb : ∀ (d n : Nat) (l : List (Nat × Nat × Nat)) (s : Nat), (check, msg) ∈ blockChecks d n s l →
      msg ∈ ["CompressedGraph entry cannot be zero", "CompressedGraph entry exceeds matrix dimension",
        "CompressedGraph entry contains edge outside vertex count", "CompressedGraph edge count overflowed"] := by
    intro d n l
    induction l with
    | nil => intro s h; simp [blockChecks] at h
    | cons e l ih =>
      intro s h
      unfold blockChecks at h
      rw [List.mem_append] at h
      rcases h with h | h
      · simp only [List.mem_cons, Prod.mk.injEq, List.not_mem_nil, or_false] at h ⊢
        tauto
      · exact ih _ h
  unfold compressedChecks at hmem
  rw [List.mem_append, List.mem_append] at hmem
  rcases hmem with (h | h) | h
  · simp only [List.mem_cons, Prod.mk.injEq, List.not_mem_nil, or_false] at h ⊢
    tauto
  · have := hb _ _ _ _ h
    simp only [List.mem_cons, List.not_mem_nil, or_false] at this ⊢
    tauto
  · simp only [List.mem_cons, Prod.mk.injEq, List.not_mem_nil, or_false] at h ⊢
    tauto

/-- A compressed graph file whose second block has a vertex outside the graph: reported although the announced number
of edges is wrong too, and although a later block is zero. -/
def badC : Bytes := compressedFile true 3 2 99 9 [(1, 0, 0), (2, 1, 1), (0, 0, 0)]

example : errIs (CGraph.tryFrom exP badC)
    (.InvalidFormat "CompressedGraph entry contains edge outside vertex count") = true := by decide +kernel

example : ∃ msg, Reports (compressedChecks U64_MAX badC) msg := by
  have h2 : errIs (CGraph.tryFrom exP badC)
    (.InvalidFormat "CompressedGraph entry contains edge outside vertex count") = true := by decide +kernel
  unfold errIs at h2
  split at h2
  · next e h =>
    obtain ⟨m, _, hr⟩ := (C95_compressed_error (P := exP) (by decide +kernel) e).1 h
    exact ⟨m, hr⟩
  all_goals exact absurd h2 (by decide)

/-! ## C37, what is said about a file saved after reading a duplicate block -/

theorem blockChecks_hold {dim n : Nat} : ∀ (l : List (Nat × Nat × Nat)) (s : Nat),
    (∀ e ∈ l, e.1 ≠ 0 ∧ (e.2.1 < dim ∧ e.2.2 < dim) ∧ ∀ u v, blockEdge e u v → u < n ∧ v < n) →
    s + (l.map fun e => ones e.1).sum < 2 ^ 64 → ∀ c ∈ blockChecks dim n s l, c.1
  | [], _, _, _, c, hc => by simp [blockChecks] at hc
  | e :: l, s, h, hs, c, hc => by
    have he := h e (by simp)
    rw [List.map_cons, List.sum_cons] at hs
    unfold blockChecks at hc
    rw [List.mem_append] at hc
    rcases hc with hc | hc
    · simp only [List.mem_cons, List.not_mem_nil, or_false] at hc
      rcases hc with rfl | rfl | rfl | rfl
      · exact he.1
      · exact he.2.1
      · exact he.2.2
      · change s + ones e.1 < 2 ^ 64; omega
    · exact blockChecks_hold l _ (fun e' he' => h e' (by simp [he'])) (by omega) c hc

/-- **C37**, the complaint: a file that lists a block twice is accepted, but what is saved after reading it is rejected
because of its edge count. -/
theorem C37_resave_error {P P' P'' : Platform} {o : HashOrder} {b b' : Bytes} {c : CGraph}
    (h : CGraph.tryFrom P b = .ok c) (hd : ¬ ((listedBlocks b (field b 16 8)).map fun e => (e.2.1, e.2.2)).Nodup)
    (hP : P'.usizeMax ≤ U64_MAX) (hb : c.toBytes P' o = .ok b') (hP' : b'.length ≤ P''.usizeMax) :
    CGraph.tryFrom P'' b' = .err (.InvalidFormat "CompressedGraph edge count does not match header") := by
  have hok := (CReach.tryFrom P b h).ok
  obtain ⟨ha, hs, he⟩ := encoded_facts hok hP hb
  rw [C95_compressed_error hP']
  refine ⟨_, rfl, _, _, [], rfl, ?_, ?_⟩
  · intro c hc
    rw [List.mem_append] at hc
    rcases hc with hc | hc
    · have hl := ha.length
      simp only [List.mem_cons, List.not_mem_nil, or_false] at hc
      rcases hc with rfl | rfl | rfl | rfl | rfl | rfl | rfl | rfl | rfl | rfl
      · change 42 ≤ b'.length; omega
      · exact ha.magic
      · change 2 ≤ field b' 4 4; rw [ha.version]
      · exact ha.version
      · exact ha.direction
      · exact ha.level
      · exact ha.dimension
      · change 42 + 24 * field b' 16 8 ≤ P''.usizeMax; omega
      · change 42 + 24 * field b' 16 8 ≤ b'.length; omega
      · change b'.length ≤ 42 + 24 * field b' 16 8; omega
    · refine blockChecks_hold _ _ ?_ ?_ c hc
      · intro e hm
        exact ⟨ha.nonzero e hm, ha.bound e hm, ha.inRange e hm⟩
      · have := pairs_le h
        have := hok.ec
        have hU : U64_MAX = 2 ^ 64 - 1 := by decide
        rw [hs]; omega
  · rw [hs, he]
    intro h0
    exact hd ((pairs_eq_iff h).1 h0.symm)

example : okAnd (CGraph.tryFrom exP dupF) (fun c => okAnd (c.toBytes exP .id) fun b' => decide (b'.length ≤ exP.usizeMax)) ∧
    ¬ ((listedBlocks dupF (field dupF 16 8)).map fun e => (e.2.1, e.2.2)).Nodup := by
  decide +kernel

end Verif.Props
