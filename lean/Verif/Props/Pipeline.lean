import Verif.Props.TextAll

/-! # C108: checking a file right after it was written -/

namespace Verif.Props
open Verif Spec Script

/-- **C108.**  What `validate_graph` says about the file that `graph_from_text_file` has just written from the same text, for texts with
non-negative ids and without half lines.  Nothing is printed exactly if the last edge of the text ends at a vertex with which an edge
begins.  If it does not, the script reports that edge as missing once for every edge of the text, or ends with an `IndexError` if it
ends just beyond the largest vertex with which an edge begins. -/
theorem C108_generate_validate (V : Env) (lines : List (List Char)) (S : Finset Int) (hS : Starts V lines S)
    (h0 : ∀ x y, Lists V lines x y → 0 ≤ x ∧ 0 ≤ y) (hnp : V.npMax < 2 ^ 63) (hroom : RoomFor V (2 * lines.length))
    (hhalf : NoHalfLines V lines) {x y M : Int} (hlast : LastListed V lines x y) (hM : M ∈ S) (hMmax : ∀ x ∈ S, x ≤ M)
    (hmax : M + 2 ≤ V.npMax) (hall : ∀ x y, Lists V lines x y → y ≤ M + 1) (s : State) (hs : Started s) :
    ∃ file s₁, graphFromTextFile V lines s = .ok file s₁ ∧
      (y ∈ S → ∃ s₂, validateGraph V lines file s₁ = .ok () s₂ ∧ s₂.printed = s.printed) ∧
      (y ∉ S → y ≤ M → ∃ s₂, validateGraph V lines file s₁ = .ok () s₂ ∧ s₂.printed = s.printed ++
        List.replicate (edgeLines V lines) ("Missing edge ".toList ++ str x ++ ['-'] ++ str y)) ∧
      (y = M + 1 → ∃ s₂, validateGraph V lines file s₁ = .raised .IndexError s₂ ∧ s₂.printed = s.printed) := by
  obtain ⟨b, s₁, h1, h2, h3, h4, h5⟩ := ((C79_exact V lines S hS h0 hnp hroom s hs).1 M hM hMmax hmax).1 hall
  have hfit : b.length ≤ (V.E s₁.calls).P.usizeMax := h4.trans ((hroom s₁.calls).2 _ (Nat.le_refl _)).1
  obtain ⟨g, hg, -, he, -⟩ := h5 _ hfit
  have hxy : Lists V lines x y := by
    obtain ⟨pre, line, post, rfl, ⟨line', h1, h2⟩, _⟩ := hlast
    rw [List.mem_singleton] at h1
    subst h1
    exact ⟨line', by simp, h2⟩
  have hx : x ∈ S := (hS x).2 ⟨y, hxy⟩
  obtain ⟨c1, c2⟩ := (C80_exact V lines S hS h0 hnp hhalf hlast hM hMmax (by omega) s₁ h3 b hfit).1 g hg
  refine ⟨b, s₁, h1, fun hy => ?_, fun hy hyM => ?_, fun hyM => ?_⟩
  · obtain ⟨s₂, e, -, p⟩ := c1 (hMmax y hy)
    refine ⟨s₂, e, ?_⟩
    rw [p, if_pos ⟨hy, (he _ _).2 ⟨x, hx, y, hy, .inl hxy, rfl, rfl⟩⟩, List.append_nil, h2]
  · obtain ⟨s₂, e, -, p⟩ := c1 hyM
    refine ⟨s₂, e, ?_⟩
    rw [p, if_neg fun h => hy h.1, h2]
  · obtain ⟨s₂, e, -, p⟩ := c2 (by omega)
    exact ⟨s₂, e, p.trans h2⟩

theorem single_lists {line : List Char} {x y : Int} (h : (parse exV [line]).idPairs = [(x, y)]) :
    Starts exV [line] {x} ∧ (∀ u v, Lists exV [line] u v ↔ u = x ∧ v = y) ∧ LastListed exV [line] x y := by
  have hl : ∀ u v, Lists exV [line] u v ↔ u = x ∧ v = y := fun u v => by simp only [exV_lists h]; simp
  refine ⟨fun u => ?_, hl, [], line, [], rfl, (hl _ _).2 ⟨rfl, rfl⟩, ?_⟩
  · simp only [hl, Finset.mem_singleton]; exact ⟨fun e => ⟨y, e, rfl⟩, fun ⟨_, e, _⟩ => e⟩
  · rintro u v ⟨l, hl, _⟩; cases hl

theorem single_whole {line : List Char} {p : Int × Int} (h : linePair exV line = some p) : NoHalfLines exV [line] := by
  intro l hl hh a b hab ha hb
  rw [List.mem_singleton] at hl
  subst hl
  obtain ⟨l', hl', _, a', b', hab', _, hb'⟩ := (lists_iff (V := exV) (lines := [l]) p.1 p.2).1 (by rw [parse_pairs]; simp [h])
  rw [List.mem_singleton] at hl'
  subst hl'
  have h1 := (split_two exV l' a b).2 hab
  rw [(split_two exV l' a' b').2 hab'] at h1
  simp only [List.cons.injEq, and_true] at h1
  rw [h1.2, hb] at hb'
  cases hb'

/-- Texts whose last edge ends at a vertex with which an edge begins, at another vertex, and just beyond. -/
example :
    (∃ x y M, LastListed exV ["7 7\n".toList] x y ∧ Starts exV ["7 7\n".toList] {M} ∧ NoHalfLines exV ["7 7\n".toList] ∧
      (∀ u v, Lists exV ["7 7\n".toList] u v → v ≤ M + 1) ∧ y ∈ ({M} : Finset Int)) ∧
    (∃ x y M, LastListed exV ["7 1\n".toList] x y ∧ Starts exV ["7 1\n".toList] {M} ∧ NoHalfLines exV ["7 1\n".toList] ∧
      (∀ u v, Lists exV ["7 1\n".toList] u v → v ≤ M + 1) ∧ y ∉ ({M} : Finset Int) ∧ y ≤ M) ∧
    (∃ x y M, LastListed exV ["0 1\n".toList] x y ∧ Starts exV ["0 1\n".toList] {M} ∧ NoHalfLines exV ["0 1\n".toList] ∧
      (∀ u v, Lists exV ["0 1\n".toList] u v → v ≤ M + 1) ∧ y = M + 1) ∧
    RoomFor exV (2 * 1) ∧ Started exS := by
  obtain ⟨a1, a2, a3⟩ := single_lists (line := "7 7\n".toList) (x := 7) (y := 7) (by rfl)
  obtain ⟨b1, b2, b3⟩ := single_lists (line := "7 1\n".toList) (x := 7) (y := 1) (by rfl)
  obtain ⟨c1, c2, c3⟩ := single_lists (line := "0 1\n".toList) (x := 0) (y := 1) (by rfl)
  refine ⟨⟨7, 7, 7, a3, a1, single_whole (p := (7, 7)) (by rfl), fun u v h => ?_, by simp⟩,
    ⟨7, 1, 7, b3, b1, single_whole (p := (7, 1)) (by rfl), fun u v h => ?_, by simp, by decide⟩,
    ⟨0, 1, 0, c3, c1, single_whole (p := (0, 1)) (by rfl), fun u v h => ?_, by decide⟩, exV_room _ (by decide), exS_started⟩
  · rw [a2] at h; omega
  · rw [b2] at h; omega
  · rw [c2] at h; omega

/-- **C108**, with compression in between.  Compressing the file that `graph_from_text_file` has just written with a threshold of at
most 1 gives a file which decompresses to the same graph: that of the edges of the text that end at a vertex with which an edge
begins. -/
theorem C108_generate_compress (V : Env) (lines : List (List Char)) (S : Finset Int) (hS : Starts V lines S)
    (h0 : ∀ x y, Lists V lines x y → 0 ≤ x ∧ 0 ≤ y) (hnp : V.npMax < 2 ^ 63) (hroom : RoomFor V (4 * lines.length + 1))
    {M : Int} (hM : M ∈ S) (hMmax : ∀ x ∈ S, x ≤ M) (hmax : M + 2 ≤ V.npMax) (hall : ∀ x y, Lists V lines x y → y ≤ M + 1)
    (l : Int) (hl : l ≤ 1) (s : State) (hs : Started s) :
    ∃ file s₁ file' s₂, graphFromTextFile V lines s = .ok file s₁ ∧ compressGphrxFile V l file s₁ = .ok file' s₂ ∧
      s₂.printed = s.printed ∧
      ∀ P : Platform, file'.length ≤ P.usizeMax → ∃ c, CGraph.tryFrom P file' = .ok c ∧ ∀ P' o, ∃ d, c.decompress P' o = .ok d ∧
        d.isUndirected = true ∧
        ∀ u v, d.doesEdgeExist u v = true ↔ ∃ x ∈ S, ∃ y ∈ S, (Lists V lines x y ∨ Lists V lines y x) ∧ u = rank S x ∧ v = rank S y := by
  have hroom₁ : RoomFor V (2 * lines.length) := fun k => ⟨(hroom k).1, fun m hm => (hroom k).2 m (by omega)⟩
  obtain ⟨b, s₁, h1, h2, h3, h4, h5⟩ := ((C79_exact V lines S hS h0 hnp hroom₁ s hs).1 M hM hMmax hmax).1 hall
  have hfit : b.length ≤ (V.E s₁.calls).P.usizeMax := h4.trans ((hroom₁ s₁.calls).2 _ (Nat.le_refl _)).1
  obtain ⟨g, hg, hu, he, -⟩ := h5 _ hfit
  have hec : 26 + 16 * g.edgeCount = b.length := by
    rw [(C17_decoded_is_what_bytes_say hfit hg).2.1]
    exact ((C18_accepts_iff hfit).1 ⟨g, hg⟩).length.symm
  have hm := ((hroom s₁.calls).2 _ (Nat.le_refl _)).1
  have hU := (hroom s₁.calls).1
  obtain ⟨b', s₂, c, e1, e2, e3, e4, e5⟩ := C81_compress_file V l b s₁ h3 hg (by omega)
    fun k => ⟨(hroom k).1, fun m hm => (hroom k).2 m (by omega)⟩
  refine ⟨b, s₁, b', s₂, h1, e1, e2.trans h2, fun P hP => ?_⟩
  obtain ⟨c', f1, -, f3⟩ := e5 P hP
  refine ⟨c', f1, fun P' o => ?_⟩
  obtain ⟨d, k1, k2⟩ := f3 hl P' o
  exact ⟨d, k1, k2.direction.trans hu, fun u v => by rw [k2.edge]; exact he u v⟩

example : ∃ S M, Starts exV ["7 7\n".toList] S ∧ M ∈ S ∧ (∀ x ∈ S, x ≤ M) ∧ M + 2 ≤ exV.npMax ∧
    (∀ u v, Lists exV ["7 7\n".toList] u v → (0 ≤ u ∧ 0 ≤ v) ∧ v ≤ M + 1) ∧ RoomFor exV (4 * 1 + 1) ∧ Started exS := by
  obtain ⟨a1, a2, a3⟩ := single_lists (line := "7 7\n".toList) (x := 7) (y := 7) (by rfl)
  refine ⟨{7}, 7, a1, by simp, by simp, by decide, fun u v h => ?_, exV_room _ (by decide), exS_started⟩
  rw [a2] at h; omega

end Verif.Props
