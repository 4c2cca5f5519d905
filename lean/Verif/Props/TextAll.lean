import Verif.Props.TextExact
import Verif.Lemmas.ScriptsMod

/-!
# C106, C107: everything that `graph_from_text_file` and `validate_graph` can do

Ids are indices into a `numpy` array, in which negative indices count from the end: ids with the same remainder modulo the length of
the array are one vertex, and ids out of range end the script.
-/

namespace Verif.Props
open Verif Spec Script

/-- The beginning of both scripts, for any ids. -/
theorem front_all {V : Env} {lines : List (List Char)} {S : Finset Int} (hS : Starts V lines S) (k : Nat) {M : Int} (hM : M ∈ S)
    (hMmax : ∀ x ∈ S, x ≤ M) :
    ∃ (l : List (Int × Int)) (last : Int × Int), l = sortPairs (parse V lines).idPairs ∧ last.1 = M ∧
      (∀ x y, (x, y) ∈ l ↔ Lists V lines x y) ∧ l.length ≤ lines.length ∧ l ≠ [] ∧
      ∀ s, lastPair l s = .ok last s ∧
        (M + k < 0 → npFull V (last.1 + k) s = .raised .ValueError s) ∧
        (V.npMax < M + k → npFull V (last.1 + k) s = .raised .MemoryError s) ∧
        ∀ n : Nat, (n : Int) = M + k → n ≤ V.npMax → npFull V (last.1 + k) s = .ok (placed n (firsts n ∅)) s ∧
          ((∀ x ∈ S, -(n : Int) ≤ x ∧ x < n) → assignIds l (placed n (firsts n ∅)) 0 s = .ok (placed n (firsts n S)) s ∧
            (firsts n S).card ≤ n) ∧
          ((∃ x ∈ S, ¬ (-(n : Int) ≤ x ∧ x < n)) → assignIds l (placed n (firsts n ∅)) 0 s = .raised .IndexError s) := by
  have hmem : ∀ x y, (x, y) ∈ sortPairs (parse V lines).idPairs ↔ Lists V lines x y := fun x y => by rw [sortPairs_mem, lists_iff]
  have hlen : (sortPairs (parse V lines).idPairs).length ≤ lines.length := by rw [sortPairs_length]; exact parse_length V lines
  have hsorted := sortPairs_sorted (parse V lines).idPairs
  generalize sortPairs (parse V lines).idPairs = l at hmem hlen hsorted
  have hin : ∀ p ∈ l, p.1 ∈ S := fun p hp => (hS p.1).2 ⟨p.2, (hmem p.1 p.2).1 hp⟩
  have hset : (l.map Prod.fst).toFinset = S := by
    ext x
    rw [List.mem_toFinset, List.mem_map]
    constructor
    · rintro ⟨p, hp, rfl⟩; exact hin p hp
    · intro hx
      obtain ⟨y, hy⟩ := (hS x).1 hx
      exact ⟨(x, y), (hmem x y).2 hy, rfl⟩
  obtain ⟨yM, hyM⟩ := (hS M).1 hM
  have hlne : l ≠ [] := by
    intro h
    have := (hmem M yM).2 hyM
    rw [h] at this
    cases this
  have hlastmem : l.getLast hlne ∈ l := List.getLast_mem hlne
  have hlast? : l.getLast? = some (l.getLast hlne) := List.getLast?_eq_some_getLast hlne
  have happ : l.dropLast ++ [l.getLast hlne] = l := List.dropLast_append_getLast hlne
  generalize l.getLast hlne = last at hlastmem hlast? happ
  have hlM : last.1 = M := by
    refine le_antisymm (hMmax _ (hin _ hlastmem)) ?_
    have hxl := (hmem M yM).2 hyM
    have hsorted' := hsorted
    rw [← happ] at hsorted' hxl
    rw [List.mem_append] at hxl
    rcases hxl with hxl | hxl
    · exact (List.pairwise_append.1 hsorted').2.2 _ hxl _ (List.mem_singleton_self _)
    · rw [List.mem_singleton] at hxl
      rw [← hxl]
  refine ⟨l, last, rfl, hlM, hmem, hlen, hlne, fun s => ⟨?_, ?_, ?_, ?_⟩⟩
  · unfold lastPair; rw [hlast?]; rfl
  · intro h
    unfold npFull
    rw [hlM, if_pos h]; rfl
  · intro h
    unfold npFull
    rw [hlM, if_neg (by omega), if_pos h]; rfl
  · intro n hn hnp
    have ha := assignIds_placed n l ∅ hsorted (by simp) s
    rw [Finset.empty_union, hset] at ha
    refine ⟨?_, fun h => ⟨ha.1 fun p hp => h _ (hin p hp), ?_⟩, fun h => ha.2 ?_⟩
    · unfold npFull
      rw [hlM, if_neg (by omega), if_neg (by omega), ← hn, Int.toNat_natCast, replicate_placed]; rfl
    · have hinj : Set.InjOn (fun x : Int => (x % n).toNat) (firsts n S : Finset Int) := by
        intro x hx y hy hxy
        have h1 := h x (firsts_subset _ _ hx)
        have h2 := h y (firsts_subset _ _ hy)
        have m1 := mod_lt h1.1 h1.2
        have m2 := mod_lt h2.1 h2.2
        exact firsts_apart n S x hx y hy (by simp only at hxy; omega)
      rw [← Finset.card_image_of_injOn hinj]
      refine (Finset.card_le_card (t := Finset.range n) ?_).trans (by rw [Finset.card_range])
      intro k hk
      obtain ⟨x, hx, rfl⟩ := Finset.mem_image.1 hk
      have h1 := h x (firsts_subset _ _ hx)
      have m1 := mod_lt h1.1 h1.2
      rw [Finset.mem_range]
      omega
    · obtain ⟨x, hx, hbad⟩ := h
      obtain ⟨y, hy⟩ := (hS x).1 hx
      exact ⟨(x, y), (hmem x y).2 hy, hbad⟩

/-- The number of an id as it is passed to the library. -/
def vertexOf (n : Nat) (F : Finset Int) (z : Int) : Nat := toId (num n F z)

theorem vertexOf_mem {n : Nat} {F : Finset Int} (hF : Apart n F) (hc : F.card < 2 ^ 64) {r z : Int} (hr : r ∈ F)
    (h : r % (n : Int) = z % n) : vertexOf n F z = rank F r := by
  unfold vertexOf
  rw [num_mem hF hr h]
  exact toId_nat (lt_of_le_of_lt (rank_le_card _ _) hc)

theorem vertexOf_none {n : Nat} {F : Finset Int} {z : Int} (h : ∀ r ∈ F, r % (n : Int) ≠ z % n) : vertexOf n F z = U64_MAX := by
  unfold vertexOf
  rw [num_none h]
  decide

theorem placedEdges_run {V : Env} {n i : Nat} {F : Finset Int} (l : List (Int × Int)) :
    (∀ p ∈ l, -(n : Int) ≤ p.1 ∧ p.1 < n) → ∀ (s : State) (a : AWorld) (g : Graph), At s a →
    a[i]? = some (some (.graph g)) →
    ((∀ p ∈ l, -(n : Int) ≤ p.2 ∧ p.2 < n) → ∃ s', addEdges V i (placed n F) l s = .ok () s' ∧ s'.printed = s.printed ∧
      At s' (a.set i (some (.graph ((l.map fun p => Edit.addEdge (vertexOf n F p.1) (vertexOf n F p.2)).foldl Edit.call g))))) ∧
    ((∃ p ∈ l, ¬ (-(n : Int) ≤ p.2 ∧ p.2 < n)) →
      ∃ s' a', addEdges V i (placed n F) l s = .raised .IndexError s' ∧ s'.printed = s.printed ∧ At s' a') := by
  induction l with
  | nil =>
    intro _ s a g h hi
    refine ⟨fun _ => ⟨s, rfl, rfl, ?_⟩, by rintro ⟨p, hp, _⟩; cases hp⟩
    rwa [show a.set i _ = a from List.ext_getElem? fun k => ?_]
    rw [List.getElem?_set]
    split
    · next hk =>
      subst hk
      obtain ⟨hlt, _⟩ := List.getElem?_eq_some_iff.1 hi
      rw [if_pos hlt, hi]; rfl
    · rfl
  | cons p l ih =>
    intro hl s a g h hi
    have h1 := hl p (by simp)
    by_cases h6 : -(n : Int) ≤ p.2 ∧ p.2 < n
    · have hp := pyStep_call (E := V.E s.calls) hi (.addEdge (num n F p.1) (num n F p.2))
      rw [AObj.means] at hp
      obtain ⟨w', hw, at1⟩ := gx_ret h hp
      have e1 : addEdges V i (placed n F) (p :: l) s =
          addEdges V i (placed n F) l { s with calls := s.calls + 1, world := w' } := by
        rw [addEdges.eq_def]
        simp only
        rw [bind_ok (npGet_placed h1.1 h1.2 s), bind_ok (npGet_placed h6.1 h6.2 s), bind_ok hw]
      obtain ⟨i1, i2⟩ := ih (fun q hq => hl q (by simp [hq])) _ _ _ at1
        (by rw [List.getElem?_set_self (List.getElem?_eq_some_iff.1 hi).1])
      refine ⟨fun hall => ?_, fun hex => ?_⟩
      · obtain ⟨s', e2, pr2, at2⟩ := i1 fun q hq => hall q (by simp [hq])
        rw [List.set_set] at at2
        exact ⟨s', e1.trans e2, pr2, at2⟩
      · obtain ⟨s', a', e2, pr2, at2⟩ := i2 (by
          obtain ⟨q, hq, hn⟩ := hex
          rcases List.mem_cons.1 hq with rfl | hq
          · exact absurd h6 hn
          · exact ⟨q, hq, hn⟩)
        exact ⟨s', a', e1.trans e2, pr2, at2⟩
    · refine ⟨fun hall => absurd (hall p (by simp)) h6, fun _ => ⟨s, a, ?_, rfl, h⟩⟩
      rw [addEdges.eq_def]
      simp only
      rw [bind_ok (npGet_placed h1.1 h1.2 s), bind_raised (npGet_bad h6 s)]

/-- The graph after adding edges some of which end in the reserved id. -/
theorem foldl_addEdges (f : Int → Nat) (l : List (Int × Int)) (hl : ∀ p ∈ l, f p.1 < U64_MAX ∧ f p.2 ≤ U64_MAX) :
    ∀ A : AGraph, A.undirected = true →
    let A' := (l.map fun p => Edit.addEdge (f p.1) (f p.2)).foldl AGraph.applyActual A
    A'.undirected = true ∧ A'.E.card ≤ A.E.card + 2 * l.length ∧
    (∀ q, q ∈ A'.E ↔ q ∈ A.E ∨ ∃ p ∈ l, f p.2 ≠ U64_MAX ∧ (q = (f p.1, f p.2) ∨ q = (f p.2, f p.1))) ∧
    (∀ N, A'.n ≤ N ↔ A.n ≤ N ∧ ∀ p ∈ l, f p.2 ≠ U64_MAX → f p.1 < N ∧ f p.2 < N) := by
  induction l with
  | nil => intro A hA; simp [hA]
  | cons p l ih =>
    intro A hA
    obtain ⟨h1, h2⟩ := hl p (by simp)
    simp only [List.map_cons, List.foldl_cons]
    by_cases h3 : f p.2 = U64_MAX
    · have hadd : A.applyActual (.addEdge (f p.1) (f p.2)) = A := by
        unfold AGraph.applyActual AGraph.addEdge
        simp only
        rw [h3, if_neg (by unfold U64_MAX; omega)]
      obtain ⟨i1, i2, i3, i4⟩ := ih (fun q hq => hl q (by simp [hq])) A hA
      rw [hadd]
      refine ⟨i1, i2.trans ?_, fun q => ?_, fun N => ?_⟩
      · simp only [List.length_cons]; omega
      · rw [i3]
        simp only [List.mem_cons, exists_eq_or_imp, h3, ne_eq, not_true, false_and, false_or]
      · rw [i4]
        simp only [List.mem_cons, forall_eq_or_imp, h3, ne_eq, not_true, false_imp_iff, true_and]
    · have hadd : A.applyActual (.addEdge (f p.1) (f p.2)) =
          ⟨true, max A.n (max (f p.1) (f p.2) + 1), A.E ∪ {(f p.1, f p.2), (f p.2, f p.1)}⟩ := by
        unfold AGraph.applyActual AGraph.addEdge
        simp only
        rw [if_pos (by unfold U64_MAX at *; omega), hA, if_pos rfl]
      obtain ⟨i1, i2, i3, i4⟩ := ih (fun q hq => hl q (by simp [hq])) (A.applyActual (.addEdge (f p.1) (f p.2))) (by rw [hadd])
      refine ⟨i1, i2.trans ?_, fun q => ?_, fun N => ?_⟩
      · rw [hadd]
        have := Finset.card_union_le A.E {(f p.1, f p.2), (f p.2, f p.1)}
        have h3 : ({(f p.1, f p.2), (f p.2, f p.1)} : Finset (Nat × Nat)).card ≤ 2 := Finset.card_le_two
        simp only [List.length_cons]
        omega
      · rw [i3, hadd]
        simp only [Finset.mem_union, Finset.mem_insert, Finset.mem_singleton, List.mem_cons, exists_eq_or_imp, ne_eq, h3, not_false_iff,
          true_and]
        exact or_assoc
      · rw [i4, hadd]
        simp only [List.mem_cons, forall_eq_or_imp, ne_eq, h3, not_false_iff, true_imp_iff]
        rw [← and_assoc]
        refine and_congr_left fun _ => ?_
        omega

/-- **C106.** Everything that `graph_from_text_file` can do.  Let `S` be the ids with which an edge of the text begins, `M` the largest
of them and `n = M + 2`.  The script writes a graph exactly if `0 ≤ n ≤ npMax` and all ids are at least `-n` and at most `n - 1`.  Ids
with the same remainder modulo `n` are then the same vertex: the vertices are the smallest ids of `S` with their remainder, numbered in
order, and an edge is lost exactly if it ends in an id that has no remainder of an id of `S`.  In all other cases the script
ends with the exception that is named, and writes and prints nothing. -/
theorem C106_from_any_text (V : Env) (lines : List (List Char)) (S : Finset Int) (hS : Starts V lines S)
    (hnp : V.npMax < 2 ^ 63) (hroom : RoomFor V (2 * lines.length)) (s : State) (hs : Started s) :
    (S = ∅ → graphFromTextFile V lines s = .raised .IndexError s) ∧
    ∀ M ∈ S, (∀ x ∈ S, x ≤ M) →
      (M + 2 < 0 → graphFromTextFile V lines s = .raised .ValueError s) ∧
      (V.npMax < M + 2 → graphFromTextFile V lines s = .raised .MemoryError s) ∧
      (0 ≤ M + 2 → M + 2 ≤ V.npMax →
        ((∀ x y, Lists V lines x y → -(M + 2) ≤ x ∧ -(M + 2) ≤ y ∧ y < M + 2) →
          ∃ b s', graphFromTextFile V lines s = .ok b s' ∧ s'.printed = s.printed ∧ Started s' ∧
          ∀ P : Platform, b.length ≤ P.usizeMax → ∃ g, Graph.tryFrom P b = .ok g ∧ g.isUndirected = true ∧
            (∀ u v, g.doesEdgeExist u v = true ↔ ∃ x y, (Lists V lines x y ∨ Lists V lines y x) ∧
              ∃ x' ∈ firsts (M + 2) S, ∃ y' ∈ firsts (M + 2) S, x' % (M + 2) = x % (M + 2) ∧ y' % (M + 2) = y % (M + 2) ∧
                u = rank (firsts (M + 2) S) x' ∧ v = rank (firsts (M + 2) S) y') ∧
            ∀ N, g.vertexCount ≤ N ↔ ∀ u v, g.doesEdgeExist u v = true → u < N) ∧
        ((∃ x y, Lists V lines x y ∧ ¬ (-(M + 2) ≤ x ∧ -(M + 2) ≤ y ∧ y < M + 2)) →
          ∃ s', graphFromTextFile V lines s = .raised .IndexError s' ∧ s'.printed = s.printed ∧ Started s')) := by
  refine ⟨fun hemp => ?_, fun M hM hMmax => ?_⟩
  · have hnil : sortPairs (parse V lines).idPairs = [] := by
      rw [List.eq_nil_iff_forall_not_mem]
      rintro ⟨x, y⟩ hp
      rw [sortPairs_mem, lists_iff] at hp
      have := (hS x).2 ⟨y, hp⟩
      rw [hemp] at this
      cases this
    unfold graphFromTextFile
    rw [hnil]
    rfl
  have hs' := hs
  obtain ⟨t, a, hr⟩ := hs
  obtain ⟨l, last, hl, hlM, hmem, hlen, hlne, hfr⟩ := front_all hS 2 hM hMmax
  obtain ⟨e1, e2, e3, e4⟩ := hfr s
  rw [show ((2 : Nat) : Int) = 2 from rfl] at e2 e3 e4
  have hin : ∀ p ∈ l, p.1 ∈ S := fun p hp => (hS p.1).2 ⟨p.2, (hmem p.1 p.2).1 hp⟩
  refine ⟨fun h => ?_, fun h => ?_, fun hn0 hnm => ?_⟩
  · unfold graphFromTextFile
    simp only [← hl]
    rw [bind_ok e1, bind_raised (e2 h)]
  · unfold graphFromTextFile
    simp only [← hl]
    rw [bind_ok e1, bind_raised (e3 h)]
  obtain ⟨n, hn⟩ : ∃ n : Nat, (n : Int) = M + 2 := ⟨(M + 2).toNat, by omega⟩
  obtain ⟨e5, e6, e7⟩ := e4 n hn (by omega)
  rw [← hn]
  have hlt : ∀ x ∈ S, x < n := fun x hx => by have := hMmax x hx; omega
  by_cases hlow : ∀ x ∈ S, -(n : Int) ≤ x
  case neg =>
    push Not at hlow
    obtain ⟨x, hx, hbad⟩ := hlow
    obtain ⟨y, hy⟩ := (hS x).1 hx
    refine ⟨fun h => absurd (h x y hy).1 (by omega), fun _ => ⟨s, ?_, rfl, hs'⟩⟩
    unfold graphFromTextFile
    simp only [← hl]
    rw [bind_ok e1, bind_ok e5, bind_raised (e7 ⟨x, hx, by omega⟩)]
  obtain ⟨e6, hcard⟩ := e6 fun x hx => ⟨hlow x hx, hlt x hx⟩
  have e8 : pyStep (V.E s.calls) (.newGraph true) a = .ret (.ref a.length) (a ++ [some (.graph Graph.newUndirected)]) := rfl
  obtain ⟨w₁, e9, hat⟩ := gx_ret ⟨t, hr⟩ e8
  have hget : ∀ x : Option AObj, (a ++ [x])[a.length]? = some x := fun x => by
    rw [List.getElem?_append_right (Nat.le_refl _), Nat.sub_self]; rfl
  obtain ⟨hrun, hraise⟩ := placedEdges_run (V := V) (n := n) (F := firsts n S) l (fun p hp => ⟨hlow _ (hin p hp), hlt _ (hin p hp)⟩) _ _ _ hat (hget _)
  constructor
  · intro hall
    obtain ⟨s₂, e10, hpr, hat₂⟩ := hrun fun p hp => (hall p.1 p.2 ((hmem _ _).1 hp)).2
    have hap := firsts_apart n S
    have hrep : ∀ z, (∀ r ∈ firsts n S, r % (n : Int) ≠ z % n) ∧ vertexOf n (firsts n S) z = U64_MAX ∨
        ∃ r ∈ firsts n S, r % (n : Int) = z % n ∧ vertexOf n (firsts n S) z = rank (firsts n S) r ∧ rank (firsts n S) r < U64_MAX := by
      intro z
      by_cases h : ∃ r ∈ firsts n S, r % (n : Int) = z % n
      · obtain ⟨r, hr, e⟩ := h
        refine .inr ⟨r, hr, e, vertexOf_mem hap (by omega) hr e, ?_⟩
        have := rank_lt_card hr
        unfold U64_MAX
        omega
      · have h' : ∀ r ∈ firsts n S, r % (n : Int) ≠ z % n := fun r hr e => h ⟨r, hr, e⟩
        exact .inl ⟨h', vertexOf_none h'⟩
    set G := (l.map fun p => Edit.addEdge (vertexOf n (firsts n S) p.1) (vertexOf n (firsts n S) p.2)).foldl Edit.call Graph.newUndirected with hG
    have hagree := C01_history_refinement true (l.map fun p => Edit.addEdge (vertexOf n (firsts n S) p.1) (vertexOf n (firsts n S) p.2))
    rw [show runCode true _ = G from rfl] at hagree
    have hfold := foldl_addEdges (vertexOf n (firsts n S)) l (fun p hp => by
      constructor
      · rcases hrep p.1 with ⟨h1, -⟩ | ⟨r, -, -, h1, h2⟩
        · obtain ⟨r, hr, e⟩ := firsts_rep (n := (n : Int)) (hin p hp)
          exact absurd e (h1 r hr)
        · rw [h1]; exact h2
      · rcases hrep p.2 with ⟨-, h1⟩ | ⟨r, -, -, h1, h2⟩
        · rw [h1]
        · rw [h1]; exact h2.le) (AGraph.empty true) rfl
    simp only at hfold
    set A := (l.map fun p => Edit.addEdge (vertexOf n (firsts n S) p.1) (vertexOf n (firsts n S) p.2)).foldl AGraph.applyActual (AGraph.empty true) with hA
    obtain ⟨f1, f2, f3, f4⟩ := hfold
    have hset2 : (a ++ [some (AObj.graph Graph.newUndirected)]).set a.length (some (AObj.graph G)) = a ++ [some (.graph G)] := by
      rw [List.set_append_right _ _ (Nat.le_refl _), Nat.sub_self]; rfl
    rw [hset2] at hat₂
    obtain ⟨t₂, hr₂⟩ := hat₂
    have hgood : GReach G := reached_good hr₂ (hget _)
    have hec : G.edgeCount ≤ 2 * lines.length := by
      rw [hagree.edgeCount]
      refine f2.trans ?_
      simp only [AGraph.empty, Finset.card_empty]
      omega
    obtain ⟨hu, hroom'⟩ := hroom s₂.calls
    obtain ⟨b, hb⟩ := (C14_graph_bytes_layout hgood (V.E s₂.calls).P (V.E s₂.calls).o₁).2.2.2.1 (hroom' _ (by omega))
    have hp := pyStep_call (E := V.E s₂.calls) (hget (some (.graph G))) .bytes
    rw [AObj.means, hb] at hp
    obtain ⟨w₃, e11, hat₃⟩ := gx_ret ⟨t₂, hr₂⟩ hp
    refine ⟨b, { s₂ with calls := s₂.calls + 1, world := w₃ }, ?_, hpr, Exists.elim hat₃ fun t h => ⟨t, _, h⟩, ?_⟩
    · unfold graphFromTextFile
      simp only [← hl]
      rw [bind_ok e1, bind_ok e5, bind_ok e6, bind_ok e9, bind_ok (show asRef (.ref a.length) _ = .ok a.length _ from rfl), bind_ok e10,
        bind_ok e11]
      rfl
    · intro P hP
      obtain ⟨g, hg, hsame⟩ := C15_round_trip hgood hu hb hP
      have hgA := agrees_of_same hsame hagree
      have hedge : ∀ u v, g.doesEdgeExist u v = true ↔ ∃ p ∈ l, vertexOf n (firsts n S) p.2 ≠ U64_MAX ∧
          ((u, v) = (vertexOf n (firsts n S) p.1, vertexOf n (firsts n S) p.2) ∨
            (u, v) = (vertexOf n (firsts n S) p.2, vertexOf n (firsts n S) p.1)) := by
        intro u v
        rw [hgA.edge, f3]
        constructor
        · rintro (h | h)
          · cases h
          · exact h
        · exact .inr
      refine ⟨g, hg, hgA.direction.trans f1, fun u v => ?_, fun N => ?_⟩
      · rw [hedge]
        constructor
        · rintro ⟨p, hp, hne, h⟩
          rcases hrep p.1 with ⟨h1, -⟩ | ⟨r1, hr1, c1, v1, -⟩
          · obtain ⟨r, hr, e⟩ := firsts_rep (n := (n : Int)) (hin p hp)
            exact absurd e (h1 r hr)
          rcases hrep p.2 with ⟨-, h2⟩ | ⟨r2, hr2, c2, v2, -⟩
          · exact absurd h2 hne
          rcases h with h | h
          · obtain ⟨h1, h2⟩ := Prod.mk.inj h
            exact ⟨p.1, p.2, .inl ((hmem _ _).1 hp), r1, hr1, r2, hr2, c1, c2, h1.trans v1, h2.trans v2⟩
          · obtain ⟨h1, h2⟩ := Prod.mk.inj h
            exact ⟨p.2, p.1, .inr ((hmem _ _).1 hp), r2, hr2, r1, hr1, c2, c1, h1.trans v2, h2.trans v1⟩
        · rintro ⟨x, y, hxy, x', hx', y', hy', c1, c2, rfl, rfl⟩
          have vx := vertexOf_mem hap (by omega) hx' c1
          have vy := vertexOf_mem hap (by omega) hy' c2
          have nx := rank_lt_card hx'
          have ny := rank_lt_card hy'
          rcases hxy with h | h
          · refine ⟨(x, y), (hmem _ _).2 h, ?_, .inl ?_⟩
            · simp only [vy]; unfold U64_MAX; omega
            · simp only [vx, vy]
          · refine ⟨(y, x), (hmem _ _).2 h, ?_, .inr ?_⟩
            · simp only [vx]; unfold U64_MAX; omega
            · simp only [vx, vy]
      · rw [hgA.vertexCount, f4]
        constructor
        · rintro ⟨-, h⟩ u v huv
          obtain ⟨p, hp, hne, h'⟩ := (hedge u v).1 huv
          obtain ⟨b1, b2⟩ := h p hp hne
          rcases h' with h' | h' <;> obtain ⟨rfl, -⟩ := Prod.mk.inj h' <;> assumption
        · intro h
          refine ⟨Nat.zero_le _, fun p hp hne => ⟨?_, ?_⟩⟩
          · exact h _ _ ((hedge _ _).2 ⟨p, hp, hne, .inl rfl⟩)
          · exact h _ _ ((hedge _ _).2 ⟨p, hp, hne, .inr rfl⟩)
  · rintro ⟨x, y, hxy, hy⟩
    have hx := (hS x).2 ⟨y, hxy⟩
    obtain ⟨s₂, a', e10, hpr, t₂, hr₂⟩ := hraise ⟨(x, y), (hmem _ _).2 hxy, by
      have := hlow x hx
      simp only
      tauto⟩
    refine ⟨s₂, ?_, hpr, t₂, a', hr₂⟩
    unfold graphFromTextFile
    simp only [← hl]
    rw [bind_ok e1, bind_ok e5, bind_ok e6, bind_ok e9, bind_ok (show asRef (.ref a.length) _ = .ok a.length _ from rfl),
      bind_raised e10]

/-- Digits and small negative numbers, as an example of `int`. -/
def exIntN : List Char → Option Int
  | ['0'] => some 0
  | ['7'] => some 7
  | ['-', '1'] => some (-1)
  | ['-', '2'] => some (-2)
  | ['-', '3'] => some (-3)
  | _ => none

/-- An environment with negative numbers. -/
def exVN : Env := ⟨fun c => c == ' ' || c == '\n', exIntN, 1000, fun _ => exE⟩

theorem exVN_lists {lines : List (List Char)} {l : List (Int × Int)} (h : (parse exVN lines).idPairs = l) (x y : Int) :
    Lists exVN lines x y ↔ (x, y) ∈ l := by rw [← lists_iff, h]

/-- Texts for the cases of C106: 7 and -2 are one vertex; 0 ends an edge at -3, which is out of range; all ids are at most -3; the
array is empty; there is no edge. -/
example : (∃ S, Starts exVN ["7 -2\n".toList, "-2 7\n".toList] S ∧ (7 : Int) ∈ S ∧ (∀ x ∈ S, x ≤ 7) ∧ (0 : Int) ≤ 7 + 2 ∧
        (7 : Int) + 2 ≤ exVN.npMax ∧ (∀ x y, Lists exVN ["7 -2\n".toList, "-2 7\n".toList] x y → -(7 + 2 : Int) ≤ x ∧ -(7 + 2 : Int) ≤ y ∧ y < 7 + 2) ∧
        firsts (7 + 2) S = {-2}) ∧
    (∃ S, Starts exVN ["0 -3\n".toList] S ∧ (0 : Int) ∈ S ∧ (∀ x ∈ S, x ≤ 0) ∧
        ∃ x y, Lists exVN ["0 -3\n".toList] x y ∧ ¬ (-(0 + 2 : Int) ≤ x ∧ -(0 + 2 : Int) ≤ y ∧ y < 0 + 2)) ∧
    (∃ S, Starts exVN ["-3 0\n".toList] S ∧ (-3 : Int) ∈ S ∧ (∀ x ∈ S, x ≤ -3) ∧ (-3 : Int) + 2 < 0) ∧
    (∃ S, Starts exVN ["-2 0\n".toList] S ∧ (-2 : Int) ∈ S ∧ (∀ x ∈ S, x ≤ -2) ∧ (0 : Int) ≤ -2 + 2 ∧
        ∃ x y, Lists exVN ["-2 0\n".toList] x y ∧ ¬ (-(-2 + 2 : Int) ≤ x ∧ -(-2 + 2 : Int) ≤ y ∧ y < -2 + 2)) ∧
    (∃ S, Starts { exVN with npMax := 5 } ["7 0\n".toList] S ∧ (7 : Int) ∈ S ∧ (∀ x ∈ S, x ≤ 7) ∧ ((5 : Nat) : Int) < 7 + 2) ∧
    Starts exVN ["# 7 0\n".toList] ∅ ∧ exVN.npMax < 2 ^ 63 ∧ RoomFor exVN (2 * 2) ∧ Started exS := by
  have h1 := exVN_lists (lines := ["7 -2\n".toList, "-2 7\n".toList]) (l := [(7, -2), (-2, 7)]) (by rfl)
  have h2 := exVN_lists (lines := ["0 -3\n".toList]) (l := [(0, -3)]) (by rfl)
  have h3 := exVN_lists (lines := ["-3 0\n".toList]) (l := [(-3, 0)]) (by rfl)
  have h4 := exVN_lists (lines := ["-2 0\n".toList]) (l := [(-2, 0)]) (by rfl)
  have h5 : ∀ x y, Lists { exVN with npMax := 5 } ["7 0\n".toList] x y ↔ (x, y) ∈ [((7 : Int), (0 : Int))] := fun x y => by
    rw [← lists_iff, show (parse { exVN with npMax := 5 } ["7 0\n".toList]).idPairs = [(7, 0)] by rfl]
  have h6 := exVN_lists (lines := ["# 7 0\n".toList]) (l := []) (by rfl)
  refine ⟨⟨{-2, 7}, ?_, by simp, by simp, by decide, by decide, ?_, by decide +kernel⟩, ⟨{0}, ?_, by simp, by simp, 0, -3, (h2 _ _).2 (by simp), by decide⟩,
    ⟨{-3}, ?_, by simp, by simp, by decide⟩, ⟨{-2}, ?_, by simp, by simp, by decide, -2, 0, (h4 _ _).2 (by simp), by decide⟩,
    ⟨{7}, ?_, by simp, by simp, by decide⟩, ?_, by decide, fun _ => ⟨le_refl _, fun m hm => ⟨hm.trans (show 26 + 16 * (2 * 2) ≤ U64_MAX by decide), rfl⟩⟩, exS_started⟩
  · intro x; simp only [h1]; simp [or_comm, exists_or]
  · intro x y h; rw [h1] at h; simp at h; omega
  · intro x; simp only [h2]; simp
  · intro x; simp only [h3]; simp
  · intro x; simp only [h4]; simp
  · intro x; simp only [h5]; simp
  · intro x; simp only [h6]; simp

/-- The number with which a line of two words begins. -/
def firstNumber (V : Env) (line : List Char) : Option Int :=
  if line.head? = some '#' then none
  else match split V line with
    | [x, _] => V.int x
    | _ => none

theorem parseLine_id0 (V : Env) (p : Parsed) (l : List Char) : (parseLine V p l).id0 = (firstNumber V l).or p.id0 := by
  unfold parseLine firstNumber
  by_cases hh : l.head? = some '#'
  · rw [if_pos hh, if_pos hh]; rfl
  · rw [if_neg hh, if_neg hh]
    generalize split V l = w
    rcases w with _ | ⟨a, _ | ⟨b, _ | ⟨c, w⟩⟩⟩
    · rfl
    · rfl
    · dsimp only
      cases V.int a with
      | none => rfl
      | some i => cases V.int b <;> rfl
    · rfl

theorem parseLine_id1 (V : Env) (p : Parsed) (l : List Char) : (parseLine V p l).id1 = ((linePair V l).map Prod.snd).or p.id1 := by
  unfold parseLine linePair
  by_cases hh : l.head? = some '#'
  · rw [if_pos hh, if_pos hh]; rfl
  · rw [if_neg hh, if_neg hh]
    generalize split V l = w
    rcases w with _ | ⟨a, _ | ⟨b, _ | ⟨c, w⟩⟩⟩
    · rfl
    · rfl
    · dsimp only
      cases V.int a with
      | none => rfl
      | some i => cases V.int b <;> rfl
    · rfl

theorem foldl_none {α β : Type} {f : β → α → β} {k : β → Option Int} {e : α → Option Int} (h : ∀ p l, k (f p l) = (e l).or (k p))
    (ls : List α) (hn : ∀ l ∈ ls, e l = none) : ∀ p, k (ls.foldl f p) = k p := by
  induction ls with
  | nil => intro p; rfl
  | cons l ls ih =>
    intro p
    rw [List.foldl_cons, ih (fun l' hl' => hn l' (by simp [hl'])), h, hn l (by simp)]
    rfl

theorem parse_id0 {V : Env} {lines : List (List Char)} {x : Int} (h : LastFirst V lines x) : (parse V lines).id0 = some x := by
  obtain ⟨pre, line, post, rfl, ⟨h1, a, b, hab, ha⟩, h2⟩ := h
  unfold parse
  rw [List.foldl_append, List.foldl_cons, foldl_none (k := Parsed.id0) (parseLine_id0 V) post, parseLine_id0]
  · unfold firstNumber
    rw [if_neg h1, (split_two V line a b).2 hab]
    simp only [ha]
    rfl
  · intro l hl
    unfold firstNumber
    split
    · rfl
    · next hh =>
      split
      · next c d hs => exact h2 l hl hh c d ((split_two V l c d).1 hs)
      · rfl

theorem parse_id1 {V : Env} {lines : List (List Char)} {x y : Int} (h : LastListed V lines x y) : (parse V lines).id1 = some y := by
  obtain ⟨pre, line, post, rfl, h1, h2⟩ := h
  unfold parse
  rw [List.foldl_append, List.foldl_cons, foldl_none (k := Parsed.id1) (parseLine_id1 V) post, parseLine_id1]
  · have := (lists_iff V [line] x y).2 h1
    rw [parse_pairs, List.mem_filterMap] at this
    obtain ⟨l, hl, hp⟩ := this
    rw [List.mem_singleton] at hl
    subst hl
    rw [hp]
    rfl
  · intro l hl
    rw [Option.map_eq_none_iff]
    by_contra hne
    obtain ⟨p, hp⟩ := Option.ne_none_iff_exists'.1 hne
    refine h2 p.1 p.2 ((lists_iff V post p.1 p.2).1 ?_)
    rw [parse_pairs, List.mem_filterMap]
    exact ⟨l, hl, hp⟩

theorem edge_max_left {P : Platform} {b : Bytes} {g : Graph} (hg : Graph.tryFrom P b = .ok g) (u : Nat) :
    g.doesEdgeExist U64_MAX u = false := by
  have hr : GReach g := .tryFrom _ _ hg
  rw [Bool.eq_false_iff]
  intro h
  have h1 := hr.ok.wf.bound _ (Graph.doesEdgeExist_iff.1 h)
  have h2 := hr.ok.wf.dim
  have h3 : U64_MAX < g.adjacencyMatrix.dimension := h1.1
  omega

theorem checkEdges_placed {V : Env} {n i : Nat} {F : Finset Int} {x y : Int} (hx : -(n : Int) ≤ x ∧ x < n)
    (hy : -(n : Int) ≤ y ∧ y < n) {a : AWorld} {g : Graph} (hi : a[i]? = some (some (.graph g))) (l : List (Int × Int)) :
    ∀ s : State, At s a → ∃ s', checkEdges V i (placed n F) (some x) (some y) l s = .ok () s' ∧ At s' a ∧
      s'.printed = s.printed ++ if g.doesEdgeExist (vertexOf n F x) (vertexOf n F y) then [] else
        List.replicate l.length ("Missing edge ".toList ++ str x ++ ['-'] ++ str y) := by
  induction l with
  | nil => intro s h; exact ⟨s, rfl, h, by split <;> simp⟩
  | cons p l ih =>
    intro s h
    have hp := pyStep_call (E := V.E s.calls) hi (.doesEdgeExist (num n F x) (num n F y))
    rw [AObj.means] at hp
    change pyStep _ _ _ = .ret (.bool (g.doesEdgeExist (vertexOf n F x) (vertexOf n F y))) _ at hp
    obtain ⟨w', hw, hat⟩ := gx_ret h hp
    unfold checkEdges
    rw [bind_ok (show bound (some x) s = .ok x s from rfl), bind_ok (show bound (some y) s = .ok y s from rfl),
      bind_ok (npGet_placed hx.1 hx.2 s), bind_ok (npGet_placed hy.1 hy.2 s), bind_ok hw,
      bind_ok (show asBool (.bool (g.doesEdgeExist (vertexOf n F x) (vertexOf n F y))) _ =
        .ok (g.doesEdgeExist (vertexOf n F x) (vertexOf n F y)) _ from rfl)]
    by_cases he : g.doesEdgeExist (vertexOf n F x) (vertexOf n F y) = true
    · obtain ⟨s', h1, h2, h3⟩ := ih _ hat
      rw [he] at h3 ⊢
      exact ⟨s', h1, h2, h3⟩
    · rw [Bool.not_eq_true] at he
      obtain ⟨s', h1, h2, h3⟩ := ih ⟨s.calls + 1, w', s.printed ++ ["Missing edge ".toList ++ str x ++ ['-'] ++ str y]⟩ hat
      rw [he] at h3 ⊢
      refine ⟨s', h1, h2, ?_⟩
      rw [h3]
      simp only [Bool.false_eq_true, if_false, List.length_cons, List.replicate_succ, List.append_assoc, List.cons_append, List.nil_append]

/-- **C107.** Everything that `validate_graph` can do.  Let `M` be the largest id with which an edge of the text begins and `n = M + 1`,
`x` the first number of the last line of two words that begins with a number, and `y` the end of the last edge.  The script prints
nothing if the file has the edge between the vertices of `x` and `y` (ids modulo `n`, as in C106), and otherwise the message about `x`
and `y` once for every line that lists an edge.  In all other cases it ends with the exception named, and prints nothing. -/
theorem C107_validate_any_text (V : Env) (lines : List (List Char)) (S : Finset Int) (hS : Starts V lines S)
    (hnp : V.npMax < 2 ^ 63) (s : State) (hs : Started s) (file : Bytes) (hfit : file.length ≤ (V.E s.calls).P.usizeMax) :
    (S = ∅ → validateGraph V lines file s = .raised .IndexError s) ∧
    ∀ M ∈ S, (∀ x ∈ S, x ≤ M) →
      (M + 1 < 0 → validateGraph V lines file s = .raised .ValueError s) ∧
      (V.npMax < M + 1 → validateGraph V lines file s = .raised .MemoryError s) ∧
      (0 ≤ M + 1 → M + 1 ≤ V.npMax →
        ((∃ x ∈ S, x < -(M + 1)) ∨ M + 1 = 0 → validateGraph V lines file s = .raised .IndexError s) ∧
        ((∀ x ∈ S, -(M + 1) ≤ x) → M + 1 ≠ 0 →
          ((∀ g, Graph.tryFrom (V.E s.calls).P file ≠ .ok g) →
            ∃ s', validateGraph V lines file s = .raised (.fromModule .TypeError) s' ∧ Started s' ∧ s'.printed = s.printed) ∧
          ∀ g, Graph.tryFrom (V.E s.calls).P file = .ok g → ∀ x x₀ y, LastFirst V lines x → LastListed V lines x₀ y →
            ((-(M + 1) ≤ x ∧ x ≤ M) ∧ (-(M + 1) ≤ y ∧ y ≤ M) →
              ∃ s', validateGraph V lines file s = .ok () s' ∧ Started s' ∧
                ((∃ x' ∈ firsts (M + 1) S, ∃ y' ∈ firsts (M + 1) S, x' % (M + 1) = x % (M + 1) ∧ y' % (M + 1) = y % (M + 1) ∧
                    g.doesEdgeExist (rank (firsts (M + 1) S) x') (rank (firsts (M + 1) S) y') = true) →
                  s'.printed = s.printed) ∧
                ((¬ ∃ x' ∈ firsts (M + 1) S, ∃ y' ∈ firsts (M + 1) S, x' % (M + 1) = x % (M + 1) ∧ y' % (M + 1) = y % (M + 1) ∧
                    g.doesEdgeExist (rank (firsts (M + 1) S) x') (rank (firsts (M + 1) S) y') = true) →
                  s'.printed = s.printed ++
                    List.replicate (edgeLines V lines) ("Missing edge ".toList ++ str x ++ ['-'] ++ str y))) ∧
            (¬ ((-(M + 1) ≤ x ∧ x ≤ M) ∧ (-(M + 1) ≤ y ∧ y ≤ M)) →
              ∃ s', validateGraph V lines file s = .raised .IndexError s' ∧ Started s' ∧ s'.printed = s.printed))) := by
  refine ⟨fun hemp => C80_no_edges V lines (fun x y h => ?_) file s, fun M hM hMmax => ?_⟩
  · have := (hS x).2 ⟨y, h⟩
    rw [hemp] at this
    cases this
  obtain ⟨t, a, hr⟩ := hs
  obtain ⟨l, last, hl, hlM, hmem, hlen, hlne, hfr⟩ := front_all hS 1 hM hMmax
  obtain ⟨e1, e2, e3, e4⟩ := hfr s
  rw [show ((1 : Nat) : Int) = 1 from rfl] at e2 e3 e4
  refine ⟨fun h => ?_, fun h => ?_, fun hn0 hnm => ?_⟩
  · unfold validateGraph
    simp only [← hl]
    rw [bind_ok e1, bind_raised (e2 h)]
  · unfold validateGraph
    simp only [← hl]
    rw [bind_ok e1, bind_raised (e3 h)]
  obtain ⟨n, hn⟩ : ∃ n : Nat, (n : Int) = M + 1 := ⟨(M + 1).toNat, by omega⟩
  obtain ⟨e5, e6, e7⟩ := e4 n hn (by omega)
  have hlt : ∀ x ∈ S, x < n := fun x hx => by have := hMmax x hx; omega
  refine ⟨fun hbad => ?_, fun hlow hne => ?_⟩
  · have : ∃ x ∈ S, ¬ (-(n : Int) ≤ x ∧ x < n) := by
      rcases hbad with ⟨x, hx, h⟩ | h
      · exact ⟨x, hx, by omega⟩
      · exact ⟨M, hM, by omega⟩
    unfold validateGraph
    simp only [← hl]
    rw [bind_ok e1, bind_ok e5, bind_raised (e7 this)]
  obtain ⟨e6, hcard⟩ := e6 fun x hx => ⟨by have := hlow x hx; omega, hlt x hx⟩
  rw [← hn]
  constructor
  · intro hno
    obtain ⟨e, he⟩ : ∃ e, Graph.tryFrom (V.E s.calls).P file = .err e := by
      rcases C16_decode_total (V.E s.calls).P file hfit with ⟨g, hg⟩ | ⟨m, hm⟩
      · exact absurd hg (hno g)
      · exact ⟨_, hm⟩
    have e8 : pyStep (V.E s.calls) (.graphFromBytes file) a = .raises .TypeError a := by
      simp only [pyStep, he]; rfl
    obtain ⟨w₁, e9, hat⟩ := gx_raises ⟨t, hr⟩ e8
    refine ⟨_, ?_, Exists.elim hat fun t h => ⟨t, _, h⟩, rfl⟩
    unfold validateGraph
    simp only [← hl]
    rw [bind_ok e1, bind_ok e5, bind_ok e6, bind_raised e9]
  · intro g hg x x₀ y hx hy
    have p0 := parse_id0 hx
    have p1 := parse_id1 hy
    have e8 : pyStep (V.E s.calls) (.graphFromBytes file) a = .ret (.ref a.length) (a ++ [some (.graph g)]) := by
      simp only [pyStep, hg]; rfl
    obtain ⟨w₁, e9, hat⟩ := gx_ret ⟨t, hr⟩ e8
    have hget : (a ++ [some (AObj.graph g)])[a.length]? = some (some (.graph g)) := by
      rw [List.getElem?_append_right (Nat.le_refl _), Nat.sub_self]; rfl
    constructor
    · rintro ⟨hx1, hy1⟩
      obtain ⟨s', e10, ⟨t', h'⟩, hpr⟩ := checkEdges_placed (V := V) (n := n) (F := firsts n S) (x := x) (y := y) ⟨hx1.1, by omega⟩
        ⟨hy1.1, by omega⟩ hget l _ hat
      have hiff : g.doesEdgeExist (vertexOf n (firsts n S) x) (vertexOf n (firsts n S) y) = true ↔
          ∃ x' ∈ firsts n S, ∃ y' ∈ firsts n S, x' % (n : Int) = x % n ∧ y' % (n : Int) = y % n ∧
            g.doesEdgeExist (rank (firsts n S) x') (rank (firsts n S) y') = true := by
        constructor
        · intro h
          by_cases h1 : ∃ r ∈ firsts n S, r % (n : Int) = x % n
          · by_cases h2 : ∃ r ∈ firsts n S, r % (n : Int) = y % n
            · obtain ⟨x', hx', c1⟩ := h1
              obtain ⟨y', hy', c2⟩ := h2
              rw [vertexOf_mem (firsts_apart n S) (by omega) hx' c1, vertexOf_mem (firsts_apart n S) (by omega) hy' c2] at h
              exact ⟨x', hx', y', hy', c1, c2, h⟩
            · rw [vertexOf_none (z := y) fun r hr e => h2 ⟨r, hr, e⟩, toList_edge_max hg] at h
              cases h
          · rw [vertexOf_none (z := x) fun r hr e => h1 ⟨r, hr, e⟩, edge_max_left hg] at h
            cases h
        · rintro ⟨x', hx', y', hy', c1, c2, h⟩
          rwa [vertexOf_mem (firsts_apart n S) (by omega) hx' c1, vertexOf_mem (firsts_apart n S) (by omega) hy' c2]
      refine ⟨s', ?_, ⟨t', _, h'⟩, fun h => ?_, fun h => ?_⟩
      · unfold validateGraph
        simp only [← hl, p0, p1]
        rw [bind_ok e1, bind_ok e5, bind_ok e6, bind_ok e9, bind_ok (show asRef (.ref a.length) _ = .ok a.length _ from rfl), e10]
      · rw [hpr, if_pos (hiff.2 h), List.append_nil]
      · rw [hpr, if_neg fun h' => h (hiff.1 h'), hl, edgeLines_eq]
    · intro hbad
      refine ⟨_, ?_, Exists.elim hat fun t h => ⟨t, _, h⟩, rfl⟩
      obtain ⟨q, l', hq⟩ := List.exists_cons_of_ne_nil hlne
      unfold validateGraph
      simp only [← hl, p0, p1]
      rw [bind_ok e1, bind_ok e5, bind_ok e6, bind_ok e9, bind_ok (show asRef (.ref a.length) _ = .ok a.length _ from rfl), hq,
        checkEdges.eq_def]
      simp only
      rw [bind_ok (show bound (some x) _ = .ok x _ from rfl), bind_ok (show bound (some y) _ = .ok y _ from rfl)]
      by_cases h1 : -(n : Int) ≤ x ∧ x < n
      · rw [bind_ok (npGet_placed h1.1 h1.2 _), bind_raised (npGet_bad (by omega) _)]
      · rw [bind_raised (npGet_bad h1 _)]

/-- A text for C107: the last line has a number and a word, so its first number replaces that of the last edge; 7 and -1 are one vertex. -/
example : (∃ S, Starts exVN ["7 0\n".toList, "0 -1\n".toList, "-1 x\n".toList] S ∧ (7 : Int) ∈ S ∧ (∀ x ∈ S, x ≤ 7 ∧ -(7 + 1) ≤ x) ∧
      (7 : Int) + 1 ≤ exVN.npMax ∧ firsts (7 + 1) S = {0, 7}) ∧ (-1 : Int) % (7 + 1) = 7 % (7 + 1) ∧
    LastFirst exVN ["7 0\n".toList, "0 -1\n".toList, "-1 x\n".toList] (-1) ∧
    LastListed exVN ["7 0\n".toList, "0 -1\n".toList, "-1 x\n".toList] 0 (-1) ∧
    (∃ g, Graph.tryFrom exP exFile = .ok g) ∧ (∀ g, Graph.tryFrom exP [0, 1, 2] ≠ .ok g) := by
  have h := exVN_lists (lines := ["7 0\n".toList, "0 -1\n".toList, "-1 x\n".toList]) (l := [(7, 0), (0, -1)]) (by rfl)
  refine ⟨⟨{0, 7}, ?_, by simp, by simp, by decide, by decide +kernel⟩, by decide, ?_, ?_, ?_, ?_⟩
  · intro x; simp only [h]; simp [or_comm, exists_or]
  · refine ⟨["7 0\n".toList, "0 -1\n".toList], "-1 x\n".toList, [], rfl, ⟨by decide, "-1".toList, "x".toList, ?_, by rfl⟩, by simp⟩
    exact (split_two exVN _ _ _).1 (by rfl)
  · refine ⟨["7 0\n".toList], "0 -1\n".toList, ["-1 x\n".toList], rfl, ?_, ?_⟩
    · exact (exVN_lists (lines := ["0 -1\n".toList]) (l := [(0, -1)]) (by rfl) _ _).2 (by decide)
    · intro u v h
      have := (exVN_lists (lines := ["-1 x\n".toList]) (l := []) (by rfl) u v).1 h
      cases this
  · obtain ⟨g, hg, -⟩ := okAnd_elim (show okAnd (Graph.tryFrom exP exFile) (fun _ => true) = true by decide +kernel)
    exact ⟨g, hg⟩
  · intro g hg
    have : okAnd (Graph.tryFrom exP [0, 1, 2]) (fun _ => true) = false := by decide +kernel
    rw [hg] at this
    cases this

end Verif.Props
