import Verif.Props.Scripts

/-! # C79, C80: the exact behaviour of the scripts for texts in which some vertices begin no edge -/

namespace Verif.Props
open Verif Spec Script

theorem bind_raised {α β : Type} {x : SM α} {f : α → SM β} {s s' : State} {e : Exc} (h : x s = .raised e s') :
    (x >>= f) s = .raised e s' := by
  show SM.bind x f s = _
  unfold SM.bind
  rw [h]

/-- The new number of a vertex as a 64-bit number: −1 if it begins no edge. -/
def newNumber (S : Finset Int) (x : Int) : Nat := if x ∈ S then rank S x else U64_MAX

theorem toId_newNumber {S : Finset Int} (hS : S.card < 2 ^ 64) (x : Int) :
    toId (if x ∈ S then (rank S x : Int) else -1) = newNumber S x := by
  unfold newNumber
  split
  · exact toId_nat (lt_of_le_of_lt (rank_le_card _ _) hS)
  · decide

/-- The edits of `addEdges`. -/
def textEdits (S : Finset Int) (l : List (Int × Int)) : List Edit := l.map fun p => .addEdge (rank S p.1) (newNumber S p.2)

theorem addEdges_step {V : Env} {n i : Nat} {S : Finset Int} (hS : S.card < 2 ^ 64) {p : Int × Int} (l : List (Int × Int))
    (h1 : p.1 ∈ S) (h2 : 0 ≤ p.1) (h3 : p.1 < n) (h5 : 0 ≤ p.2) (h6 : p.2 < n) {s : State} {a : AWorld} {g : Graph} (h : At s a)
    (hi : a[i]? = some (some (.graph g))) :
    ∃ s', addEdges V i (numbered n S) (p :: l) s = addEdges V i (numbered n S) l s' ∧ s'.printed = s.printed ∧
      At s' (a.set i (some (.graph ((Edit.addEdge (rank S p.1) (newNumber S p.2)).call g)))) := by
  have hp := pyStep_call (E := V.E s.calls) hi (.addEdge (rank S p.1 : Nat) (if p.2 ∈ S then (rank S p.2 : Int) else -1))
  rw [AObj.means, toId_nat (lt_of_le_of_lt (rank_le_card _ _) hS), toId_newNumber hS] at hp
  obtain ⟨w', hw, hat⟩ := gx_ret h hp
  refine ⟨{ s with calls := s.calls + 1, world := w' }, ?_, rfl, hat⟩
  rw [addEdges.eq_def]
  simp only
  rw [bind_ok (npGet_numbered h2 h3 s), bind_ok (npGet_numbered h5 h6 s), if_pos h1, bind_ok hw]

theorem textEdges_run {V : Env} {n i : Nat} {S : Finset Int} (hS : S.card < 2 ^ 64) (l : List (Int × Int)) :
    (∀ p ∈ l, (p.1 ∈ S ∧ 0 ≤ p.1 ∧ p.1 < n) ∧ 0 ≤ p.2) → ∀ (s : State) (a : AWorld) (g : Graph), At s a →
    a[i]? = some (some (.graph g)) →
    ((∀ p ∈ l, p.2 < n) → ∃ s', addEdges V i (numbered n S) l s = .ok () s' ∧ s'.printed = s.printed ∧
      At s' (a.set i (some (.graph ((textEdits S l).foldl Edit.call g))))) ∧
    ((∃ p ∈ l, n ≤ p.2) → ∃ s' a', addEdges V i (numbered n S) l s = .raised .IndexError s' ∧ s'.printed = s.printed ∧ At s' a') := by
  induction l with
  | nil =>
    intro _ s a g h hi
    refine ⟨fun _ => ⟨s, rfl, rfl, ?_⟩, by rintro ⟨p, hp, _⟩; cases hp⟩
    rwa [show a.set i _ = a from List.ext_getElem? fun k => ?_]
    rw [List.getElem?_set]
    split
    · next hk =>
      subst hk
      obtain ⟨hlt, _⟩ := List.getElem?_eq_some_iff.1 hi
      rw [if_pos hlt, hi]; rfl
    · rfl
  | cons p l ih =>
    intro hl s a g h hi
    obtain ⟨⟨h1, h2, h3⟩, h5⟩ := hl p (by simp)
    by_cases h6 : p.2 < n
    · obtain ⟨s₁, e1, pr1, at1⟩ := addEdges_step (V := V) hS l h1 h2 h3 h5 h6 h hi
      obtain ⟨i1, i2⟩ := ih (fun q hq => hl q (by simp [hq])) s₁ _ _ at1
        (by rw [List.getElem?_set_self (List.getElem?_eq_some_iff.1 hi).1])
      refine ⟨fun hall => ?_, fun hex => ?_⟩
      · obtain ⟨s', e2, pr2, at2⟩ := i1 fun q hq => hall q (by simp [hq])
        rw [List.set_set] at at2
        exact ⟨s', e1.trans e2, pr2.trans pr1, at2⟩
      · obtain ⟨s', a', e2, pr2, at2⟩ := i2 (by
          obtain ⟨q, hq, hn⟩ := hex
          rcases List.mem_cons.1 hq with rfl | hq
          · omega
          · exact ⟨q, hq, hn⟩)
        exact ⟨s', a', e1.trans e2, pr2.trans pr1, at2⟩
    · refine ⟨fun hall => absurd (hall p (by simp)) h6, fun _ => ⟨s, a, ?_, rfl, h⟩⟩
      have hbad : npGet (numbered n S) p.2 s = .raised .IndexError s := by
        have hl : (numbered n S).length = n := by simp [numbered]
        unfold npGet
        rw [bind_raised]
        unfold npIndex
        rw [hl, if_neg (by omega), if_neg (by omega)]
        rfl
      rw [addEdges.eq_def]
      simp only
      rw [bind_ok (npGet_numbered h2 h3 s), bind_raised hbad]

theorem foldl_textEdits (S : Finset Int) (hS : S.card < 2 ^ 64 - 1) (l : List (Int × Int)) (hl : ∀ p ∈ l, p.1 ∈ S) :
    ∀ A : AGraph, A.undirected = true →
    ((textEdits S l).foldl AGraph.applyActual A).undirected = true ∧
    ((textEdits S l).foldl AGraph.applyActual A).E.card ≤ A.E.card + 2 * l.length ∧
    (∀ q, q ∈ ((textEdits S l).foldl AGraph.applyActual A).E ↔
      q ∈ A.E ∨ ∃ p ∈ l, p.2 ∈ S ∧ (q = (rank S p.1, rank S p.2) ∨ q = (rank S p.2, rank S p.1))) ∧
    (∀ N, ((textEdits S l).foldl AGraph.applyActual A).n ≤ N ↔ A.n ≤ N ∧ ∀ p ∈ l, p.2 ∈ S → rank S p.1 < N ∧ rank S p.2 < N) := by
  induction l with
  | nil => intro A hA; simp [textEdits, hA]
  | cons p l ih =>
    intro A hA
    have h1 := hl p (by simp)
    have hr1 := rank_lt_card h1
    have hfold : (textEdits S (p :: l)).foldl AGraph.applyActual A =
        (textEdits S l).foldl AGraph.applyActual (A.applyActual (.addEdge (rank S p.1) (newNumber S p.2))) := rfl
    by_cases h2 : p.2 ∈ S
    · have hr2 := rank_lt_card h2
      have hadd : A.applyActual (.addEdge (rank S p.1) (newNumber S p.2)) =
          ⟨true, max A.n (max (rank S p.1) (rank S p.2) + 1), A.E ∪ {(rank S p.1, rank S p.2), (rank S p.2, rank S p.1)}⟩ := by
        unfold AGraph.applyActual AGraph.addEdge newNumber
        simp only
        rw [if_pos h2, if_pos (by omega), hA, if_pos rfl]
      obtain ⟨i1, i2, i3, i4⟩ := ih (fun q hq => hl q (by simp [hq])) (A.applyActual (.addEdge (rank S p.1) (newNumber S p.2)))
        (by rw [hadd])
      rw [hfold]
      refine ⟨i1, ?_, ?_, ?_⟩
      · refine i2.trans ?_
        rw [hadd]
        have := Finset.card_union_le A.E {(rank S p.1, rank S p.2), (rank S p.2, rank S p.1)}
        have h3 : ({(rank S p.1, rank S p.2), (rank S p.2, rank S p.1)} : Finset (Nat × Nat)).card ≤ 2 := Finset.card_le_two
        simp only [List.length_cons]
        omega
      · intro q
        rw [i3, hadd]
        simp only [Finset.mem_union, Finset.mem_insert, Finset.mem_singleton, List.mem_cons, exists_eq_or_imp, h2, true_and]
        exact or_assoc
      · intro N
        rw [i4, hadd]
        simp only [List.mem_cons, forall_eq_or_imp, h2, true_imp_iff]
        rw [← and_assoc]
        refine and_congr_left fun _ => ?_
        omega
    · have hadd : A.applyActual (.addEdge (rank S p.1) (newNumber S p.2)) = A := by
        unfold AGraph.applyActual AGraph.addEdge newNumber
        simp only
        rw [if_neg h2, if_neg (by unfold U64_MAX; omega)]
      obtain ⟨i1, i2, i3, i4⟩ := ih (fun q hq => hl q (by simp [hq])) A hA
      rw [hfold, hadd]
      refine ⟨i1, ?_, ?_, ?_⟩
      · refine i2.trans ?_
        simp only [List.length_cons]
        omega
      · intro q
        rw [i3]
        simp only [List.mem_cons, exists_eq_or_imp, h2, false_and, false_or]
      · intro N
        rw [i4]
        simp only [List.mem_cons, forall_eq_or_imp, h2, false_imp_iff, true_and]

/-- What the beginning of both scripts computes. -/
theorem front_starts {V : Env} {lines : List (List Char)} {S : Finset Int} (hS : Starts V lines S)
    (h0 : ∀ x ∈ S, 0 ≤ x) (k : Nat) (hk : 1 ≤ k) {M : Int} (hM : M ∈ S) (hMmax : ∀ x ∈ S, x ≤ M) (hmax : M + k ≤ V.npMax)
    (hnp : V.npMax < 2 ^ 63) :
    ∃ (l : List (Int × Int)) (last : Int × Int) (n : Nat), l = sortPairs (parse V lines).idPairs ∧ last.1 = M ∧
      (∀ x y, (x, y) ∈ l ↔ Lists V lines x y) ∧ l.length ≤ lines.length ∧ (n : Int) = M + k ∧ S.card ≤ n ∧ n < 2 ^ 63 ∧
      ∀ s, lastPair l s = .ok last s ∧ npFull V (last.1 + k) s = .ok (numbered n ∅) s ∧
        assignIds l (numbered n ∅) 0 s = .ok (numbered n S) s := by
  have hmem : ∀ x y, (x, y) ∈ sortPairs (parse V lines).idPairs ↔ Lists V lines x y := fun x y => by rw [sortPairs_mem, lists_iff]
  have hlen : (sortPairs (parse V lines).idPairs).length ≤ lines.length := by rw [sortPairs_length]; exact parse_length V lines
  have hsorted := sortPairs_sorted (parse V lines).idPairs
  generalize sortPairs (parse V lines).idPairs = l at hmem hlen hsorted
  have hin : ∀ p ∈ l, p.1 ∈ S := fun p hp => (hS p.1).2 ⟨p.2, (hmem p.1 p.2).1 hp⟩
  have hset : (l.map Prod.fst).toFinset = S := by
    ext x
    rw [List.mem_toFinset, List.mem_map]
    constructor
    · rintro ⟨p, hp, rfl⟩; exact hin p hp
    · intro hx
      obtain ⟨y, hy⟩ := (hS x).1 hx
      exact ⟨(x, y), (hmem x y).2 hy, rfl⟩
  obtain ⟨yM, hyM⟩ := (hS M).1 hM
  have hlne : l ≠ [] := by
    intro h
    have := (hmem M yM).2 hyM
    rw [h] at this
    cases this
  have hlastmem : l.getLast hlne ∈ l := List.getLast_mem hlne
  have hlast? : l.getLast? = some (l.getLast hlne) := List.getLast?_eq_some_getLast hlne
  have happ : l.dropLast ++ [l.getLast hlne] = l := List.dropLast_append_getLast hlne
  generalize l.getLast hlne = last at hlastmem hlast? happ
  have hlM : last.1 = M := by
    refine le_antisymm (hMmax _ (hin _ hlastmem)) ?_
    have hxl := (hmem M yM).2 hyM
    rw [← happ] at hsorted hxl
    rw [List.mem_append] at hxl
    rcases hxl with hxl | hxl
    · exact (List.pairwise_append.1 hsorted).2.2 _ hxl _ (List.mem_singleton_self _)
    · rw [List.mem_singleton] at hxl
      rw [← hxl]
  have hM0 := h0 M hM
  obtain ⟨n, hn⟩ : ∃ n : Nat, (n : Int) = M + k := ⟨(M + k).toNat, by omega⟩
  have hlt : ∀ x ∈ S, 0 ≤ x ∧ x < n := fun x hx => ⟨h0 x hx, by have := hMmax x hx; omega⟩
  have hcard : S.card ≤ n := by
    have : S ⊆ (Finset.range n).image (fun k : Nat => (k : Int)) := fun x hx => by
      obtain ⟨h1, h2⟩ := hlt x hx
      exact Finset.mem_image.2 ⟨x.toNat, Finset.mem_range.2 (by omega), by omega⟩
    exact (Finset.card_le_card this).trans (Finset.card_image_le.trans (by rw [Finset.card_range]))
  refine ⟨l, last, n, rfl, hlM, hmem, hlen, hn, hcard, by omega, fun s => ⟨?_, ?_, ?_⟩⟩
  · unfold lastPair; rw [hlast?]; rfl
  · unfold npFull
    rw [hlM, if_neg (by omega), if_neg (by omega), ← hn, ← replicate_numbered]; rfl
  · have := assignIds_numbered n l ∅ hsorted (fun p hp => hlt _ (hin p hp)) (by simp) s
    rwa [Finset.empty_union, hset] at this

/-- **C79**, the exact rule for texts with non-negative ids.  Let `S` be the vertices with which an edge begins, and `M` the largest of
them.  If no edge ends beyond `M + 1`, the script writes the graph of those edges of the text that also end at a vertex of `S`, with the
vertices of `S` numbered in order; the other edges are lost.  If some edge ends beyond `M + 1`, the script ends with an
`IndexError`, as it does if the text lists no edge at all. -/
theorem C79_exact (V : Env) (lines : List (List Char)) (S : Finset Int) (hS : Starts V lines S)
    (h0 : ∀ x y, Lists V lines x y → 0 ≤ x ∧ 0 ≤ y) (hnp : V.npMax < 2 ^ 63) (hroom : RoomFor V (2 * lines.length))
    (s : State) (hs : Started s) :
    (∀ M ∈ S, (∀ x ∈ S, x ≤ M) → M + 2 ≤ V.npMax →
      ((∀ x y, Lists V lines x y → y ≤ M + 1) → ∃ b s', graphFromTextFile V lines s = .ok b s' ∧ s'.printed = s.printed ∧ Started s' ∧
        b.length ≤ 26 + 16 * (2 * lines.length) ∧
        ∀ P : Platform, b.length ≤ P.usizeMax → ∃ g, Graph.tryFrom P b = .ok g ∧ g.isUndirected = true ∧
          (∀ u v, g.doesEdgeExist u v = true ↔ ∃ x ∈ S, ∃ y ∈ S, (Lists V lines x y ∨ Lists V lines y x) ∧ u = rank S x ∧ v = rank S y) ∧
          ∀ N, g.vertexCount ≤ N ↔ ∀ x ∈ S, ∀ y ∈ S, Lists V lines x y → rank S x < N ∧ rank S y < N) ∧
      ((∃ x y, Lists V lines x y ∧ M + 1 < y) →
        ∃ s', graphFromTextFile V lines s = .raised .IndexError s' ∧ s'.printed = s.printed ∧ Started s')) ∧
    (S = ∅ → graphFromTextFile V lines s = .raised .IndexError s) := by
  refine ⟨fun M hM hMmax hmax => ?_, fun hemp => ?_⟩
  · obtain ⟨t, a, hr⟩ := hs
    obtain ⟨l, last, n, hl, hlM, hmem, hlen, hn, hcard, hn63, hfr⟩ := front_starts hS
      (fun x hx => by obtain ⟨y, hy⟩ := (hS x).1 hx; exact (h0 x y hy).1) 2 (by omega) hM hMmax hmax hnp
    have hn : (n : Int) = M + 2 := hn
    obtain ⟨e1, e2, e3⟩ := hfr s
    rw [show ((2 : Nat) : Int) = 2 from rfl] at e2
    have hin : ∀ p ∈ l, p.1 ∈ S := fun p hp => (hS p.1).2 ⟨p.2, (hmem p.1 p.2).1 hp⟩
    have hpos : ∀ p ∈ l, (p.1 ∈ S ∧ 0 ≤ p.1 ∧ p.1 < n) ∧ 0 ≤ p.2 := fun p hp => by
      have h1 := h0 p.1 p.2 ((hmem _ _).1 hp)
      have h2 := hMmax _ (hin p hp)
      exact ⟨⟨hin p hp, h1.1, by omega⟩, h1.2⟩
    have e4 : pyStep (V.E s.calls) (.newGraph true) a = .ret (.ref a.length) (a ++ [some (.graph Graph.newUndirected)]) := rfl
    obtain ⟨w₁, e5, hat⟩ := gx_ret ⟨t, hr⟩ e4
    have hget : ∀ x : Option AObj, (a ++ [x])[a.length]? = some x := fun x => by
      rw [List.getElem?_append_right (Nat.le_refl _), Nat.sub_self]; rfl
    obtain ⟨hrun, hraise⟩ := textEdges_run (V := V) (n := n) (by omega) l hpos _ _ _ hat (hget _)
    constructor
    · intro hall
      obtain ⟨s₂, e6, hpr, hat₂⟩ := hrun fun p hp => by have := hall p.1 p.2 ((hmem _ _).1 hp); omega
      set G := (textEdits S l).foldl Edit.call Graph.newUndirected with hG
      have hGR : G = runCode true (textEdits S l) := rfl
      have hagree := C01_history_refinement true (textEdits S l)
      rw [← hGR] at hagree
      set A := (textEdits S l).foldl AGraph.applyActual (AGraph.empty true) with hA
      obtain ⟨f1, f2, f3, f4⟩ := foldl_textEdits S (by omega) l hin (AGraph.empty true) rfl
      rw [← hA] at f1 f2 f3 f4
      have hset2 : (a ++ [some (AObj.graph Graph.newUndirected)]).set a.length (some (AObj.graph G)) = a ++ [some (.graph G)] := by
        rw [List.set_append_right _ _ (Nat.le_refl _), Nat.sub_self]; rfl
      rw [hset2] at hat₂
      obtain ⟨t₂, hr₂⟩ := hat₂
      have hgood : GReach G := reached_good hr₂ (hget _)
      have hec : G.edgeCount ≤ 2 * lines.length := by
        rw [hagree.edgeCount]
        refine f2.trans ?_
        simp only [AGraph.empty, Finset.card_empty]
        omega
      obtain ⟨hu, hroom'⟩ := hroom s₂.calls
      obtain ⟨b, hb⟩ := (C14_graph_bytes_layout hgood (V.E s₂.calls).P (V.E s₂.calls).o₁).2.2.2.1 (hroom' _ (by omega))
      have hp := pyStep_call (E := V.E s₂.calls) (hget (some (.graph G))) .bytes
      rw [AObj.means, hb] at hp
      obtain ⟨w₃, e7, hat₃⟩ := gx_ret ⟨t₂, hr₂⟩ hp
      refine ⟨b, { s₂ with calls := s₂.calls + 1, world := w₃ }, ?_, hpr, ?_, ?_, ?_⟩
      rotate_left
      · exact Exists.elim hat₃ fun t h => ⟨t, _, h⟩
      · rw [((C14_graph_bytes_layout hgood (V.E s₂.calls).P (V.E s₂.calls).o₁).2.1 b hb).1]
        omega
      · intro P hP
        obtain ⟨g, hg, hsame⟩ := C15_round_trip hgood hu hb hP
        have hgA := agrees_of_same hsame hagree
        refine ⟨g, hg, hgA.direction.trans f1, fun u v => ?_, fun N => ?_⟩
        · rw [hgA.edge, f3]
          constructor
          · rintro (h | ⟨p, hp, hp2, h | h⟩)
            · cases h
            · obtain ⟨h1, h2⟩ := Prod.mk.inj h
              exact ⟨p.1, hin p hp, p.2, hp2, .inl ((hmem _ _).1 hp), h1, h2⟩
            · obtain ⟨h1, h2⟩ := Prod.mk.inj h
              exact ⟨p.2, hp2, p.1, hin p hp, .inr ((hmem _ _).1 hp), h1, h2⟩
          · rintro ⟨x, hx, y, hy, h | h, rfl, rfl⟩
            · exact .inr ⟨(x, y), (hmem _ _).2 h, hy, .inl rfl⟩
            · exact .inr ⟨(y, x), (hmem _ _).2 h, hx, .inr rfl⟩
        · rw [hgA.vertexCount, f4]
          constructor
          · rintro ⟨-, h⟩ x _ y hy hxy
            exact h (x, y) ((hmem _ _).2 hxy) hy
          · intro h
            exact ⟨Nat.zero_le _, fun p hp hp2 => h p.1 (hin p hp) p.2 hp2 ((hmem _ _).1 hp)⟩
      · unfold graphFromTextFile
        simp only [← hl]
        rw [bind_ok e1, bind_ok e2, bind_ok e3, bind_ok e5, bind_ok (show asRef (.ref a.length) _ = .ok a.length _ from rfl), bind_ok e6,
          bind_ok e7]
        rfl
    · rintro ⟨x, y, hxy, hy⟩
      obtain ⟨s₂, a', e6, hpr, t₂, hr₂⟩ := hraise ⟨(x, y), (hmem _ _).2 hxy, by
        show (n : Int) ≤ y
        omega⟩
      refine ⟨s₂, ?_, hpr, t₂, a', hr₂⟩
      unfold graphFromTextFile
      simp only [← hl]
      rw [bind_ok e1, bind_ok e2, bind_ok e3, bind_ok e5, bind_ok (show asRef (.ref a.length) _ = .ok a.length _ from rfl),
        bind_raised e6]
  · have hnil : sortPairs (parse V lines).idPairs = [] := by
      rw [List.eq_nil_iff_forall_not_mem]
      rintro ⟨x, y⟩ hp
      rw [sortPairs_mem, lists_iff] at hp
      have := (hS x).2 ⟨y, hp⟩
      rw [hemp] at this
      cases this
    unfold graphFromTextFile
    rw [hnil]
    rfl

/-- Texts with an edge that is lost (0 begins an edge, 1 does not), with one that ends too far away, and with none. -/
example : (∃ S, Starts exV ["0 1\n".toList] S ∧ (0 : Int) ∈ S ∧ (∀ x ∈ S, x ≤ 0) ∧ (0 : Int) + 2 ≤ exV.npMax ∧
      (∀ x y, Lists exV ["0 1\n".toList] x y → 0 ≤ x ∧ 0 ≤ y ∧ y ≤ 0 + 1)) ∧
    (∃ S, Starts exV ["0 7\n".toList] S ∧ (0 : Int) ∈ S ∧ (∀ x ∈ S, x ≤ 0) ∧ ∃ x y, Lists exV ["0 7\n".toList] x y ∧ 0 + 1 < y) ∧
    Starts exV ["# 0 7\n".toList] ∅ ∧ RoomFor exV (2 * 1) ∧ Started exS := by
  have h1 := exV_lists (lines := ["0 1\n".toList]) (l := [(0, 1)]) (by rfl)
  have h7 := exV_lists (lines := ["0 7\n".toList]) (l := [(0, 7)]) (by rfl)
  have hc := exV_lists (lines := ["# 0 7\n".toList]) (l := []) (by rfl)
  refine ⟨⟨{0}, ?_, by simp, by simp, by decide, ?_⟩, ⟨{0}, ?_, by simp, by simp, 0, 7, (h7 _ _).2 (by simp), by decide⟩, ?_,
    exV_room _ (by decide), exS_started⟩
  · intro x; simp only [h1]; simp
  · intro x y h; rw [h1] at h; simp at h; omega
  · intro x; simp only [h7]; simp
  · intro x; simp only [hc]; simp

/-! ## C80 -/

theorem toList_edge_max {P : Platform} {b : Bytes} {g : Graph} (hg : Graph.tryFrom P b = .ok g) (u : Nat) :
    g.doesEdgeExist u U64_MAX = false := by
  have hr : GReach g := .tryFrom _ _ hg
  rw [Bool.eq_false_iff]
  intro h
  have h1 := hr.ok.wf.bound _ (Graph.doesEdgeExist_iff.1 h)
  have h2 := hr.ok.wf.dim
  have h3 : U64_MAX < g.adjacencyMatrix.dimension := h1.2
  omega

open Classical in
/-- How many lines of the text list an edge. -/
noncomputable def edgeLines (V : Env) (lines : List (List Char)) : Nat := lines.countP fun line => decide (∃ x y, Lists V [line] x y)

theorem edgeLines_eq (V : Env) (lines : List (List Char)) : (sortPairs (parse V lines).idPairs).length = edgeLines V lines := by
  classical
  rw [sortPairs_length, parse_pairs, List.length_filterMap_eq_countP]
  unfold edgeLines
  congr 1
  funext line
  rw [Bool.eq_iff_iff, Option.isSome_iff_exists, decide_eq_true_eq]
  simp only [← lists_iff, parse_pairs, List.mem_filterMap, List.mem_singleton, exists_eq_left, Prod.exists]

theorem checkEdges_starts {V : Env} {n i : Nat} {S : Finset Int} (hS : S.card < 2 ^ 64) {x y : Int} (hx : x ∈ S ∧ 0 ≤ x ∧ x < n)
    (hy : 0 ≤ y ∧ y < n) {a : AWorld} {g : Graph} (hi : a[i]? = some (some (.graph g))) (l : List (Int × Int)) :
    ∀ s : State, At s a → ∃ s', checkEdges V i (numbered n S) (some x) (some y) l s = .ok () s' ∧ At s' a ∧
      s'.printed = s.printed ++ if g.doesEdgeExist (rank S x) (newNumber S y) then [] else
        List.replicate l.length ("Missing edge ".toList ++ str x ++ ['-'] ++ str y) := by
  induction l with
  | nil => intro s h; exact ⟨s, rfl, h, by split <;> simp⟩
  | cons p l ih =>
    intro s h
    have hr1 : rank S x < 2 ^ 64 := lt_of_le_of_lt (rank_le_card _ _) hS
    have hp := pyStep_call (E := V.E s.calls) hi (.doesEdgeExist (rank S x : Nat) (if y ∈ S then (rank S y : Int) else -1))
    rw [AObj.means, toId_nat hr1, toId_newNumber hS] at hp
    obtain ⟨w', hw, hat⟩ := gx_ret h hp
    unfold checkEdges
    rw [bind_ok (show bound (some x) s = .ok x s from rfl), bind_ok (show bound (some y) s = .ok y s from rfl),
      bind_ok (npGet_numbered hx.2.1 hx.2.2 s), bind_ok (npGet_numbered hy.1 hy.2 s), if_pos hx.1, bind_ok hw,
      bind_ok (show asBool (.bool (g.doesEdgeExist (rank S x) (newNumber S y))) _ =
        .ok (g.doesEdgeExist (rank S x) (newNumber S y)) _ from rfl)]
    by_cases he : g.doesEdgeExist (rank S x) (newNumber S y) = true
    · obtain ⟨s', h1, h2, h3⟩ := ih _ hat
      rw [he] at h3 ⊢
      exact ⟨s', h1, h2, h3⟩
    · rw [Bool.not_eq_true] at he
      obtain ⟨s', h1, h2, h3⟩ := ih ⟨s.calls + 1, w', s.printed ++ ["Missing edge ".toList ++ str x ++ ['-'] ++ str y]⟩ hat
      rw [he] at h3 ⊢
      refine ⟨s', h1, h2, ?_⟩
      rw [h3]
      simp only [Bool.false_eq_true, if_false, List.length_cons, List.replicate_succ, List.append_assoc, List.cons_append, List.nil_append]

/-- **C80**, the exact rule for texts with non-negative ids and without half lines.  `validate_graph` looks at the last edge of the
text only.  If that ends beyond the largest vertex `M` with which an edge begins, the script ends with an `IndexError`; otherwise it
prints nothing if the edge is in the file, and else the same message about it for every line that lists an edge.  An edge to a vertex
with which no edge begins is always reported as missing.  A file that is not a graph ends the script with a `TypeError`. -/
theorem C80_exact (V : Env) (lines : List (List Char)) (S : Finset Int) (hS : Starts V lines S)
    (h0 : ∀ x y, Lists V lines x y → 0 ≤ x ∧ 0 ≤ y) (hnp : V.npMax < 2 ^ 63) (hhalf : NoHalfLines V lines) {x y M : Int}
    (hlast : LastListed V lines x y) (hM : M ∈ S) (hMmax : ∀ x ∈ S, x ≤ M) (hmax : M + 1 ≤ V.npMax) (s : State) (hs : Started s)
    (file : Bytes) (hfit : file.length ≤ (V.E s.calls).P.usizeMax) :
    (∀ g, Graph.tryFrom (V.E s.calls).P file = .ok g →
      (y ≤ M → ∃ s', validateGraph V lines file s = .ok () s' ∧ Started s' ∧
        s'.printed = s.printed ++ if y ∈ S ∧ g.doesEdgeExist (rank S x) (rank S y) then [] else
          List.replicate (edgeLines V lines) ("Missing edge ".toList ++ str x ++ ['-'] ++ str y)) ∧
      (M < y → ∃ s', validateGraph V lines file s = .raised .IndexError s' ∧ Started s' ∧ s'.printed = s.printed)) ∧
    ((∀ g, Graph.tryFrom (V.E s.calls).P file ≠ .ok g) →
      ∃ s', validateGraph V lines file s = .raised (.fromModule .TypeError) s' ∧ Started s' ∧ s'.printed = s.printed) := by
  obtain ⟨t, a, hr⟩ := hs
  have hxy : Lists V lines x y := by
    obtain ⟨pre, line, post, rfl, ⟨line', h1, h2⟩, _⟩ := hlast
    rw [List.mem_singleton] at h1
    subst h1
    exact ⟨line', by simp, h2⟩
  have hx : x ∈ S := (hS x).2 ⟨y, hxy⟩
  obtain ⟨hx0, hy0⟩ := h0 x y hxy
  have hxM := hMmax x hx
  obtain ⟨l, last, n, hl, hlM, hmem, hlen, hn, hcard, hn63, hfr⟩ := front_starts hS
    (fun x hx => by obtain ⟨y, hy⟩ := (hS x).1 hx; exact (h0 x y hy).1) 1 (by omega) hM hMmax hmax hnp
  have hn : (n : Int) = M + 1 := hn
  obtain ⟨e1, e2, e3⟩ := hfr s
  rw [show ((1 : Nat) : Int) = 1 from rfl] at e2
  obtain ⟨p0, p1⟩ := parse_last V lines hhalf x y hlast
  constructor
  · intro g hg
    have e4 : pyStep (V.E s.calls) (.graphFromBytes file) a = .ret (.ref a.length) (a ++ [some (.graph g)]) := by
      simp only [pyStep, hg]; rfl
    obtain ⟨w₁, e5, hat⟩ := gx_ret ⟨t, hr⟩ e4
    have hget : (a ++ [some (AObj.graph g)])[a.length]? = some (some (.graph g)) := by
      rw [List.getElem?_append_right (Nat.le_refl _), Nat.sub_self]; rfl
    constructor
    · intro hy
      obtain ⟨s', e6, ⟨t', h'⟩, hpr⟩ := checkEdges_starts (V := V) (n := n) (by omega) ⟨hx, hx0, by omega⟩ ⟨hy0, by omega⟩ hget l _ hat
      refine ⟨s', ?_, ⟨t', _, h'⟩, ?_⟩
      · unfold validateGraph
        simp only [← hl, p0, p1]
        rw [bind_ok e1, bind_ok e2, bind_ok e3, bind_ok e5, bind_ok (show asRef (.ref a.length) _ = .ok a.length _ from rfl), e6]
      · rw [hpr, hl, edgeLines_eq]
        unfold newNumber
        by_cases hyS : y ∈ S
        · simp only [hyS, if_true, true_and]
        · simp only [hyS, if_false, false_and, toList_edge_max hg, Bool.false_eq_true]
    · intro hy
      refine ⟨_, ?_, Exists.elim hat fun t h => ⟨t, _, h⟩, rfl⟩
      have hbad : ∀ s, npGet (numbered n S) y s = .raised .IndexError s := by
        intro s
        have hl : (numbered n S).length = n := by simp [numbered]
        unfold npGet
        rw [bind_raised]
        unfold npIndex
        rw [hl, if_neg (by omega), if_neg (by omega)]
        rfl
      have hlne : l ≠ [] := fun h => by
        have := (hmem x y).2 hxy
        rw [h] at this
        cases this
      obtain ⟨q, l', hq⟩ := List.exists_cons_of_ne_nil hlne
      unfold validateGraph
      simp only [← hl, p0, p1]
      rw [bind_ok e1, bind_ok e2, bind_ok e3, bind_ok e5, bind_ok (show asRef (.ref a.length) _ = .ok a.length _ from rfl), hq,
        checkEdges.eq_def]
      simp only
      rw [bind_ok (show bound (some x) _ = .ok x _ from rfl), bind_ok (show bound (some y) _ = .ok y _ from rfl),
        bind_ok (npGet_numbered hx0 (by omega) _), bind_raised (hbad _)]
  · intro hno
    obtain ⟨e, he⟩ : ∃ e, Graph.tryFrom (V.E s.calls).P file = .err e := by
      rcases C16_decode_total (V.E s.calls).P file hfit with ⟨g, hg⟩ | ⟨m, hm⟩
      · exact absurd hg (hno g)
      · exact ⟨_, hm⟩
    have e4 : pyStep (V.E s.calls) (.graphFromBytes file) a = .raises .TypeError a := by
      simp only [pyStep, he]; rfl
    obtain ⟨w₁, e5, hat⟩ := gx_raises ⟨t, hr⟩ e4
    refine ⟨_, ?_, Exists.elim hat fun t h => ⟨t, _, h⟩, rfl⟩
    unfold validateGraph
    simp only [← hl, p0, p1]
    rw [bind_ok e1, bind_ok e2, bind_ok e3, bind_raised e5]

/-- **C80**, texts that list no edge: the script ends with an `IndexError` before it looks at the file. -/
theorem C80_no_edges (V : Env) (lines : List (List Char)) (h : ∀ x y, ¬ Lists V lines x y) (file : Bytes) (s : State) :
    validateGraph V lines file s = .raised .IndexError s := by
  have hl : sortPairs (parse V lines).idPairs = [] := by
    rw [List.eq_nil_iff_forall_not_mem]
    rintro ⟨x, y⟩ hp
    rw [sortPairs_mem, lists_iff] at hp
    exact h x y hp
  unfold validateGraph
  simp only [hl]
  rw [bind_raised (show lastPair [] s = .raised .IndexError s from rfl)]

example : ∀ x y, ¬ Lists exV ["# 0 7\n".toList, "7 x\n".toList] x y := by
  intro x y
  rw [exV_lists (l := []) (by rfl)]
  simp

/-- A text whose last edge ends in a vertex with which no edge begins; every condition of `C80_exact` is met, with a file that is a
graph and with one that is not. -/
def exLost : List (List Char) := ["7 0\n".toList, "0 1\n".toList, "# end\n".toList]

example : (∃ S, Starts exV exLost S ∧ (7 : Int) ∈ S ∧ (∀ x ∈ S, x ≤ 7) ∧ (7 : Int) + 1 ≤ exV.npMax ∧ (1 : Int) ≤ 7 ∧ (1 : Int) ∉ S) ∧
    (∀ x y, Lists exV exLost x y → 0 ≤ x ∧ 0 ≤ y) ∧ NoHalfLines exV exLost ∧ LastListed exV exLost 0 1 ∧ exV.npMax < 2 ^ 63 ∧
    (∃ g, Graph.tryFrom exP exFile = .ok g) ∧ (∀ g, Graph.tryFrom exP [0, 1, 2] ≠ .ok g) := by
  have h := exV_lists (lines := exLost) (l := [(7, 0), (0, 1)]) (by rfl)
  refine ⟨⟨{0, 7}, ?_, by simp, by simp, by decide, by decide, by decide⟩, ?_, ?_, ?_, by decide, ?_, ?_⟩
  · intro x; simp only [h]; simp [or_comm, exists_or]
  · intro x y hl; rw [h] at hl; simp at hl; omega
  · intro line hl hh a b hab ha hb
    have : linePair exV line = none ∧ (parseLine exV ⟨[], none, none⟩ line).id0 ≠ none := by
      have hs := (split_two exV line a b).2 hab
      obtain ⟨i, hi⟩ := Option.ne_none_iff_exists'.1 ha
      constructor
      · unfold linePair; rw [if_neg hh, hs]; simp only [hi, hb]
      · unfold parseLine; rw [if_neg hh, hs]; simp only [hi, hb]; simp
    have hall : ∀ line ∈ exLost, ¬ (linePair exV line = none ∧ (parseLine exV ⟨[], none, none⟩ line).id0 ≠ none) := by decide +kernel
    exact hall line hl this
  · refine ⟨["7 0\n".toList], "0 1\n".toList, ["# end\n".toList], rfl, ?_, ?_⟩
    · exact (exV_lists (lines := ["0 1\n".toList]) (l := [(0, 1)]) (by rfl) _ _).2 (by decide)
    · intro u v h
      have := (exV_lists (lines := ["# end\n".toList]) (l := []) (by rfl) u v).1 h
      cases this
  · obtain ⟨g, hg, -⟩ := okAnd_elim (show okAnd (Graph.tryFrom exP exFile) (fun _ => true) = true by decide +kernel)
    exact ⟨g, hg⟩
  · intro g hg
    have : okAnd (Graph.tryFrom exP [0, 1, 2]) (fun _ => true) = false := by decide +kernel
    rw [hg] at this
    cases this

end Verif.Props
