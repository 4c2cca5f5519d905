import Verif.Lemmas.Scripts
import Verif.Props.PyCompress
import Verif.Props.CSize

/-! # C79–C81: the scripts -/

namespace Verif.Props
open Verif Spec Script

/-- The script has reached a state in which the objects of the module have the values `a`. -/
def At (s : State) (a : AWorld) : Prop := ∃ t, Reached t s.world a

theorem gx_ret {V : Env} {s : State} {a a' : AWorld} {c : PyCall} {v : PyVal} (h : At s a)
    (hp : pyStep (V.E s.calls) c a = .ret v a') :
    ∃ w', gx V c s = .ok v { s with calls := s.calls + 1, world := w' } ∧ At { s with calls := s.calls + 1, world := w' } a' := by
  obtain ⟨t, h⟩ := h
  obtain ⟨w', h1, h2⟩ := reached_ret h hp
  exact ⟨w', by unfold gx; rw [h1], _, h2⟩

theorem gx_raises {V : Env} {s : State} {a a' : AWorld} {c : PyCall} {e : PyExc} (h : At s a)
    (hp : pyStep (V.E s.calls) c a = .raises e a') :
    ∃ w', gx V c s = .raised (.fromModule e) { s with calls := s.calls + 1, world := w' } ∧
      At { s with calls := s.calls + 1, world := w' } a' := by
  obtain ⟨t, h⟩ := h
  obtain ⟨w', h1, h2⟩ := reached_raises h hp
  exact ⟨w', by unfold gx; rw [h1], _, h2⟩

theorem bind_ok {α β : Type} {x : SM α} {f : α → SM β} {s s' : State} {a : α} (h : x s = .ok a s') : (x >>= f) s = f a s' := by
  show SM.bind x f s = _
  unfold SM.bind
  rw [h]

theorem rank_le_card (S : Finset Int) (x : Int) : rank S x ≤ S.card := Finset.card_filter_le _ _

theorem rank_lt_card {S : Finset Int} {x : Int} (hx : x ∈ S) : rank S x < S.card :=
  Finset.card_lt_card (Finset.filter_ssubset.2 ⟨x, hx, lt_irrefl x⟩)

theorem rank_lt {S : Finset Int} {x y : Int} (hx : x ∈ S) (h : x < y) : rank S x < rank S y := by
  refine Finset.card_lt_card ⟨fun z hz => ?_, fun hh => ?_⟩
  · rw [Finset.mem_filter] at *; exact ⟨hz.1, hz.2.trans h⟩
  · have := hh (Finset.mem_filter.2 ⟨hx, h⟩)
    rw [Finset.mem_filter] at this
    exact lt_irrefl x this.2

theorem rank_inj {S : Finset Int} {x y : Int} (hx : x ∈ S) (hy : y ∈ S) (h : rank S x = rank S y) : x = y := by
  rcases lt_trichotomy x y with h' | h' | h'
  · have := rank_lt hx h'; omega
  · exact h'
  · have := rank_lt hy h'; omega

theorem rank_surj {S : Finset Int} {u : Nat} (hu : u < S.card) : ∃ x ∈ S, u = rank S x := by
  have h1 : S.image (rank S) ⊆ Finset.range S.card := by
    intro k hk
    obtain ⟨x, hx, rfl⟩ := Finset.mem_image.1 hk
    exact Finset.mem_range.2 (rank_lt_card hx)
  have h2 : (S.image (rank S)).card = S.card := Finset.card_image_of_injOn fun x hx y hy h => rank_inj hx hy h
  have h3 := Finset.eq_of_subset_of_card_le h1 (by rw [h2, Finset.card_range])
  have : u ∈ S.image (rank S) := by rw [h3]; exact Finset.mem_range.2 hu
  obtain ⟨x, hx, rfl⟩ := Finset.mem_image.1 this
  exact ⟨x, hx, rfl⟩

theorem toId_nat {n : Nat} (h : n < 2 ^ 64) : toId (n : Int) = n := by
  unfold toId
  rw [Int.emod_eq_of_lt (by omega) (by omega)]
  rfl

/-- The edits of `addEdges`. -/
def edgeEdits (S : Finset Int) (l : List (Int × Int)) : List Edit := l.map fun p => .addEdge (rank S p.1) (rank S p.2)

theorem addEdges_run {V : Env} {n i : Nat} {S : Finset Int} (hS : S.card < 2 ^ 64) (l : List (Int × Int)) :
    (∀ p ∈ l, (p.1 ∈ S ∧ 0 ≤ p.1 ∧ p.1 < n) ∧ (p.2 ∈ S ∧ 0 ≤ p.2 ∧ p.2 < n)) → ∀ (s : State) (a : AWorld) (g : Graph), At s a →
    a[i]? = some (some (.graph g)) →
    ∃ s', addEdges V i (numbered n S) l s = .ok () s' ∧ s'.printed = s.printed ∧
      At s' (a.set i (some (.graph ((edgeEdits S l).foldl Edit.call g)))) := by
  induction l with
  | nil =>
    intro _ s a g h hi
    refine ⟨s, rfl, rfl, ?_⟩
    rwa [show a.set i _ = a from List.ext_getElem? fun k => ?_]
    rw [List.getElem?_set]
    split
    · next hk =>
      subst hk
      obtain ⟨hlt, _⟩ := List.getElem?_eq_some_iff.1 hi
      rw [if_pos hlt, hi]; rfl
    · rfl
  | cons p l ih =>
    intro hl s a g h hi
    obtain ⟨⟨h1, h2, h3⟩, h4, h5, h6⟩ := hl p (by simp)
    have hr1 : rank S p.1 < 2 ^ 64 := lt_of_le_of_lt (rank_le_card _ _) hS
    have hr2 : rank S p.2 < 2 ^ 64 := lt_of_le_of_lt (rank_le_card _ _) hS
    have hp := pyStep_call (E := V.E s.calls) hi (.addEdge (rank S p.1 : Nat) (rank S p.2 : Nat))
    rw [AObj.means, toId_nat hr1, toId_nat hr2] at hp
    obtain ⟨w', hw, hat⟩ := gx_ret h hp
    obtain ⟨s', hs', hpr, hat'⟩ := ih (fun q hq => hl q (by simp [hq])) _ _ ((Edit.addEdge (rank S p.1) (rank S p.2)).call g) hat
      (by rw [List.getElem?_set_self (List.getElem?_eq_some_iff.1 hi).1])
    refine ⟨s', ?_, hpr, ?_⟩
    · unfold addEdges
      rw [bind_ok (npGet_numbered h2 h3 s), bind_ok (npGet_numbered h5 h6 s), if_pos h1, if_pos h4, bind_ok hw, hs']
    · rw [List.set_set] at hat'
      exact hat'

theorem foldl_addEdge (S : Finset Int) (hS : S.card < 2 ^ 64 - 1) (l : List (Int × Int)) (hl : ∀ p ∈ l, p.1 ∈ S ∧ p.2 ∈ S) :
    ∀ A : AGraph, A.undirected = true →
    ((edgeEdits S l).foldl AGraph.applyActual A).undirected = true ∧
    ((edgeEdits S l).foldl AGraph.applyActual A).E.card ≤ A.E.card + 2 * l.length ∧
    (∀ q, q ∈ ((edgeEdits S l).foldl AGraph.applyActual A).E ↔ q ∈ A.E ∨ ∃ p ∈ l, q = (rank S p.1, rank S p.2) ∨ q = (rank S p.2, rank S p.1)) ∧
    (∀ N, ((edgeEdits S l).foldl AGraph.applyActual A).n ≤ N ↔ A.n ≤ N ∧ ∀ p ∈ l, rank S p.1 < N ∧ rank S p.2 < N) := by
  induction l with
  | nil => intro A hA; simp [edgeEdits, hA]
  | cons p l ih =>
    intro A hA
    obtain ⟨h1, h2⟩ := hl p (by simp)
    have hr1 := rank_lt_card h1
    have hr2 := rank_lt_card h2
    have hadd : A.applyActual (.addEdge (rank S p.1) (rank S p.2)) =
        ⟨true, max A.n (max (rank S p.1) (rank S p.2) + 1), A.E ∪ {(rank S p.1, rank S p.2), (rank S p.2, rank S p.1)}⟩ := by
      unfold AGraph.applyActual AGraph.addEdge
      simp only
      rw [if_pos (by omega), hA, if_pos rfl]
    obtain ⟨i1, i2, i3, i4⟩ := ih (fun q hq => hl q (by simp [hq])) (A.applyActual (.addEdge (rank S p.1) (rank S p.2))) (by rw [hadd])
    have hfold : (edgeEdits S (p :: l)).foldl AGraph.applyActual A =
        (edgeEdits S l).foldl AGraph.applyActual (A.applyActual (.addEdge (rank S p.1) (rank S p.2))) := rfl
    rw [hfold]
    refine ⟨i1, ?_, ?_, ?_⟩
    · refine i2.trans ?_
      rw [hadd]
      have := Finset.card_union_le A.E {(rank S p.1, rank S p.2), (rank S p.2, rank S p.1)}
      have h3 : ({(rank S p.1, rank S p.2), (rank S p.2, rank S p.1)} : Finset (Nat × Nat)).card ≤ 2 := Finset.card_le_two
      simp only [List.length_cons]
      omega
    · intro q
      rw [i3, hadd]
      simp only [Finset.mem_union, Finset.mem_insert, Finset.mem_singleton, List.mem_cons, exists_eq_or_imp]
      exact or_assoc
    · intro N
      rw [i4, hadd]
      simp only [List.mem_cons, forall_eq_or_imp]
      rw [← and_assoc]
      refine and_congr_left fun _ => ?_
      omega

/-- What the beginning of both scripts computes: the pairs, and `k` places after the largest id. -/
theorem front {V : Env} {lines : List (List Char)} {ids : Finset Int} (hids : IdsOf V lines ids) (hne : ids.Nonempty)
    (h0 : ∀ x ∈ ids, 0 ≤ x) (k : Nat) (hk : 1 ≤ k) (hmax : ∀ x ∈ ids, x + k ≤ V.npMax) (hnp : V.npMax < 2 ^ 63)
    (hfrom : ∀ x ∈ ids, ∃ y, Lists V lines x y) :
    ∃ (l : List (Int × Int)) (last : Int × Int) (n : Nat), l = sortPairs (parse V lines).idPairs ∧ last ∈ l ∧ (∀ x ∈ ids, x ≤ last.1) ∧
      (∀ x y, (x, y) ∈ l ↔ Lists V lines x y) ∧ (∀ p ∈ l, p.1 ∈ ids ∧ p.2 ∈ ids) ∧ l.length ≤ lines.length ∧
      (∀ x ∈ ids, 0 ≤ x ∧ x < n) ∧ ids.card ≤ n ∧ n < 2 ^ 63 ∧
      ∀ s, lastPair l s = .ok last s ∧ npFull V (last.1 + k) s = .ok (numbered n ∅) s ∧
        assignIds l (numbered n ∅) 0 s = .ok (numbered n ids) s := by
  have hmem : ∀ x y, (x, y) ∈ sortPairs (parse V lines).idPairs ↔ Lists V lines x y := fun x y => by rw [sortPairs_mem, lists_iff]
  have hlen : (sortPairs (parse V lines).idPairs).length ≤ lines.length := by rw [sortPairs_length]; exact parse_length V lines
  have hsorted := sortPairs_sorted (parse V lines).idPairs
  generalize sortPairs (parse V lines).idPairs = l at hmem hlen hsorted
  have hin : ∀ p ∈ l, p.1 ∈ ids ∧ p.2 ∈ ids := fun p hp =>
    ⟨(hids p.1).2 ⟨p.2, .inl ((hmem p.1 p.2).1 hp)⟩, (hids p.2).2 ⟨p.1, .inr ((hmem p.1 p.2).1 hp)⟩⟩
  have hset : (l.map Prod.fst).toFinset = ids := by
    ext x
    rw [List.mem_toFinset, List.mem_map]
    constructor
    · rintro ⟨p, hp, rfl⟩; exact (hin p hp).1
    · intro hx
      obtain ⟨y, hy⟩ := hfrom x hx
      exact ⟨(x, y), (hmem x y).2 hy, rfl⟩
  have hlne : l ≠ [] := by
    obtain ⟨x, hx⟩ := hne
    obtain ⟨y, hy⟩ := hfrom x hx
    intro h
    have := (hmem x y).2 hy
    rw [h] at this
    cases this
  have hlastmem : l.getLast hlne ∈ l := List.getLast_mem hlne
  have hlast? : l.getLast? = some (l.getLast hlne) := List.getLast?_eq_some_getLast hlne
  have happ : l.dropLast ++ [l.getLast hlne] = l := List.dropLast_append_getLast hlne
  generalize l.getLast hlne = last at hlastmem hlast? happ
  have hle : ∀ x ∈ ids, x ≤ last.1 := by
    intro x hx
    obtain ⟨y, hy⟩ := hfrom x hx
    have hxl := (hmem x y).2 hy
    rw [← happ] at hsorted hxl
    rw [List.mem_append] at hxl
    rcases hxl with hxl | hxl
    · exact (List.pairwise_append.1 hsorted).2.2 _ hxl _ (List.mem_singleton_self _)
    · rw [List.mem_singleton] at hxl
      rw [← hxl]
  obtain ⟨n, hn⟩ : ∃ n : Nat, (n : Int) = last.1 + k := ⟨(last.1 + k).toNat, by have := h0 _ (hin _ hlastmem).1; omega⟩
  have hlt : ∀ x ∈ ids, 0 ≤ x ∧ x < n := fun x hx => ⟨h0 x hx, by have := hle x hx; omega⟩
  have hnmax : n ≤ V.npMax := by have := hmax _ (hin _ hlastmem).1; omega
  have hcard : ids.card ≤ n := by
    have : ids ⊆ (Finset.range n).image (fun k : Nat => (k : Int)) := fun x hx => by
      obtain ⟨h1, h2⟩ := hlt x hx
      exact Finset.mem_image.2 ⟨x.toNat, Finset.mem_range.2 (by omega), by omega⟩
    exact (Finset.card_le_card this).trans (Finset.card_image_le.trans (by rw [Finset.card_range]))
  refine ⟨l, last, n, rfl, hlastmem, hle, hmem, hin, hlen, hlt, hcard, by omega, fun s => ⟨?_, ?_, ?_⟩⟩
  · unfold lastPair; rw [hlast?]; rfl
  · unfold npFull
    rw [if_neg (by omega), if_neg (by omega), ← hn, ← replicate_numbered]; rfl
  · have := assignIds_numbered n l ∅ hsorted (fun p hp => hlt _ (hin p hp).1) (by simp) s
    rwa [Finset.empty_union, hset] at this

/-- **C79 (partial: every vertex of the text begins a line).** Turning a text file into a graph file: the script writes a file from which every
platform (with room for it) reads the undirected graph of the text, vertices renumbered in order. -/
theorem C79_from_text_partial (V : Env) (lines : List (List Char)) (ids : Finset Int) (hids : IdsOf V lines ids) (hne : ids.Nonempty)
    (h0 : ∀ x ∈ ids, 0 ≤ x) (hmax : ∀ x ∈ ids, x + 2 ≤ V.npMax) (hnp : V.npMax < 2 ^ 63) (hroom : RoomFor V (2 * lines.length))
    (hfrom : ∀ x ∈ ids, ∃ y, Lists V lines x y) (s : State) (hs : Started s) :
    ∃ b s', graphFromTextFile V lines s = .ok b s' ∧ s'.printed = s.printed ∧ Started s' ∧
      ∀ P : Platform, b.length ≤ P.usizeMax → ∃ g, Graph.tryFrom P b = .ok g ∧ GraphOfText V lines ids g := by
  obtain ⟨t, a, hr⟩ := hs
  obtain ⟨l, last, n, hl, hlastmem, hle, hmem, hin, hlen, hlt, hcard, hn63, hfr⟩ := front hids hne h0 2 (by omega) hmax hnp hfrom
  obtain ⟨e1, e2, e3⟩ := hfr s
  rw [show ((2 : Nat) : Int) = 2 from rfl] at e2
  have e4 : pyStep (V.E s.calls) (.newGraph true) a = .ret (.ref a.length) (a ++ [some (.graph Graph.newUndirected)]) := rfl
  obtain ⟨w₁, e5, hat⟩ := gx_ret ⟨t, hr⟩ e4
  have hget : ∀ x : Option AObj, (a ++ [x])[a.length]? = some x := fun x => by
    rw [List.getElem?_append_right (Nat.le_refl _), Nat.sub_self]; rfl
  obtain ⟨s₂, e6, hpr, hat₂⟩ := addEdges_run (V := V) (n := n) (by omega) l (fun p hp => ⟨⟨(hin p hp).1, hlt _ (hin p hp).1⟩, (hin p hp).2,
    hlt _ (hin p hp).2⟩) _ _ _ hat (hget _)
  set G := (edgeEdits ids l).foldl Edit.call Graph.newUndirected with hG
  have hGR : G = runCode true (edgeEdits ids l) := rfl
  have hagree := C01_history_refinement true (edgeEdits ids l)
  rw [← hGR] at hagree
  set A := (edgeEdits ids l).foldl AGraph.applyActual (AGraph.empty true) with hA
  obtain ⟨f1, f2, f3, f4⟩ := foldl_addEdge ids (by omega) l hin (AGraph.empty true) rfl
  rw [← hA] at f1 f2 f3 f4
  have hset2 : (a ++ [some (AObj.graph Graph.newUndirected)]).set a.length (some (AObj.graph G)) = a ++ [some (.graph G)] := by
    rw [List.set_append_right _ _ (Nat.le_refl _), Nat.sub_self]; rfl
  rw [hset2] at hat₂
  obtain ⟨t₂, hr₂⟩ := hat₂
  have hgood : GReach G := reached_good hr₂ (hget _)
  have hec : G.edgeCount ≤ 2 * lines.length := by
    rw [hagree.edgeCount]
    refine f2.trans ?_
    simp only [AGraph.empty, Finset.card_empty]
    omega
  obtain ⟨hu, hroom'⟩ := hroom s₂.calls
  obtain ⟨b, hb⟩ := (C14_graph_bytes_layout hgood (V.E s₂.calls).P (V.E s₂.calls).o₁).2.2.2.1 (hroom' _ (by omega))
  have hp := pyStep_call (E := V.E s₂.calls) (hget (some (.graph G))) .bytes
  rw [AObj.means, hb] at hp
  obtain ⟨w₃, e7, hat₃⟩ := gx_ret ⟨t₂, hr₂⟩ hp
  refine ⟨b, { s₂ with calls := s₂.calls + 1, world := w₃ }, ?_, hpr, ?_, ?_⟩
  rotate_left
  · exact Exists.elim hat₃ fun t h => ⟨t, _, h⟩
  · intro P hP
    obtain ⟨g, hg, hsame⟩ := C15_round_trip hgood hu hb hP
    have hgA := agrees_of_same hsame hagree
    have hn : g.vertexCount = ids.card := by
      rw [hgA.vertexCount]
      apply le_antisymm
      · exact (f4 _).2 ⟨Nat.zero_le _, fun p hp => ⟨rank_lt_card (hin p hp).1, rank_lt_card (hin p hp).2⟩⟩
      · have := ((f4 _).1 (le_refl _)).2 last hlastmem
        have h2 : rank ids last.1 + 1 = ids.card := by
          have : insert last.1 (ids.filter (· < last.1)) = ids := by
            ext x
            rw [Finset.mem_insert, Finset.mem_filter]
            constructor
            · rintro (rfl | h)
              · exact (hin _ hlastmem).1
              · exact h.1
            · intro hx
              have := hle x hx
              by_cases hxe : x = last.1
              · exact .inl hxe
              · exact .inr ⟨hx, by omega⟩
          unfold rank
          rw [← Finset.card_insert_of_notMem (a := last.1) (by simp), this]
        omega
    refine ⟨g, hg, ⟨hgA.direction.trans f1, hn, ?_, fun u hu => rank_surj (by omega)⟩⟩
    intro x hx y hy
    rw [hgA.edge, f3]
    constructor
    · rintro (h | ⟨p, hp, h | h⟩)
      · cases h
      · obtain ⟨h1, h2⟩ := Prod.mk.inj h
        rw [rank_inj hx (hin p hp).1 h1, rank_inj hy (hin p hp).2 h2]
        exact .inl ((hmem _ _).1 hp)
      · obtain ⟨h1, h2⟩ := Prod.mk.inj h
        rw [rank_inj hx (hin p hp).2 h1, rank_inj hy (hin p hp).1 h2]
        exact .inr ((hmem _ _).1 hp)
    · rintro (h | h)
      · exact .inr ⟨(x, y), (hmem _ _).2 h, .inl rfl⟩
      · exact .inr ⟨(y, x), (hmem _ _).2 h, .inr rfl⟩
  · unfold graphFromTextFile
    simp only [← hl]
    rw [bind_ok e1, bind_ok e2, bind_ok e3, bind_ok e5, bind_ok (show asRef (.ref a.length) _ = .ok a.length _ from rfl), bind_ok e6,
      bind_ok e7]
    rfl

/-- The numbers 0, 1 and 7, as an example of `int`. -/
def exInt : List Char → Option Int
  | ['0'] => some 0
  | ['1'] => some 1
  | ['7'] => some 7
  | _ => none

/-- An example environment. -/
def exV : Env := ⟨fun c => c == ' ' || c == '\n', exInt, 1000, fun _ => exE⟩

/-- The start of a script. -/
def exS : State := ⟨0, PyWorld.start, []⟩

theorem exS_started : Started exS := ⟨[], [], .nil, .nil⟩

theorem exV_room (n : Nat) (hn : 26 + 16 * n ≤ U64_MAX) : RoomFor exV n := fun _ => ⟨le_refl _, fun m hm => ⟨hm.trans hn, rfl⟩⟩

theorem exV_ids {lines : List (List Char)} {l : List (Int × Int)} (h : (parse exV lines).idPairs = l) :
    IdsOf exV lines ((l.map Prod.fst).toFinset ∪ (l.map Prod.snd).toFinset) := by
  intro x
  simp only [← lists_iff, h, Finset.mem_union, List.mem_toFinset, List.mem_map, Prod.exists, exists_and_right, exists_eq_right, exists_or]

theorem exV_lists {lines : List (List Char)} {l : List (Int × Int)} (h : (parse exV lines).idPairs = l) (x y : Int) :
    Lists exV lines x y ↔ (x, y) ∈ l := by rw [← lists_iff, h]

/-- A text with a comment, and edges from 0 to 7 and back; the hypotheses of C79 hold. -/
def exLines : List (List Char) := ["# comment 1\n".toList, "0 7\n".toList, " 7  0\n".toList, "bad\n".toList]

theorem exLines_parse : parse exV exLines = ⟨[(0, 7), (7, 0)], some 7, some 0⟩ := by rfl

example : ∃ ids, IdsOf exV exLines ids ∧ ids.Nonempty ∧ (∀ x ∈ ids, 0 ≤ x) ∧ (∀ x ∈ ids, x + 2 ≤ (exV.npMax : Int)) ∧ exV.npMax < 2 ^ 63 ∧
    RoomFor exV (2 * exLines.length) ∧ (∀ x ∈ ids, ∃ y, Lists exV exLines x y) ∧ Started exS := by
  have h : (parse exV exLines).idPairs = [(0, 7), (7, 0)] := by rw [exLines_parse]
  refine ⟨_, exV_ids h, ⟨0, by decide⟩, by decide, by decide, by decide, exV_room _ (by decide), ?_, exS_started⟩
  intro x hx
  have : x = 0 ∨ x = 7 := by revert x; decide
  rcases this with rfl | rfl
  · exact ⟨7, (exV_lists h _ _).2 (by decide)⟩
  · exact ⟨0, (exV_lists h _ _).2 (by decide)⟩

/-- **C79 (full statement).** The script works for every text with non-negative ids. -/
def C79_full : Prop :=
  ∀ (V : Env) (lines : List (List Char)) (ids : Finset Int), IdsOf V lines ids → ids.Nonempty →
    (∀ x ∈ ids, 0 ≤ x) → (∀ x ∈ ids, x + 2 ≤ V.npMax) → V.npMax < 2 ^ 63 → RoomFor V (2 * lines.length) → ∀ s, Started s →
    ∃ b s', graphFromTextFile V lines s = .ok b s' ∧ s'.printed = s.printed ∧ Started s' ∧
      ∀ P : Platform, b.length ≤ P.usizeMax → ∃ g, Graph.tryFrom P b = .ok g ∧ GraphOfText V lines ids g

/-- The outcome is an exception. -/
def isRaised {α : Type} (e : Exc) : SRes α → Bool
  | .raised e' _ => e = e'
  | _ => false

/-- The outcome is a file that decodes to a graph without vertices. -/
def writesEmpty : SRes Bytes → Bool
  | .ok b _ => decide (b.length = 26) && okAnd (Graph.tryFrom exP b) fun g => g.vertexCount == 0
  | _ => false

/-- False: an id that begins no line is not numbered.  For the text `0 1` the edge is lost without any message. -/
theorem C79_full_false : ¬ C79_full := by
  intro hC
  have hp : parse exV ["0 1\n".toList] = ⟨[(0, 1)], some 0, some 1⟩ := by rfl
  have h : (parse exV ["0 1\n".toList]).idPairs = [(0, 1)] := by rw [hp]
  have hrun : writesEmpty (graphFromTextFile exV ["0 1\n".toList] exS) = true := by
    unfold graphFromTextFile
    rw [hp, show sortPairs [((0 : Int), (1 : Int))] = [(0, 1)] from List.mergeSort_singleton _]
    decide +kernel
  obtain ⟨b, s', h1, -, -, h2⟩ := hC exV ["0 1\n".toList] _ (exV_ids h) ⟨0, by decide⟩ (by decide) (by decide) (by decide)
    (exV_room _ (by decide)) exS exS_started
  rw [h1] at hrun
  obtain ⟨hlen, hrun⟩ := Bool.and_eq_true_iff.1 hrun
  obtain ⟨g, hg, hv⟩ := okAnd_elim hrun
  have hlen : b.length ≤ exP.usizeMax := by rw [of_decide_eq_true hlen]; decide
  obtain ⟨g', hg', ht⟩ := h2 exP hlen
  rw [hg] at hg'
  cases hg'
  have := ht.vertexCount
  rw [show ((([((0 : Int), (1 : Int))].map Prod.fst).toFinset ∪ ([((0 : Int), (1 : Int))].map Prod.snd).toFinset)).card = 2 from by decide] at this
  rw [this] at hv
  cases hv

/-- A target beyond the largest id that begins a line even ends the script. -/
theorem C79_index_error : isRaised .IndexError (graphFromTextFile exV ["0 7\n".toList] exS) = true := by
  have hp : parse exV ["0 7\n".toList] = ⟨[(0, 7)], some 0, some 7⟩ := by rfl
  unfold graphFromTextFile
  rw [hp, show sortPairs [((0 : Int), (7 : Int))] = [(0, 7)] from List.mergeSort_singleton _]
  decide +kernel

/-! ## C80: `validate_graph` -/

theorem parseLine_last (V : Env) (lines : List (List Char)) (line : List Char) (h : NoHalfLines V [line]) :
    parse V (lines ++ [line]) = match linePair V line with
      | some p => ⟨(parse V lines).idPairs ++ [p], some p.1, some p.2⟩
      | none => parse V lines := by
  unfold parse
  rw [List.foldl_append, List.foldl_cons, List.foldl_nil]
  generalize lines.foldl (parseLine V) ⟨[], none, none⟩ = q
  have h := h line (by simp)
  unfold parseLine linePair
  by_cases hh : line.head? = some '#'
  · rw [if_pos hh, if_pos hh]
  rw [if_neg hh, if_neg hh]
  split
  · next x y hxy =>
    have h := h hh x y ((split_two V line x y).1 hxy)
    rw [hxy]
    rcases hx : V.int x with _ | i <;> rcases hy : V.int y with _ | j
    · simp [hx]
    · simp [hx]
    · exact absurd hy (h (by rw [hx]; simp))
    · simp [hx, hy]
  · next hxy =>
    split
    · next hm =>
      split at hm
      · next x y hxy' => exact absurd hxy' (hxy x y)
      · cases hm
    · rfl

theorem parse_last (V : Env) (lines : List (List Char)) (h : NoHalfLines V lines) (x y : Int) (hl : LastListed V lines x y) :
    (parse V lines).id0 = some x ∧ (parse V lines).id1 = some y := by
  obtain ⟨pre, line, post, rfl, h1, h2⟩ := hl
  have hpost : ∀ l ∈ post, linePair V l = none := by
    intro l hl
    by_contra hne
    obtain ⟨p, hp⟩ := Option.ne_none_iff_exists'.1 hne
    refine h2 p.1 p.2 ((lists_iff V post p.1 p.2).1 ?_)
    rw [parse_pairs, List.mem_filterMap]
    exact ⟨l, hl, hp⟩
  have hline : linePair V line = some (x, y) := by
    have := (lists_iff V [line] x y).2 h1
    rw [parse_pairs, List.mem_filterMap] at this
    obtain ⟨l, hl, hp⟩ := this
    rw [List.mem_singleton] at hl
    rwa [hl] at hp
  have hnh : ∀ l ∈ pre ++ line :: post, NoHalfLines V [l] := fun l hl l' hl' => by
    rw [List.mem_singleton] at hl'
    subst hl'
    exact h _ hl
  clear h h1 h2
  induction post using List.reverseRecOn with
  | nil =>
    rw [parseLine_last V pre line (hnh _ (by simp)), hline]
    exact ⟨rfl, rfl⟩
  | append_singleton post l ih =>
    have := parseLine_last V (pre ++ line :: post) l (hnh l (by simp))
    rw [hpost l (by simp)] at this
    simp only [List.append_assoc, List.cons_append] at this
    rw [this]
    exact ih (fun l' hl' => hpost l' (by simp [hl'])) fun l' hl' => hnh l' (by
      simp only [List.mem_append, List.mem_cons] at *; tauto)

theorem checkEdges_run {V : Env} {n i : Nat} {S : Finset Int} (hS : S.card < 2 ^ 64) {x y : Int} (hx : x ∈ S ∧ 0 ≤ x ∧ x < n)
    (hy : y ∈ S ∧ 0 ≤ y ∧ y < n) {a : AWorld} {g : Graph} (hi : a[i]? = some (some (.graph g))) (l : List (Int × Int)) :
    ∀ s : State, At s a → ∃ s', checkEdges V i (numbered n S) (some x) (some y) l s = .ok () s' ∧ At s' a ∧
      s'.printed = s.printed ++ if g.doesEdgeExist (rank S x) (rank S y) then [] else
        List.replicate l.length ("Missing edge ".toList ++ str x ++ ['-'] ++ str y) := by
  induction l with
  | nil => intro s h; exact ⟨s, rfl, h, by split <;> simp⟩
  | cons p l ih =>
    intro s h
    have hr1 : rank S x < 2 ^ 64 := lt_of_le_of_lt (rank_le_card _ _) hS
    have hr2 : rank S y < 2 ^ 64 := lt_of_le_of_lt (rank_le_card _ _) hS
    have hp := pyStep_call (E := V.E s.calls) hi (.doesEdgeExist (rank S x : Nat) (rank S y : Nat))
    rw [AObj.means, toId_nat hr1, toId_nat hr2] at hp
    obtain ⟨w', hw, hat⟩ := gx_ret h hp
    unfold checkEdges
    rw [bind_ok (show bound (some x) s = .ok x s from rfl), bind_ok (show bound (some y) s = .ok y s from rfl),
      bind_ok (npGet_numbered hx.2.1 hx.2.2 s), bind_ok (npGet_numbered hy.2.1 hy.2.2 s), if_pos hx.1, if_pos hy.1, bind_ok hw,
      bind_ok (show asBool (.bool (g.doesEdgeExist (rank S x) (rank S y))) _ = .ok (g.doesEdgeExist (rank S x) (rank S y)) _ from rfl)]
    by_cases he : g.doesEdgeExist (rank S x) (rank S y) = true
    · obtain ⟨s', h1, h2, h3⟩ := ih _ hat
      rw [he] at h3 ⊢
      exact ⟨s', h1, h2, h3⟩
    · rw [Bool.not_eq_true] at he
      obtain ⟨s', h1, h2, h3⟩ := ih ⟨s.calls + 1, w', s.printed ++ ["Missing edge ".toList ++ str x ++ ['-'] ++ str y]⟩ hat
      rw [he] at h3 ⊢
      refine ⟨s', h1, h2, ?_⟩
      rw [h3]
      simp only [Bool.false_eq_true, if_false, List.length_cons, List.replicate_succ, List.append_assoc, List.cons_append, List.nil_append]

/-- **C80 (full statement).** `validate_graph` prints nothing exactly if the file contains all edges of the text. -/
def C80_full : Prop :=
  ∀ (V : Env) (lines : List (List Char)) (ids : Finset Int), IdsOf V lines ids → ids.Nonempty →
    (∀ x ∈ ids, 0 ≤ x) → (∀ x ∈ ids, x + 1 ≤ V.npMax) → V.npMax < 2 ^ 63 → (∀ x ∈ ids, ∃ y, Lists V lines x y) → NoHalfLines V lines →
    ∀ s, Started s → ∀ (file : Bytes) (g : Graph), Graph.tryFrom (V.E s.calls).P file = .ok g →
    ∃ s', validateGraph V lines file s = .ok () s' ∧
      (s'.printed = s.printed ↔ ∀ x y, Lists V lines x y → g.doesEdgeExist (rank ids x) (rank ids y) = true)

/-- **C80 (partial: only the last edge is looked at).** `validate_graph` reads the file and prints nothing if the last edge of the text
is in the graph; otherwise it prints a message about that edge, once for each pair of the text. -/
theorem C80_validate_partial (V : Env) (lines : List (List Char)) (ids : Finset Int) (hids : IdsOf V lines ids)
    (h0 : ∀ x ∈ ids, 0 ≤ x) (hmax : ∀ x ∈ ids, x + 1 ≤ V.npMax) (hnp : V.npMax < 2 ^ 63) (hfrom : ∀ x ∈ ids, ∃ y, Lists V lines x y)
    (hhalf : NoHalfLines V lines) {x y : Int} (hlast : LastListed V lines x y) (s : State) (hs : Started s) {file : Bytes} {g : Graph}
    (hg : Graph.tryFrom (V.E s.calls).P file = .ok g) :
    ∃ s' k, validateGraph V lines file s = .ok () s' ∧ Started s' ∧ 0 < k ∧
      s'.printed = s.printed ++ if g.doesEdgeExist (rank ids x) (rank ids y) then [] else
        List.replicate k ("Missing edge ".toList ++ str x ++ ['-'] ++ str y) := by
  obtain ⟨t, a, hr⟩ := hs
  have hxy : Lists V lines x y := by
    obtain ⟨pre, line, post, rfl, ⟨line', h1, h2⟩, _⟩ := hlast
    rw [List.mem_singleton] at h1
    subst h1
    exact ⟨line', by simp, h2⟩
  have hx : x ∈ ids := (hids x).2 ⟨y, .inl hxy⟩
  have hy : y ∈ ids := (hids y).2 ⟨x, .inr hxy⟩
  obtain ⟨l, last, n, hl, hlastmem, -, -, -, -, hlt, hcard, hn63, hfr⟩ := front hids ⟨x, hx⟩ h0 1 (by omega) hmax hnp hfrom
  obtain ⟨e1, e2, e3⟩ := hfr s
  rw [show ((1 : Nat) : Int) = 1 from rfl] at e2
  have e4 : pyStep (V.E s.calls) (.graphFromBytes file) a = .ret (.ref a.length) (a ++ [some (.graph g)]) := by
    simp only [pyStep, hg]; rfl
  obtain ⟨w₁, e5, hat⟩ := gx_ret ⟨t, hr⟩ e4
  have hget : (a ++ [some (AObj.graph g)])[a.length]? = some (some (.graph g)) := by
    rw [List.getElem?_append_right (Nat.le_refl _), Nat.sub_self]; rfl
  obtain ⟨s', e6, ⟨t', h'⟩, hpr⟩ := checkEdges_run (V := V) (n := n) (by omega) ⟨hx, hlt x hx⟩ ⟨hy, hlt y hy⟩ hget l _ hat
  obtain ⟨p0, p1⟩ := parse_last V lines hhalf x y hlast
  refine ⟨s', l.length, ?_, ⟨t', _, h'⟩, List.length_pos_of_mem hlastmem, hpr⟩
  unfold validateGraph
  simp only [← hl, p0, p1]
  rw [bind_ok e1, bind_ok e2, bind_ok e3, bind_ok e5, bind_ok (show asRef (.ref a.length) _ = .ok a.length _ from rfl), e6]

/-- No false alarm: if all edges of the text are in the file, nothing is printed. -/
theorem C80_no_false_alarm (V : Env) (lines : List (List Char)) (ids : Finset Int) (hids : IdsOf V lines ids)
    (h0 : ∀ x ∈ ids, 0 ≤ x) (hmax : ∀ x ∈ ids, x + 1 ≤ V.npMax) (hnp : V.npMax < 2 ^ 63) (hfrom : ∀ x ∈ ids, ∃ y, Lists V lines x y)
    (hhalf : NoHalfLines V lines) {x y : Int} (hlast : LastListed V lines x y) (s : State) (hs : Started s) {file : Bytes} {g : Graph}
    (hg : Graph.tryFrom (V.E s.calls).P file = .ok g)
    (hall : ∀ x y, Lists V lines x y → g.doesEdgeExist (rank ids x) (rank ids y) = true) :
    ∃ s', validateGraph V lines file s = .ok () s' ∧ s'.printed = s.printed := by
  obtain ⟨s', k, h1, -, -, h2⟩ := C80_validate_partial V lines ids hids h0 hmax hnp hfrom hhalf hlast s hs hg
  obtain ⟨pre, line, post, rfl, ⟨line', h3, h4⟩, _⟩ := hlast
  rw [List.mem_singleton] at h3
  subst h3
  rw [hall x y ⟨line', by simp, h4⟩] at h2
  exact ⟨s', h1, by rw [h2]; simp⟩

theorem exLines_whole : NoHalfLines exV exLines := by
  intro line hl hh a b hab ha hb
  have : linePair exV line = none ∧ (parseLine exV ⟨[], none, none⟩ line).id0 ≠ none := by
    have hs := (split_two exV line a b).2 hab
    obtain ⟨i, hi⟩ := Option.ne_none_iff_exists'.1 ha
    constructor
    · unfold linePair; rw [if_neg hh, hs]; simp only [hi, hb]
    · unfold parseLine; rw [if_neg hh, hs]; simp only [hi, hb]; simp
  have hall : ∀ line ∈ exLines, ¬ (linePair exV line = none ∧ (parseLine exV ⟨[], none, none⟩ line).id0 ≠ none) := by decide +kernel
  exact hall line hl this

theorem exLines_last : LastListed exV exLines 7 0 := by
  refine ⟨["# comment 1\n".toList, "0 7\n".toList], " 7  0\n".toList, ["bad\n".toList], rfl, ?_, ?_⟩
  · exact (exV_lists (lines := [" 7  0\n".toList]) (l := [(7, 0)]) (by rfl) _ _).2 (by decide)
  · intro u v h
    have := (exV_lists (lines := ["bad\n".toList]) (l := []) (by rfl) u v).1 h
    cases this

/-- A file with the edge from vertex 1 to vertex 0 only. -/
def exFile : Bytes := graphFile false 2 [(1, 0)]

/-- False: the file has the last edge of the text but not the first, and nothing is printed. -/
theorem C80_full_false : ¬ C80_full := by
  intro hC
  have h : (parse exV exLines).idPairs = [(0, 7), (7, 0)] := by rw [exLines_parse]
  obtain ⟨g, hg, hv⟩ := okAnd_elim (show okAnd (Graph.tryFrom exP exFile) (fun g => g.doesEdgeExist 1 0 && !g.doesEdgeExist 0 1) = true by
    decide +kernel)
  have h0 : ∀ x ∈ ([((0 : Int), (7 : Int)), (7, 0)].map Prod.fst).toFinset ∪ ([((0 : Int), (7 : Int)), (7, 0)].map Prod.snd).toFinset, 0 ≤ x := by
    decide
  have h1 : ∀ x ∈ ([((0 : Int), (7 : Int)), (7, 0)].map Prod.fst).toFinset ∪ ([((0 : Int), (7 : Int)), (7, 0)].map Prod.snd).toFinset,
      x + 1 ≤ (exV.npMax : Int) := by decide
  have h2 : ∀ x ∈ ([((0 : Int), (7 : Int)), (7, 0)].map Prod.fst).toFinset ∪ ([((0 : Int), (7 : Int)), (7, 0)].map Prod.snd).toFinset,
      ∃ y, Lists exV exLines x y := by
    intro x hx
    have : x = 0 ∨ x = 7 := by revert x; decide
    rcases this with rfl | rfl
    · exact ⟨7, (exV_lists h _ _).2 (by decide)⟩
    · exact ⟨0, (exV_lists h _ _).2 (by decide)⟩
  obtain ⟨s₁, e1, e2⟩ := hC exV exLines _ (exV_ids h) ⟨0, by decide⟩ h0 h1 (by decide) h2 exLines_whole exS exS_started exFile g hg
  obtain ⟨s₂, k, f1, -, -, f2⟩ := C80_validate_partial exV exLines _ (exV_ids h) h0 h1 (by decide) h2 exLines_whole exLines_last exS
    exS_started hg
  rw [e1] at f1
  cases f1
  rw [show rank _ (7 : Int) = 1 from by decide, show rank _ (0 : Int) = 0 from by decide] at f2
  rw [Bool.and_eq_true, Bool.not_eq_true'] at hv
  rw [hv.1, if_pos rfl, List.append_nil] at f2
  have := e2.1 f2 0 7 ((exV_lists h _ _).2 (by decide))
  rw [show rank _ (7 : Int) = 1 from by decide, show rank _ (0 : Int) = 0 from by decide, hv.2] at this
  cases this

/-! ## C81: `compress_gphrx_file` -/

/-- **C81.** For a valid graph file, `compress_gphrx_file` writes a file from which every platform reads the compressed graph, at the
nearest level in `1..64`; at levels up to 1 its decompression is the graph of the input file. -/
theorem C81_compress_file (V : Env) (l : Int) (file : Bytes) (s : State) (hs : Started s) {g : Graph}
    (hg : Graph.tryFrom (V.E s.calls).P file = .ok g) (hE : g.edgeCount ≤ U64_MAX)
    (hroom : ∀ k, (V.E k).P.usizeMax ≤ U64_MAX ∧ ∀ m ≤ 42 + 24 * g.edgeCount, m ≤ (V.E k).P.usizeMax ∧ (V.E k).P.alloc m = true) :
    ∃ b s' c, compressGphrxFile V l file s = .ok b s' ∧ s'.printed = s.printed ∧ Started s' ∧
      g.compress (V.E (s.calls + 1)).P (V.E (s.calls + 1)).o₁ (V.E (s.calls + 1)).o₂ (clampLevel l) = .ok c ∧
      ∀ P : Platform, b.length ≤ P.usizeMax → ∃ c', CGraph.tryFrom P b = .ok c' ∧ SameC c' c ∧
        (l ≤ 1 → ∀ P' o, ∃ d, c'.decompress P' o = .ok d ∧ Same d g) := by
  obtain ⟨t, a, hr⟩ := hs
  have hget : ∀ (a : AWorld) (x : Option AObj), (a ++ [x])[a.length]? = some x := fun a x => by
    rw [List.getElem?_append_right (Nat.le_refl _), Nat.sub_self]; rfl
  have e1 : pyStep (V.E s.calls) (.graphFromBytes file) a = .ret (.ref a.length) (a ++ [some (.graph g)]) := by
    simp only [pyStep, hg]; rfl
  obtain ⟨w₁, e2, t₁, hr₁⟩ := gx_ret ⟨t, hr⟩ e1
  have hgood : GReach g := reached_good hr₁ (hget _ _)
  obtain ⟨c, hc, _⟩ := C46_compress_never_fails hgood (V.E (s.calls + 1)).P (V.E (s.calls + 1)).o₁ (V.E (s.calls + 1)).o₂ (clampLevel l)
  have e3 := pyStep_call (E := V.E (s.calls + 1)) (hget a (some (.graph g))) (.compress l)
  rw [AObj.means, hc] at e3
  obtain ⟨w₂, e4, t₂, hr₂⟩ := gx_ret (V := V) ⟨t₁, hr₁⟩ e3
  have hle : c.edgeCount ≤ g.edgeCount := (C25_edge_count_exact hgood hE _ _ _ _ hc).2.2.1
  obtain ⟨hu, hroom'⟩ := hroom (s.calls + 1 + 1)
  obtain ⟨B, hB, -, -, hok⟩ := C82_size hgood hE _ (V.E (s.calls + 1 + 1)).P _ _ (V.E (s.calls + 1 + 1)).o₁ _ hc
  obtain ⟨r1, r2⟩ := hroom' (42 + 24 * B) (by omega)
  obtain ⟨b, hb⟩ := hok.1 ⟨r1, r2⟩
  have e5 := pyStep_call (E := V.E (s.calls + 1 + 1)) (hget (a ++ [some (.graph g)]) (some (.cgraph c))) .bytes
  rw [AObj.means, hb] at e5
  obtain ⟨w₃, e6, t₃, hr₃⟩ := gx_ret (V := V) ⟨t₂, hr₂⟩ e5
  refine ⟨b, ⟨s.calls + 1 + 1 + 1, w₃, s.printed⟩, c, ?_, rfl, ⟨t₃, _, hr₃⟩, hc, ?_⟩
  · unfold compressGphrxFile
    rw [bind_ok e2, bind_ok (show asRef (.ref a.length) _ = .ok a.length _ from rfl), bind_ok e4,
      bind_ok (show asRef (.ref (a ++ [some (AObj.graph g)]).length) _ = .ok (a ++ [some (AObj.graph g)]).length _ from rfl), bind_ok e6]
    rfl
  · intro P hP
    obtain ⟨c', hc', hsc⟩ := C32_round_trip hgood hE hc hu hb hP
    refine ⟨c', hc', hsc, fun hl P' o => ?_⟩
    obtain ⟨c₁, d₁, hc₁, hd₁, hs₁⟩ := C21_level_one_lossless hgood (V.E (s.calls + 1)).P P' (V.E (s.calls + 1)).o₁ (V.E (s.calls + 1)).o₂ o
      (l := clampLevel l) (by unfold clampLevel; omega)
    rw [hc] at hc₁; cases hc₁
    obtain ⟨d, d₂, hd, hd₂, hs₂⟩ := hsc.decompress P' P' o o
    rw [hd₁] at hd₂; cases hd₂
    exact ⟨d, hd, Same.trans' hs₂ hs₁⟩

/-- **C81.** A file that is not a valid graph file ends the script with an exception, and nothing is written. -/
theorem C81_invalid_file (V : Env) (l : Int) (file : Bytes) (s : State) (hs : Started s) (hP : file.length ≤ (V.E s.calls).P.usizeMax)
    (hg : ¬ ValidGraphFile file) : ∃ s', compressGphrxFile V l file s = .raised (.fromModule .TypeError) s' ∧ Started s' := by
  obtain ⟨t, a, hr⟩ := hs
  obtain ⟨w', h1, h2⟩ := (C74_from_bytes_partial hr (V.E s.calls) file hP).2.1 hg
  refine ⟨⟨s.calls + 1, w', s.printed⟩, ?_, _, _, h2⟩
  have : gx V (.graphFromBytes file) s = .raised (.fromModule .TypeError) ⟨s.calls + 1, w', s.printed⟩ := by unfold gx; rw [h1]
  unfold compressGphrxFile
  show SM.bind _ _ s = _
  unfold SM.bind
  rw [this]

/-- The example file is valid and there is room. -/
example : ∃ g, Graph.tryFrom (exV.E exS.calls).P exFile = .ok g ∧ g.edgeCount ≤ U64_MAX ∧ Started exS ∧
    ∀ k, (exV.E k).P.usizeMax ≤ U64_MAX ∧ ∀ m ≤ 42 + 24 * g.edgeCount, m ≤ (exV.E k).P.usizeMax ∧ (exV.E k).P.alloc m = true := by
  obtain ⟨g, hg, hv⟩ := okAnd_elim (show okAnd (Graph.tryFrom exP exFile) (fun g => g.edgeCount == 1) = true by decide +kernel)
  have hv : g.edgeCount = 1 := by simpa using hv
  refine ⟨g, hg, by rw [hv]; decide, exS_started, fun k => ⟨le_refl _, fun m hm => ⟨?_, rfl⟩⟩⟩
  rw [hv] at hm
  exact hm.trans (show 42 + 24 * 1 ≤ U64_MAX by decide)

end Verif.Props
