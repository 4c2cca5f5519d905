import Verif.Spec.Scripts
import Verif.Props.Py
import Mathlib.Data.List.SplitOn
import Mathlib.Data.List.TakeWhile
import Mathlib.Tactic.Ring

/-! # Lemmas about the scripts: words and lines -/

namespace Verif.Script
open Verif Spec

theorem splitOnP_append_space {α : Type} (p : α → Bool) (s t : List α) (hs : ∀ c ∈ s, p c = true) :
    (s ++ t).splitOnP p = List.replicate s.length [] ++ t.splitOnP p := by
  induction s with
  | nil => rfl
  | cons c s ih =>
    rw [List.cons_append, List.splitOnP_cons_eq_if_modifyHead, if_pos (hs c (by simp)), ih fun c hc => hs c (by simp [hc])]
    rfl

theorem splitOnP_append_word {α : Type} (p : α → Bool) (w t : List α) (hw : ∀ c ∈ w, p c = false) :
    (w ++ t).splitOnP p = (t.splitOnP p).modifyHead (w ++ ·) := by
  induction w with
  | nil => cases h : t.splitOnP p <;> simp [h]
  | cons c w ih =>
    rw [List.cons_append, List.splitOnP_cons_eq_if_modifyHead, if_neg (by rw [hw c (by simp)]; decide), ih fun c hc => hw c (by simp [hc])]
    cases t.splitOnP p <;> rfl

theorem split_space (V : Env) (s t : List Char) (hs : ∀ c ∈ s, V.isSpace c = true) : split V (s ++ t) = split V t := by
  unfold split
  rw [splitOnP_append_space _ _ _ hs, List.filter_append, List.filter_eq_nil_iff.2, List.nil_append]
  intro w hw
  rw [List.eq_of_mem_replicate hw]
  simp

theorem split_word (V : Env) (w t : List Char) (hw : ∀ c ∈ w, V.isSpace c = false) (hne : w ≠ [])
    (ht : t = [] ∨ ∃ c r, t = c :: r ∧ V.isSpace c = true) : split V (w ++ t) = w :: split V t := by
  have h : ∃ l, t.splitOnP V.isSpace = [] :: l := by
    rcases ht with rfl | ⟨c, r, rfl, hc⟩
    · exact ⟨[], rfl⟩
    · exact ⟨_, by rw [List.splitOnP_cons_eq_if_modifyHead, if_pos hc]⟩
  obtain ⟨l, hl⟩ := h
  unfold split
  rw [splitOnP_append_word _ _ _ hw, hl]
  cases w with
  | nil => exact absurd rfl hne
  | cons c w => simp

theorem split_nil (V : Env) : split V [] = [] := by simp [split]

/-- Taking the first word off a line. -/
theorem split_cases (V : Env) (line : List Char) :
    ((∀ c ∈ line, V.isSpace c = true) ∧ split V line = []) ∨
    ∃ s w t, line = s ++ w ++ t ∧ (∀ c ∈ s, V.isSpace c = true) ∧ (∀ c ∈ w, V.isSpace c = false) ∧ w ≠ [] ∧
      (t = [] ∨ ∃ c r, t = c :: r ∧ V.isSpace c = true) ∧ split V line = w :: split V t := by
  have h1 : line.takeWhile V.isSpace ++ line.dropWhile V.isSpace = line := List.takeWhile_append_dropWhile
  have hs : ∀ c ∈ line.takeWhile V.isSpace, V.isSpace c = true := fun c hc => List.mem_takeWhile_imp hc
  rcases hd : line.dropWhile V.isSpace with _ | ⟨c, r⟩
  · left
    rw [hd, List.append_nil] at h1
    rw [h1] at hs
    refine ⟨hs, ?_⟩
    have := split_space V line [] hs
    rwa [List.append_nil, split_nil] at this
  · right
    have hc : V.isSpace c = false := by
      have := List.head?_dropWhile_not V.isSpace line
      rw [hd] at this
      simpa using this
    rw [hd] at h1
    have h2 : (c :: r).takeWhile (fun c => !V.isSpace c) ++ (c :: r).dropWhile (fun c => !V.isSpace c) = c :: r :=
      List.takeWhile_append_dropWhile
    have hw : ∀ x ∈ (c :: r).takeWhile (fun c => !V.isSpace c), V.isSpace x = false := fun x hx => by
      simpa using List.mem_takeWhile_imp hx
    have hwne : (c :: r).takeWhile (fun c => !V.isSpace c) ≠ [] := by simp [hc]
    have ht : (c :: r).dropWhile (fun c => !V.isSpace c) = [] ∨
        ∃ x q, (c :: r).dropWhile (fun c => !V.isSpace c) = x :: q ∧ V.isSpace x = true := by
      rcases hq : (c :: r).dropWhile (fun c => !V.isSpace c) with _ | ⟨x, q⟩
      · exact .inl rfl
      · refine .inr ⟨x, q, rfl, ?_⟩
        have := List.head?_dropWhile_not (fun c => !V.isSpace c) (c :: r)
        rw [hq] at this
        simpa using this
    refine ⟨_, _, _, ?_, hs, hw, hwne, ht, ?_⟩
    · rw [List.append_assoc, h2, h1]
    · rw [← h1, split_space V _ _ hs, ← split_word V _ _ hw hwne ht, h2]

theorem split_two (V : Env) (line a b : List Char) : split V line = [a, b] ↔ TwoWords V.isSpace line a b := by
  constructor
  · intro h
    rcases split_cases V line with ⟨_, h1⟩ | ⟨s, w, t, hl, hs, hw, hwne, ht, h1⟩
    · rw [h1] at h; cases h
    rw [h1] at h
    obtain ⟨ha, hb⟩ := List.cons.inj h
    subst ha
    rcases split_cases V t with ⟨_, h2⟩ | ⟨s', w', t', hl', hs', hw', hwne', ht', h2⟩
    · rw [h2] at hb; cases hb
    rw [h2] at hb
    obtain ⟨hww, hc⟩ := List.cons.inj hb
    subst hww
    rcases split_cases V t' with ⟨h3, _⟩ | ⟨_, _, _, _, _, _, _, _, h3⟩
    · refine ⟨s, s', t', by rw [hl, hl']; simp only [List.append_assoc], ?_, ?_, ?_, hwne, hwne'⟩
      · simp only [List.mem_append]
        rintro c ((h | h) | h)
        exacts [hs c h, hs' c h, h3 c h]
      · simp only [List.mem_append]
        rintro c (h | h)
        exacts [hw c h, hw' c h]
      · rintro rfl
        rcases ht with rfl | ⟨c, r, rfl, hc⟩
        · simp at hl'; exact hwne' hl'.1
        · cases w' with
          | nil => exact hwne' rfl
          | cons x w' =>
            simp only [List.nil_append, List.cons_append, List.cons.injEq] at hl'
            rw [← hl'.1] at hw'
            rw [hw' c (by simp)] at hc
            cases hc
    · rw [h3] at hc; cases hc
  · rintro ⟨s₀, s₁, s₂, rfl, hs, hw, h1, ha, hb⟩
    simp only [List.mem_append] at hs hw
    have e2 : split V s₂ = [] := by
      have := split_space V s₂ [] fun c hc => hs c (.inr hc)
      rwa [List.append_nil, split_nil] at this
    have b2 : s₂ = [] ∨ ∃ c r, s₂ = c :: r ∧ V.isSpace c = true := by
      cases s₂ with
      | nil => exact .inl rfl
      | cons c r => exact .inr ⟨c, r, rfl, hs c (by simp)⟩
    rw [List.append_assoc, List.append_assoc, List.append_assoc, split_space V _ _ fun c hc => hs c (.inl (.inl hc)),
      split_word V _ _ (fun c hc => hw c (.inl hc)) ha, split_space V _ _ fun c hc => hs c (.inl (.inr hc)),
      split_word V _ _ (fun c hc => hw c (.inr hc)) hb b2, e2]
    cases s₁ with
    | nil => exact absurd rfl h1
    | cons c r => exact .inr ⟨c, _, rfl, hs c (by simp)⟩

/-- The pair on a line. -/
def linePair (V : Env) (line : List Char) : Option (Int × Int) :=
  if line.head? = some '#' then none
  else match split V line with
    | [x, y] => match V.int x, V.int y with | some i, some j => some (i, j) | _, _ => none
    | _ => none

theorem parse_pairs (V : Env) (lines : List (List Char)) : (parse V lines).idPairs = lines.filterMap (linePair V) := by
  suffices h : ∀ p, (lines.foldl (parseLine V) p).idPairs = p.idPairs ++ lines.filterMap (linePair V) from h _
  induction lines with
  | nil => intro p; simp
  | cons l lines ih =>
    intro p
    rw [List.foldl_cons, ih, List.filterMap_cons]
    have : (parseLine V p l).idPairs = p.idPairs ++ (linePair V l).toList := by
      unfold parseLine linePair
      split
      · simp
      split
      · next x y h' => rw [h']; rcases hx : V.int x with _ | i <;> rcases hy : V.int y with _ | j <;> simp [hx, hy]
      · next h => 
        split
        · next x y h' => exact absurd h' (h x y)
        · simp
    rw [this]
    cases linePair V l <;> simp

theorem lists_iff (V : Env) (lines : List (List Char)) (x y : Int) : (x, y) ∈ (parse V lines).idPairs ↔ Lists V lines x y := by
  rw [parse_pairs, List.mem_filterMap]
  unfold Lists
  refine exists_congr fun line => and_congr_right fun _ => ?_
  unfold linePair
  constructor
  · intro h
    split at h
    · cases h
    next hh =>
    refine ⟨hh, ?_⟩
    split at h
    · next a b hab =>
      refine ⟨a, b, (split_two V line a b).1 hab, ?_⟩
      revert h
      cases V.int a <;> cases V.int b <;> simp
    · cases h
  · rintro ⟨hh, a, b, hab, ha, hb⟩
    rw [if_neg hh, (split_two V line a b).2 hab]
    simp only [ha, hb]

theorem parse_length (V : Env) (lines : List (List Char)) : (parse V lines).idPairs.length ≤ lines.length := by
  rw [parse_pairs]; exact List.length_filterMap_le _ _

/-! ## Sorting -/

theorem pairLe_trans (a b c : Int × Int) (h1 : pairLe a b = true) (h2 : pairLe b c = true) : pairLe a c = true := by
  unfold pairLe at *
  simp only [Bool.or_eq_true, decide_eq_true_eq, Bool.and_eq_true, beq_iff_eq] at *
  omega

theorem pairLe_total (a b : Int × Int) : (pairLe a b || pairLe b a) = true := by
  unfold pairLe
  simp only [Bool.or_eq_true, decide_eq_true_eq, Bool.and_eq_true, beq_iff_eq]
  omega

theorem sortPairs_sorted (l : List (Int × Int)) : (sortPairs l).Pairwise (fun p q => p.1 ≤ q.1) := by
  refine (List.pairwise_mergeSort pairLe_trans pairLe_total l).imp fun {a b} h => ?_
  unfold pairLe at h
  simp only [Bool.or_eq_true, decide_eq_true_eq, Bool.and_eq_true, beq_iff_eq] at h
  omega

theorem sortPairs_mem (l : List (Int × Int)) (p : Int × Int) : p ∈ sortPairs l ↔ p ∈ l := (List.mergeSort_perm l _).mem_iff

theorem sortPairs_length (l : List (Int × Int)) : (sortPairs l).length = l.length := (List.mergeSort_perm l _).length_eq

/-! ## Numbering -/

/-- The array after the ids of `S` have been numbered. -/
def numbered (n : Nat) (S : Finset Int) : List Int := (List.range n).map fun k : Nat => if (k : Int) ∈ S then (rank S k : Int) else -1

theorem rank_insert {S : Finset Int} {x : Int} (hx : ∀ y ∈ S, y < x) {k : Int} (hk : k ≤ x) : rank (insert x S) k = rank S k := by
  unfold rank
  rw [Finset.filter_insert, if_neg (by omega)]

theorem rank_top {S : Finset Int} {x : Int} (hx : ∀ y ∈ S, y < x) : rank S x = S.card := by
  unfold rank
  rw [Finset.filter_true_of_mem hx]

theorem numbered_insert {n : Nat} {S : Finset Int} {x : Int} (hx : ∀ y ∈ S, y < x) (h0 : 0 ≤ x) (hn : x < n) :
    (numbered n S).set x.toNat (S.card : Int) = numbered n (insert x S) := by
  unfold numbered
  apply List.ext_getElem
  · simp
  intro k h1 h2
  rw [List.getElem_set, List.getElem_map, List.getElem_map, List.getElem_range]
  by_cases hk : x.toNat = k
  · rw [if_pos hk]
    have : (k : Int) = x := by omega
    rw [this, if_pos (Finset.mem_insert_self _ _), rank_insert hx (le_refl _), rank_top hx]
  · rw [if_neg hk]
    have hkx : (k : Int) ≠ x := by omega
    by_cases hkS : (k : Int) ∈ S
    · rw [if_pos hkS, if_pos (Finset.mem_insert_of_mem hkS), rank_insert hx (hx _ hkS).le]
    · rw [if_neg hkS, if_neg]
      rw [Finset.mem_insert]; tauto

theorem npGet_numbered {n : Nat} {S : Finset Int} {x : Int} (h0 : 0 ≤ x) (hn : x < n) (s : State) :
    npGet (numbered n S) x s = .ok (if x ∈ S then (rank S x : Int) else -1) s := by
  have hl : (numbered n S).length = n := by simp [numbered]
  have h1 : npIndex (numbered n S).length x s = .ok x.toNat s := by
    unfold npIndex
    rw [hl, if_pos ⟨h0, hn⟩]
    rfl
  show SM.bind _ _ s = _
  unfold SM.bind
  rw [h1]
  show SRes.ok _ s = _
  congr 1
  rw [List.getD_eq_getElem?_getD, List.getElem?_eq_getElem (by rw [hl]; omega)]
  simp only [numbered, List.getElem_map, List.getElem_range, Option.getD_some]
  rw [show ((x.toNat : Nat) : Int) = x by omega]

theorem npSet_numbered {n : Nat} {S : Finset Int} {x : Int} (hx : ∀ y ∈ S, y < x) (h0 : 0 ≤ x) (hn : x < n) (s : State) :
    npSet (numbered n S) x (S.card : Nat) s = .ok (numbered n (insert x S)) s := by
  have hl : (numbered n S).length = n := by simp [numbered]
  have h1 : npIndex (numbered n S).length x s = .ok x.toNat s := by
    unfold npIndex
    rw [hl, if_pos ⟨h0, hn⟩]
    rfl
  show SM.bind _ _ s = _
  unfold SM.bind
  rw [h1]
  show SRes.ok _ s = _
  rw [numbered_insert hx h0 hn]

theorem assignIds_numbered (n : Nat) (l : List (Int × Int)) : ∀ (S : Finset Int), l.Pairwise (fun p q => p.1 ≤ q.1) →
    (∀ p ∈ l, 0 ≤ p.1 ∧ p.1 < n) → (∀ y ∈ S, ∀ p ∈ l, y ≤ p.1) → ∀ s,
    assignIds l (numbered n S) S.card s = .ok (numbered n (S ∪ (l.map Prod.fst).toFinset)) s := by
  induction l with
  | nil => intro S _ _ _ s; simp [assignIds]; rfl
  | cons p l ih =>
    intro S hs hl hS s
    obtain ⟨hs1, hs2⟩ := List.pairwise_cons.1 hs
    obtain ⟨h0, hn⟩ := hl p (by simp)
    have hget := npGet_numbered (S := S) h0 hn s
    unfold assignIds
    show SM.bind _ _ s = _
    unfold SM.bind
    rw [hget]
    by_cases hp : p.1 ∈ S
    · simp only [hp, if_true]
      rw [if_neg (by omega)]
      show assignIds l (numbered n S) S.card s = _
      rw [ih S hs2 (fun q hq => hl q (by simp [hq])) (fun y hy q hq => hS y hy q (by simp [hq]))]
      congr 2
      ext z
      simp only [List.map_cons, List.toFinset_cons, Finset.mem_union, Finset.mem_insert]
      constructor
      · tauto
      · rintro (h | rfl | h) <;> tauto
    · have hlt : ∀ y ∈ S, y < p.1 := fun y hy => lt_of_le_of_ne (hS y hy p (by simp)) (by rintro rfl; exact hp hy)
      simp only [hp, if_false, if_true]
      show SM.bind _ _ s = _
      unfold SM.bind
      rw [npSet_numbered hlt h0 hn]
      show assignIds l (numbered n (insert p.1 S)) (S.card + 1) s = _
      rw [← Finset.card_insert_of_notMem hp, ih (insert p.1 S) hs2 (fun q hq => hl q (by simp [hq]))]
      · congr 2
        ext z
        simp only [List.map_cons, List.toFinset_cons, Finset.mem_union, Finset.mem_insert]
        tauto
      · intro y hy q hq
        rcases Finset.mem_insert.1 hy with rfl | hy
        · exact hs1 q hq
        · exact hS y hy q (by simp [hq])

theorem replicate_numbered (n : Nat) : List.replicate n (-1 : Int) = numbered n ∅ := by
  unfold numbered
  apply List.ext_getElem <;> simp

end Verif.Script
