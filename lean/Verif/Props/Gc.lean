import Verif.Spec.Gc
import Verif.Props.Parts

/-!
# When Python objects are collected: C134
-/

namespace Verif.Props
open Verif Spec

/-- `a'` is `a` after some of the objects in `D` have been collected. -/
structure Swept (D : Nat → Prop) (a a' : AWorld) : Prop where
  len : a'.length = a.length
  kept : ∀ i : Nat, ¬ D i → a'[i]? = a[i]?
  live : ∀ (i : Nat) x, a'[i]? = some (some x) → a[i]? = some (some x)
  lists : ∀ (i l p : Nat), a'[i]? = some (some (.iter l p)) → ∃ x, a'[l]? = some (some x)

theorem means_swept {D : Nat → Prop} {a a' : AWorld} (s : Swept D a a') {E : Ctx} {i : Nat} {x : AObj} (hx : a'[i]? = some (some x)) (m : Method) :
    x.means E a' i m = x.means E a i m := by
  have h1 : ∀ x, objWith id x = x := fun x => by cases x <;> rfl
  have h2 : ∀ r, outWith id r = r := fun r => by cases r <;> simp [outWith, h1]
  have := means_with (f := id) (a := a) (L := a') (E := E) i x m (by
    rintro l p rfl
    obtain ⟨y, hy⟩ := s.lists i l p hx
    rw [id, hy, s.live l y hy]
    simp [h1])
  rw [h1, h2] at this
  exact this

/-- The worlds after a step of the program itself. -/
def SweptStep (D : Nat → Prop) : AStep → AStep → Prop
  | .ret v a, .ret v' a' => v = v' ∧ Swept D a a'
  | .raises e a, .raises e' a' => e = e' ∧ Swept D a a'
  | .panics, .panics => True
  | _, _ => False

theorem swept_new {D : Nat → Prop} {a a' : AWorld} (s : Swept D a a') {x : AObj} (hx : ∀ l p, x = .iter l p → ∃ y, a'[l]? = some (some y)) :
    Swept D (a ++ [some x]) (a' ++ [some x]) where
  len := by simp [s.len]
  kept i hi := by
    rw [List.getElem?_append, List.getElem?_append, s.len, s.kept i hi]
  live i y hy := by
    rw [List.getElem?_append, s.len] at hy
    rw [List.getElem?_append]
    split at hy
    · rename_i h; rw [if_pos h]; exact s.live i y hy
    · rename_i h; rw [if_neg h]; exact hy
  lists i l p hy := by
    have up : ∀ j z, a'[j]? = some (some z) → (a' ++ [some x])[j]? = some (some z) := fun j z hz => by
      rw [List.getElem?_append_left (List.getElem?_eq_some_iff.1 hz).1]; exact hz
    rw [List.getElem?_append] at hy
    split at hy
    · obtain ⟨z, hz⟩ := s.lists i l p hy
      exact ⟨z, up _ _ hz⟩
    · rw [List.getElem?_singleton] at hy
      split at hy
      · simp only [Option.some.injEq] at hy
        obtain ⟨z, hz⟩ := hx l p hy
        exact ⟨z, up _ _ hz⟩
      · cases hy

theorem swept_set {D : Nat → Prop} {a a' : AWorld} (s : Swept D a a') {i : Nat} {x y : AObj} (hi : a'[i]? = some (some y))
    (hx : ∀ l p, x = .iter l p → ∃ z, a'[l]? = some (some z)) : Swept D (a.set i (some x)) (a'.set i (some x)) where
  len := by simp [s.len]
  kept j hj := by
    rw [List.getElem?_set, List.getElem?_set, s.len, s.kept j hj]
  live j z hz := by
    rw [List.getElem?_set, s.len] at hz
    rw [List.getElem?_set]
    split at hz
    · rename_i h; rw [if_pos h]; exact hz
    · rename_i h; rw [if_neg h]; exact s.live j z hz
  lists j l p hy := by
    have up : ∀ j z, a'[j]? = some (some z) → ∃ z, (a'.set i (some x))[j]? = some (some z) := fun j z hz => by
      have hl := (List.getElem?_eq_some_iff.1 hz).1
      by_cases h : i = j
      · subst h; exact ⟨x, by rw [List.getElem?_set, if_pos rfl, if_pos hl]⟩
      · exact ⟨z, by rw [List.getElem?_set, if_neg h]; exact hz⟩
    rw [List.getElem?_set] at hy
    split at hy
    · split at hy
      · simp only [Option.some.injEq] at hy
        obtain ⟨z, hz⟩ := hx l p hy
        exact up _ _ hz
      · cases hy
    · obtain ⟨z, hz⟩ := s.lists j l p hy
      exact up _ _ hz

theorem swept_step {D : Nat → Prop} {a a' : AWorld} (s : Swept D a a') {E : Ctx} {c : PyCall} (hc : isCollect c = false)
    (hD : ∀ i m, c = .call i m → ¬ D i) : SweptStep D (pyStep E c a) (pyStep E c a') := by
  have hn : ∀ x : AObj, (∀ l p, x ≠ .iter l p) → SweptStep D ((AOut.new x).apply a a.length) ((AOut.new x).apply a' a'.length) := by
    intro x hx
    refine ⟨by rw [s.len], swept_new s fun l p h => absurd h (hx l p)⟩
  cases c with
  | collect i => cases hc
  | newGraph u => exact hn _ (fun _ _ h => by cases h)
  | graphFromBytes b =>
    simp only [pyStep]
    cases Graph.tryFrom E.P b with
    | ok g => exact hn _ (fun _ _ h => by cases h)
    | err e => exact ⟨rfl, s⟩
    | panic => trivial
  | cgraphFromBytes b =>
    simp only [pyStep]
    cases CGraph.tryFrom E.P b with
    | ok g => exact hn _ (fun _ _ h => by cases h)
    | err e => exact ⟨rfl, s⟩
    | panic => trivial
  | call i m =>
    unfold pyStep
    simp only
    rw [s.kept i (hD i m rfl)]
    cases hx : a[i]?.join with
    | none => exact ⟨rfl, s⟩
    | some x =>
      have hx1 : a'[i]? = some (some x) := by
        rw [s.kept i (hD i m rfl)]
        exact Option.join_eq_some_iff.1 hx
      simp only
      rw [means_swept s hx1]
      have ok := means_iterOk E a i x m
      cases hm : x.means E a i m with
      | val v => exact ⟨rfl, s⟩
      | new y =>
        rw [hm] at ok
        refine ⟨by rw [s.len], swept_new s ?_⟩
        rintro l p rfl
        cases ok
        exact ⟨x, hx1⟩
      | step y v =>
        rw [hm] at ok
        refine ⟨rfl, swept_set s hx1 ?_⟩
        rintro l p rfl
        obtain ⟨q, rfl⟩ := ok
        exact s.lists i l q hx1
      | raises e => exact ⟨rfl, s⟩
      | panics => trivial

theorem swept_mono {D D' : Nat → Prop} {a a' : AWorld} (s : Swept D a a') (h : ∀ i, D i → D' i) : Swept D' a a' :=
  ⟨s.len, fun i hi => s.kept i fun hd => hi (h i hd), s.live, s.lists⟩

/-- A collection. -/
theorem swept_collect {D : Nat → Prop} {a a' : AWorld} (s : Swept D a a') (E : Ctx) (i : Nat) :
    (∃ v b, pyStep E (.collect i) a' = .ret v b ∧ Swept (fun j => D j ∨ j = i) a b) ∨
      ∃ e b, pyStep E (.collect i) a' = .raises e b ∧ Swept (fun j => D j ∨ j = i) a b := by
  have s' := swept_mono s (D' := fun j => D j ∨ j = i) fun j => .inl
  unfold pyStep
  simp only
  cases hx : a'[i]?.join with
  | none => exact .inr ⟨_, _, rfl, s'⟩
  | some x =>
    simp only
    by_cases hit : a'.iterated i
    · rw [if_pos hit]; exact .inl ⟨_, _, rfl, s'⟩
    · rw [if_neg hit]
      refine .inl ⟨_, _, rfl, by simp [s.len], ?_, ?_, ?_⟩
      · intro j hj
        rw [not_or] at hj
        rw [List.getElem?_set_ne (Ne.symm hj.2)]
        exact s.kept j hj.1
      · intro j y hy
        rw [List.getElem?_set] at hy
        split at hy
        · split at hy <;> simp at hy
        · exact s.live j y hy
      · intro j l p hy
        rw [List.getElem?_set] at hy
        split at hy
        · split at hy <;> simp at hy
        · obtain ⟨z, hz⟩ := s.lists j l p hy
          refine ⟨z, ?_⟩
          rw [List.getElem?_set_ne, hz]
          rintro rfl
          exact hit ⟨p, List.mem_of_getElem? hy⟩

theorem tidy_cons {x : Ctx × PyCall} {s : List (Ctx × PyCall)} {D : Nat → Prop} (h : Tidy (x :: s))
    (hD : ∀ y ∈ x :: s, ∀ i m, y.2 = .call i m → ¬ D i) :
    Tidy s ∧ (∀ i, x.2 = .collect i → ∀ y ∈ s, ∀ j m, y.2 = .call j m → ¬ (D j ∨ j = i)) ∧ ∀ y ∈ s, ∀ i m, y.2 = .call i m → ¬ D i := by
  have h' := List.pairwise_cons.1 h
  refine ⟨h'.2, fun i hi y hy j m e hd => ?_, fun y hy => hD y (List.mem_cons_of_mem _ hy)⟩
  rcases hd with hd | rfl
  · exact hD y (List.mem_cons_of_mem _ hy) j m e hd
  · exact h'.1 y hy j m hi e

/-- Leaving out the collections. -/
theorem gc_drop {t : List (Ctx × PyCall × Seen)} : ∀ {D : Nat → Prop} {a a' b' : AWorld}, Swept D a a' → Tidy (callsOf t) →
    (∀ y ∈ callsOf t, ∀ i m, y.2 = .call i m → ¬ D i) → ARun a' t b' → ∃ b, ARun a (ownSteps t) b := by
  induction t with
  | nil => intros; exact ⟨_, .nil⟩
  | cons x t ih =>
    intro D a a' b' s ht hD hr
    obtain ⟨E, c, z⟩ := x
    obtain ⟨ht', h1, h2⟩ := tidy_cons (x := (E, c)) (s := callsOf t) ht hD
    cases hc : isCollect c with
    | true =>
      cases c with
      | collect i =>
        change ∃ b, ARun a (ownSteps t) b
        cases hr with
        | ret e hr =>
          rcases swept_collect s E i with ⟨v, b, hb, sb⟩ | ⟨v, b, hb, sb⟩
          · rw [hb] at e; cases e; exact ih sb ht' (h1 i rfl) hr
          · rw [hb] at e; cases e
        | raises e hr =>
          rcases swept_collect s E i with ⟨v, b, hb, sb⟩ | ⟨v, b, hb, sb⟩
          · rw [hb] at e; cases e
          · rw [hb] at e; cases e; exact ih sb ht' (h1 i rfl) hr
      | _ => cases hc
    | false =>
      have hs := swept_step (E := E) s hc (fun i m e => hD (E, c) (List.mem_cons_self ..) i m e)
      have ho : ownSteps ((E, c, z) :: t) = (E, c, z) :: ownSteps t := by
        unfold ownSteps; rw [List.filter_cons, if_pos (by simp [hc])]
      rw [ho]
      cases hr with
      | ret e hr =>
        rw [e] at hs
        cases ha : pyStep E c a with
        | ret v b =>
          rw [ha] at hs
          obtain ⟨rfl, sb⟩ := hs
          obtain ⟨b2, hb2⟩ := ih sb ht' h2 hr
          exact ⟨b2, .ret ha hb2⟩
        | raises _ _ => rw [ha] at hs; exact hs.elim
        | panics => rw [ha] at hs; exact hs.elim
      | raises e hr =>
        rw [e] at hs
        cases ha : pyStep E c a with
        | raises v b =>
          rw [ha] at hs
          obtain ⟨rfl, sb⟩ := hs
          obtain ⟨b2, hb2⟩ := ih sb ht' h2 hr
          exact ⟨b2, .raises ha hb2⟩
        | ret _ _ => rw [ha] at hs; exact hs.elim
        | panics => rw [ha] at hs; exact hs.elim

/-- Putting in collections. -/
theorem gc_insert {s : List (Ctx × PyCall)} : ∀ {t : List (Ctx × PyCall × Seen)} {D : Nat → Prop} {a a' b : AWorld}, Swept D a a' → Tidy s →
    (∀ y ∈ s, ∀ i m, y.2 = .call i m → ¬ D i) → callsOf t = ownCalls s → ARun a t b →
    ∃ r b', ARun a' r b' ∧ callsOf r = s ∧ ownSteps r = t := by
  induction s with
  | nil =>
    intro t D a a' b _ _ _ h _
    cases t with
    | nil => exact ⟨[], _, .nil, rfl, rfl⟩
    | cons x t => cases h
  | cons x s ih =>
    intro t D a a' b sw hs hD h hr
    obtain ⟨E, c⟩ := x
    obtain ⟨hs', h1, h2⟩ := tidy_cons hs hD
    cases hc : isCollect c with
    | true =>
      cases c with
      | collect i =>
        change callsOf t = ownCalls s at h
        rcases swept_collect sw E i with ⟨v, b, hb, sb⟩ | ⟨v, b, hb, sb⟩
        · obtain ⟨r, b', hr', e1, e2⟩ := ih sb hs' (h1 i rfl) h hr
          exact ⟨(E, .collect i, .value v) :: r, b', .ret hb hr', congrArg (List.cons _) e1, e2⟩
        · obtain ⟨r, b', hr', e1, e2⟩ := ih sb hs' (h1 i rfl) h hr
          exact ⟨(E, .collect i, .exception v) :: r, b', .raises hb hr', congrArg (List.cons _) e1, e2⟩
      | _ => cases hc
    | false =>
      have ho : ownCalls ((E, c) :: s) = (E, c) :: ownCalls s := by
        unfold ownCalls; rw [List.filter_cons, if_pos (by simp [hc])]
      rw [ho] at h
      have hst := swept_step (E := E) sw hc (fun i m e => hD (E, c) (List.mem_cons_self ..) i m e)
      have own : ∀ z r, ownSteps ((E, c, z) :: r) = (E, c, z) :: ownSteps r := fun z r => by
        unfold ownSteps; rw [List.filter_cons, if_pos (by simp [hc])]
      cases hr with
      | nil => cases h
      | ret e hr =>
        unfold callsOf at h
        rw [List.map_cons, List.cons.injEq, Prod.mk.injEq] at h
        obtain ⟨⟨rfl, rfl⟩, h⟩ := h
        rw [e] at hst
        cases ha : pyStep _ _ a' with
        | ret v b =>
          rw [ha] at hst
          obtain ⟨rfl, sb⟩ := hst
          obtain ⟨r, b', hr', e1, e2⟩ := ih sb hs' h2 h hr
          exact ⟨_, b', .ret ha hr', congrArg (List.cons _) e1, by rw [own, e2]⟩
        | raises _ _ => rw [ha] at hst; exact hst.elim
        | panics => rw [ha] at hst; exact hst.elim
      | raises e hr =>
        unfold callsOf at h
        rw [List.map_cons, List.cons.injEq, Prod.mk.injEq] at h
        obtain ⟨⟨rfl, rfl⟩, h⟩ := h
        rw [e] at hst
        cases ha : pyStep _ _ a' with
        | raises v b =>
          rw [ha] at hst
          obtain ⟨rfl, sb⟩ := hst
          obtain ⟨r, b', hr', e1, e2⟩ := ih sb hs' h2 h hr
          exact ⟨_, b', .raises ha hr', congrArg (List.cons _) e1, by rw [own, e2]⟩
        | ret _ _ => rw [ha] at hst; exact hst.elim
        | panics => rw [ha] at hst; exact hst.elim

theorem swept_start : Swept (fun _ => False) [] [] where
  len := rfl
  kept _ _ := rfl
  live _ _ h := h
  lists _ _ _ h := by cases h

/-- **C134.** What a Python program can see when its objects are collected at given times, each after its last use, is exactly what it can
see when nothing is ever collected. -/
theorem C134_collections {s : List (Ctx × PyCall)} (hs : Tidy s) {t : List (Ctx × PyCall × Seen)} (ht : callsOf t = ownCalls s) :
    (∃ w, PyRun PyWorld.start t w) ↔ ∃ r w, PyRun PyWorld.start r w ∧ callsOf r = s ∧ ownSteps r = t := by
  constructor
  · intro h
    obtain ⟨a, ha⟩ := (C72_traces t).1 h
    obtain ⟨r, b', hr, e1, e2⟩ := gc_insert swept_start hs (fun _ _ _ _ _ h => h) ht ha
    obtain ⟨w, hw⟩ := (C72_traces r).2 ⟨b', hr⟩
    exact ⟨r, w, hw, e1, e2⟩
  · rintro ⟨r, w, hw, rfl, rfl⟩
    obtain ⟨a, ha⟩ := (C72_traces r).1 ⟨w, hw⟩
    exact (C72_traces _).2 (gc_drop swept_start hs (fun _ _ _ _ _ h => h) ha)

/-- **C134.** The times of the collections do not matter: with any other times the program sees the same. -/
theorem C134_times {t : List (Ctx × PyCall × Seen)} {w : PyWorld} (ht : PyRun PyWorld.start t w) (hs : Tidy (callsOf t))
    {s' : List (Ctx × PyCall)} (hs' : Tidy s') (he : ownCalls s' = ownCalls (callsOf t)) :
    ∃ t' w', PyRun PyWorld.start t' w' ∧ callsOf t' = s' ∧ ownSteps t' = ownSteps t := by
  have hc : callsOf (ownSteps t) = ownCalls (callsOf t) := by
    unfold callsOf ownSteps ownCalls
    rw [List.filter_map]
    rfl
  have h1 := (C134_collections hs hc).2 ⟨t, w, ht, rfl, rfl⟩
  exact (C134_collections hs' (hc.trans he.symm)).1 h1

/-! ### Examples -/

/-- A graph (0) and its list of edges (1), then an iterator (2); the graph is collected before the iterator is used, the list may not be yet. -/
def exGc : List (Ctx × PyCall × Seen) :=
  exPyT ++ [(exE, .call 1 .iter, .value (.ref 2)), (exE, .collect 0, .value .none), (exE, .collect 1, .value .none),
    (exE, .call 2 .next, .value (.edge 0 1))]

example : Tidy (callsOf exGc) ∧ (∃ w, PyRun PyWorld.start exGc w) ∧ Tidy (ownCalls (callsOf exGc)) ∧
    ∃ w', PyRun PyWorld.start (ownSteps exGc) w' := by
  have h1 : Tidy (callsOf exGc) := by
    unfold Tidy callsOf exGc exPyT
    simp
  have h2 : ∃ a, ARun exPyA [(exE, .call 1 .iter, .value (.ref 2)), (exE, .collect 0, .value .none), (exE, .collect 1, .value .none),
      (exE, .call 2 .next, .value (.edge 0 1))] a := by
    refine ⟨_, .ret rfl (.ret (a' := [none, some (.edges [(0, 1), (1, 2)]), some (.iter 1 0)]) ?_
      (.ret (a' := [none, some (.edges [(0, 1), (1, 2)]), some (.iter 1 0)]) ?_ (.ret rfl .nil)))⟩
    · refine pyStep_collect rfl ?_
      rintro ⟨pos, h⟩
      simp [exPyA] at h
    · unfold pyStep
      exact if_pos ⟨0, by simp⟩
  have h2 : ∃ w, PyRun PyWorld.start exGc w := by
    obtain ⟨a, ha⟩ := h2
    exact (C72_traces _).2 ⟨a, arun_append.2 ⟨_, exPy_arun, ha⟩⟩
  have h3 : callsOf (ownSteps exGc) = ownCalls (callsOf exGc) := rfl
  obtain ⟨w, hw⟩ := h2
  exact ⟨h1, ⟨w, hw⟩, h1.filter _, (C134_collections h1 h3).2 ⟨_, w, hw, rfl, rfl⟩⟩

/-- **C134.** An object that is collected although the program still uses it can be told from one that is not: the condition cannot be
dropped. -/
theorem C134_use_matters : ∃ (s : List (Ctx × PyCall)) (t : List (Ctx × PyCall × Seen)), callsOf t = ownCalls s ∧
    (∃ w, PyRun PyWorld.start t w) ∧ ¬ ∃ r w, PyRun PyWorld.start r w ∧ callsOf r = s ∧ ownSteps r = t := by
  refine ⟨[(exE, .newGraph false), (exE, .collect 0), (exE, .call 0 .edgeCount)],
    [(exE, .newGraph false, .value (.ref 0)), (exE, .call 0 .edgeCount, .value (.int 0))], rfl, ⟨_, .ok rfl (.ok rfl .nil)⟩, ?_⟩
  rintro ⟨r, w, hr, h1, h2⟩
  cases hr with
  | nil => cases h1
  | ok e1 hr =>
    cases hr with
    | nil => cases h1
    | ok e2 hr =>
      cases hr with
      | nil => cases h1
      | ok e3 hr =>
        simp only [callsOf, List.map_cons, List.cons.injEq, Prod.mk.injEq] at h1
        obtain ⟨⟨rfl, rfl⟩, ⟨rfl, rfl⟩, ⟨rfl, rfl⟩, h1⟩ := h1
        cases e1
        cases e2
        cases e3
      | raised e3 hr =>
        simp only [callsOf, List.map_cons, List.cons.injEq, Prod.mk.injEq] at h1
        obtain ⟨⟨rfl, rfl⟩, ⟨rfl, rfl⟩, ⟨rfl, rfl⟩, h1⟩ := h1
        simp [ownSteps, isCollect] at h2
    | raised e2 hr =>
      simp only [callsOf, List.map_cons, List.cons.injEq, Prod.mk.injEq] at h1
      obtain ⟨⟨rfl, rfl⟩, ⟨rfl, rfl⟩, h1⟩ := h1
      cases e1
      cases e2
  | raised e1 hr =>
    simp only [callsOf, List.map_cons, List.cons.injEq, Prod.mk.injEq] at h1
    obtain ⟨⟨rfl, rfl⟩, h1⟩ := h1
    cases e1

end Verif.Props
