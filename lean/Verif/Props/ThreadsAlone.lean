import Mathlib.Logic.Function.Basic
import Mathlib.Data.List.Pairwise
import Verif.Props.Threads

/-!
# C117: threads seen one by one
-/

namespace Verif.Props
open Verif Spec

theorem independent_symm {a b : Act} (h : a.Independent b) : b.Independent a := fun p hp => ⟨(h p hp).2, (h p hp).1⟩

theorem raceFree_pairs {t : List (Nat × Act)} (h : RaceFree t) {a b : Nat × Act} (ha : a ∈ t) (hb : b ∈ t) (hab : a.1 ≠ b.1) :
    a.2.Independent b.2 := by
  have : Std.Symm fun a b : Nat × Act => a.1 ≠ b.1 → a.2.Independent b.2 := ⟨fun a b h hne => independent_symm (h hne.symm)⟩
  exact List.Pairwise.forall_of_forall (R := fun a b : Nat × Act => a.1 ≠ b.1 → a.2.Independent b.2)
    (fun x _ hx => absurd rfl hx) h ha hb hab

theorem steps_append {r s : List Act} {h k : Heap} (hk : Act.Steps h (r ++ s) k) : ∃ m, Act.Steps h r m ∧ Act.Steps m s k := by
  induction r generalizing h with
  | nil => exact ⟨h, .nil, hk⟩
  | cons a r ih =>
    cases hk with
    | cons sa hk =>
      obtain ⟨m, h1, h2⟩ := ih hk
      exact ⟨m, .cons sa h1, h2⟩

theorem steps_unchanged {l : List Act} {h k : Heap} (hs : Act.Steps h l k) {p : Ptr} (hp : ∀ a ∈ l, p ∉ a.changes) :
    k.get? p = h.get? p := by
  induction hs with
  | nil => rfl
  | cons sa _ ih =>
    obtain ⟨_, _, _, f, _⟩ := step_local sa (fun _ _ _ => rfl)
    rw [ih fun a ha => hp a (List.mem_cons_of_mem _ ha), f p (.inl (hp _ (List.mem_cons_self ..)))]

/-- **C117, one thread alone.** A thread that shares no changing memory with the others does alone what it does among them: its calls return
the same, its reads read the same, and what it uses is the same afterwards. -/
theorem C117_alone {t : List (Nat × Act)} {h h' : Heap} (hr : RaceFree t) (ht : Act.Steps h (t.map Prod.snd) h') (i : Nat) :
    ∃ k, Act.Steps h ((t.filter fun a => a.1 == i).map Prod.snd) k ∧
      ∀ a ∈ t, a.1 = i → ∀ p ∈ a.2.uses, p ≠ 0 → k.get? p = h'.get? p := by
  have hsame : SameThreads t ((t.filter fun a => a.1 == i) ++ t.filter fun a => !(a.1 == i)) := by
    intro j
    rw [List.filter_append, List.filter_filter, List.filter_filter]
    by_cases hj : j = i
    · subst hj
      simp only [Bool.and_self, Bool.and_not_self, List.filter_false, List.append_nil]
    · have h1 : (fun a : Nat × Act => a.1 == j && a.1 == i) = fun _ => false := by
        funext a
        by_cases ha : a.1 = j
        · simp [ha, hj]
        · simp [ha]
      have h2 : (fun a : Nat × Act => a.1 == j && !(a.1 == i)) = fun a => a.1 == j := by
        funext a
        by_cases ha : a.1 = j
        · simp [ha, hj]
        · simp [ha]
      rw [h1, h2, List.filter_false, List.nil_append]
  obtain ⟨m, hm, he⟩ := C117_schedules hr hsame ht
  rw [List.map_append] at hm
  obtain ⟨k, h1, h2⟩ := steps_append hm
  refine ⟨k, h1, fun a ha hai p hp h0 => ?_⟩
  rw [← he]
  refine (steps_unchanged h2 fun b hb hc => ?_).symm
  rw [List.mem_map] at hb
  obtain ⟨c, hc1, rfl⟩ := hb
  rw [List.mem_filter] at hc1
  have hne : a.1 ≠ c.1 := by
    intro e
    have := hc1.2
    rw [← e, hai] at this
    simp at this
  exact ((raceFree_pairs hr ha hc1.1 hne) p h0).2 hc hp

/-- Threads that run alone can be interleaved. -/
theorem interleave {t : List (Nat × Act)} : ∀ {g : Heap} {M : Nat → Heap}, RaceFree t →
    (∀ i, ∃ k, Act.Steps (M i) ((t.filter fun a => a.1 == i).map Prod.snd) k) →
    (∀ a ∈ t, ∀ p ∈ a.2.uses, p ≠ 0 → g.get? p = (M a.1).get? p) → ∃ g', Act.Steps g (t.map Prod.snd) g' := by
  induction t with
  | nil => intro g M _ _ _; exact ⟨g, .nil⟩
  | cons a t ih =>
    intro g M hr hM hg
    obtain ⟨k, hk⟩ := hM a.1
    rw [List.filter_cons_of_pos (by simp), List.map_cons] at hk
    cases hk with
    | @cons _ _ m _ _ sa hk =>
      obtain ⟨g1, s1, e1, e2, e3⟩ := step_local (h' := g) sa (fun p hp hu => hg a (List.mem_cons_self ..) p hu hp)
      obtain ⟨hr1, hr2⟩ := List.pairwise_cons.1 hr
      obtain ⟨g', hg'⟩ := ih (g := g1) (M := Function.update M a.1 m) hr2 (by
          intro i
          by_cases hi : i = a.1
          · subst hi
            rw [Function.update_self]
            exact ⟨k, hk⟩
          · rw [Function.update_of_ne hi]
            have := hM i
            rwa [List.filter_cons_of_neg (by simp [Ne.symm hi])] at this) (by
          intro b hb p hp h0
          have hgb := hg b (List.mem_cons_of_mem _ hb) p hp h0
          by_cases hi : b.1 = a.1
          · rw [hi, Function.update_self]
            by_cases hc : p ∈ a.2.changes
            · exact e1 p h0 hc
            · rw [e3 p (.inl hc), e2 p (.inl hc), hgb, hi]
          · rw [Function.update_of_ne hi]
            have hc : p ∉ a.2.changes := fun hc => (hr1 b hb (Ne.symm hi) p h0).1 hc hp
            rw [e3 p (.inl hc), hgb])
      exact ⟨g', .cons s1 hg'⟩

/-- **C117, threads and program.** Race-free threads can be interleaved in a given way iff each of them can run alone. -/
theorem C117_threads {t : List (Nat × Act)} {h : Heap} (hr : RaceFree t) : (∃ h', Act.Steps h (t.map Prod.snd) h') ↔
    ∀ i, ∃ k, Act.Steps h ((t.filter fun a => a.1 == i).map Prod.snd) k :=
  ⟨fun ⟨_, ht⟩ i => (C117_alone hr ht i).imp fun _ h => h.1, fun hk => interleave hr hk fun _ _ _ _ _ => rfl⟩

example : RaceFree exT ∧ (∃ h', Act.Steps exH (exT.map Prod.snd) h') ∧
    ((exT.filter fun a => a.1 == 1).map Prod.snd).length = 5 := ⟨exT_raceFree, exT_steps, rfl⟩

end Verif.Props
