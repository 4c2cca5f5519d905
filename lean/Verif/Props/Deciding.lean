import Verif.Spec.Deciding
import Verif.Props.COrders

/-!
# C programs that decide by what they see: C120, C136
-/

namespace Verif.Props
open Verif Spec

/-- What is seen when a program ends by itself. -/
def IsEnd : Obs → Bool
  | .undefined | .aborted => true
  | _ => false

theorem seen_not_end (v : Val) : IsEnd (seen v) = false := by
  cases v <;> unfold seen <;> first | rfl | (simp only; split <;> rfl)

/-- The program has ended iff this is seen. -/
theorem step_end (E : Ctx) (ν : List Ptr) (h : Heap) (c : Cmd) : IsEnd (c.step E ν h).1 = (c.step E ν h).2.isNone := by
  cases c with
  | call c =>
    simp only [Cmd.step]
    cases (c.mapPtr (addr ν)).exec E h with
    | ok v h' => exact seen_not_end v
    | ub => rfl
    | abort => rfl
  | own x => simp only [Cmd.step]; split <;> rfl
  | set n x =>
    simp only [Cmd.step]
    split
    · split <;> rfl
    · rfl
  | drop n =>
    simp only [Cmd.step]
    split
    · split <;> rfl
    · rfl
  | read n =>
    simp only [Cmd.step]
    split
    · split <;> rfl
    · rfl
  | same i j => rfl

/-- A run sees what its commands see. -/
theorem run_observe (s : Decider) (E : Nat → Ctx) (n : Nat) : ∀ (ν : List Ptr) (h : Heap) (sn : List Obs),
    observe E ν h ((s.run E ν h sn n).map Prod.fst) = (s.run E ν h sn n).map Prod.snd := by
  induction n with
  | zero => intros; rfl
  | succ n ih =>
    intro ν h sn
    unfold Decider.run
    cases s sn with
    | none => rfl
    | some c =>
      simp only
      cases hc : c.step (E ν.length) ν h with
      | mk o r =>
        cases r with
        | none => simp only [List.map_cons, List.map_nil, observe, hc]
        | some r =>
          simp only [List.map_cons, observe, hc]
          rw [ih]

/-- If the commands of one run see things in relation in another environment, and the program does not decide by the difference, then
the other environment leads to the same commands. -/
theorem run_transfer {R : Obs → Obs → Prop} (hR : ∀ o o', R o o' → IsEnd o = IsEnd o') {s : Decider}
    (hs : ∀ l l', List.Forall₂ R l l' → s l = s l') {E F : Nat → Ctx} (n : Nat) :
    ∀ {ν ν' : List Ptr} {h h' : Heap} {sn sn' : List Obs}, List.Forall₂ R sn sn' →
      List.Forall₂ R (observe E ν h ((s.run E ν h sn n).map Prod.fst)) (observe F ν' h' ((s.run E ν h sn n).map Prod.fst)) →
      List.Forall₂ (fun x y => x.1 = y.1 ∧ R x.2 y.2) (s.run E ν h sn n) (s.run F ν' h' sn' n) := by
  induction n with
  | zero => intros; exact .nil
  | succ n ih =>
    intro ν ν' h h' sn sn' hsn hf
    unfold Decider.run at hf ⊢
    rw [← hs sn sn' hsn]
    cases hsc : s sn with
    | none => exact .nil
    | some c =>
      simp only [hsc] at hf ⊢
      have hE := step_end (E ν.length) ν h c
      have hF := step_end (F ν'.length) ν' h' c
      cases hc : c.step (E ν.length) ν h with
      | mk o r =>
        cases hc' : c.step (F ν'.length) ν' h' with
        | mk o' r' =>
          rw [hc] at hE
          rw [hc'] at hF
          cases r with
          | none =>
            cases r' with
            | none =>
              simp only [hc, List.map_cons, List.map_nil, observe, hc'] at hf
              cases hf with
              | cons h1 _ => exact .cons ⟨rfl, h1⟩ .nil
            | some r' =>
              simp only [hc, List.map_cons, List.map_nil, observe, hc'] at hf
              cases hf with
              | cons h1 _ =>
                have := hR _ _ h1
                rw [hE, hF] at this
                cases this
          | some r =>
            cases r' with
            | none =>
              simp only [hc, List.map_cons, observe, hc'] at hf
              cases hf with
              | cons h1 _ =>
                have := hR _ _ h1
                rw [hE, hF] at this
                cases this
            | some r' =>
              simp only [hc, List.map_cons, observe, hc'] at hf
              cases hf with
              | cons h1 h2 => exact .cons ⟨rfl, h1⟩ (ih (List.rel_append hsn (.cons h1 .nil)) h2)

theorem forall₂_same {l l' : List (Cmd × Obs)} (h : List.Forall₂ (fun x y => x.1 = y.1 ∧ x.2 = y.2) l l') : l = l' := by
  induction h with
  | nil => rfl
  | cons h _ ih => rw [ih, Prod.ext h.1 h.2]

/-- **C120, programs with loops and branches.** A program that decides by all that it has seen what to do next, and that uses nothing after
freeing it, does the same and sees the same with any two allocators. -/
theorem C120_programs {E F : Nat → Ctx} (hE : ∀ k, (F k).P = (E k).P ∧ (F k).o₁ = (E k).o₁ ∧ (F k).o₂ = (E k).o₂) (s : Decider) (n : Nat)
    (hu : NoUseAfterFree (s.commands E n)) : s.play E n = s.play F n := by
  refine forall₂_same (run_transfer (R := Eq) (fun o o' h => by rw [h]) (fun l l' h => ?_) n .nil ?_)
  · rw [List.forall₂_eq_eq_eq] at h; rw [h]
  · have := C120_addresses hE hu
    unfold Decider.commands Decider.play at this
    rw [← this]
    rw [List.forall₂_eq_eq_eq]

theorem obsAlike_end {o o' : Obs} (h : ObsAlike o o') : IsEnd o = IsEnd o' := by
  rcases h with rfl | ⟨x, x', rfl, rfl, -⟩
  · rfl
  · rfl

/-- **C136, programs with loops and branches.** A program whose decisions do not depend on the order of the lists and of the records of files that it
sees does the same with any two hash orders and allocators, and sees the same except for that order. -/
theorem C136_programs {E F : Nat → Ctx} (hE : ∀ k, (F k).P = (E k).P ∧ Ordinary (E k).P) {s : Decider}
    (hs : ∀ l l', List.Forall₂ ObsAlike l l' → s l = s l') (n : Nat) (hu : NoUseAfterFree (s.commands E n))
    (hr : ∀ i (c : Cmd), (s.commands E n)[i]? = some c → c.Reasonable (E i).P) (hw : WholeLists E [] HMap.empty (s.commands E n)) :
    List.Forall₂ (fun x y => x.1 = y.1 ∧ ObsAlike x.2 y.2) (s.play E n) (s.play F n) :=
  run_transfer (fun _ _ => obsAlike_end) hs n .nil (C136_orders hE hu hr hw)

/-! ### Examples -/

/-- A graph is made, and edges `0 → 0`, `0 → 1`, `1 → 2`, … are added until it has `m` vertices. -/
def exGrow (m : Nat) : Decider := fun seen =>
  match seen.getLast? with
  | none => some (.call .newDirected)
  | some (.num k) => if k < m then some (.call (.addEdge 0 (k - 1) k)) else none
  | some _ => some (.call (.vertexCount 0))

example : ((exGrow 3).play (fun _ => exE) 20).length = 8 := by decide +kernel

example : NoUseAfterFree ((exGrow 3).commands (fun _ => exE) 20) := by unfold NoUseAfterFree; decide +kernel

theorem exGrow_decides (m : Nat) : ∀ l l', List.Forall₂ ObsAlike l l' → exGrow m l = exGrow m l' := by
  intro l l' h
  unfold exGrow
  have key : (l.getLast? = none ∧ l'.getLast? = none) ∨ ∃ o o', l.getLast? = some o ∧ l'.getLast? = some o' ∧ ObsAlike o o' := by
    induction h with
    | nil => exact .inl ⟨rfl, rfl⟩
    | @cons a b l l' h1 h2 ih =>
      rcases ih with ⟨e, e'⟩ | ⟨o, o', e, e', ho⟩
      · rw [List.getLast?_eq_none_iff] at e e'
        subst e e'
        exact .inr ⟨a, b, rfl, rfl, h1⟩
      · refine .inr ⟨o, o', ?_, ?_, ho⟩
        · rw [List.getLast?_cons, e]; rfl
        · rw [List.getLast?_cons, e']; rfl
  rcases key with ⟨e, e'⟩ | ⟨o, o', e, e', rfl | ⟨x, x', rfl, rfl, -⟩⟩
  · rw [e, e']
  · rw [e, e']
  · rw [e, e']

example : WholeLists (fun _ => exE) [] HMap.empty ((exGrow 3).commands (fun _ => exE) 20) := wholeB_sound (by decide +kernel)

end Verif.Props
