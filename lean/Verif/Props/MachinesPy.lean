import Verif.Spec.MachinesPy
import Verif.Props.Machines
import Verif.Props.MachinesC
import Verif.Props.Py

/-!
# C125: Python programs on larger machines
-/

namespace Verif.Props
open Verif Spec

/-- What a program sees of an outcome. -/
def Sees : AStep → Seen → AWorld → Prop
  | .ret v a, s, a' => s = .value v ∧ a' = a
  | .raises e a, s, a' => s = .exception e ∧ a' = a
  | .panics, _, _ => False

theorem made_carries {α : Type} {f : α → AObj} {r r' : Res α} (hc : Carries r r') {a a' : AWorld} {i : Nat} {s : Seen}
    (h : Sees ((AOut.made f r).apply a i) s a') : Sees ((AOut.made f r').apply a i) s a' := by
  cases r with
  | ok x => rw [hc x rfl]; exact h
  | err e => exact absurd h id
  | panic => exact absurd h id

theorem text_carries {r r' : Res (List Char)} (hc : Carries r r') {a a' : AWorld} {i : Nat} {s : Seen}
    (hs : ∀ e, s ≠ .exception e) (h : Sees ((AOut.text r).apply a i) s a') : Sees ((AOut.text r').apply a i) s a' := by
  cases r with
  | ok x => rw [hc x rfl]; exact h
  | err e => exact absurd h.1 (hs _)
  | panic => exact absurd h id

theorem bytes_carries {r r' : Res Bytes} (hc : Carries r r') {a a' : AWorld} {i : Nat} {s : Seen}
    (hs : s ≠ .value (.bytes [])) (h : Sees ((AOut.bytes r).apply a i) s a') : Sees ((AOut.bytes r').apply a i) s a' := by
  cases r with
  | ok x => rw [hc x rfl]; exact h
  | err e => exact absurd h.1 hs
  | panic => exact absurd h id

theorem decoded_carries {α : Type} {f : α → AObj} {r r' : Res α} (hc : Carries r r') {a a' : AWorld} {i : Nat} {s : Seen}
    (hs : ∀ e, s ≠ .exception e) (h : Sees ((AOut.decoded f r).apply a i) s a') :
    Sees ((AOut.decoded f r').apply a i) s a' := by
  cases r with
  | ok x => rw [hc x rfl]; exact h
  | err e => exact absurd h.1 (hs _)
  | panic => exact absurd h id

theorem toSize_same {P : Platform} {d : Int} (h0 : 0 ≤ d) (h1 : d ≤ P.usizeMax) : toSize P d = d.toNat := by
  unfold toSize
  rw [Int.emod_eq_of_lt h0 (by omega)]

/-- One step of a Python program on a larger machine. -/
theorem py_follows {E : Ctx} {P' : Platform} (L : Larger E.P P') {a a' : AWorld} (ha : ∀ x, some x ∈ a → GoodObj x) {c : PyCall}
    {s : Seen} (hf : ¬ PyFailed c s) (hp : PyPrintable E.P c) (h : Sees (pyStep E c a) s a') :
    Sees (pyStep (E.on P') c a) s a' := by
  have hU := L.usize
  cases c with
  | newGraph u => exact h
  | graphFromBytes b => exact decoded_carries (L.graph_decode b) (by rintro e rfl; exact hf trivial) h
  | cgraphFromBytes b => exact decoded_carries (L.compressed_decode b) (by rintro e rfl; exact hf trivial) h
  | collect i => exact h
  | call i m =>
    simp only [pyStep] at h ⊢
    cases hx : a[i]?.join with
    | none => simp only [hx] at h ⊢; exact h
    | some x =>
      simp only [hx] at h ⊢
      have hgood : GoodObj x := by
        rw [Option.join_eq_some_iff] at hx
        exact ha x (List.mem_of_getElem? hx)
      cases x with
      | graph g =>
        cases m
        case bytes => exact bytes_carries (L.graph_bytes _ _) (by rintro rfl; exact hf rfl) h
        case matrixString => exact text_carries (L.matrixText _) (by rintro e rfl; exact hf trivial) h
        case findAvgPoolMatrix b => exact made_carries (L.pool _ _ _) h
        case approximate b t => exact made_carries (L.approximate _ _ _ _ _) h
        case compress l => exact made_carries (L.compress _ _ _ _) h
        all_goals exact h
      | cgraph g =>
        cases m
        case bytes => exact bytes_carries (L.compressed_bytes _ _) (by rintro rfl; exact hf rfl) h
        case matrixString =>
          exact text_carries ((C125_partial L hp E.o₁ E.o₂).2.2.2.2.2 hp g hgood) (by rintro e rfl; exact hf trivial) h
        case decompress => exact made_carries (L.decompress _ _) h
        all_goals exact h
      | matrix m' =>
        obtain ⟨g, Q, o, b, hg, hm⟩ := hgood
        cases m
        case str =>
          obtain ⟨h2, hw⟩ := hp
          refine text_carries (r := m'.toStringWithPrecision E.P f64Fmt E.o₁ E.o₂ (toSize E.P 2))
            (r' := m'.toStringWithPrecision P' f64Fmt E.o₁ E.o₂ (toSize P' 2)) ?_ (by rintro e rfl; exact hf trivial) h
          rw [toSize_same (by omega) (by omega), toSize_same (by omega) (by omega)]
          exact (C125_partial L hw E.o₁ E.o₂).1 g hg Q o b m' hm
        case toString d =>
          obtain ⟨h0, h2, hw⟩ := hp
          refine text_carries (r := m'.toStringWithPrecision E.P f64Fmt E.o₁ E.o₂ (toSize E.P d))
            (r' := m'.toStringWithPrecision P' f64Fmt E.o₁ E.o₂ (toSize P' d)) ?_ (by rintro e rfl; exact hf trivial) h
          rw [toSize_same h0 h2, toSize_same h0 (by omega)]
          exact (C125_partial L hw E.o₁ E.o₂).1 g hg Q o b m' hm
        all_goals exact h
      | edges l => cases m <;> exact h
      | vertices l => cases m <;> exact h
      | entries l => cases m <;> exact h
      | iter l p => cases m <;> exact h

/-- **C125, Python programs.** A program in which the library did not fail sees the same values and exceptions on a larger
machine. Every call may be made on a machine of its own, as long as the new one is larger than all of them. -/
theorem C125_python {t : List (Ctx × PyCall × Seen)} {w : PyWorld} (r : PyRun PyWorld.start t w) {P' : Platform}
    (ht : ∀ s ∈ t, Larger s.1.P P' ∧ ¬ PyFailed s.2.1 s.2.2 ∧ PyPrintable s.1.P s.2.1) :
    ∃ w', PyRun PyWorld.start (t.map (pyOn P')) w' := by
  obtain ⟨a, ha⟩ := (C72_traces t).1 ⟨w, r⟩
  rw [C72_traces]
  refine ⟨a, ?_⟩
  have key : ∀ {b a : AWorld} {t : List (Ctx × PyCall × Seen)}, ARun b t a → (∀ x, some x ∈ b → GoodObj x) →
      (∀ s ∈ t, Larger s.1.P P' ∧ ¬ PyFailed s.2.1 s.2.2 ∧ PyPrintable s.1.P s.2.1) → ARun b (t.map (pyOn P')) a := by
    intro b a t h
    induction h with
    | nil => intro _ _; exact .nil
    | @ret a a' a'' E c v t h1 _ ih =>
      intro hg ht
      obtain ⟨L, hf, hp⟩ := ht _ (List.mem_cons_self ..)
      have hs := py_follows L hg (a' := a') hf hp (by rw [h1]; exact ⟨rfl, rfl⟩)
      refine .ret (a' := a') ?_ (ih (good_step hg (.inl ⟨_, h1⟩)) fun s hs => ht s (List.mem_cons_of_mem _ hs))
      cases hp : pyStep (E.on P') c a with
      | ret v' b => rw [hp] at hs; obtain ⟨e1, e2⟩ := hs; cases e1; rw [e2]
      | raises e b => rw [hp] at hs; exact absurd hs.1 (by simp)
      | panics => rw [hp] at hs; exact absurd hs id
    | @raises a a' a'' E c e t h1 _ ih =>
      intro hg ht
      obtain ⟨L, hf, hp⟩ := ht _ (List.mem_cons_self ..)
      have hs := py_follows L hg (a' := a') hf hp (by rw [h1]; exact ⟨rfl, rfl⟩)
      refine .raises (a' := a') ?_ (ih (good_step hg (.inr ⟨_, h1⟩)) fun s hs => ht s (List.mem_cons_of_mem _ hs))
      cases hp : pyStep (E.on P') c a with
      | ret v' b => rw [hp] at hs; exact absurd hs.1 (by simp)
      | raises e' b => rw [hp] at hs; obtain ⟨e1, e2⟩ := hs; cases e1; rw [e2]
      | panics => rw [hp] at hs; exact absurd hs id
  exact key ha (by simp) ht

/-- On a 32-bit machine a program creates a graph, adds an edge, saves it and asks for an object that does not exist. -/
example : ∃ t w, PyRun PyWorld.start t w ∧ t.length = 4 ∧
    ∀ s ∈ t, Larger s.1.P big64 ∧ ¬ PyFailed s.2.1 s.2.2 ∧ PyPrintable s.1.P s.2.1 := by
  let E : Ctx := exE.on small32
  have hk : okAnd ((Graph.newDirected.addEdge 0 1).toBytes small32 .id) (fun b => b.length != 0) := by decide +kernel
  obtain ⟨b, hb, hb0⟩ := okAnd_elim hk
  have h : ∃ a, ARun [] [(E, .newGraph false, .value (.ref 0)), (E, .call 0 (.addEdge 0 1), .value .none),
      (E, .call 0 .bytes, .value (.bytes b)), (E, .call 7 .len, .exception .NameError)] a :=
    ⟨_, .ret rfl (.ret rfl (.ret (a' := [some (.graph (Graph.newDirected.addEdge 0 1))]) (by
      show (AOut.bytes ((Graph.newDirected.addEdge 0 1).toBytes small32 .id)).apply
        [some (.graph (Graph.newDirected.addEdge 0 1))] 0 = _
      rw [hb]; rfl) (.raises rfl .nil)))⟩
  rw [← C72_traces] at h
  obtain ⟨w, hw⟩ := h
  refine ⟨_, w, hw, rfl, ?_⟩
  intro s hs
  simp only [List.mem_cons, List.not_mem_nil, or_false] at hs
  rcases hs with rfl | rfl | rfl | rfl <;> refine ⟨small_big, ?_, trivial⟩
  · exact id
  · exact id
  · rintro rfl
    simp at hb0
  · exact id

end Verif.Props
