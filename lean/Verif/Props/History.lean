import Verif.Spec.History
import Verif.Props.Edits

/-!
# What a history of edits comes to: C128
-/

namespace Verif.Props
open Verif Spec

theorem hist_addEdge (a : AGraph) (u v : Nat) :
    (a.addEdge u v).undirected = a.undirected ∧
    (∀ x y, (x, y) ∈ (a.addEdge u v).E ↔ PutsEdge a.undirected u v x y ∨ (x, y) ∈ a.E) ∧
    (∀ k, k < (a.addEdge u v).n ↔ k < a.n ∨ (u < 2 ^ 64 - 1 ∧ v < 2 ^ 64 - 1 ∧ (k ≤ u ∨ k ≤ v))) := by
  unfold AGraph.addEdge
  split
  · next h =>
    refine ⟨rfl, fun x y => ?_, fun k => ?_⟩
    · simp only [Finset.mem_union]
      rw [or_comm]
      refine or_congr_left ?_
      unfold PutsEdge
      cases a.undirected <;> simp [h.1, h.2]
    · simp only
      omega
  · next h =>
    refine ⟨rfl, fun x y => ?_, fun k => ?_⟩
    · unfold PutsEdge
      constructor
      · exact .inr
      · rintro (⟨h1, h2, _⟩ | h1)
        · exact absurd ⟨h1, h2⟩ h
        · exact h1
    · constructor
      · exact .inl
      · rintro (h1 | ⟨h1, h2, _⟩)
        · exact h1
        · exact absurd ⟨h1, h2⟩ h

theorem hist_addAll (v : Nat) (ts : List Nat) (a : AGraph) :
    (ts.foldl (fun a t => a.addEdge v t) a).undirected = a.undirected ∧
    (∀ x y, (x, y) ∈ (ts.foldl (fun a t => a.addEdge v t) a).E ↔ (∃ t ∈ ts, PutsEdge a.undirected v t x y) ∨ (x, y) ∈ a.E) ∧
    (∀ k, k < (ts.foldl (fun a t => a.addEdge v t) a).n ↔
      k < a.n ∨ ∃ t ∈ ts, v < 2 ^ 64 - 1 ∧ t < 2 ^ 64 - 1 ∧ (k ≤ v ∨ k ≤ t)) := by
  induction ts generalizing a with
  | nil => simp
  | cons t ts ih =>
    obtain ⟨h1, h2, h3⟩ := hist_addEdge a v t
    obtain ⟨i1, i2, i3⟩ := ih (a.addEdge v t)
    rw [List.foldl_cons]
    refine ⟨i1.trans h1, fun x y => ?_, fun k => ?_⟩
    · rw [i2, h2, h1]
      simp only [List.mem_cons, exists_eq_or_imp]
      rw [or_left_comm, or_assoc]
    · rw [i3, h3]
      simp only [List.mem_cons, exists_eq_or_imp]
      rw [or_assoc]

theorem hist_apply (a : AGraph) (e : Edit) :
    (a.applyActual e).undirected = a.undirected ∧
    (∀ x y, (x, y) ∈ (a.applyActual e).E ↔
      e.Puts a.undirected x y ∨ ((x, y) ∈ a.E ∧ ¬ e.Takes a.undirected x y)) ∧
    (∀ k, k < (a.applyActual e).n ↔ k < a.n ∨ ∃ m, e.Ensures m ∧ k ≤ m) := by
  cases e with
  | addEdge u v =>
    obtain ⟨h1, h2, h3⟩ := hist_addEdge a u v
    refine ⟨h1, fun x y => ?_, fun k => ?_⟩
    · show (x, y) ∈ (a.addEdge u v).E ↔ _
      rw [h2]
      simp [Edit.Puts, Edit.Takes]
    · show k < (a.addEdge u v).n ↔ _
      rw [h3]
      refine or_congr_right ⟨?_, ?_⟩
      · rintro ⟨h4, h5, h6 | h6⟩
        · exact ⟨u, ⟨h4, h5, .inl rfl⟩, h6⟩
        · exact ⟨v, ⟨h4, h5, .inr rfl⟩, h6⟩
      · rintro ⟨m, ⟨h4, h5, rfl | rfl⟩, h6⟩
        · exact ⟨h4, h5, .inl h6⟩
        · exact ⟨h4, h5, .inr h6⟩
  | deleteEdge u v =>
    refine ⟨rfl, fun x y => ?_, fun k => ?_⟩
    · show (x, y) ∈ Finset.filter _ a.E ↔ _
      simp [Edit.Puts, Edit.Takes]
    · simp [Edit.Ensures, AGraph.applyActual, AGraph.deleteEdge]
  | addVertex v ts =>
    show (a.addVertexActual v ts).undirected = _ ∧ _
    simp only [AGraph.applyActual]
    unfold AGraph.addVertexActual
    split
    · next ht =>
      unfold AGraph.ensureVertex
      refine ⟨by split <;> rfl, fun x y => ?_, fun k => ?_⟩
      · have : (x, y) ∈ (if v < 2 ^ 64 - 1 then { a with n := max a.n (v + 1) } else a).E ↔ (x, y) ∈ a.E := by split <;> rfl
        rw [this]
        simp [Edit.Puts, Edit.Takes, ht]
      · simp only [Edit.Ensures, ht, true_and, List.not_mem_nil, false_and, exists_false, or_false]
        split
        · next hv =>
          simp only
          constructor
          · intro h
            by_cases hk : k < a.n
            · exact .inl hk
            · exact .inr ⟨v, ⟨hv, rfl⟩, by omega⟩
          · rintro (h | ⟨m, ⟨_, rfl⟩, h⟩) <;> omega
        · next hv =>
          constructor
          · exact .inl
          · rintro (h | ⟨m, ⟨h, _⟩, _⟩)
            · exact h
            · exact absurd h hv
    · next ht =>
      obtain ⟨h1, h2, h3⟩ := hist_addAll v (ts.getD []) a
      refine ⟨h1, fun x y => ?_, fun k => ?_⟩
      · rw [h2]
        simp [Edit.Puts, Edit.Takes]
      · rw [h3]
        refine or_congr_right ⟨?_, ?_⟩
        · rintro ⟨t, h4, h5, h6, h7 | h7⟩
          · exact ⟨v, ⟨h5, .inr ⟨t, h4, h6, .inl rfl⟩⟩, h7⟩
          · exact ⟨t, ⟨h5, .inr ⟨t, h4, h6, .inr rfl⟩⟩, h7⟩
        · rintro ⟨m, ⟨h4, ⟨h5, _⟩ | ⟨t, h5, h6, rfl | rfl⟩⟩, h7⟩
          · exact absurd h5 ht
          · exact ⟨t, h5, h4, h6, .inl h7⟩
          · exact ⟨m, h5, h4, h6, .inr h7⟩

/-- **C128.** What one edit does: it puts edges in, takes edges out, makes sure of vertices, and nothing else. -/
theorem C128_edit (g : Graph) (e : Edit) :
    (e.call g).isUndirected = g.isUndirected ∧
    (∀ x y, (e.call g).doesEdgeExist x y = true ↔
      e.Puts g.isUndirected x y ∨ (g.doesEdgeExist x y = true ∧ ¬ e.Takes g.isUndirected x y)) ∧
    (∀ k, k < (e.call g).vertexCount ↔ k < g.vertexCount ∨ ∃ m, e.Ensures m ∧ k ≤ m) := by
  have ha := Graph.abs_call g e
  obtain ⟨h1, h2, h3⟩ := hist_apply g.abs e
  rw [← ha] at h1 h2 h3
  refine ⟨h1, fun x y => ?_, h3⟩
  rw [Graph.doesEdgeExist_iff, Graph.doesEdgeExist_iff]
  exact h2 x y

/-- A history leaves the direction as it is. -/
theorem hist_direction (h : List Edit) (g : Graph) : (h.foldl Edit.call g).isUndirected = g.isUndirected := by
  induction h generalizing g with
  | nil => rfl
  | cons e h ih => exact (ih _).trans (C128_edit g e).1

/-- **C128.** After any history of edits, an edge exists exactly if some edit put it in and no later edit took it out, or if it was there
before and no edit took it out. -/
theorem C128_last_edit (g : Graph) (h : List Edit) (x y : Nat) :
    (h.foldl Edit.call g).doesEdgeExist x y = true ↔
      (∃ before e after, h = before ++ e :: after ∧ e.Puts g.isUndirected x y ∧ ∀ f ∈ after, ¬ f.Takes g.isUndirected x y) ∨
      (g.doesEdgeExist x y = true ∧ ∀ f ∈ h, ¬ f.Takes g.isUndirected x y) := by
  induction h generalizing g with
  | nil => simp
  | cons e h ih =>
    obtain ⟨h1, h2, _⟩ := C128_edit g e
    rw [List.foldl_cons, ih, h2, h1]
    constructor
    · rintro (⟨b, f, a, rfl, h3, h4⟩ | ⟨h3 | ⟨h3, h4⟩, h5⟩)
      · exact .inl ⟨e :: b, f, a, rfl, h3, h4⟩
      · exact .inl ⟨[], e, h, rfl, h3, h5⟩
      · exact .inr ⟨h3, fun f hf => (List.mem_cons.1 hf).elim (fun e => e ▸ h4) (h5 f)⟩
    · rintro (⟨b, f, a, h3, h4, h5⟩ | ⟨h3, h4⟩)
      · cases b with
        | nil =>
          injection h3 with h3 h6
          subst h3 h6
          exact .inr ⟨.inl h4, h5⟩
        | cons e' b =>
          injection h3 with h3 h6
          subst h6
          exact .inl ⟨b, f, a, rfl, h4, h5⟩
      · exact .inr ⟨.inr ⟨h3, h4 e List.mem_cons_self⟩, fun f hf => h4 f (List.mem_cons_of_mem _ hf)⟩

/-- Put in, taken out, put in again: the last edit of an undirected graph is the one that counts. -/
example : ([.addEdge 1 2, .deleteEdge 2 1, .addVertex 2 (some [1, 5]), .deleteEdge 5 2] : List Edit).foldl Edit.call exU |>.doesEdgeExist 1 2 := by
  rw [C128_last_edit]
  exact .inl ⟨[.addEdge 1 2, .deleteEdge 2 1], .addVertex 2 (some [1, 5]), [.deleteEdge 5 2], rfl,
    ⟨1, by simp, by decide, by decide, .inr ⟨rfl, rfl, rfl⟩⟩, by simp [Edit.Takes]⟩

/-- **C128.** After any history of edits there are the vertices from before and those that some edit made sure of, with all smaller ids;
the order of the edits and deleted edges play no part. -/
theorem C128_vertex_count (g : Graph) (h : List Edit) (k : Nat) :
    k < (h.foldl Edit.call g).vertexCount ↔ k < g.vertexCount ∨ ∃ e ∈ h, ∃ m, e.Ensures m ∧ k ≤ m := by
  induction h generalizing g with
  | nil => simp
  | cons e h ih =>
    rw [List.foldl_cons, ih, (C128_edit g e).2.2]
    simp only [List.mem_cons, exists_eq_or_imp]
    rw [or_assoc]

theorem greach_call {g : Graph} (hg : GReach g) (e : Edit) : GReach (e.call g) := by
  cases e with
  | addVertex v ts => exact .addVertex v ts hg
  | addEdge u v => exact .addEdge u v hg
  | deleteEdge u v => exact .deleteEdge u v hg

theorem greach_history {g : Graph} (hg : GReach g) (h : List Edit) : GReach (h.foldl Edit.call g) := by
  induction h generalizing g with
  | nil => exact hg
  | cons e h ih => exact ih (greach_call hg e)

/-- Graphs with the same direction, vertices and edges cannot be told apart. -/
theorem same_of_lt {g g' : Graph} (hg : GReach g) (hg' : GReach g') (hd : g.isUndirected = g'.isUndirected)
    (hv : ∀ k, k < g.vertexCount ↔ k < g'.vertexCount) (he : ∀ x y, g.doesEdgeExist x y = true ↔ g'.doesEdgeExist x y = true) :
    Same g g' := by
  refine Graph.same hg.ok hg'.ok hd ?_ ?_
  · have h1 := hv g.vertexCount
    have h2 := hv g'.vertexCount
    omega
  · ext ⟨x, y⟩
    rw [← Graph.doesEdgeExist_iff, ← Graph.doesEdgeExist_iff]
    exact he x y

/-- **C128.** Two edits can be exchanged exactly if neither puts an edge in that the other takes out, whatever the graph. -/
theorem C128_commute {g : Graph} (hg : GReach g) (e f : Edit) :
    Same (f.call (e.call g)) (e.call (f.call g)) ↔ ¬ Conflict g.isUndirected e f := by
  obtain ⟨e1, e2, e3⟩ := C128_edit g e
  obtain ⟨f1, f2, f3⟩ := C128_edit g f
  obtain ⟨ef1, ef2, ef3⟩ := C128_edit (e.call g) f
  obtain ⟨fe1, fe2, fe3⟩ := C128_edit (f.call g) e
  have excl : ∀ (d : Edit) (u : Bool) (x y : Nat), d.Puts u x y → ¬ d.Takes u x y := by
    intro d u x y h
    cases d with
    | deleteEdge => exact h.elim
    | _ => exact id
  constructor
  · rintro hs ⟨x, y, ⟨h1, h2⟩ | ⟨h1, h2⟩⟩
    · have h3 : (e.call (f.call g)).doesEdgeExist x y = true := (fe2 x y).2 (.inl (by rw [f1]; exact h1))
      rw [← hs.edge, ef2, e1] at h3
      rcases h3 with h3 | ⟨_, h3⟩
      · exact excl _ _ _ _ h3 h2
      · exact h3 h2
    · have h3 : (f.call (e.call g)).doesEdgeExist x y = true := (ef2 x y).2 (.inl (by rw [e1]; exact h2))
      rw [hs.edge, fe2, f1] at h3
      rcases h3 with h3 | ⟨_, h3⟩
      · exact excl _ _ _ _ h3 h1
      · exact h3 h1
  · intro hc
    refine same_of_lt (greach_call (greach_call hg e) f) (greach_call (greach_call hg f) e) (by rw [ef1, e1, fe1, f1]) (fun k => ?_)
      (fun x y => ?_)
    · rw [ef3, e3, fe3, f3]
      exact or_right_comm
    · rw [ef2, e2, fe2, f2, e1, f1]
      have h1 : ¬ (e.Puts g.isUndirected x y ∧ f.Takes g.isUndirected x y) := fun h => hc ⟨x, y, .inl h⟩
      have h2 : ¬ (e.Takes g.isUndirected x y ∧ f.Puts g.isUndirected x y) := fun h => hc ⟨x, y, .inr h⟩
      tauto

/-- Adding and deleting the same undirected edge, named in the two possible ways, cannot be exchanged; different edges can. -/
example : GReach exU ∧ Conflict true (.addEdge 1 2) (.deleteEdge 2 1) ∧ ¬ Conflict true (.addEdge 1 2) (.deleteEdge 2 3) ∧
    ¬ Conflict false (.addEdge 1 2) (.deleteEdge 2 1) := by
  refine ⟨exU_reach, ⟨1, 2, .inl ⟨⟨by decide, by decide, .inl ⟨rfl, rfl⟩⟩, .inr ⟨rfl, rfl, rfl⟩⟩⟩, ?_, ?_⟩
  · rintro ⟨x, y, ⟨⟨_, _, h⟩, h'⟩ | ⟨_, h⟩⟩
    · simp only [Edit.Takes, true_and] at h h'
      omega
    · exact h.elim
  · rintro ⟨x, y, ⟨⟨_, _, h⟩, h'⟩ | ⟨_, h⟩⟩
    · simp only [Edit.Takes, Bool.false_eq_true, false_and, or_false] at h h'
      omega
    · exact h.elim

/-- **C128.** A history without conflicts gives the same graph in any order, and however often each edit is repeated. -/
theorem C128_any_order {g : Graph} (hg : GReach g) (h h' : List Edit) (hm : ∀ e, e ∈ h ↔ e ∈ h')
    (hc : ∀ e ∈ h, ∀ f ∈ h, ¬ Conflict g.isUndirected e f) : Same (h.foldl Edit.call g) (h'.foldl Edit.call g) := by
  refine same_of_lt (greach_history hg h) (greach_history hg h') (by rw [hist_direction, hist_direction]) (fun k => ?_) (fun x y => ?_)
  · rw [C128_vertex_count, C128_vertex_count]
    simp only [hm]
  · have key : ∀ h'' : List Edit, (∀ e, e ∈ h ↔ e ∈ h'') → ((h''.foldl Edit.call g).doesEdgeExist x y = true ↔
        (∃ e ∈ h, e.Puts g.isUndirected x y) ∨ (g.doesEdgeExist x y = true ∧ ∀ f ∈ h, ¬ f.Takes g.isUndirected x y)) := by
      intro h'' hm
      rw [C128_last_edit]
      refine or_congr ?_ (by simp only [hm])
      constructor
      · rintro ⟨b, e, a, rfl, h1, _⟩
        exact ⟨e, (hm e).2 (by simp), h1⟩
      · rintro ⟨e, h1, h2⟩
        obtain ⟨b, a, rfl⟩ := List.append_of_mem ((hm e).1 h1)
        exact ⟨b, e, a, rfl, h2, fun f hf h3 => hc e h1 f ((hm f).2 (by simp [hf])) ⟨x, y, .inl ⟨h2, h3⟩⟩⟩
    rw [key h fun _ => Iff.rfl, key h' hm]

/-- The same edits in another order, one of them twice. -/
example : let h : List Edit := [.addEdge 1 2, .deleteEdge 4 4, .addVertex 9 none]
    let h' : List Edit := [.addVertex 9 none, .deleteEdge 4 4, .addEdge 1 2, .deleteEdge 4 4]
    (∀ e, e ∈ h ↔ e ∈ h') ∧ ∀ e ∈ h, ∀ f ∈ h, ¬ Conflict true e f := by
  refine ⟨fun e => by simp only [List.mem_cons, List.not_mem_nil, or_false]; tauto, ?_⟩
  intro e he f hf
  simp only [List.mem_cons, List.not_mem_nil, or_false] at he hf
  rintro ⟨x, y, ⟨h1, h2⟩ | ⟨h1, h2⟩⟩ <;> rcases he with rfl | rfl | rfl <;> rcases hf with rfl | rfl | rfl <;>
    simp [Edit.Puts, Edit.Takes, PutsEdge] at h1 h2 <;> omega

/-- **C128.** An edit changes nothing exactly if what it puts in is there, what it takes out is not, and the vertices it makes sure of
exist. -/
theorem C128_no_effect {g : Graph} (hg : GReach g) (e : Edit) : Same (e.call g) g ↔
    (∀ x y, e.Puts g.isUndirected x y → g.doesEdgeExist x y = true) ∧
    (∀ x y, e.Takes g.isUndirected x y → g.doesEdgeExist x y = false) ∧
    (∀ m, e.Ensures m → m < g.vertexCount) := by
  obtain ⟨h1, h2, h3⟩ := C128_edit g e
  constructor
  · intro hs
    refine ⟨fun x y hp => ?_, fun x y ht => ?_, fun m hm => ?_⟩
    · rw [← hs.edge]; exact (h2 x y).2 (.inl hp)
    · by_contra hx
      rw [Bool.not_eq_false] at hx
      have h4 := hx
      rw [← hs.edge, h2] at h4
      rcases h4 with h4 | ⟨_, h4⟩
      · cases e with
        | deleteEdge => exact h4.elim
        | _ => exact ht.elim
      · exact h4 ht
    · rw [← hs.vertexCount]; exact (h3 m).2 (.inr ⟨m, hm, le_rfl⟩)
  · rintro ⟨hp, ht, hm⟩
    refine same_of_lt (greach_call hg e) hg h1 (fun k => ?_) (fun x y => ?_)
    · rw [h3]
      constructor
      · rintro (h | ⟨m, h4, h5⟩)
        · exact h
        · have := hm m h4; omega
      · exact .inl
    · rw [h2]
      constructor
      · rintro (h | ⟨h, _⟩)
        · exact hp x y h
        · exact h
      · intro h
        refine .inr ⟨h, fun h4 => ?_⟩
        rw [ht x y h4] at h; cases h

/-- **C128.** Doing an edit twice is doing it once. -/
theorem C128_twice {g : Graph} (hg : GReach g) (e : Edit) : Same (e.call (e.call g)) (e.call g) := by
  obtain ⟨h1, h2, h3⟩ := C128_edit g e
  rw [C128_no_effect (greach_call hg e), h1]
  refine ⟨fun x y h => (h2 x y).2 (.inl h), fun x y h => ?_, fun m h => (h3 m).2 (.inr ⟨m, h, le_rfl⟩)⟩
  by_contra hx
  rw [Bool.not_eq_false, h2] at hx
  rcases hx with hx | ⟨_, hx⟩
  · cases e with
    | deleteEdge => exact hx.elim
    | _ => exact h.elim
  · exact hx h

theorem takes_puts (u : Bool) (a b x y : Nat) : (Edit.addEdge a b).Puts u x y ↔
    (a < 2 ^ 64 - 1 ∧ b < 2 ^ 64 - 1) ∧ (Edit.deleteEdge a b).Takes u x y := by
  simp only [Edit.Puts, Edit.Takes, PutsEdge, and_assoc]

/-- An edge that `delete_edge(u, v)` takes out exists only with `(u, v)`, and only with usable ids. -/
theorem takes_exist {g : Graph} (hg : GReach g) {u v x y : Nat} (ht : (Edit.deleteEdge u v).Takes g.isUndirected x y) :
    g.doesEdgeExist x y = g.doesEdgeExist u v := by
  rcases ht with ⟨rfl, rfl⟩ | ⟨h, rfl, rfl⟩
  · rfl
  · exact C04_undirected_symmetric hg h _ _

/-- **C128.** When deleting undoes adding: exactly if the edge was not there and both vertices existed (or an id is unusable and there is
nothing to undo). -/
theorem C128_undo_add {g : Graph} (hg : GReach g) (u v : Nat) : Same ((g.addEdge u v).deleteEdge u v) g ↔
    ¬ (u < 2 ^ 64 - 1 ∧ v < 2 ^ 64 - 1) ∨ (g.doesEdgeExist u v = false ∧ u < g.vertexCount ∧ v < g.vertexCount) := by
  obtain ⟨a1, a2, a3⟩ := C128_edit g (.addEdge u v)
  obtain ⟨d1, d2, d3⟩ := C128_edit (g.addEdge u v) (.deleteEdge u v)
  have hr : GReach ((g.addEdge u v).deleteEdge u v) := .deleteEdge _ _ (.addEdge _ _ hg)
  constructor
  · intro hs
    by_cases hu : u < 2 ^ 64 - 1 ∧ v < 2 ^ 64 - 1
    · right
      have hk : ∀ k, (k = u ∨ k = v) → k < g.vertexCount := by
        intro k hk
        rw [← hs.vertexCount]
        exact (d3 k).2 (.inl ((a3 k).2 (.inr ⟨k, ⟨hu.1, hu.2, hk⟩, le_rfl⟩)))
      refine ⟨?_, hk u (.inl rfl), hk v (.inr rfl)⟩
      rw [← hs.edge]
      by_contra hx
      rw [Bool.not_eq_false] at hx
      rcases (d2 u v).1 hx with hx | ⟨_, hx⟩
      · exact hx
      · exact hx (.inl ⟨rfl, rfl⟩)
    · exact .inl hu
  · intro h
    refine same_of_lt hr hg (d1.trans a1) (fun k => ?_) (fun x y => ?_)
    · refine (d3 k).trans ?_
      rw [show (g.addEdge u v).vertexCount = ((Edit.addEdge u v).call g).vertexCount from rfl, a3]
      constructor
      · rintro ((h1 | ⟨m, ⟨h1, h2, h3⟩, h4⟩) | ⟨m, h1, _⟩)
        · exact h1
        · rcases h with h | ⟨_, h5, h6⟩
          · exact absurd ⟨h1, h2⟩ h
          · rcases h3 with rfl | rfl <;> omega
        · exact h1.elim
      · exact fun h => .inl (.inl h)
    · refine (d2 x y).trans ?_
      rw [show (g.addEdge u v).isUndirected = g.isUndirected from a1,
        show (g.addEdge u v).doesEdgeExist x y = ((Edit.addEdge u v).call g).doesEdgeExist x y from rfl, a2, takes_puts]
      constructor
      · rintro (h1 | ⟨⟨_, h1⟩ | ⟨h1, _⟩, h2⟩)
        · exact h1.elim
        · exact absurd h1 h2
        · exact h1
      · intro h1
        refine .inr ⟨.inr ⟨h1, id⟩, fun h2 => ?_⟩
        rw [takes_exist hg h2] at h1
        rcases h with h | ⟨h, _⟩
        · have h3 := (C03_range hg).1 _ _ h1
          have h4 : g.vertexCount ≤ 2 ^ 64 - 1 := hg.ok.wf.dim
          exact absurd ⟨by omega, by omega⟩ h
        · rw [h] at h1; cases h1

/-- **C128.** When adding undoes deleting: exactly if the edge was there (or an id is unusable). -/
theorem C128_undo_delete {g : Graph} (hg : GReach g) (u v : Nat) : Same ((g.deleteEdge u v).addEdge u v) g ↔
    ¬ (u < 2 ^ 64 - 1 ∧ v < 2 ^ 64 - 1) ∨ g.doesEdgeExist u v = true := by
  obtain ⟨a1, a2, a3⟩ := C128_edit (g.deleteEdge u v) (.addEdge u v)
  obtain ⟨d1, d2, d3⟩ := C128_edit g (.deleteEdge u v)
  have hr : GReach ((g.deleteEdge u v).addEdge u v) := .addEdge _ _ (.deleteEdge _ _ hg)
  constructor
  · intro hs
    by_cases hu : u < 2 ^ 64 - 1 ∧ v < 2 ^ 64 - 1
    · right
      rw [← hs.edge]
      exact (a2 u v).2 (.inl ⟨hu.1, hu.2, .inl ⟨rfl, rfl⟩⟩)
    · exact .inl hu
  · intro h
    refine same_of_lt hr hg (a1.trans d1) (fun k => ?_) (fun x y => ?_)
    · refine (a3 k).trans ?_
      rw [show (g.deleteEdge u v).vertexCount = ((Edit.deleteEdge u v).call g).vertexCount from rfl, d3]
      constructor
      · rintro ((h1 | ⟨m, h1, _⟩) | ⟨m, ⟨h1, h2, h3⟩, h4⟩)
        · exact h1
        · exact h1.elim
        · rcases h with h | h
          · exact absurd ⟨h1, h2⟩ h
          · have := (C03_range hg).1 _ _ h
            rcases h3 with rfl | rfl <;> omega
      · exact fun h => .inl (.inl h)
    · refine (a2 x y).trans ?_
      rw [show (g.deleteEdge u v).isUndirected = g.isUndirected from d1,
        show (g.deleteEdge u v).doesEdgeExist x y = ((Edit.deleteEdge u v).call g).doesEdgeExist x y from rfl, d2, takes_puts]
      constructor
      · rintro (⟨hu, h1⟩ | ⟨h1 | ⟨h1, _⟩, _⟩)
        · rw [takes_exist hg h1]
          exact h.resolve_left (fun h => h hu)
        · exact h1.elim
        · exact h1
      · intro h1
        by_cases h2 : (Edit.deleteEdge u v).Takes g.isUndirected x y
        · have h3 := h1
          rw [takes_exist hg h2] at h3
          have h4 := (C03_range hg).1 _ _ h3
          have h5 : g.vertexCount ≤ 2 ^ 64 - 1 := hg.ok.wf.dim
          exact .inl ⟨⟨by omega, by omega⟩, h2⟩
        · exact .inr ⟨.inr ⟨h1, h2⟩, id⟩

/-- Both sides of both rules occur: an edge that is there, one that is not, and a vertex that does not exist. -/
example : GReach exU ∧ exU.doesEdgeExist 1 2 = true ∧ exU.doesEdgeExist 0 0 = false ∧ 0 < exU.vertexCount ∧ ¬ 100 < exU.vertexCount :=
  ⟨exU_reach, by decide, by decide, by decide, by decide⟩

end Verif.Props
