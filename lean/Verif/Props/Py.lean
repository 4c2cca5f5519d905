import Verif.Lemmas.PySim
import Verif.Props.FloatText
import Verif.Props.Strings

/-!
# C63, C64, C72–C77: the Python wrapper
-/

namespace Verif.Props
open Verif Spec

/-! ## C72: Python objects are independent values -/

theorem arun_unique {a b b' : AWorld} {t} (h : ARun a t b) (h' : ARun a t b') : b = b' := by
  induction h with
  | nil => cases h'; rfl
  | ret h1 _ ih =>
    cases h' with
    | ret h2 h3 => rw [h1] at h2; cases h2; exact ih h3
  | raises h1 _ ih =>
    cases h' with
    | raises h2 h3 => rw [h1] at h2; cases h2; exact ih h3

theorem sim_start : Sim PyWorld.start.mem.get? PyWorld.start.objs [] := by
  refine ⟨rfl, ?_, ?_, ?_⟩
  · intro i o x h; simp [PyWorld.start] at h
  · intro i j o o' p h; simp [PyWorld.start] at h
  · intro p y h; simp [PyWorld.start] at h

/-- The simulation along a run. -/
theorem sim_run {w w' : PyWorld} {a : AWorld} {t} (hr : PyRun w t w') (s : Sim w.mem.get? w.objs a) :
    ∃ a', ARun a t a' ∧ Sim w'.mem.get? w'.objs a' := by
  induction hr generalizing a with
  | nil => exact ⟨a, .nil, s⟩
  | @ok w w' w'' E c v t he _ ih =>
    have := agree_step E c s
    rw [show PyWorld.mk w.mem w.objs = w from rfl, he] at this
    generalize hp : pyStep E c a = q at this
    cases this with
    | ret s' =>
      obtain ⟨a', h1, h2⟩ := ih s'
      exact ⟨a', .ret hp h1, h2⟩
  | @raised w w' w'' E c e t he _ ih =>
    have := agree_step E c s
    rw [show PyWorld.mk w.mem w.objs = w from rfl, he] at this
    generalize hp : pyStep E c a = q at this
    cases this with
    | raises s' =>
      obtain ⟨a', h1, h2⟩ := ih s'
      exact ⟨a', .raises hp h1, h2⟩

theorem sim_run' {w : PyWorld} {a a' : AWorld} {t} (hr : ARun a t a') (s : Sim w.mem.get? w.objs a) :
    ∃ w', PyRun w t w' := by
  induction hr generalizing w with
  | nil => exact ⟨w, .nil⟩
  | @ret a a' a'' E c v t he _ ih =>
    have := agree_step E c s
    rw [show PyWorld.mk w.mem w.objs = w from rfl, he] at this
    generalize hp : w.exec E c = q at this
    cases this with
    | ret s' =>
      obtain ⟨w', h1⟩ := ih s'
      exact ⟨w', .ok hp h1⟩
  | @raises a a' a'' E c e t he _ ih =>
    have := agree_step E c s
    rw [show PyWorld.mk w.mem w.objs = w from rfl, he] at this
    generalize hp : w.exec E c = q at this
    cases this with
    | raises s' =>
      obtain ⟨w', h1⟩ := ih s'
      exact ⟨w', .raised hp h1⟩

theorem reached_sim {t} {w : PyWorld} {a : AWorld} (h : Reached t w a) : Sim w.mem.get? w.objs a := by
  obtain ⟨a', h1, h2⟩ := sim_run h.run sim_start
  rw [arun_unique h.vals h1]; exact h2

theorem reached_agree {t} {w : PyWorld} {a : AWorld} (h : Reached t w a) (E : Ctx) (c : PyCall) :
    Agree (w.exec E c) (pyStep E c a) := agree_step E c (reached_sim h)

/-- **C72.** What a Python program can see is exactly what it would see if the objects were plain values: the same calls with the same
results and exceptions, and no others. -/
theorem C72_traces (t : List (Ctx × PyCall × Seen)) : (∃ w, PyRun PyWorld.start t w) ↔ ∃ a, ARun [] t a := by
  constructor
  · rintro ⟨w, h⟩
    obtain ⟨a, ha, _⟩ := sim_run h sim_start
    exact ⟨a, ha⟩
  · rintro ⟨a, h⟩
    exact sim_run' h sim_start

/-- **C72.** The values of the objects are determined by the calls and results alone. -/
theorem C72_determined {t} {w : PyWorld} (h : PyRun PyWorld.start t w) : ∃! a, ARun [] t a := by
  obtain ⟨a, ha, _⟩ := sim_run h sim_start
  exact ⟨a, ha, fun b hb => arun_unique hb ha⟩

/-- **C72.** No program can reach undefined behaviour: no use after free, no double free, no wrong length, no access outside of a
buffer, whatever is called on whatever object in whatever order and whenever objects are collected. -/
theorem C72_no_undefined {t} {w : PyWorld} (h : PyRun PyWorld.start t w) (E : Ctx) (c : PyCall) : w.exec E c ≠ .ub := by
  obtain ⟨a, ha, s⟩ := sim_run h sim_start
  have := agree_step E c s
  intro e
  rw [show PyWorld.mk w.mem w.objs = w from rfl, e] at this
  cases this

/-- **C72.** The interpreter is aborted exactly if the Rust code panics. -/
theorem C72_abort_iff {t} {w : PyWorld} {a : AWorld} (h : Reached t w a) (E : Ctx) (c : PyCall) :
    w.exec E c = .abort ↔ pyStep E c a = .panics := by
  have := reached_agree h E c
  constructor
  · intro e
    rw [e] at this
    generalize pyStep E c a = q at this
    cases this; rfl
  · intro e
    rw [e] at this
    generalize w.exec E c = q at this
    cases this; rfl

/-- **C72.** Everything in memory belongs to exactly one live Python object. -/
theorem C72_owned_once {t} {w : PyWorld} (h : PyRun PyWorld.start t w) (p : Ptr) (y : Obj) (hp : w.mem.get? p = some y) :
    ∃! i : Nat, ∃ o : PyObj, w.objs[i]? = some (some o) ∧ o.owned = some p := by
  obtain ⟨a, ha, s⟩ := sim_run h sim_start
  obtain ⟨i, o, h1, h2⟩ := s.noleak p y hp
  refine ⟨i, ⟨o, h1, h2⟩, ?_⟩
  rintro j ⟨o', h3, h4⟩
  exact s.distinct j i o' o p h3 h1 h4 h2

/-- **C72.** When all objects have been collected, no memory is left. -/
theorem C72_no_leak {t} {w : PyWorld} (h : PyRun PyWorld.start t w) (hc : ∀ o ∈ w.objs, o = none) (p : Ptr) :
    w.mem.get? p = none := by
  cases hp : w.mem.get? p with
  | none => rfl
  | some y =>
    obtain ⟨i, ⟨o, h1, _⟩, _⟩ := C72_owned_once h p y hp
    cases hc _ (List.mem_of_getElem? h1)

/-- A step changes at most the object it is about. -/
theorem pyStep_other {E : Ctx} {c : PyCall} {a a' : AWorld} {i : Nat} (hi : i < a.length) (h1 : ∀ m, c ≠ .call i m)
    (h2 : c ≠ .collect i) (h : (∃ v, pyStep E c a = .ret v a') ∨ ∃ e, pyStep E c a = .raises e a') : a'[i]? = a[i]? := by
  have happ : ∀ (o : AOut) (j : Nat), j ≠ i → ((∃ v, o.apply a j = .ret v a') ∨ ∃ e, o.apply a j = .raises e a') →
      a'[i]? = a[i]? := by
    intro o j hj h
    cases o with
    | val v | raises e =>
      rcases h with ⟨_, h⟩ | ⟨_, h⟩ <;> cases h <;> rfl
    | new x =>
      rcases h with ⟨_, h⟩ | ⟨_, h⟩ <;> cases h
      rw [List.getElem?_append_left hi]
    | step x v =>
      rcases h with ⟨_, h⟩ | ⟨_, h⟩ <;> cases h
      rw [List.getElem?_set, if_neg hj]
    | panics => rcases h with ⟨_, h⟩ | ⟨_, h⟩ <;> cases h
  cases c with
  | newGraph u => exact happ (.new _) a.length (by omega) h
  | graphFromBytes b => exact happ (.decoded _ _) a.length (by omega) h
  | cgraphFromBytes b => exact happ (.decoded _ _) a.length (by omega) h
  | call j m =>
    have hj : j ≠ i := by rintro rfl; exact h1 m rfl
    simp only [pyStep] at h
    cases ha : a[j]?.join with
    | none =>
      simp only [ha] at h
      rcases h with ⟨_, h⟩ | ⟨_, h⟩ <;> cases h; rfl
    | some x =>
      simp only [ha] at h
      exact happ _ j hj h
  | collect j =>
    have hj : j ≠ i := by rintro rfl; exact h2 rfl
    simp only [pyStep] at h
    cases ha : a[j]?.join with
    | none =>
      simp only [ha] at h
      rcases h with ⟨_, h⟩ | ⟨_, h⟩ <;> cases h; rfl
    | some x =>
      simp only [ha] at h
      split at h
      · rcases h with ⟨_, h⟩ | ⟨_, h⟩ <;> cases h; rfl
      · rcases h with ⟨_, h⟩ | ⟨_, h⟩ <;> cases h
        rw [List.getElem?_set, if_neg hj]

theorem arun_append {a b : AWorld} {t t' : List (Ctx × PyCall × Seen)} :
    ARun a (t ++ t') b ↔ ∃ c, ARun a t c ∧ ARun c t' b := by
  constructor
  · intro h
    induction t generalizing a with
    | nil => exact ⟨a, .nil, h⟩
    | cons s t ih =>
      cases h with
      | ret h1 h2 => obtain ⟨c, h3, h4⟩ := ih h2; exact ⟨c, .ret h1 h3, h4⟩
      | raises h1 h2 => obtain ⟨c, h3, h4⟩ := ih h2; exact ⟨c, .raises h1 h3, h4⟩
  · rintro ⟨c, h1, h2⟩
    induction h1 with
    | nil => exact h2
    | ret h3 _ ih => exact .ret h3 (ih h2)
    | raises h3 _ ih => exact .raises h3 (ih h2)

theorem pyrun_append {a b c : PyWorld} {t t' : List (Ctx × PyCall × Seen)} (h1 : PyRun a t c) (h2 : PyRun c t' b) :
    PyRun a (t ++ t') b := by
  induction h1 with
  | nil => exact h2
  | ok h3 _ ih => exact .ok h3 (ih h2)
  | raised h3 _ ih => exact .raised h3 (ih h2)

/-- A step on values that returns is a step of the program. -/
theorem reached_ret {t} {w : PyWorld} {a : AWorld} (h : Reached t w a) {E : Ctx} {c : PyCall} {v : PyVal} {a' : AWorld}
    (hp : pyStep E c a = .ret v a') :
    ∃ w', w.exec E c = .ok v w' ∧ Reached (t ++ [(E, c, .value v)]) w' a' := by
  have := reached_agree h E c
  rw [hp] at this
  generalize hw : w.exec E c = q at this
  cases this with
  | @ret _ w' _ s =>
    exact ⟨w', rfl, pyrun_append h.run (.ok hw .nil), arun_append.2 ⟨a, h.vals, .ret hp .nil⟩⟩

theorem reached_raises {t} {w : PyWorld} {a : AWorld} (h : Reached t w a) {E : Ctx} {c : PyCall} {e : PyExc} {a' : AWorld}
    (hp : pyStep E c a = .raises e a') :
    ∃ w', w.exec E c = .raised e w' ∧ Reached (t ++ [(E, c, .exception e)]) w' a' := by
  have := reached_agree h E c
  rw [hp] at this
  generalize hw : w.exec E c = q at this
  cases this with
  | @raises _ w' _ s =>
    exact ⟨w', rfl, pyrun_append h.run (.raised hw .nil), arun_append.2 ⟨a, h.vals, .raises hp .nil⟩⟩

theorem reached_of_arun {t} {a : AWorld} (h : ARun [] t a) : ∃ w, Reached t w a := by
  obtain ⟨w, hw⟩ := (C72_traces t).2 ⟨a, h⟩
  exact ⟨w, hw, h⟩

/-- A method call on values. -/
theorem pyStep_call {E : Ctx} {a : AWorld} {i : Nat} {x : AObj} (hi : a[i]? = some (some x)) (m : Method) :
    pyStep E (.call i m) a = (x.means E a i m).apply a i := by
  simp only [pyStep, hi, Option.join_some]

/-- Collecting an object that no iterator uses. -/
theorem pyStep_collect {E : Ctx} {a : AWorld} {i : Nat} {x : AObj} (hi : a[i]? = some (some x)) (hn : ¬ a.iterated i) :
    pyStep E (.collect i) a = .ret .none (a.set i none) := by
  simp only [pyStep, hi, Option.join_some]
  rw [if_neg hn]

/-- A program for examples: a graph with two edges and the list of its edges. -/
def exPyG : Graph := (Graph.newDirected.addEdge 1 2).addEdge 0 1

def exPyT : List (Ctx × PyCall × Seen) :=
  [(exE, .newGraph false, .value (.ref 0)), (exE, .call 0 (.addEdge 1 2), .value .none),
    (exE, .call 0 (.addEdge 0 1), .value .none), (exE, .call 0 .edgeList, .value (.ref 1))]

def exPyA : AWorld := [some (.graph exPyG), some (.edges [(0, 1), (1, 2)])]

theorem exPyItems : exPyG.items exE.o₁ = [(0, 1), (1, 2)] := by
  show exPyG.items .id = _
  decide +kernel

theorem exPy_arun : ARun [] exPyT exPyA := by
  have h : ARun [] exPyT [some (.graph exPyG), some (.edges (exPyG.items exE.o₁))] :=
    .ret rfl (.ret rfl (.ret rfl (.ret rfl .nil)))
  rw [exPyItems] at h
  exact h

theorem exPy_reached : ∃ w, Reached exPyT w exPyA := reached_of_arun exPy_arun

/-- Collecting everything: the list first stays because of an iterator, then goes. -/
example : ∃ a, ARun exPyA [(exE, .call 1 .iter, .value (.ref 2)), (exE, .collect 0, .value .none),
    (exE, .call 2 .next, .value (.edge 0 1))] a := by
  refine ⟨_, .ret rfl (.ret (a' := [none, some (.edges [(0, 1), (1, 2)]), some (.iter 1 0)]) ?_ (.ret rfl .nil))⟩
  refine pyStep_collect rfl ?_
  rintro ⟨pos, h⟩
  simp [exPyA] at h

/-- A program that has collected all its objects. -/
example : ∃ w, PyRun PyWorld.start [(exE, .newGraph true, .value (.ref 0)), (exE, .collect 0, .value .none)] w ∧
    ∀ o ∈ w.objs, o = none := by
  refine ⟨_, .ok rfl (.ok rfl .nil), ?_⟩
  intro o ho
  change o ∈ [none] at ho
  simpa using ho

/-! ## C63: indices -/

theorem means_getitem {E : Ctx} {a : AWorld} {i : Nat} {x : AObj} {xs : List PyVal} (hx : x.items = some xs) (idx : Int) :
    x.means E a i (.getitem idx) = .item xs idx := by
  cases x <;> first | (cases hx; rfl) | cases hx

/-- `l[idx]` behaves like indexing of Python sequences: the right element, or `IndexError`. -/
def IndexedLike (t : List (Ctx × PyCall × Seen)) (w : PyWorld) (a : AWorld) (E : Ctx) (i : Nat) (xs : List PyVal) (idx : Int) :
    Prop :=
  match pyIndex xs idx with
  | some v => ∃ w', w.exec E (.call i (.getitem idx)) = .ok v w' ∧ Reached (t ++ [(E, .call i (.getitem idx), .value v)]) w' a
  | none => ∃ w', w.exec E (.call i (.getitem idx)) = .raised .IndexError w' ∧
      Reached (t ++ [(E, .call i (.getitem idx), .exception .IndexError)]) w' a

/-- **C63 (full statement).** The lists of the module can be indexed like Python sequences. -/
def C63_full : Prop :=
  ∀ t w a, Reached t w a → ∀ (i : Nat) (x : AObj) (xs : List PyVal), a[i]? = some (some x) → x.items = some xs →
    ∀ E idx, IndexedLike t w a E i xs idx

/-- The full statement is false: in a list of two edges, `l[-2]` is the last edge instead of the first. -/
theorem C63_full_false : ¬ C63_full := by
  intro hfull
  obtain ⟨w, hw⟩ := exPy_reached
  have h := hfull _ _ _ hw 1 (.edges [(0, 1), (1, 2)]) _ rfl rfl exE (-2)
  have hp : pyStep exE (.call 1 (.getitem (-2))) exPyA = .ret (.edge 1 2) exPyA := rfl
  obtain ⟨w', hw', _⟩ := reached_ret hw hp
  unfold IndexedLike at h
  rw [show pyIndex _ (-2) = some (.edge 0 1) from rfl] at h
  obtain ⟨w'', hw'', _⟩ := h
  rw [hw'] at hw''
  cases hw''

/-- **C63 (partial: indices above `-len`).** Non-negative indices give that element or `IndexError`, and `l[-k]` is the
`k`-th element from the end for `1 ≤ k < len`. -/
theorem C63_index_partial {t} {w : PyWorld} {a : AWorld} (h : Reached t w a) {i : Nat} {x : AObj} {xs : List PyVal}
    (hi : a[i]? = some (some x)) (hx : x.items = some xs) (E : Ctx) (idx : Int) (hidx : -(xs.length : Int) < idx) :
    IndexedLike t w a E i xs idx := by
  have hp := pyStep_call (E := E) hi (.getitem idx)
  rw [means_getitem hx] at hp
  unfold AOut.item at hp
  unfold IndexedLike pyIndex
  by_cases h0 : 0 ≤ idx
  · rw [if_pos h0]
    by_cases h1 : (xs.length : Int) ≤ idx
    · rw [if_pos h1] at hp
      rw [List.getElem?_eq_none (by omega)]
      exact reached_raises h hp
    · rw [if_neg h1, if_pos h0] at hp
      have hlt : idx.toNat < xs.length := by omega
      rw [List.getElem?_eq_getElem hlt] at hp ⊢
      exact reached_ret h hp
  · have h2 : ¬ (xs.length : Int) ≤ idx := by omega
    rw [if_neg h0, if_pos (by omega)]
    rw [if_neg h2, if_neg h0, if_neg (by omega)] at hp
    have hmod : idx.natAbs % xs.length = idx.natAbs := Nat.mod_eq_of_lt (by omega)
    have hk : xs.length - max (idx.natAbs % xs.length) 1 = (xs.length + idx).toNat := by rw [hmod]; omega
    rw [hk] at hp
    have hlt : (xs.length + idx).toNat < xs.length := by omega
    rw [List.getElem?_eq_getElem hlt] at hp ⊢
    exact reached_ret h hp

/-- **C63.** What happens for the other indices: `l[-len]` is the last element, like every multiple of the length; an empty list
raises `ZeroDivisionError`; no index below `-len` raises `IndexError`. -/
theorem C63_below {t} {w : PyWorld} {a : AWorld} (h : Reached t w a) {i : Nat} {x : AObj} {xs : List PyVal}
    (hi : a[i]? = some (some x)) (hx : x.items = some xs) (E : Ctx) :
    (xs = [] → ∀ idx < 0, ∃ w', w.exec E (.call i (.getitem idx)) = .raised .ZeroDivisionError w') ∧
    (∀ v, xs.getLast? = some v → ∀ k : Nat, 0 < k →
      ∃ w', w.exec E (.call i (.getitem (-(k * xs.length : Nat)))) = .ok v w') ∧
    (xs ≠ [] → ∀ idx ≤ -(xs.length : Int), ∃ v ∈ xs, ∃ w', w.exec E (.call i (.getitem idx)) = .ok v w') := by
  refine ⟨?_, ?_, ?_⟩
  · rintro rfl idx hneg
    have hp := pyStep_call (E := E) hi (.getitem idx)
    rw [means_getitem hx] at hp
    unfold AOut.item at hp
    rw [if_neg (by simpa using hneg), if_neg (by omega), if_pos List.length_nil] at hp
    obtain ⟨w', hw', _⟩ := reached_raises h hp
    exact ⟨w', hw'⟩
  · intro v hv k hk
    have hne : xs ≠ [] := by rintro rfl; cases hv
    have hpos : 0 < xs.length := List.length_pos_iff.2 hne
    have hkl : 0 < k * xs.length := Nat.mul_pos hk hpos
    have hp := pyStep_call (E := E) hi (.getitem (-(k * xs.length : Nat)))
    rw [means_getitem hx] at hp
    unfold AOut.item at hp
    have hmod : (-((k * xs.length : Nat) : Int)).natAbs % xs.length = 0 := by
      rw [Int.natAbs_neg, Int.natAbs_natCast, Nat.mul_mod_left]
    rw [if_neg (by omega), if_neg (by omega), if_neg (by omega), hmod] at hp
    rw [List.getLast?_eq_getElem?] at hv
    rw [show max 0 1 = 1 from rfl, hv] at hp
    obtain ⟨w', hw', _⟩ := reached_ret h hp
    exact ⟨w', hw'⟩
  · intro hne idx hidx
    have hpos : 0 < xs.length := List.length_pos_iff.2 hne
    have hp := pyStep_call (E := E) hi (.getitem idx)
    rw [means_getitem hx] at hp
    unfold AOut.item at hp
    rw [if_neg (by omega), if_neg (by omega), if_neg (by omega)] at hp
    have hlt : xs.length - max (idx.natAbs % xs.length) 1 < xs.length := by omega
    rw [List.getElem?_eq_getElem hlt] at hp
    obtain ⟨w', hw', _⟩ := reached_ret h hp
    exact ⟨_, List.getElem_mem hlt, w', hw'⟩

/-- The list objects of a program show their elements. -/
theorem py_list {t} {w : PyWorld} {a : AWorld} (h : Reached t w a) {i : Nat} {x : AObj} {xs : List PyVal}
    (hi : a[i]? = some (some x)) (hx : x.items = some xs) : PyList w i xs where
  len E := by
    have hp := pyStep_call (E := E) hi .len
    rw [show x.means E a i .len = .val (.int xs.length) by cases x <;> first | (cases hx; rfl) | cases hx] at hp
    obtain ⟨w', hw', _⟩ := reached_ret h hp
    exact ⟨w', hw'⟩
  item E k v hv := by
    have := C63_index_partial h hi hx E k (by have := (List.getElem?_eq_some_iff.1 hv).1; omega)
    unfold IndexedLike pyIndex at this
    rw [if_pos (by omega), Int.toNat_natCast, hv] at this
    obtain ⟨w', hw', _⟩ := this
    exact ⟨w', hw'⟩

theorem py_shows {t} {w : PyWorld} {a : AWorld} (h : Reached t w a) {i : Nat} {c : CGraph}
    (hi : a[i]? = some (some (.cgraph c))) : PyShows w i c := by
  have hval : ∀ E m v, (AObj.cgraph c).means E a i m = .val v → ∃ w', w.exec E (.call i m) = .ok v w' := by
    intro E m v hm
    have hp := pyStep_call (E := E) hi m
    rw [hm] at hp
    obtain ⟨w', hw', _⟩ := reached_ret h hp
    exact ⟨w', hw'⟩
  exact ⟨fun E => hval E _ _ rfl, fun E => hval E _ _ rfl, fun E => hval E _ _ rfl, fun E => hval E _ _ rfl,
    fun E u v => hval E _ _ rfl, fun E x y => hval E _ _ rfl⟩

theorem last_some {a : AWorld} {x : AObj} : (a ++ [some x])[a.length]? = some (some x) := by
  rw [List.getElem?_append_right (Nat.le_refl _), Nat.sub_self]; rfl

/-- The hypotheses of C63 hold for the edge list of a graph with two edges. -/
example : ∃ w, Reached exPyT w exPyA ∧ exPyA[1]? = some (some (.edges [(0, 1), (1, 2)])) ∧
    (AObj.edges [(0, 1), (1, 2)]).items = some [.edge 0 1, .edge 1 2] ∧ pyIndex [.edge 0 1, .edge 1 2] (-1) = some (.edge 1 2) :=
  exPy_reached.imp fun _ h => ⟨h, rfl, rfl, rfl⟩

/-! ## Objects of a program are built with the public interface -/

/-- Values that can be reached through the Rust interface. -/
def GoodObj : AObj → Prop
  | .graph g => GReach g
  | .cgraph g => CReach g
  | .matrix m => ∃ (g : Graph) (P : Platform) (o : HashOrder) (b : Nat), GReach g ∧ g.findAvgPoolMatrix P o b = .ok m
  | _ => True

theorem good_made {α : Type} {f : α → AObj} {r : Res α} {y : AObj} (h : AOut.made f r = .new y) : ∃ a, r = .ok a ∧ y = f a := by
  cases r with
  | ok a => cases h; exact ⟨a, rfl, rfl⟩
  | err | panic => cases h

theorem text_new {r : Res (List Char)} {y : AObj} (h : AOut.text r = .new y) : False := by
  unfold AOut.text at h
  split at h
  · split at h <;> cases h
  · cases h
  · cases h

theorem text_step {r : Res (List Char)} {y : AObj} {v} (h : AOut.text r = .step y v) : False := by
  unfold AOut.text at h
  split at h
  · split at h <;> cases h
  · cases h
  · cases h

theorem bytes_new {r : Res Bytes} {y : AObj} (h : AOut.bytes r = .new y) : False := by
  unfold AOut.bytes at h; split at h <;> cases h

theorem item_new {l : List PyVal} {idx : Int} {y : AObj} (h : AOut.item l idx = .new y) : False := by
  unfold AOut.item at h
  split at h
  · cases h
  · split at h
    · cases hl : l[idx.toNat]? <;> rw [hl] at h <;> cases h
    · split at h
      · cases h
      · cases hl : l[l.length - max (idx.natAbs % l.length) 1]? <;> rw [hl] at h <;> cases h

theorem good_new {E : Ctx} {a : AWorld} {i : Nat} {x y : AObj} {m : Method} (hx : GoodObj x)
    (h : x.means E a i m = .new y) : GoodObj y := by
  cases x with
  | graph g =>
    cases m <;> simp only [AObj.means, AObj.items] at h <;> first | cases h | skip
    case bytes => exact (bytes_new h).elim
    case matrixString => exact (text_new h).elim
    case duplicate.refl => exact hx
    case findAvgPoolMatrix b =>
      obtain ⟨m, h1, rfl⟩ := good_made h
      exact ⟨g, _, _, _, hx, h1⟩
    case approximate b t =>
      obtain ⟨m, h1, rfl⟩ := good_made h
      exact .approximate _ _ _ _ _ hx h1
    case compress l =>
      obtain ⟨m, h1, rfl⟩ := good_made h
      exact .compress _ _ _ _ hx h1
    all_goals trivial
  | cgraph g =>
    cases m <;> simp only [AObj.means, AObj.items] at h <;> first | cases h | skip
    case bytes => exact (bytes_new h).elim
    case matrixString => exact (text_new h).elim
    case duplicate.refl => exact hx
    case decompress =>
      obtain ⟨m, h1, rfl⟩ := good_made h
      exact .decompress _ _ hx h1
  | matrix m' =>
    cases m <;> simp only [AObj.means, AObj.items] at h <;> first | cases h | skip
    case str => exact (text_new h).elim
    case toString => exact (text_new h).elim
    case duplicate.refl => exact hx
    all_goals trivial
  | edges l =>
    cases m <;> simp only [AObj.means, AObj.items] at h <;> first | cases h | skip
    case getitem => exact (item_new h).elim
    all_goals trivial
  | vertices l =>
    cases m <;> simp only [AObj.means, AObj.items] at h <;> first | cases h | skip
    case getitem => exact (item_new h).elim
    all_goals trivial
  | entries l =>
    cases m <;> simp only [AObj.means, AObj.items] at h <;> first | cases h | skip
    case getitem => exact (item_new h).elim
    all_goals trivial
  | iter l pos =>
    cases m <;> simp only [AObj.means, AObj.items] at h <;> first | cases h | skip
    split at h
    · split at h <;> cases h
    · cases h

/-- Methods that change their object: the three edits of a graph and `next`. -/
theorem means_step {E : Ctx} {a : AWorld} {i : Nat} {x y : AObj} {m : Method} {v : PyVal} (h : x.means E a i m = .step y v) :
    (∃ g e, x = .graph g ∧ y = .graph (e.call g) ∧ ∀ s, pyEdit i (E, .call i m, s) = some e) ∨
    ∃ l pos, x = .iter l pos ∧ y = .iter l (pos + 1) ∧ m = .next ∧
      ∃ z xs, a[l]?.join = some z ∧ z.items = some xs ∧ xs[pos]? = some v := by
  have hitem : ∀ l idx, AOut.item l idx ≠ .step y v := by
    intro l idx h
    unfold AOut.item at h
    split at h
    · cases h
    · split at h
      · cases hl : l[idx.toNat]? <;> rw [hl] at h <;> cases h
      · split at h
        · cases h
        · cases hl : l[l.length - max (idx.natAbs % l.length) 1]? <;> rw [hl] at h <;> cases h
  have hmade : ∀ (α : Type) (f : α → AObj) (r : Res α), AOut.made f r ≠ .step y v := by
    intro α f r h; cases r <;> cases h
  have hbytes : ∀ r, AOut.bytes r ≠ .step y v := by intro r h; cases r <;> cases h
  have hedit : ∀ (g : Graph) (e : Edit) (u : PyVal), x = .graph g → AOut.step (.graph (e.call g)) u = .step y v →
      (∀ s, pyEdit i (E, .call i m, s) = some e) → (∃ g e, x = .graph g ∧ y = .graph (e.call g) ∧ ∀ s, pyEdit i (E, .call i m, s) = some e) := by
    intro g e u hx h hs
    cases h
    exact ⟨g, e, hx, rfl, hs⟩
  cases x with
  | graph g =>
    cases m <;> simp only [AObj.means, AObj.items] at h <;>
      (first | exact absurd h (hmade _ _ _) | exact absurd h (hbytes _) | exact (text_step h).elim |
        exact .inl (hedit _ _ _ rfl h fun _ => by simp [pyEdit]) | cases h)
  | cgraph g =>
    cases m <;> simp only [AObj.means, AObj.items] at h <;>
      (first | exact absurd h (hmade _ _ _) | exact absurd h (hbytes _) | exact (text_step h).elim | cases h)
  | matrix m' =>
    cases m <;> simp only [AObj.means, AObj.items] at h <;>
      (first | exact absurd h (hmade _ _ _) | exact absurd h (hbytes _) | exact (text_step h).elim | cases h)
  | edges l | vertices l | entries l =>
    cases m <;> simp only [AObj.means, AObj.items] at h <;> first | exact absurd h (hitem _ _) | cases h
  | iter l pos =>
    cases m <;> simp only [AObj.means, AObj.items] at h <;> first | cases h | skip
    right
    split at h
    · next xs hxs =>
      split at h
      · next y' hy =>
        cases h
        obtain ⟨z, hz, hz'⟩ := Option.bind_eq_some_iff.1 hxs
        exact ⟨l, pos, rfl, rfl, rfl, z, xs, hz, hz', hy⟩
      · cases h
    · cases h

theorem good_call {g : Graph} (h : GReach g) (e : Edit) : GReach (e.call g) := by
  cases e with
  | addVertex v ts => exact .addVertex _ _ h
  | addEdge u v => exact .addEdge _ _ h
  | deleteEdge u v => exact .deleteEdge _ _ h

theorem good_apply {Q : AObj → Prop} {a a' : AWorld} {o : AOut} {i : Nat} (ha : ∀ x, some x ∈ a → Q x)
    (h1 : ∀ y, o = .new y → Q y) (h2 : ∀ y v, o = .step y v → Q y)
    (h : (∃ v, o.apply a i = .ret v a') ∨ ∃ e, o.apply a i = .raises e a') : ∀ x, some x ∈ a' → Q x := by
  cases o with
  | val v | raises e => rcases h with ⟨_, h⟩ | ⟨_, h⟩ <;> cases h <;> exact ha
  | new x =>
    rcases h with ⟨_, h⟩ | ⟨_, h⟩ <;> cases h
    intro y hy
    rcases List.mem_append.1 hy with hy | hy
    · exact ha y hy
    · simp only [List.mem_singleton, Option.some.injEq] at hy
      subst hy; exact h1 _ rfl
  | step x v =>
    rcases h with ⟨_, h⟩ | ⟨_, h⟩ <;> cases h
    intro y hy
    rcases List.mem_or_eq_of_mem_set hy with hy | hy
    · exact ha y hy
    · cases hy; exact h2 _ _ rfl
  | panics => rcases h with ⟨_, h⟩ | ⟨_, h⟩ <;> cases h

theorem good_step {E : Ctx} {c : PyCall} {a a' : AWorld} (ha : ∀ x, some x ∈ a → GoodObj x)
    (h : (∃ v, pyStep E c a = .ret v a') ∨ ∃ e, pyStep E c a = .raises e a') : ∀ x, some x ∈ a' → GoodObj x := by
  have hjoin : ∀ {i : Nat} {x : AObj}, a[i]?.join = some x → some x ∈ a := by
    intro i x hx
    rw [Option.join_eq_some_iff] at hx
    exact List.mem_of_getElem? hx
  cases c with
  | newGraph u =>
    refine good_apply (o := .new _) (i := a.length) ha ?_ (by rintro _ _ ⟨⟩) h
    rintro y ⟨⟩
    cases u
    · exact GReach.newDirected
    · exact GReach.newUndirected
  | graphFromBytes b =>
    refine good_apply (o := .decoded .graph _) (i := a.length) ha ?_ ?_ h
    · intro y hy
      cases hr : Graph.tryFrom E.P b <;> rw [hr] at hy <;> cases hy
      exact GReach.tryFrom _ _ hr
    · intro y v hy
      cases hr : Graph.tryFrom E.P b <;> rw [hr] at hy <;> cases hy
  | cgraphFromBytes b =>
    refine good_apply (o := .decoded .cgraph _) (i := a.length) ha ?_ ?_ h
    · intro y hy
      cases hr : CGraph.tryFrom E.P b <;> rw [hr] at hy <;> cases hy
      exact CReach.tryFrom _ _ hr
    · intro y v hy
      cases hr : CGraph.tryFrom E.P b <;> rw [hr] at hy <;> cases hy
  | call i m =>
    simp only [pyStep] at h
    cases hx : a[i]?.join with
    | none =>
      simp only [hx] at h
      rcases h with ⟨_, h⟩ | ⟨_, h⟩ <;> cases h; exact ha
    | some x =>
      simp only [hx] at h
      have hg := ha x (hjoin hx)
      refine good_apply ha (fun y hy => good_new hg hy) (fun y v hy => ?_) h
      rcases means_step hy with ⟨g, e, rfl, rfl, _⟩ | ⟨l, pos, _, rfl, _⟩
      · exact good_call hg e
      · trivial
  | collect i =>
    simp only [pyStep] at h
    cases hx : a[i]?.join with
    | none =>
      simp only [hx] at h
      rcases h with ⟨_, h⟩ | ⟨_, h⟩ <;> cases h; exact ha
    | some x =>
      simp only [hx] at h
      split at h
      · rcases h with ⟨_, h⟩ | ⟨_, h⟩ <;> cases h; exact ha
      · rcases h with ⟨_, h⟩ | ⟨_, h⟩ <;> cases h
        intro y hy
        rcases List.mem_or_eq_of_mem_set hy with hy | hy
        · exact ha y hy
        · cases hy

theorem good_run {a a' : AWorld} {t} (h : ARun a t a') (ha : ∀ x, some x ∈ a → GoodObj x) : ∀ x, some x ∈ a' → GoodObj x := by
  induction h with
  | nil => exact ha
  | ret h1 _ ih => exact ih (good_step ha (.inl ⟨_, h1⟩))
  | raises h1 _ ih => exact ih (good_step ha (.inr ⟨_, h1⟩))

/-- Every graph, compressed graph and matrix of a Python program is one that can be reached through the Rust interface. -/
theorem reached_good {t} {w : PyWorld} {a : AWorld} (h : Reached t w a) {i : Nat} {x : AObj} (hi : a[i]? = some (some x)) :
    GoodObj x :=
  good_run h.vals (by simp) x (List.mem_of_getElem? hi)

/-! ## C64: compression levels -/

/-- **C64.** `compress(l)` for any integer `l` gives the compressed graph that Rust makes with the nearest level in `1..64`, and the
new object answers all questions like it. -/
theorem C64_compress {t} {w : PyWorld} {a : AWorld} (h : Reached t w a) {i : Nat} {g : Graph}
    (hi : a[i]? = some (some (.graph g))) (E : Ctx) (l : Int) (level : Nat)
    (h1 : l ≤ 1 → level = 1) (h2 : 64 ≤ l → level = 64) (h3 : 1 ≤ l → l ≤ 64 → (level : Int) = l) :
    ∃ c w', g.compress E.P E.o₁ E.o₂ level = .ok c ∧ c.compressionLevel = level ∧
      w.exec E (.call i (.compress l)) = .ok (.ref a.length) w' ∧
      Reached (t ++ [(E, .call i (.compress l), .value (.ref a.length))]) w' (a ++ [some (.cgraph c)]) ∧ PyShows w' a.length c := by
  have hlevel : clampLevel l = level := by unfold clampLevel; omega
  have hg : GReach g := reached_good h hi
  obtain ⟨c, hc, _, _, _, hl, _⟩ := Graph.compress_spec hg.ok E.P E.o₁ E.o₂ level
  have hp := pyStep_call (E := E) hi (.compress l)
  rw [AObj.means, hlevel, hc] at hp
  obtain ⟨w', hw, hr⟩ := reached_ret h hp
  refine ⟨c, w', hc, ?_, hw, hr, py_shows hr last_some⟩
  rw [hl, clampCompressionLevel]
  split_ifs <;> omega

example : ∃ w, Reached exPyT w exPyA ∧ exPyA[0]? = some (some (.graph exPyG)) := exPy_reached.imp fun _ h => ⟨h, rfl⟩

/-! ## C73: histories of a Python graph -/

/-- A step that is not one of the changing methods leaves all objects as they are. -/
theorem apply_keep {a a' : AWorld} {o : AOut} {i j : Nat} (hj : j < a.length) (ho : ∀ y v, o ≠ .step y v)
    (h : (∃ v, o.apply a i = .ret v a') ∨ ∃ e, o.apply a i = .raises e a') : a'[j]? = a[j]? := by
  cases o with
  | val v | raises e => rcases h with ⟨_, h⟩ | ⟨_, h⟩ <;> cases h <;> rfl
  | new x =>
    rcases h with ⟨_, h⟩ | ⟨_, h⟩ <;> cases h
    rw [List.getElem?_append_left hj]
  | step x v => exact absurd rfl (ho x v)
  | panics => rcases h with ⟨_, h⟩ | ⟨_, h⟩ <;> cases h

theorem step_graph {E : Ctx} {c : PyCall} {s : Seen} {a a' : AWorld} {i : Nat} {g : Graph}
    (hi : a[i]? = some (some (.graph g))) (hc : ¬ Collects i (E, c, s))
    (h : (∃ v, pyStep E c a = .ret v a') ∨ ∃ e, pyStep E c a = .raises e a') :
    a'[i]? = some (some (.graph (((pyEdit i (E, c, s)).toList).foldl Edit.call g))) := by
  have hlt : i < a.length := by
    rcases Nat.lt_or_ge i a.length with h | h
    · exact h
    · rw [List.getElem?_eq_none h] at hi; cases hi
  by_cases hm : ∃ m, c = .call i m
  · obtain ⟨m, rfl⟩ := hm
    rw [pyStep_call hi] at h
    cases ho : (AObj.graph g).means E a i m with
    | step y v =>
      rcases means_step ho with ⟨g', e, hg, rfl, he⟩ | ⟨l, pos, hg, _⟩
      · cases hg
        rw [ho] at h
        rcases h with ⟨_, h⟩ | ⟨_, h⟩ <;> cases h
        rw [he s, List.getElem?_set_self hlt]
        rfl
      · cases hg
    | val _ | new _ | raises _ | panics =>
      have he : pyEdit i (E, .call i m, s) = none := by cases m <;> first | rfl | cases ho
      rw [he, show a'[i]? = a[i]? from ?_, hi]
      · rfl
      exact apply_keep hlt (by rw [ho]; rintro _ _ ⟨⟩) h
  · have he : pyEdit i (E, c, s) = none := by
      unfold pyEdit
      split
      all_goals first | rfl | (rename_i heq; cases heq; rw [if_neg]; rintro rfl; exact hm ⟨_, rfl⟩)
    rw [he, show a'[i]? = a[i]? from ?_, hi]
    · rfl
    exact pyStep_other hlt (fun m e => hm ⟨m, e⟩) hc h

theorem run_graph {a a' : AWorld} {t} (h : ARun a t a') {i : Nat} {g : Graph} (hi : a[i]? = some (some (.graph g)))
    (hc : ∀ s ∈ t, ¬ Collects i s) : a'[i]? = some (some (.graph ((t.filterMap (pyEdit i)).foldl Edit.call g))) := by
  induction h generalizing g with
  | nil => exact hi
  | @ret a a' a'' E c v t h1 _ ih =>
    have := ih (step_graph (s := .value v) hi (hc _ (by simp)) (.inl ⟨_, h1⟩)) (fun s hs => hc s (by simp [hs]))
    rw [this, List.filterMap_cons]
    cases pyEdit i (E, c, .value v) <;> rfl
  | @raises a a' a'' E c v t h1 _ ih =>
    have := ih (step_graph (s := .exception v) hi (hc _ (by simp)) (.inr ⟨_, h1⟩)) (fun s hs => hc s (by simp [hs]))
    rw [this, List.filterMap_cons]
    cases pyEdit i (E, c, .exception v) <;> rfl

/-- All observations of a Python graph whose value agrees with an abstract graph. -/
theorem py_answers {t} {w : PyWorld} {a : AWorld} (h : Reached t w a) {i : Nat} {g : Graph} {A : AGraph}
    (hi : a[i]? = some (some (.graph g))) (hg : Agrees g A) : PyAnswers t w a i A := by
  have hval : ∀ E m v, (AObj.graph g).means E a i m = .val v → ∃ w', w.exec E (.call i m) = .ok v w' := by
    intro E m v hm
    have hp := pyStep_call (E := E) hi m
    rw [hm] at hp
    obtain ⟨w', hw', _⟩ := reached_ret h hp
    exact ⟨w', hw'⟩
  have hnew : ∀ E m x, (AObj.graph g).means E a i m = .new x → ∃ w', w.exec E (.call i m) = .ok (.ref a.length) w' ∧
      Reached (t ++ [(E, .call i m, .value (.ref a.length))]) w' (a ++ [some x]) := by
    intro E m x hm
    have hp := pyStep_call (E := E) hi m
    rw [hm] at hp
    exact reached_ret h hp
  refine ⟨fun E => ?_, fun E => ?_, fun E => ?_, fun E u v => ?_, fun E v => ?_, fun E v => ?_, fun E => ?_, fun E v => ?_,
    fun E v => ?_⟩
  · rw [← hg.direction]; exact hval E _ _ rfl
  · rw [← hg.vertexCount]; exact hval E _ _ rfl
  · rw [← hg.edgeCount]; exact hval E _ _ rfl
  · have : decide ((toId u, toId v) ∈ A.E) = g.doesEdgeExist (toId u) (toId v) := by
      rw [Bool.eq_iff_iff, decide_eq_true_iff, hg.edge]
    rw [this]; exact hval E _ _ rfl
  · rw [← hg.outDegree]; exact hval E _ _ rfl
  · rw [← hg.inDegree]; exact hval E _ _ rfl
  · obtain ⟨w', h1, h2⟩ := hnew E .edgeList _ rfl
    exact ⟨w', _, h1, h2, py_list h2 last_some rfl, hg.items_nodup _, fun p => hg.items_mem _ p⟩
  · obtain ⟨w', h1, h2⟩ := hnew E (.vertexOutEdges v) _ rfl
    exact ⟨w', _, h1, h2, py_list h2 last_some rfl, hg.out_nodup _ _, fun p => hg.out_mem _ _ p⟩
  · obtain ⟨w', h1, h2⟩ := hnew E (.vertexInEdges v) _ rfl
    exact ⟨w', _, h1, h2, py_list h2 last_some rfl, hg.in_nodup _ _, fun p => hg.in_mem _ _ p⟩

/-- **C73.** In any program, a graph made with `Graph(u)` answers all questions like the abstract graph after those edits that the
program made on this object, whatever else the program does in between. -/
theorem C73_history {t₁ t₂ : List (Ctx × PyCall × Seen)} {E : Ctx} {u : Bool} {i : Nat} {w : PyWorld} {a : AWorld}
    (h : Reached (t₁ ++ (E, .newGraph u, .value (.ref i)) :: t₂) w a) (hc : ∀ s ∈ t₂, ¬ Collects i s) :
    PyAnswers (t₁ ++ (E, .newGraph u, .value (.ref i)) :: t₂) w a i
      ((t₂.filterMap (pyEdit i)).foldl AGraph.applyActual (AGraph.empty u)) := by
  obtain ⟨b, _, h2⟩ := arun_append.1 h.vals
  cases h2 with
  | ret h3 h4 =>
    cases h3
    have hb := run_graph h4 (i := b.length) (g := if u then Graph.newUndirected else Graph.newDirected)
      (by rw [List.getElem?_append_right (Nat.le_refl _), Nat.sub_self]; rfl) hc
    exact py_answers h hb (C01_history_refinement u _)

/-- **C73.** The same for any graph object, for example a decoded, approximated or decompressed one: it always has an abstract
counterpart, and later answers follow from the edits made on it. -/
theorem C73_history_from {t₁ : List (Ctx × PyCall × Seen)} {w₁ : PyWorld} {a₁ : AWorld} (h₁ : Reached t₁ w₁ a₁) {i : Nat} {g : Graph}
    (hi : a₁[i]? = some (some (.graph g))) :
    ∃ A : AGraph, PyAnswers t₁ w₁ a₁ i A ∧ ∀ t₂ w a, Reached (t₁ ++ t₂) w a → (∀ s ∈ t₂, ¬ Collects i s) →
      PyAnswers (t₁ ++ t₂) w a i ((t₂.filterMap (pyEdit i)).foldl AGraph.applyActual A) := by
  obtain ⟨A, hA, hh⟩ := C01_history_from_reachable (g := g) (reached_good h₁ hi)
  refine ⟨A, py_answers h₁ hi hA, fun t₂ w a h hc => ?_⟩
  obtain ⟨b, h2, h3⟩ := arun_append.1 h.vals
  rw [arun_unique h2 h₁.vals] at h3
  exact py_answers h (run_graph h3 hi hc) (hh _)

/-- **C73.** A copy is independent of the original: both start with the same answers, and each follows only its own edits. -/
theorem C73_duplicate {t : List (Ctx × PyCall × Seen)} {w : PyWorld} {a : AWorld} (h : Reached t w a) {i : Nat} {g : Graph}
    (hi : a[i]? = some (some (.graph g))) (E : Ctx) :
    ∃ A : AGraph, PyAnswers t w a i A ∧ ∃ w', w.exec E (.call i .duplicate) = .ok (.ref a.length) w' ∧
      ∀ t₂ w'' a'', Reached (t ++ (E, .call i .duplicate, .value (.ref a.length)) :: t₂) w'' a'' →
        ((∀ s ∈ t₂, ¬ Collects a.length s) →
          PyAnswers (t ++ (E, .call i .duplicate, .value (.ref a.length)) :: t₂) w'' a'' a.length
            ((t₂.filterMap (pyEdit a.length)).foldl AGraph.applyActual A)) ∧
        ((∀ s ∈ t₂, ¬ Collects i s) →
          PyAnswers (t ++ (E, .call i .duplicate, .value (.ref a.length)) :: t₂) w'' a'' i
            ((t₂.filterMap (pyEdit i)).foldl AGraph.applyActual A)) := by
  obtain ⟨A, hA, hh⟩ := C01_history_from_reachable (g := g) (reached_good h hi)
  have hp := pyStep_call (E := E) hi .duplicate
  obtain ⟨w', hw', hr⟩ := reached_ret h hp
  refine ⟨A, py_answers h hi hA, w', hw', fun t₂ w'' a'' h'' => ?_⟩
  have h2 := h''.vals
  rw [List.append_cons] at h2
  obtain ⟨b, h3, h4⟩ := arun_append.1 h2
  rw [arun_unique h3 hr.vals] at h4
  constructor
  · intro hc
    exact py_answers h'' (run_graph h4 (by rw [List.getElem?_append_right (Nat.le_refl _), Nat.sub_self]; rfl) hc) (hh _)
  · intro hc
    refine py_answers h'' (run_graph h4 ?_ hc) (hh _)
    rw [List.getElem?_append_left, hi]
    rcases Nat.lt_or_ge i a.length with h | h
    · exact h
    · rw [List.getElem?_eq_none h] at hi; cases hi

/-- A history on the second object of a program with two graphs. -/
def exPyT₂ : List (Ctx × PyCall × Seen) :=
  [(exE, .call 1 (.addEdge 3 (-2)), .value .none), (exE, .call 0 (.addEdge 1 2), .value .none), (exE, .collect 0, .value .none),
    (exE, .call 1 .edgeCount, .value (.int 2))]

example : (∃ w a, Reached ([(exE, .newGraph false, .value (.ref 0))] ++ (exE, .newGraph true, .value (.ref 1)) :: exPyT₂) w a) ∧
    (∀ s ∈ exPyT₂, ¬ Collects 1 s) ∧ exPyT₂.filterMap (pyEdit 1) = [.addEdge 3 18446744073709551614] := by
  refine ⟨?_, ?_, by rfl⟩
  · have h : ∃ a, ARun [] ([(exE, .newGraph false, .value (.ref 0))] ++ (exE, .newGraph true, .value (.ref 1)) :: exPyT₂) a := by
      refine ⟨_, .ret rfl (.ret rfl (.ret rfl (.ret rfl (.ret (a' := [none, some (.graph ((Edit.addEdge (toId 3) (toId (-2))).call Graph.newUndirected))]) ?_ (.ret rfl .nil)))))⟩
      refine pyStep_collect rfl ?_
      rintro ⟨pos, h⟩
      simp at h
    obtain ⟨a, ha⟩ := h
    obtain ⟨w, hw⟩ := reached_of_arun ha
    exact ⟨w, a, hw⟩
  · intro s hs
    simp only [exPyT₂, List.mem_cons, List.not_mem_nil, or_false] at hs
    rcases hs with rfl | rfl | rfl | rfl <;> rintro ⟨⟩

/-! ## C74: decoding -/

theorem agrees_of_same {g g' : Graph} {A : AGraph} (h : Same g' g) (hA : Agrees g A) : Agrees g' A where
  direction := h.direction.trans hA.direction
  vertexCount := h.vertexCount.trans hA.vertexCount
  edgeCount := h.edgeCount.trans hA.edgeCount
  edge u v := by rw [h.edge, hA.edge]
  outDegree v := (h.outDegree v).trans (hA.outDegree v)
  inDegree v := (h.inDegree v).trans (hA.inDegree v)
  items_nodup o := (h.items o o).nodup_iff.2 (hA.items_nodup o)
  items_mem o p := ((h.items o o).mem_iff).trans (hA.items_mem o p)
  out_nodup o v := (h.outEdges o o v).nodup_iff.2 (hA.out_nodup o v)
  out_mem o v p := ((h.outEdges o o v).mem_iff).trans (hA.out_mem o v p)
  in_nodup o v := (h.inEdges o o v).nodup_iff.2 (hA.in_nodup o v)
  in_mem o v p := ((h.inEdges o o v).mem_iff).trans (hA.in_mem o v p)

/-- **C74 (full statement).** `from_bytes` returns an object for valid bytes and raises `ValueError` for all others. -/
def C74_full : Prop :=
  ∀ t w a, Reached t w a → ∀ (E : Ctx) (b : Bytes), b.length ≤ E.P.usizeMax →
    (ValidGraphFile b → ∃ w', w.exec E (.graphFromBytes b) = .ok (.ref a.length) w') ∧
    (¬ ValidGraphFile b → ∃ w', w.exec E (.graphFromBytes b) = .raised .ValueError w') ∧
    (ValidCompressedFile b → ∃ w', w.exec E (.cgraphFromBytes b) = .ok (.ref a.length) w') ∧
    (¬ ValidCompressedFile b → ∃ w', w.exec E (.cgraphFromBytes b) = .raised .ValueError w')

/-- **C74 (partial: the exception is `TypeError` instead of `ValueError`).** `from_bytes` returns an object exactly for valid bytes;
for all others it raises an exception and changes nothing.  The object answers all questions like the decoded graph. -/
theorem C74_from_bytes_partial {t} {w : PyWorld} {a : AWorld} (h : Reached t w a) (E : Ctx) (b : Bytes)
    (hb : b.length ≤ E.P.usizeMax) :
    (ValidGraphFile b → ∃ w' g, w.exec E (.graphFromBytes b) = .ok (.ref a.length) w' ∧ Graph.tryFrom E.P b = .ok g ∧
      Reached (t ++ [(E, .graphFromBytes b, .value (.ref a.length))]) w' (a ++ [some (.graph g)]) ∧
      ∃ A, Agrees g A ∧ PyAnswers (t ++ [(E, .graphFromBytes b, .value (.ref a.length))]) w' (a ++ [some (.graph g)]) a.length A) ∧
    (¬ ValidGraphFile b → ∃ w', w.exec E (.graphFromBytes b) = .raised .TypeError w' ∧
      Reached (t ++ [(E, .graphFromBytes b, .exception .TypeError)]) w' a) ∧
    (ValidCompressedFile b → ∃ w' g, w.exec E (.cgraphFromBytes b) = .ok (.ref a.length) w' ∧ CGraph.tryFrom E.P b = .ok g ∧
      Reached (t ++ [(E, .cgraphFromBytes b, .value (.ref a.length))]) w' (a ++ [some (.cgraph g)]) ∧
      PyShows w' a.length g) ∧
    (¬ ValidCompressedFile b → ∃ w', w.exec E (.cgraphFromBytes b) = .raised .TypeError w' ∧
      Reached (t ++ [(E, .cgraphFromBytes b, .exception .TypeError)]) w' a) := by
  refine ⟨?_, ?_, ?_, ?_⟩
  · intro hv
    obtain ⟨g, hg⟩ := (C18_accepts_iff hb).2 hv
    have hp : pyStep E (.graphFromBytes b) a = .ret (.ref a.length) (a ++ [some (.graph g)]) := by
      simp only [pyStep, hg]; rfl
    obtain ⟨w', h1, h2⟩ := reached_ret h hp
    obtain ⟨A, hA, _⟩ := C01_history_from_reachable (GReach.tryFrom _ _ hg)
    exact ⟨w', g, h1, hg, h2, A, hA, py_answers h2 last_some hA⟩
  · intro hv
    rcases C16_decode_total E.P b hb with hg | ⟨m, hm⟩
    · exact absurd ((C18_accepts_iff hb).1 hg) hv
    · have hp : pyStep E (.graphFromBytes b) a = .raises .TypeError a := by simp only [pyStep, hm]; rfl
      exact reached_raises h hp
  · intro hv
    obtain ⟨g, hg⟩ := (C66_accepts_iff hb).2 hv
    have hp : pyStep E (.cgraphFromBytes b) a = .ret (.ref a.length) (a ++ [some (.cgraph g)]) := by
      simp only [pyStep, hg]; rfl
    obtain ⟨w', h1, h2⟩ := reached_ret h hp
    exact ⟨w', g, h1, hg, h2, py_shows h2 last_some⟩
  · intro hv
    rcases C33_decode_total E.P b hb with hg | ⟨m, hm⟩
    · exact absurd ((C66_accepts_iff hb).1 hg) hv
    · have hp : pyStep E (.cgraphFromBytes b) a = .raises .TypeError a := by simp only [pyStep, hm]; rfl
      exact reached_raises h hp

theorem invalid_short : ¬ ValidGraphFile [1, 2, 3] := fun h => by
  have := h.length
  simp only [List.length_cons, List.length_nil] at this
  omega

/-- The full statement is false: `Graph.from_bytes(bytes([1, 2, 3]))` raises `TypeError`. -/
theorem C74_full_false : ¬ C74_full := by
  intro hfull
  obtain ⟨w, hw⟩ := exPy_reached
  obtain ⟨w', h1⟩ := (hfull _ _ _ hw exE [1, 2, 3] (by decide)).2.1 invalid_short
  obtain ⟨w'', h2, _⟩ := (C74_from_bytes_partial hw exE [1, 2, 3] (by decide)).2.1 invalid_short
  rw [h1] at h2
  cases h2

/-- **C74.** `bytes(g)`, decoded at any later time or in another program, gives the same graph again: both
objects answer all questions alike. -/
theorem C74_round_trip {t t' : List (Ctx × PyCall × Seen)} {w w' : PyWorld} {a a' : AWorld} (h : Reached t w a)
    {i : Nat} {g : Graph} (hi : a[i]? = some (some (.graph g))) {E E' : Ctx} (hE : E.P.usizeMax ≤ U64_MAX) {b : Bytes} {w₁ : PyWorld}
    (hx : w.exec E (.call i .bytes) = .ok (.bytes b) w₁) (hne : b ≠ []) (h' : Reached t' w' a') (hE' : b.length ≤ E'.P.usizeMax) :
    ∃ w'' g', w'.exec E' (.graphFromBytes b) = .ok (.ref a'.length) w'' ∧ Same g' g ∧
      Reached (t' ++ [(E', .graphFromBytes b, .value (.ref a'.length))]) w'' (a' ++ [some (.graph g')]) ∧
      ∃ A, PyAnswers t w a i A ∧
        PyAnswers (t' ++ [(E', .graphFromBytes b, .value (.ref a'.length))]) w'' (a' ++ [some (.graph g')]) a'.length A := by
  have hb : g.toBytes E.P E.o₁ = .ok b := by
    have := reached_agree h E (.call i .bytes)
    rw [hx, pyStep_call hi, AObj.means] at this
    generalize g.toBytes E.P E.o₁ = r at this
    cases r with
    | ok b' => cases this; rfl
    | err e => cases this; exact absurd rfl hne
    | panic => cases this
  obtain ⟨g', hg', hs⟩ := C15_round_trip (reached_good h hi) hE hb hE'
  obtain ⟨w'', g'', h1, h2, h3, _⟩ := (C74_from_bytes_partial h' E' b hE').1 ((C18_accepts_iff hE').1 ⟨g', hg'⟩)
  rw [hg'] at h2
  cases h2
  obtain ⟨A, hA, _⟩ := C01_history_from_reachable (g := g) (reached_good h hi)
  exact ⟨w'', g', h1, hs, h3, A, py_answers h hi hA, py_answers h3 last_some (agrees_of_same hs hA)⟩

/-- The hypotheses of the round trip hold for the example. -/
example : ∃ w w₁ b, Reached exPyT w exPyA ∧ exE.P.usizeMax ≤ U64_MAX ∧ w.exec exE (.call 0 .bytes) = .ok (.bytes b) w₁ ∧ b ≠ [] ∧
    b.length ≤ exE.P.usizeMax := by
  obtain ⟨w, hw⟩ := exPy_reached
  obtain ⟨b, hb, hlen⟩ := okAnd_elim (show okAnd (exPyG.toBytes exP .id) (fun b => b.length == 58) = true by decide +kernel)
  have hp : pyStep exE (.call 0 .bytes) exPyA = .ret (.bytes b) exPyA := by
    rw [pyStep_call (x := .graph exPyG) rfl, AObj.means]
    rw [show exPyG.toBytes exE.P exE.o₁ = .ok b from hb]
    rfl
  obtain ⟨w₁, h1, _⟩ := reached_ret hw hp
  have hl : b.length = 58 := by simpa using hlen
  refine ⟨w, w₁, b, hw, by decide, h1, ?_, ?_⟩
  · rintro rfl; cases hl
  · rw [hl]; decide

/-! ## C76: iteration -/

theorem reached_iter {t} {w : PyWorld} {a : AWorld} (h : Reached t w a) {i l pos : Nat} (hi : a[i]? = some (some (.iter l pos))) :
    ∃ y xs, a[l]? = some (some y) ∧ y.items = some xs ∧ pos ≤ xs.length := by
  obtain ⟨o, _, hr⟩ := (reached_sim h).at_val hi
  generalize e : some (AObj.iter l pos) = x at hr
  cases hr with
  | dead => cases e
  | owner hx => cases e; exact absurd rfl hx
  | iter h1 h2 h3 h4 => cases e; exact ⟨_, _, h1, h2, h3⟩

theorem lt_of_getElem? {α : Type} {l : List α} {i : Nat} {x : α} (h : l[i]? = some x) : i < l.length :=
  (List.getElem?_eq_some_iff.1 h).1

/-- A list is not changed by any step while it is iterated. -/
theorem list_keep {E : Ctx} {c : PyCall} {a a' : AWorld} {i l pos : Nat} {y : AObj} {xs : List PyVal}
    (hi : a[i]? = some (some (.iter l pos))) (hl : a[l]? = some (some y)) (hy : y.items = some xs)
    (h : (∃ v, pyStep E c a = .ret v a') ∨ ∃ e, pyStep E c a = .raises e a') : a'[l]? = some (some y) := by
  have hlt := lt_of_getElem? hl
  rw [← hl]
  by_cases hm : ∃ m, c = .call l m
  · obtain ⟨m, rfl⟩ := hm
    rw [pyStep_call hl] at h
    refine apply_keep hlt ?_ h
    intro z v hz
    rcases means_step hz with ⟨g, e, rfl, _⟩ | ⟨_, _, rfl, _⟩ <;> cases hy
  · by_cases hc : c = .collect l
    · subst hc
      simp only [pyStep, hl, Option.join_some] at h
      rw [if_pos ⟨pos, List.mem_of_getElem? hi⟩] at h
      rcases h with ⟨_, h⟩ | ⟨_, h⟩ <;> cases h
      rfl
    · exact pyStep_other hlt (fun m e => hm ⟨m, e⟩) hc h

/-- `effect` for steps on values. -/
def aeffect : AStep → Effect
  | .ret (.ref _) _ => .newObject
  | .ret v _ => .value v
  | .raises e _ => .exception e
  | .panics => .aborted

theorem effect_agree {x : PyRes PyWorld PyVal} {y : AStep} (h : Agree x y) : effect x = aeffect y := by
  cases h with
  | @ret v => cases v <;> rfl
  | raises | panics => rfl

theorem aeffect_apply (o : AOut) (a a' : AWorld) (i : Nat) : aeffect (o.apply a i) = aeffect (o.apply a' i) := by
  cases o with
  | val v | step _ v => cases v <;> rfl
  | new | raises | panics => rfl

/-- **C72.** No step changes any object but the one it is called on: every method of every other object has the same outcome
before and after the step. -/
theorem C72_independent {t} {w : PyWorld} (h : PyRun PyWorld.start t w) {E : Ctx} {c : PyCall} {s : Seen} {w' : PyWorld}
    (hs : PyRun w [(E, c, s)] w') {i : Nat} (hi : i < w.objs.length) (h1 : ∀ m, c ≠ .call i m) (h2 : c ≠ .collect i)
    (E' : Ctx) (m : Method) : effect (w'.exec E' (.call i m)) = effect (w.exec E' (.call i m)) := by
  obtain ⟨a, ha⟩ := (C72_traces _).1 ⟨w, h⟩
  have hw : Reached t w a := ⟨h, ha⟩
  obtain ⟨a', ha'⟩ := (C72_traces _).1 ⟨w', pyrun_append h hs⟩
  have hw' : Reached _ w' a' := ⟨pyrun_append h hs, ha'⟩
  obtain ⟨b, hb, hb'⟩ := arun_append.1 ha'
  cases arun_unique hb ha
  have hstep : (∃ v, pyStep E c a = .ret v a') ∨ ∃ e, pyStep E c a = .raises e a' := by
    cases hb' with
    | ret h3 h4 => cases h4; exact .inl ⟨_, h3⟩
    | raises h3 h4 => cases h4; exact .inr ⟨_, h3⟩
  have hi' : i < a.length := by rw [← (reached_sim hw).len]; exact hi
  have hkeep := pyStep_other hi' h1 h2 hstep
  rw [effect_agree (reached_agree hw' E' _), effect_agree (reached_agree hw E' _)]
  simp only [pyStep, hkeep]
  cases hx : a[i]?.join with
  | none => rfl
  | some x =>
    simp only
    rw [Option.join_eq_some_iff] at hx
    have hm : x.means E' a' i m = x.means E' a i m := by
      cases x with
      | iter l pos =>
        obtain ⟨y, xs, hl, hy, _⟩ := reached_iter hw hx
        have hl' := list_keep hx hl hy hstep
        cases m <;> first | rfl | simp only [AObj.means, hl, hl']
      | _ => cases m <;> rfl
    rw [hm]
    exact aeffect_apply _ _ _ _

/-- Editing one graph, seen from another object of the example. -/
example : ∃ w w', PyRun PyWorld.start exPyT w ∧ PyRun w [(exE, .call 0 (.deleteEdge 0 1), .value .none)] w' ∧
    1 < w.objs.length := by
  obtain ⟨w, hw⟩ := exPy_reached
  have hp : pyStep exE (.call 0 (.deleteEdge 0 1)) exPyA =
      .ret .none (exPyA.set 0 (some (.graph ((Edit.deleteEdge 0 1).call exPyG)))) := rfl
  obtain ⟨w', h1, _⟩ := reached_ret hw hp
  refine ⟨w, w', hw.run, .ok h1 .nil, ?_⟩
  rw [(reached_sim hw).len]; decide

/-- One step of a program that has an iterator. -/
theorem iter_keep {E : Ctx} {c : PyCall} {s : Seen} {a a' : AWorld} {i l pos : Nat} {y : AObj} {xs : List PyVal}
    (hi : a[i]? = some (some (.iter l pos))) (hl : a[l]? = some (some y)) (hy : y.items = some xs)
    (hc : ¬ Collects i (E, c, s))
    (h : (∃ v, s = .value v ∧ pyStep E c a = .ret v a') ∨ ∃ e, s = .exception e ∧ pyStep E c a = .raises e a') :
    (seenNext i (E, c, s) = none ∧ a'[i]? = some (some (.iter l pos))) ∨
    (∃ v, xs[pos]? = some v ∧ seenNext i (E, c, s) = some (.value v) ∧ a'[i]? = some (some (.iter l (pos + 1)))) ∨
    (xs[pos]? = none ∧ seenNext i (E, c, s) = some (.exception .StopIteration) ∧ a'[i]? = some (some (.iter l pos))) := by
  have hlt := lt_of_getElem? hi
  have h' : (∃ v, pyStep E c a = .ret v a') ∨ ∃ e, pyStep E c a = .raises e a' :=
    h.imp (fun ⟨v, _, h⟩ => ⟨v, h⟩) (fun ⟨v, _, h⟩ => ⟨v, h⟩)
  by_cases hm : ∃ m, c = .call i m
  · obtain ⟨m, rfl⟩ := hm
    by_cases hn : m = .next
    · subst hn
      right
      have hseen : seenNext i (E, .call i .next, s) = some s := by simp [seenNext]
      rw [hseen]
      rw [pyStep_call hi, AObj.means] at h
      simp only [hl, Option.join_some, Option.bind_some, hy] at h
      cases hx : xs[pos]? with
      | none =>
        right
        rw [hx] at h
        rcases h with ⟨_, _, h⟩ | ⟨_, rfl, h⟩ <;> cases h
        exact ⟨rfl, rfl, hi⟩
      | some v =>
        left
        rw [hx] at h
        rcases h with ⟨_, rfl, h⟩ | ⟨_, _, h⟩ <;> cases h
        exact ⟨v, rfl, rfl, by rw [List.getElem?_set_self hlt]⟩
    · left
      refine ⟨?_, ?_⟩
      · cases m <;> first | rfl | exact absurd rfl hn
      · rw [pyStep_call hi] at h'
        rw [← hi]
        refine apply_keep hlt ?_ h'
        intro z v hz
        rcases means_step hz with ⟨g, e, hg, _⟩ | ⟨_, _, _, _, rfl, _⟩
        · cases hg
        · exact hn rfl
  · left
    refine ⟨?_, ?_⟩
    · unfold seenNext
      split
      · next heq => cases heq; rw [if_neg]; rintro rfl; exact hm ⟨_, rfl⟩
      · rfl
    · rw [← hi]
      exact pyStep_other hlt (fun m e => hm ⟨m, e⟩) hc h'

/-- What an iterator at position `pos` answers from now on. -/
theorem iter_run {a a' : AWorld} {t} (h : ARun a t a') {i l pos : Nat} {y : AObj} {xs : List PyVal}
    (hi : a[i]? = some (some (.iter l pos))) (hl : a[l]? = some (some y)) (hy : y.items = some xs)
    (hc : ∀ s ∈ t, ¬ Collects i s) :
    ∃ n, t.filterMap (seenNext i) = ((xs.drop pos).take n).map .value ++
      List.replicate ((t.filterMap (seenNext i)).length - (xs.length - pos)) (.exception .StopIteration) ∧
      n = (t.filterMap (seenNext i)).length := by
  refine ⟨_, ?_, rfl⟩
  have step : ∀ {E c s a a' t pos}, a[i]? = some (some (.iter l pos)) → a[l]? = some (some y) → ¬ Collects i (E, c, s) →
      ((∃ v, s = .value v ∧ pyStep E c a = .ret v a') ∨ ∃ e, s = .exception e ∧ pyStep E c a = .raises e a') →
      (∀ {pos}, a'[i]? = some (some (.iter l pos)) → a'[l]? = some (some y) → List.filterMap (seenNext i) t =
        ((xs.drop pos).take (t.filterMap (seenNext i)).length).map .value ++
        List.replicate ((t.filterMap (seenNext i)).length - (xs.length - pos)) (.exception .StopIteration)) →
      List.filterMap (seenNext i) ((E, c, s) :: t) =
        ((xs.drop pos).take (((E, c, s) :: t).filterMap (seenNext i)).length).map .value ++
        List.replicate ((((E, c, s) :: t).filterMap (seenNext i)).length - (xs.length - pos)) (.exception .StopIteration) := by
    intro E c s a a' t pos hi hl hc h ih
    have hl' := list_keep hi hl hy (h.imp (fun ⟨v, _, h⟩ => ⟨v, h⟩) (fun ⟨v, _, h⟩ => ⟨v, h⟩))
    rcases iter_keep hi hl hy hc h with ⟨h1, h2⟩ | ⟨v, h0, h1, h2⟩ | ⟨h0, h1, h2⟩
    · rw [List.filterMap_cons_none h1]; exact ih h2 hl'
    · rw [List.filterMap_cons_some h1]
      obtain ⟨hp, hv⟩ := List.getElem?_eq_some_iff.1 h0
      rw [List.drop_eq_getElem_cons hp, hv, List.length_cons, List.take_succ_cons, List.map_cons, List.cons_append]
      congr 1
      rw [show (List.filterMap (seenNext i) t).length + 1 - (xs.length - pos) =
        (List.filterMap (seenNext i) t).length - (xs.length - (pos + 1)) from by omega]
      exact ih h2 hl'
    · rw [List.filterMap_cons_some h1]
      have hp : xs.length ≤ pos := List.getElem?_eq_none_iff.1 h0
      have := ih h2 hl'
      rw [List.drop_eq_nil_of_le hp] at this ⊢
      rw [show xs.length - pos = 0 from by omega] at this ⊢
      simp only [List.take_nil, List.map_nil, List.nil_append, Nat.sub_zero, List.length_cons] at this ⊢
      rw [List.replicate_succ]
      exact congrArg _ this
  induction h generalizing pos with
  | nil => simp
  | ret h1 _ ih => exact step hi hl (hc _ (by simp)) (.inl ⟨_, rfl, h1⟩) (fun h2 h3 => ih h2 h3 fun s hs => hc s (by simp [hs]))
  | raises h1 _ ih => exact step hi hl (hc _ (by simp)) (.inr ⟨_, rfl, h1⟩) (fun h2 h3 => ih h2 h3 fun s hs => hc s (by simp [hs]))

/-- **C76.** `iter(l)` returns a new iterator; the results of its `next` are the elements of the list in order, each once, followed by
`StopIteration` for ever.  Whatever the program does in between: using other iterators of the same list, editing or collecting
the graph, dropping the list itself. -/
theorem C76_iteration {t} {w : PyWorld} {a : AWorld} (h : Reached t w a) {l : Nat} {y : AObj} {xs : List PyVal}
    (hl : a[l]? = some (some y)) (hy : y.items = some xs) (E : Ctx) :
    ∃ w', w.exec E (.call l .iter) = .ok (.ref a.length) w' ∧
      ∀ t₂ w'', PyRun PyWorld.start (t ++ (E, .call l .iter, .value (.ref a.length)) :: t₂) w'' →
        (∀ s ∈ t₂, ¬ Collects a.length s) →
        ∀ outs, outs = t₂.filterMap (seenNext a.length) →
          outs = (xs.take outs.length).map .value ++ List.replicate (outs.length - xs.length) (.exception .StopIteration) := by
  have hp : pyStep E (.call l .iter) a = .ret (.ref a.length) (a ++ [some (.iter l 0)]) := by
    rw [pyStep_call hl]
    cases y <;> first | (cases hy; rfl) | cases hy
  obtain ⟨w', hw', hr⟩ := reached_ret h hp
  refine ⟨w', hw', ?_⟩
  rintro t₂ w'' h'' hc outs rfl
  obtain ⟨a'', h2⟩ := (C72_traces _).1 ⟨w'', h''⟩
  rw [List.append_cons] at h2
  obtain ⟨b, h3, h4⟩ := arun_append.1 h2
  rw [arun_unique h3 hr.vals] at h4
  obtain ⟨n, h5, rfl⟩ := iter_run h4 (i := a.length) (l := l) (pos := 0) (y := y) (xs := xs)
    (by rw [List.getElem?_append_right (Nat.le_refl _), Nat.sub_self]; rfl)
    (by rw [List.getElem?_append_left (lt_of_getElem? hl), hl]) hy hc
  simpa using h5

/-- Iterating the example list while the graph is edited and the list is dropped. -/
example : ∃ a, ARun exPyA [(exE, .call 1 .iter, .value (.ref 2)), (exE, .call 2 .next, .value (.edge 0 1)),
    (exE, .call 0 (.deleteEdge 0 1), .value .none), (exE, .call 2 .next, .value (.edge 1 2)),
    (exE, .call 2 .next, .exception .StopIteration)] a :=
  ⟨_, .ret rfl (.ret rfl (.ret rfl (.ret rfl (.raises rfl .nil))))⟩

/-! ## C75: no abort -/

theorem pool_platform {g : Graph} (P P' : Platform) (o : HashOrder) {b : Nat} (hb : effBlock g.vertexCount b < 2 ^ 32) :
    g.findAvgPoolMatrix P o b = g.findAvgPoolMatrix P' o b := by
  unfold Graph.findAvgPoolMatrix
  by_cases hn : g.vertexCount = 0
  · rw [if_pos hn, if_pos hn]
  · rw [if_neg hn, if_neg hn, clamp_eff hn]
    have hsq : ∀ P : Platform, P.u64Mul (effBlock g.vertexCount b) (effBlock g.vertexCount b) =
        .ok (effBlock g.vertexCount b * effBlock g.vertexCount b) := by
      intro P
      unfold Platform.u64Mul Platform.wrapTo
      rw [if_pos]
      unfold U64_MAX
      generalize effBlock g.vertexCount b = x at hb
      have : x * x ≤ (2 ^ 32 - 1) * (2 ^ 32 - 1) := Nat.mul_le_mul (by omega) (by omega)
      omega
    simp only [hsq]
    rfl

/-- Matrices made with blocks below `2^32`. -/
def Tame : AObj → Prop
  | .matrix m => ∃ (g : Graph) (P : Platform) (o : HashOrder) (b : Nat), GReach g ∧ effBlock g.vertexCount b < 2 ^ 32 ∧
      g.findAvgPoolMatrix P o b = .ok m
  | _ => True

theorem tame_new {E : Ctx} {a : AWorld} {i : Nat} {x y : AObj} {m : Method} (hx : GoodObj x) (ht : Tame x)
    (hm : ∀ b, m = .findAvgPoolMatrix b → toId b < 2 ^ 32) (h : x.means E a i m = .new y) : Tame y := by
  cases y with
  | matrix M =>
    cases x with
    | graph g =>
      cases m <;> simp only [AObj.means, AObj.items] at h <;> first | cases h | skip
      case bytes => exact (bytes_new h).elim
      case matrixString => exact (text_new h).elim
      case findAvgPoolMatrix b =>
        obtain ⟨M', h1, h2⟩ := good_made h
        cases h2
        refine ⟨g, _, _, _, hx, ?_, h1⟩
        have : toId b < 2 ^ 32 := hm b rfl
        unfold effBlock; omega
      case approximate b t => obtain ⟨m, h1, h2⟩ := good_made h; cases h2
      case compress l => obtain ⟨m, h1, h2⟩ := good_made h; cases h2
    | cgraph g =>
      cases m <;> simp only [AObj.means, AObj.items] at h <;> first | cases h | skip
      case bytes => exact (bytes_new h).elim
      case matrixString => exact (text_new h).elim
      case decompress => obtain ⟨m, h1, h2⟩ := good_made h; cases h2
    | matrix m' =>
      cases m <;> simp only [AObj.means, AObj.items] at h <;> first | cases h | skip
      case str => exact (text_new h).elim
      case toString => exact (text_new h).elim
      case duplicate.refl => exact ht
    | edges l | vertices l | entries l =>
      cases m <;> simp only [AObj.means, AObj.items] at h <;> first | cases h | skip
      case getitem => exact (item_new h).elim
    | iter l pos =>
      cases m <;> simp only [AObj.means, AObj.items] at h <;> first | cases h | skip
      split at h
      · split at h <;> cases h
      · cases h
  | _ => trivial

theorem tame_step {E : Ctx} {c : PyCall} {a a' : AWorld} (hg : ∀ x, some x ∈ a → GoodObj x) (ha : ∀ x, some x ∈ a → Tame x)
    (hc : ∀ i b, c = .call i (.findAvgPoolMatrix b) → toId b < 2 ^ 32) (h : (∃ v, pyStep E c a = .ret v a') ∨ ∃ e, pyStep E c a = .raises e a') :
    ∀ x, some x ∈ a' → Tame x := by
  cases c with
  | newGraph u => exact good_apply (o := .new _) (i := a.length) ha (by rintro _ ⟨⟩; trivial) (by rintro _ _ ⟨⟩) h
  | graphFromBytes b =>
    refine good_apply (o := .decoded .graph _) (i := a.length) ha ?_ ?_ h
    · intro y hy; cases hr : Graph.tryFrom E.P b <;> rw [hr] at hy <;> cases hy; trivial
    · intro y v hy; cases hr : Graph.tryFrom E.P b <;> rw [hr] at hy <;> cases hy
  | cgraphFromBytes b =>
    refine good_apply (o := .decoded .cgraph _) (i := a.length) ha ?_ ?_ h
    · intro y hy; cases hr : CGraph.tryFrom E.P b <;> rw [hr] at hy <;> cases hy; trivial
    · intro y v hy; cases hr : CGraph.tryFrom E.P b <;> rw [hr] at hy <;> cases hy
  | call i m =>
    simp only [pyStep] at h
    cases hx : a[i]?.join with
    | none =>
      simp only [hx] at h
      rcases h with ⟨_, h⟩ | ⟨_, h⟩ <;> cases h; exact ha
    | some x =>
      simp only [hx] at h
      have hmem : some x ∈ a := List.mem_of_getElem? (Option.join_eq_some_iff.1 hx)
      refine good_apply ha (fun y hy => tame_new (hg _ hmem) (ha _ hmem) (by rintro b rfl; exact hc i b rfl) hy) (fun y v hy => ?_) h
      rcases means_step hy with ⟨g, e, rfl, rfl, _⟩ | ⟨l, pos, _, rfl, _⟩ <;> trivial
  | collect i =>
    simp only [pyStep] at h
    cases hx : a[i]?.join with
    | none =>
      simp only [hx] at h
      rcases h with ⟨_, h⟩ | ⟨_, h⟩ <;> cases h; exact ha
    | some x =>
      simp only [hx] at h
      split at h
      · rcases h with ⟨_, h⟩ | ⟨_, h⟩ <;> cases h; exact ha
      · rcases h with ⟨_, h⟩ | ⟨_, h⟩ <;> cases h
        intro y hy
        rcases List.mem_or_eq_of_mem_set hy with hy | hy
        · exact ha y hy
        · cases hy

theorem smallPools_of_moderate {t : List (Ctx × PyCall × Seen)} (ht : ∀ s ∈ t, ModerateCall s.1 s.2.1) : SmallPools t :=
  fun E i b v h => ht (E, .call i (.findAvgPoolMatrix b), v) h

theorem tame_run {a a' : AWorld} {t} (h : ARun a t a') (ht : SmallPools t)
    (hg : ∀ x, some x ∈ a → GoodObj x) (ha : ∀ x, some x ∈ a → Tame x) : ∀ x, some x ∈ a' → Tame x := by
  induction h with
  | nil => exact ha
  | @ret _ _ _ E c v _ h1 _ ih =>
    exact ih (fun E i b v hs => ht E i b v (by simp [hs])) (good_step hg (.inl ⟨_, h1⟩))
      (tame_step hg ha (by rintro i b rfl; exact ht E i b (.value v) (by simp)) (.inl ⟨_, h1⟩))
  | @raises _ _ _ E c v _ h1 _ ih =>
    exact ih (fun E i b v hs => ht E i b v (by simp [hs])) (good_step hg (.inr ⟨_, h1⟩))
      (tame_step hg ha (by rintro i b rfl; exact ht E i b (.exception v) (by simp)) (.inr ⟨_, h1⟩))

theorem text_panics {r : Res (List Char)} : AOut.text r = .panics ↔ r = .panic := by
  unfold AOut.text
  split
  · split <;> simp
  · simp
  · simp

theorem bytes_panics {r : Res Bytes} : AOut.bytes r = .panics ↔ r = .panic := by
  cases r <;> simp [AOut.bytes]

theorem item_panics {l : List PyVal} {idx : Int} : AOut.item l idx ≠ .panics := by
  unfold AOut.item
  split
  · simp
  · split
    · rw [List.getElem?_eq_getElem (by omega)]; simp
    · split
      · simp
      · rw [List.getElem?_eq_getElem (by omega)]; simp

/-- Text of a pooled matrix on any platform. -/
theorem tame_text {m : SqMatrix F64} (h : Tame (.matrix m)) (P : Platform) (o₁ o₂ : HashOrder) (d : Nat) (hf : d + 40 ≤ P.fmtMax)
    (hu : d + 42 ≤ P.usizeMax) : m.toStringWithPrecision P f64Fmt o₁ o₂ d ≠ .panic := by
  obtain ⟨g, P', o, b, hg, hb, hm⟩ := h
  rw [pool_platform P' P o hb] at hm
  obtain ⟨m', h1, _, _, h2⟩ := pooled_shows hg P o b hb d hf
  rw [hm] at h1
  cases h1
  exact showsText_no_panic (h2 o₁ o₂) (by split <;> omega)

/-- **C75 (partial: blocks below `2^32`, and decimals for which the platform has room).** No call on any object aborts the
interpreter. -/
theorem C75_no_abort_partial {t} {w : PyWorld} {a : AWorld} (h : Reached t w a) (ht : ∀ s ∈ t, ModerateCall s.1 s.2.1)
    (E : Ctx) (c : PyCall) (hc : Moderate E c) : w.exec E c ≠ .abort := by
  rw [Ne, C72_abort_iff h]
  obtain ⟨hu, hf, hc⟩ := hc
  have happ : ∀ {o : AOut} {i : Nat}, o.apply a i = .panics → o = .panics := by
    intro o i h; cases o <;> first | rfl | cases h
  intro hp
  cases c with
  | newGraph u => cases hp
  | graphFromBytes b =>
    have := happ (o := .decoded .graph (Graph.tryFrom E.P b)) hp
    rcases C16_decode_total E.P b hc with ⟨g, hg⟩ | ⟨g, hg⟩ <;> rw [hg] at this <;> cases this
  | cgraphFromBytes b =>
    have := happ (o := .decoded .cgraph (CGraph.tryFrom E.P b)) hp
    rcases C33_decode_total E.P b hc with ⟨g, hg⟩ | ⟨g, hg⟩ <;> rw [hg] at this <;> cases this
  | collect i =>
    simp only [pyStep] at hp
    split at hp
    · split at hp <;> cases hp
    · cases hp
  | call i m =>
    simp only [pyStep] at hp
    split at hp
    · next x hx =>
      have hi : a[i]? = some (some x) := Option.join_eq_some_iff.1 hx
      have hg := reached_good h hi
      have htm := tame_run h.vals (smallPools_of_moderate ht) (by simp) (by simp) x (List.mem_of_getElem? hi)
      have hm := happ hp
      clear hp happ
      cases x with
      | graph g =>
        have hg : GReach g := hg
        cases m <;> simp only [AObj.means, AObj.items] at hm <;> first | cases hm | skip
        case bytes => exact (C14_graph_bytes_layout hg E.P E.o₁).1 (bytes_panics.1 hm)
        case matrixString =>
          have := text_panics.1 hm
          by_cases hn : g.vertexCount = 0
          · rw [(C49_matrix_string g E.P).1 hn] at this; cases this
          · have h2 := (C49_matrix_string g E.P).2 hn
            simp only at h2
            by_cases hs : 4 * g.vertexCount + 3 * (g.vertexCount * g.vertexCount) - 2 + 2 ≤ E.P.usizeMax ∧
                E.P.alloc (4 * g.vertexCount + 3 * (g.vertexCount * g.vertexCount) - 2) = true
            · rw [h2.1 hs.1 hs.2] at this; cases this
            · obtain ⟨msg, hmsg⟩ := h2.2.1 (by
                rcases Nat.lt_or_ge E.P.usizeMax (4 * g.vertexCount + 3 * (g.vertexCount * g.vertexCount) - 2 + 2) with h3 | h3
                · exact .inl h3
                · exact .inr (by simpa using fun h4 => hs ⟨h3, h4⟩))
              rw [hmsg] at this; cases this
        case findAvgPoolMatrix b =>
          have hb : toId b < 2 ^ 32 := hc
          obtain ⟨⟨m, hm', _⟩, _⟩ := (C46_no_overflow_partial hg E.P E.o₁ E.o₂ (toId b) (F64.lit 0)).1 (by unfold effBlock; omega)
          rw [hm'] at hm; cases hm
        case approximate b t =>
          have hb : toId b < 2 ^ 32 := hc
          obtain ⟨_, m, hm'⟩ := (C46_no_overflow_partial hg E.P E.o₁ E.o₂ (toId b) t).1 (by unfold effBlock; omega)
          rw [hm'] at hm; cases hm
        case compress l =>
          obtain ⟨c, hc', _⟩ := C46_compress_never_fails hg E.P E.o₁ E.o₂ (clampLevel l)
          rw [hc'] at hm; cases hm
      | cgraph g =>
        have hg : CReach g := hg
        cases m <;> simp only [AObj.means, AObj.items] at hm <;> first | cases hm | skip
        case bytes =>
          obtain ⟨_, _, _, _, h4, _⟩ := C31_compressed_bytes_layout hg E.P E.o₁
          exact h4 (bytes_panics.1 hm)
        case matrixString =>
          obtain ⟨_, _, _, h4⟩ := C51_compressed_matrix_string hg E.P hu (by omega)
          exact (h4 E.o₁ E.o₂).1 (text_panics.1 hm)
        case decompress =>
          obtain ⟨d, hd, _⟩ := CGraph.decompress_spec hg.ok E.P E.o₁
          rw [hd] at hm; cases hm
      | matrix m' =>
        cases m <;> simp only [AObj.means, AObj.items] at hm <;> first | cases hm | skip
        case str =>
          have h2 : toSize E.P 2 = 2 := by unfold toSize; rw [Int.emod_eq_of_lt (by omega) (by omega)]; rfl
          exact tame_text htm E.P _ _ _ (by omega) (by omega) (text_panics.1 hm)
        case toString d =>
          exact tame_text htm E.P _ _ _ hc.1 hc.2 (text_panics.1 hm)
      | edges l | vertices l | entries l =>
        cases m <;> simp only [AObj.means, AObj.items] at hm <;> first | cases hm | skip
        case getitem => exact item_panics hm
      | iter l pos =>
        cases m <;> simp only [AObj.means, AObj.items] at hm <;> first | cases hm | skip
        obtain ⟨y, xs, h1, h2, _⟩ := reached_iter h hi
        simp only [h1, Option.join_some, Option.bind_some, h2] at hm
        split at hm <;> cases hm
    · cases hp

/-- **C75 (full statement).** No call on any object of a program aborts the interpreter (on a platform with at least 16 bits). -/
def C75_full : Prop := ∀ t w a, Reached t w a → ∀ E c, 65535 ≤ E.P.usizeMax → 42 ≤ E.P.fmtMax → w.exec E c ≠ .abort

/-- A release platform for the example. -/
def exER : Ctx := { exE with P := ⟨U64_MAX, fun n => decide (n < 2 ^ 40), .release, 65535⟩ }

/-- The full statement is false: `to_string(-1)` asks for `2^64 - 1` decimals, and Rust panics (also in release builds). -/
theorem C75_full_false : ¬ C75_full := by
  intro hfull
  obtain ⟨m, hm, hpan⟩ := okAnd_elim (show okAnd ((Graph.newDirected.addEdge 0 0).findAvgPoolMatrix exER.P .id 1)
    (fun m => isPanic (m.toStringWithPrecision exER.P f64Fmt .id .id 18446744073709551615)) = true by decide +kernel)
  have hrun : ARun [] [(exER, .newGraph false, .value (.ref 0)), (exER, .call 0 (.addEdge 0 0), .value .none),
      (exER, .call 0 (.findAvgPoolMatrix 1), .value (.ref 1))]
      [some (.graph (Graph.newDirected.addEdge 0 0)), some (.matrix m)] := by
    refine .ret rfl (.ret (a' := [some (.graph (Graph.newDirected.addEdge 0 0))]) rfl (.ret ?_ .nil))
    rw [pyStep_call (x := .graph (Graph.newDirected.addEdge 0 0)) rfl, AObj.means]
    rw [show Graph.findAvgPoolMatrix exER.P exER.o₁ (Graph.newDirected.addEdge 0 0) (toId 1) = .ok m from hm]
    rfl
  obtain ⟨w, hw⟩ := reached_of_arun hrun
  refine hfull _ _ _ hw exER (.call 1 (.toString (-1))) (by decide) (by decide) ((C72_abort_iff hw _ _).2 ?_)
  rw [pyStep_call (x := .matrix m) rfl, AObj.means]
  rw [show toSize exER.P (-1) = 18446744073709551615 from by decide]
  have : m.toStringWithPrecision exER.P f64Fmt exER.o₁ exER.o₂ 18446744073709551615 = .panic := by
    revert hpan
    show isPanic (m.toStringWithPrecision exER.P f64Fmt exER.o₁ exER.o₂ 18446744073709551615) = true → _
    cases m.toStringWithPrecision exER.P f64Fmt exER.o₁ exER.o₂ 18446744073709551615 <;> simp [isPanic]
  rw [this]
  rfl

/-- The hypotheses of the partial theorem hold for the example program, and for printing with ten decimals. -/
example : (∀ s ∈ exPyT, ModerateCall s.1 s.2.1) ∧ Moderate exE (.call 1 (.toString 10)) ∧
    Moderate exE (.call 0 (.approximate (2 ^ 32 - 1) (F64.lit 1))) ∧ Moderate exE (.graphFromBytes [1, 2, 3]) := by
  refine ⟨?_, ?_, ?_, ?_⟩
  · intro s hs
    simp only [exPyT, List.mem_cons, List.not_mem_nil, or_false] at hs
    rcases hs with rfl | rfl | rfl | rfl <;> trivial
  · exact ⟨by decide, by decide, by decide, by decide⟩
  · exact ⟨by decide, by decide, show toId _ < 2 ^ 32 by decide⟩
  · exact ⟨by decide, by decide, show (3 : Nat) ≤ _ by decide⟩

end Verif.Props
