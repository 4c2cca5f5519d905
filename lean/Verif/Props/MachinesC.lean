import Verif.Spec.MachinesC
import Verif.Props.Machines
import Verif.Props.CSafety

/-!
# C125: C programs on larger machines
-/

namespace Verif.Props
open Verif Spec CApi

/-- What the first returns, unless it is null, the second returns as well, with the same effect on memory. -/
def Follows (x x' : CM Ptr) (h : Heap) : Prop := ∀ v h', x h = .ok v h' → v ≠ 0 → x' h = .ok v h'

theorem follows_refl (x : CM Ptr) (h : Heap) : Follows x x h := fun _ _ hx _ => hx

theorem follows_bind {α : Type} (x : CM α) {f f' : α → CM Ptr} {h : Heap}
    (hf : ∀ a h1, x h = .ok a h1 → Follows (f a) (f' a) h1) : Follows (x >>= f) (x >>= f') h := by
  intro v h' hv hne
  change CM.bind x f h = _ at hv
  change CM.bind x f' h = _
  unfold CM.bind at *
  cases hx : x h with
  | ok a h1 => rw [hx] at hv; exact hf a h1 hx v h' hv hne
  | ub => rw [hx] at hv; cases hv
  | abort => rw [hx] at hv; cases hv

theorem follows_rust {α : Type} {r r' : Res α} (hc : Carries r r') {f f' : Option α → CM Ptr} {h : Heap}
    (hn : ∀ v h', f none h = .ok v h' → v = 0) (hs : ∀ a, r = .ok a → Follows (f (some a)) (f' (some a)) h) :
    Follows (rust r >>= f) (rust r' >>= f') h := by
  intro v h' hv hne
  cases r with
  | ok a => rw [hc a rfl]; exact hs a rfl v h' hv hne
  | err e => exact absurd (hn v h' hv) hne
  | panic => cases hv

theorem follows_total {α : Type} {r r' : Res α} (hc : Carries r r') {f f' : α → CM Ptr} {h : Heap}
    (hs : ∀ a, r = .ok a → Follows (f a) (f' a) h) : Follows (rustTotal r >>= f) (rustTotal r' >>= f') h := by
  intro v h' hv hne
  cases r with
  | ok a => rw [hc a rfl]; exact hs a rfl v h' hv hne
  | err e => cases hv
  | panic => cases hv

/-- A function of a handle to a graph. -/
theorem graph_fol {p : Ptr} {f f' : Graph → CM Ptr} {h : Heap} (hg : ∀ g, h.get? p = some (.graph g) → Follows (f g) (f' g) h) :
    Follows (do match ← graphRef p with | none => pure 0 | some g => f g) (do match ← graphRef p with | none => pure 0 | some g => f' g) h := by
  refine follows_bind _ fun a h1 ha => ?_
  unfold graphRef at ha
  split at ha
  · cases ha; exact follows_refl _ _
  · split at ha
    · next g hgx => cases ha; exact hg g hgx
    · cases ha

theorem cgraph_fol {p : Ptr} {f f' : CGraph → CM Ptr} {h : Heap} (hg : ∀ g, h.get? p = some (.cgraph g) → Follows (f g) (f' g) h) :
    Follows (do match ← cgraphRef p with | none => pure 0 | some g => f g) (do match ← cgraphRef p with | none => pure 0 | some g => f' g) h := by
  refine follows_bind _ fun a h1 ha => ?_
  unfold cgraphRef at ha
  split at ha
  · cases ha; exact follows_refl _ _
  · split at ha
    · next g hgx => cases ha; exact hg g hgx
    · cases ha

theorem matrix_fol {p : Ptr} {f f' : SqMatrix F64 → CM Ptr} {h : Heap} (hg : ∀ g, h.get? p = some (.matrix g) → Follows (f g) (f' g) h) :
    Follows (do match ← matrixRef p with | none => pure 0 | some g => f g) (do match ← matrixRef p with | none => pure 0 | some g => f' g) h := by
  refine follows_bind _ fun a h1 ha => ?_
  unfold matrixRef at ha
  split at ha
  · cases ha; exact follows_refl _ _
  · split at ha
    · next g hgx => cases ha; exact hg g hgx
    · cases ha

theorem ret_follows {x x' : CM Ptr} {h h' : Heap} {v : Val} (hf : Follows x x' h) (hx : x.ret .ptr h = .ok v h') (hv : v ≠ .ptr 0) :
    x'.ret .ptr h = .ok v h' := by
  unfold CM.ret at *
  cases hr : x h with
  | ok a h1 =>
    rw [hr] at hx
    cases hx
    rw [hf a h' hr (fun h => hv (by rw [h]))]
  | ub => rw [hr] at hx; cases hx
  | abort => rw [hr] at hx; cases hx

theorem bytes_null {error : Ptr} {h h' : Heap} {v : Ptr} (hx : (do setU8 error ERROR_INVALID_FORMAT; pure 0 : CM Ptr) h = .ok v h') : v = 0 := by
  change CM.bind (setU8 error ERROR_INVALID_FORMAT) (fun _ => pure 0) h = _ at hx
  unfold CM.bind at hx
  split at hx
  · cases hx; rfl
  · cases hx
  · cases hx

/-- One call on a larger machine. -/
theorem call_follows {E : Ctx} {P' : Platform} (L : Larger E.P P') {h h' : Heap} (hgen : ∀ p x, h.get? p = some x → Genuine x) {c : Call} {v : Val}
    (hp : c.Printable E.P) (hx : c.exec E h = .ok v h') (hv : v ≠ .ptr 0) : c.exec (E.on P') h = .ok v h' := by
  cases c
  case fromBytes buffer size error =>
    refine ret_follows (x := CApi.fromBytes E buffer size error) (follows_bind _ fun _ h1 _ => ?_) hx hv
    split
    · exact follows_refl _ _
    · exact follows_bind _ fun b h2 _ => follows_rust (L.graph_decode b) (fun _ _ => bytes_null) fun g _ => follows_refl _ _
  case cFromBytes buffer size error =>
    refine ret_follows (x := CApi.cFromBytes E buffer size error) (follows_bind _ fun _ h1 _ => ?_) hx hv
    split
    · exact follows_refl _ _
    · exact follows_bind _ fun b h2 _ => follows_rust (L.compressed_decode b) (fun _ _ => bytes_null) fun g _ => follows_refl _ _
  case matrixString p =>
    exact ret_follows (x := CApi.matrixString E p) (graph_fol fun g _ => follows_rust (L.matrixText _) (fun _ _ h => by cases h; rfl)
      fun s _ => follows_refl _ _) hx hv
  case toBytes p size =>
    exact ret_follows (x := CApi.toBytes E p size) (follows_bind _ fun _ h1 _ => graph_fol fun g _ => follows_rust (L.graph_bytes _ _)
      (fun _ _ h => by cases h; rfl) fun s _ => follows_refl _ _) hx hv
  case findAvgPoolMatrix p b =>
    exact ret_follows (x := CApi.findAvgPoolMatrix E p b) (graph_fol fun g _ => follows_total (L.pool _ _ _) fun s _ => follows_refl _ _) hx hv
  case approximate p b t =>
    exact ret_follows (x := CApi.approximate E p b t) (graph_fol fun g _ => follows_total (L.approximate _ _ _ _ _) fun s _ => follows_refl _ _) hx hv
  case compress p l =>
    exact ret_follows (x := CApi.compress E p l) (graph_fol fun g _ => follows_total (L.compress _ _ _ _) fun s _ => follows_refl _ _) hx hv
  case cMatrixString p =>
    exact ret_follows (x := CApi.cMatrixString E p) (cgraph_fol fun g hg => follows_rust
      ((C125_partial L hp E.o₁ E.o₂).2.2.2.2.2 hp g (hgen p _ hg)) (fun _ _ h => by cases h; rfl) fun s _ => follows_refl _ _) hx hv
  case cToBytes p size =>
    exact ret_follows (x := CApi.cToBytes E p size) (follows_bind _ fun _ h1 _ => cgraph_fol fun g _ => follows_rust (L.compressed_bytes _ _)
      (fun _ _ h => by cases h; rfl) fun s _ => follows_refl _ _) hx hv
  case decompress p =>
    exact ret_follows (x := CApi.decompress E p) (cgraph_fol fun g _ => follows_total (L.decompress _ _) fun s _ => follows_refl _ _) hx hv
  case mToString p =>
    refine ret_follows (x := CApi.mToString E p) (matrix_fol fun m hm => follows_total ?_ fun s _ => follows_refl _ _) hx hv
    obtain ⟨g, Q, o, b, hg, hm⟩ := hgen p _ hm
    have hc := (C125_partial L hp E.o₁ E.o₂).1 g hg Q o b m hm
    intro s hs
    unfold SqMatrix.toText at *
    split at hs
    · next t ht => 
      cases hs
      rw [show SqMatrix.toStringWithPrecision (E.on P').P f64Fmt (E.on P').o₁ (E.on P').o₂ m (if f64Fmt.hasDecimal then 2 else 0) = .ok s from hc s ht]
    · cases hs
    · cases hs
  case mToStringWithPrecision p d =>
    refine ret_follows (x := CApi.mToStringWithPrecision E p d) (matrix_fol fun m hm => follows_rust ?_ (fun _ _ h => by cases h; rfl)
      fun s _ => follows_refl _ _) hx hv
    obtain ⟨g, Q, o, b, hg, hm⟩ := hgen p _ hm
    exact (C125_partial L hp E.o₁ E.o₂).1 g hg Q o b m hm
  all_goals exact hx

theorem graphRef_null : graphRef 0 = pure none := by
  funext h; unfold graphRef; rw [if_pos rfl]; rfl

theorem cgraphRef_null : cgraphRef 0 = pure none := by
  funext h; unfold cgraphRef; rw [if_pos rfl]; rfl

theorem matrixRef_null : matrixRef 0 = pure none := by
  funext h; unfold matrixRef; rw [if_pos rfl]; rfl

theorem cm_pure_bind {α β : Type} (a : α) (f : α → CM β) : (pure a >>= f) = f a := rfl

/-- With a null handle the machine does not matter. -/
theorem null_same {E : Ctx} (P' : Platform) {h : Heap} {c : Call} {k : Kind} (hc : c.handle = some (0, k)) :
    c.exec E h = c.exec (E.on P') h := by
  cases c <;> simp only [Call.handle, Option.some.injEq, Prod.mk.injEq, reduceCtorEq] at hc
  all_goals obtain ⟨rfl, -⟩ := hc
  all_goals simp only [Call.exec, CApi.matrixString, CApi.toBytes, CApi.findAvgPoolMatrix, CApi.approximate, CApi.compress, CApi.cMatrixString,
    CApi.cToBytes, CApi.decompress, CApi.mToString, CApi.mToStringWithPrecision, CApi.duplicate, CApi.getEdgeList, CApi.getInEdgesList,
    CApi.getOutEdgesList, CApi.cDuplicate, CApi.mDuplicate, CApi.mGetEntryList, graphRef_null, cgraphRef_null, matrixRef_null, cm_pure_bind]

/-- **C125, C programs.** An execution in which no call failed (a call returned null only for a null handle) can be repeated step by step on
a larger machine: the same calls, the same values returned, the same memory at every step.  Every call may be made on a machine of its
own, as long as the new one is larger than all of them. -/
theorem C125_programs {h₀ h : Heap} {t : List Event} (hu : Untouched h₀) (r : Run h₀ t h) {P' : Platform}
    (ht : ∀ E c M v, Event.call E c M v ∈ t → Larger E.P P' ∧ c.Succeeded v ∧ c.Printable E.P) : Run h₀ (t.map (Event.on P')) h := by
  have key : ∀ {h₁ h : Heap} {t : List Event}, Run h₁ t h → (∃ s, Run h₀ s h₁) →
      (∀ E c M v, Event.call E c M v ∈ t → Larger E.P P' ∧ c.Succeeded v ∧ c.Printable E.P) → Run h₁ (t.map (Event.on P')) h := by
    intro h₁ h t r
    induction r with
    | nil => intro _ _; exact .nil
    | call hx _ ih =>
      rintro ⟨s, hs⟩ ht
      obtain ⟨L, hv, hp⟩ := ht _ _ _ _ (List.mem_cons_self ..)
      refine .call ?_ (ih ⟨_, run_append hs (.call hx .nil)⟩ fun E c M v hm => ht E c M v (List.mem_cons_of_mem _ hm))
      rename_i v _ _
      by_cases h0 : v = Val.ptr 0
      · obtain ⟨k, hk⟩ := hv h0
        rw [← null_same P' hk]; exact hx
      · exact call_follows L (fun p x hpx => C71_genuine hu hs p x hpx) hp hx h0
    | write h1 h2 h3 _ ih =>
      rintro ⟨s, hs⟩ ht
      exact .write h1 h2 h3 (ih ⟨_, run_append hs (.write h1 h2 h3 .nil)⟩ fun E c M v hm => ht E c M v (List.mem_cons_of_mem _ hm))
    | drop h1 _ ih =>
      rintro ⟨s, hs⟩ ht
      exact .drop h1 (ih ⟨_, run_append hs (.drop h1 .nil)⟩ fun E c M v hm => ht E c M v (List.mem_cons_of_mem _ hm))
  exact key r ⟨_, .nil⟩ ht

/-- On a 32-bit machine a program creates a graph, adds an edge and compresses the graph; the same can be done on a 64-bit machine. -/
example : ∃ t h, Untouched HMap.empty ∧ Run HMap.empty t h ∧ t.length = 3 ∧
    ∀ E c M v, Event.call E c M v ∈ t → Larger E.P big64 ∧ c.Succeeded v ∧ c.Printable E.P := by
  let E : Ctx := exE.on small32
  let h₂ : Heap := (HMap.empty.insert 1 (.graph Graph.newDirected)).insert 1 (.graph (Graph.newDirected.addEdge 1 2))
  have hk : (match (Call.compress 1 1).exec E h₂ with | .ok (.ptr p) _ => decide (p ≠ 0) | _ => false) = true := by decide +kernel
  obtain ⟨p, h₃, he, hp⟩ : ∃ p h₃, (Call.compress 1 1).exec E h₂ = .ok (.ptr p) h₃ ∧ p ≠ 0 := by
    split at hk
    · next p h₃ he => exact ⟨p, h₃, he, of_decide_eq_true hk⟩
    · cases hk
  refine ⟨[.call E .newDirected _ _, .call E (.addEdge 1 1 2) _ _, .call E (.compress 1 1) _ _], h₃, ?_,
    .call rfl (.call rfl (.call he .nil)), rfl, ?_⟩
  · rintro p x ⟨⟩
  · intro E c M v h
    simp only [List.mem_cons, List.not_mem_nil, or_false] at h
    rcases h with h | h | h <;> cases h <;> refine ⟨small_big, ?_, trivial⟩
    · intro h; cases h
    · intro h; cases h
    · intro h; cases h; exact absurd rfl hp

end Verif.Props
