import Verif.Spec.PartsC
import Verif.Props.Parts
import Verif.Props.Addresses
import Verif.Props.Threads

/-!
# Parts of a C program that share no objects: C133
-/

namespace Verif.Props
open Verif Spec

theorem call_mapPtr_congr {c : Call} {f g : Ptr → Ptr} {r : Nat → Nat} (h : ∀ n ∈ c.pointers, f n = g (r n)) :
    c.mapPtr f = (c.mapPtr r).mapPtr g := by
  cases c <;> simp [Call.pointers] at h <;> simp [Call.mapPtr, h]

theorem step_names {E : Ctx} {ν ν' : List Ptr} {h : Heap} {c : Cmd} {r : Nat → Nat} (hn : ∀ n ∈ c.names, addr ν n = addr ν' (r n)) :
    c.step E ν h = (c.mapName r).step E ν' h := by
  cases c with
  | call c => simp only [Cmd.step, Cmd.mapName, call_mapPtr_congr (c := c) hn]
  | own x => rfl
  | set n x => simp only [Cmd.step, Cmd.mapName, hn n (List.mem_singleton.2 rfl)]
  | drop n => simp only [Cmd.step, Cmd.mapName, hn n (List.mem_singleton.2 rfl)]
  | read n => simp only [Cmd.step, Cmd.mapName, hn n (List.mem_singleton.2 rfl)]
  | same i j => simp only [Cmd.step, Cmd.mapName, hn i (List.mem_cons_self ..), hn j (List.mem_cons_of_mem _ (List.mem_singleton.2 rfl))]

theorem pointers_mapPtr {c : Call} {f : Ptr → Ptr} {p : Ptr} (h : p ∈ (c.mapPtr f).pointers) : ∃ n ∈ c.pointers, p = f n := by
  cases c <;> simp [Call.mapPtr, Call.pointers] at h <;> simp [Call.pointers, h]

/-- A command changes only what its names stand for and what it allocates. -/
theorem step_frame {E : Ctx} {ν : List Ptr} {h h1 : Heap} {c : Cmd} {o : Obs} {q p : Ptr} (hs : c.step E ν h = (o, some (q, h1)))
    (hz : p ≠ 0) (hn : ∀ n ∈ c.names, p ≠ addr ν n) (hq : p ≠ q) : h1.get? p = h.get? p := by
  cases c with
  | call c =>
    simp only [Cmd.step] at hs
    cases hx : (c.mapPtr (addr ν)).exec E h with
    | ub => rw [hx] at hs; simp at hs
    | abort => rw [hx] at hs; simp at hs
    | ok v h2 =>
      rw [hx] at hs
      simp only [Prod.mk.injEq, Option.some.injEq] at hs
      obtain ⟨_, rfl, rfl⟩ := hs
      obtain ⟨_, _, _, hf, _⟩ := step_local (h' := h) (Act.Step.call (E := E) rfl rfl rfl hx) (fun _ _ _ => rfl)
      refine hf p (.inl fun hc => ?_)
      rcases List.mem_append.1 hc with hc | hc
      · obtain ⟨n, hm, e⟩ := pointers_mapPtr (writes_pointers _ p hz hc)
        exact hn n hm e
      · cases v with
        | ptr r => exact hq (List.mem_singleton.1 hc)
        | unit => exact absurd hc List.not_mem_nil
        | num n => exact absurd hc List.not_mem_nil
        | f64 x => exact absurd hc List.not_mem_nil
  | own x =>
    simp only [Cmd.step] at hs
    split at hs
    · simp only [Prod.mk.injEq, Option.some.injEq] at hs
      obtain ⟨_, rfl, rfl⟩ := hs
      rw [HMap.get?_insert, if_neg hq]
    · simp at hs
  | set n x =>
    simp only [Cmd.step] at hs
    split at hs
    · split at hs
      · simp only [Prod.mk.injEq, Option.some.injEq] at hs
        obtain ⟨_, rfl, rfl⟩ := hs
        rw [HMap.get?_insert, if_neg (hn n (List.mem_singleton.2 rfl))]
      · simp at hs
    · simp at hs
  | drop n =>
    simp only [Cmd.step] at hs
    split at hs
    · split at hs
      · simp only [Prod.mk.injEq, Option.some.injEq] at hs
        obtain ⟨_, rfl, rfl⟩ := hs
        rw [HMap.get?_remove, if_neg (hn n (List.mem_singleton.2 rfl))]
      · simp at hs
    · simp at hs
  | read n =>
    simp only [Cmd.step] at hs
    split at hs
    · split at hs
      · simp only [Prod.mk.injEq, Option.some.injEq] at hs
        obtain ⟨_, rfl, rfl⟩ := hs
        rfl
      · simp at hs
    · simp at hs
  | same i j =>
    simp only [Cmd.step, Prod.mk.injEq, Option.some.injEq] at hs
    obtain ⟨_, rfl, rfl⟩ := hs
    rfl

theorem step_stops {E : Ctx} {ν : List Ptr} {h : Heap} {c : Cmd} {o : Obs} (hs : c.step E ν h = (o, none)) :
    o = .undefined ∨ o = .aborted := by
  cases c <;> simp only [Cmd.step] at hs
  case same => simp at hs
  all_goals
    repeat' split at hs
    all_goals simp at hs
    all_goals subst hs
    all_goals simp

theorem frees_names {c : Cmd} {n : Nat} (h : n ∈ c.frees) : n ∈ c.names := by
  cases c with
  | call c => cases c <;> simp [Cmd.frees] at h <;> simp [Cmd.names, Call.pointers, h]
  | own x => cases h
  | set i x => cases h
  | drop i => exact h
  | read i => cases h
  | same i j => cases h

theorem observe_some {E : Nat → Ctx} {ν : List Ptr} {h h1 : Heap} {c : Cmd} {t : List Cmd} {o : Obs} {q : Ptr}
    (hc : c.step (E ν.length) ν h = (o, some (q, h1))) : observe E ν h (c :: t) = o :: observe E (ν ++ [q]) h1 t := by
  rw [observe, hc]

theorem observe_none {E : Nat → Ctx} {ν : List Ptr} {h : Heap} {c : Cmd} {t : List Cmd} {o : Obs}
    (hc : c.step (E ν.length) ν h = (o, none)) : observe E ν h (c :: t) = [o] := by
  rw [observe, hc]

/-! ### The whole program and one part -/

/-- Names of other parts. -/
def Foreign (O : List Nat) (k n : Nat) : Prop := ∃ j, O[n]? = some j ∧ j ≠ k

theorem alike_self_null {ν : List Ptr} {h : Heap} (hν : ν = []) (D : Nat → Prop) (h' : Heap) : Alike D (addr ν) (addr []) h h' := by
  subst hν
  have : ∀ i, addr [] i = 0 := fun i => rfl
  constructor
  · intro i _; exact ⟨fun _ => this i, fun _ => this i⟩
  · intro i _ h; exact absurd (this i) h
  · intro i _ h; exact absurd (this i) h
  · intro i j _ _ _ h; exact absurd (this i) h
  · intro i j _ _ _ h; exact absurd (this i) h

/-- A command of another part. -/
theorem alike_foreign {D : Nat → Prop} {O : List Nat} {k : Nat} {ν μ : List Ptr} {h h1 h' : Heap} {q : Ptr}
    (hl : μ.length = ν.length) (hf : Foreign O k ν.length)
    (hi : Alike (fun n => D n ∨ Foreign O k n) (addr ν) (addr μ) h h')
    (hk : ∀ n, ¬ D n → ¬ Foreign O k n → addr ν n ≠ 0 → h1.get? (addr ν n) = h.get? (addr ν n)) :
    Alike (fun n => D n ∨ Foreign O k n) (addr (ν ++ [q])) (addr (μ ++ [0])) h1 h' := by
  have e1 : ∀ n, ¬ (D n ∨ Foreign O k n) → addr (ν ++ [q]) n = addr ν n := by
    intro n hn
    rw [addr_append, if_neg]
    rintro rfl
    exact hn (.inr hf)
  have e2 : ∀ n, ¬ (D n ∨ Foreign O k n) → addr (μ ++ [0]) n = addr μ n := by
    intro n hn
    rw [addr_append, if_neg]
    rw [hl]
    rintro rfl
    exact hn (.inr hf)
  constructor
  · intro i h; rw [e1 i h, e2 i h]; exact hi.null i h
  · intro i h hz
    rw [e1 i h] at hz ⊢
    rw [e2 i h, hk i (fun x => h (.inl x)) (fun x => h (.inr x)) hz]
    exact hi.content i h hz
  · intro i h hz
    rw [e1 i h] at hz ⊢
    rw [hk i (fun x => h (.inl x)) (fun x => h (.inr x)) hz]
    exact hi.alive i h hz
  · intro i j h h2 hne hz
    rw [e1 i h] at hz ⊢
    rw [e1 j h2]
    exact hi.left i j h h2 hne hz
  · intro i j h h2 hne hz
    rw [e2 i h] at hz ⊢
    rw [e2 j h2]
    exact hi.right i j h h2 hne hz

theorem addr_ge {ν : List Ptr} {n : Nat} (h : ν.length ≤ n) : addr ν n = 0 := by
  unfold addr
  rw [List.getD_eq_default _ _ h]

theorem seenBy_cons (s : Nat × Cmd) (t : PartedC) (k : Nat) (o : Obs) (l : List Obs) :
    seenBy (s :: t) k (o :: l) = if s.1 = k then o :: seenBy t k l else seenBy t k l := by
  unfold seenBy
  rw [List.zip_cons_cons, List.filter_cons]
  by_cases h : s.1 = k
  · rw [if_pos (by simpa using h), if_pos h]; rfl
  · rw [if_neg (by simpa using h), if_neg h]

theorem part_observe {E F : Nat → Ctx} {O : List Nat} {k : Nat}
    (hE : ∀ n, O[n]? = some k → (F (ownNumber O k n)).P = (E n).P ∧ (F (ownNumber O k n)).o₁ = (E n).o₁ ∧ (F (ownNumber O k n)).o₂ = (E n).o₂)
    {t : PartedC} : ∀ {D : Nat → Prop} {ν μ ν' : List Ptr} {h h' : Heap}, μ.length = ν.length → ν'.length = ownNumber O k ν.length →
    (∀ i, O[ν.length + i]? = (labels t)[i]?) →
    (∀ s ∈ t, ∀ n ∈ s.2.names, ∀ j, O[n]? = some j → j = s.1) →
    Alike D (addr ν) (addr ν) h h →
    Alike (fun n => D n ∨ Foreign O k n) (addr ν) (addr μ) h h' →
    (∀ n, ¬ Foreign O k n → addr μ n = addr ν' (ownNumber O k n)) →
    (∀ c ∈ t, ∀ n ∈ c.2.names, ¬ D n) → NoUseAfterFree (t.map Prod.snd) →
    seenBy t k (observe E ν h (t.map Prod.snd)) <+:
      observe F ν' h' ((t.filter fun s => s.1 == k).map fun s => s.2.mapName (ownNumber O k)) := by
  induction t with
  | nil => intros; exact List.nil_prefix
  | cons s t ih =>
    intro D ν μ ν' h h' hl hl' hO hown hself hi hμ hD hu
    obtain ⟨j, c⟩ := s
    have hOj : O[ν.length]? = some j := by simpa [labels] using hO 0
    have hO' : ∀ q, ∀ i, O[(ν ++ [q]).length + i]? = (labels t)[i]? := by
      intro q i
      have := hO (i + 1)
      simp only [List.length_append, List.length_cons, List.length_nil]
      rw [show ν.length + (0 + 1) + i = ν.length + (i + 1) by omega, this]
      rfl
    have hown' : ∀ s ∈ t, ∀ n ∈ s.2.names, ∀ j, O[n]? = some j → j = s.1 := fun s hs => hown s (List.mem_cons_of_mem _ hs)
    have hDc : ∀ n ∈ c.names, ¬ D n := hD (j, c) (List.mem_cons_self ..)
    rw [List.map_cons] at hu ⊢
    have hu' := List.pairwise_cons.1 hu
    have hD' : ∀ d ∈ t, ∀ n ∈ d.2.names, ¬ (D n ∨ n ∈ c.frees) := by
      intro d hd n hn
      rw [not_or]
      exact ⟨hD d (List.mem_cons_of_mem _ hd) n hn, fun hf => hu'.1 d.2 (List.mem_map_of_mem hd) n hf hn⟩
    have hs0 := step_twin (E := E ν.length) (F := E ν.length) rfl rfl rfl hself c hDc
    cases hc : c.step (E ν.length) ν h with
    | mk o r =>
    by_cases hjk : j = k
    · subst hjk
      rw [List.filter_cons, if_pos (by simp), List.map_cons]
      obtain ⟨e1, e2, e3⟩ := hE _ hOj
      have hnf : ∀ n ∈ c.names, ¬ Foreign O j n := by
        rintro n hn ⟨i, hi1, hi2⟩
        exact hi2 (hown (j, c) (List.mem_cons_self ..) n hn i hi1)
      have hs := step_twin e1 e2 e3 hi c (fun n hn => by rw [not_or]; exact ⟨hDc n hn, hnf n hn⟩)
      have hst := step_names (E := F (ownNumber O j ν.length)) (ν := μ) (ν' := ν') (h := h') (c := c) (r := ownNumber O j)
        (fun n hn => hμ n (hnf n hn))
      rw [hst, hc] at hs
      rw [hc] at hs0
      rw [← hl'] at hs
      cases hc' : (c.mapName (ownNumber O j)).step (F ν'.length) ν' h' with
      | mk o' r' =>
      rw [hc'] at hs
      cases r with
      | none =>
        cases r' with
        | none => cases hs; rw [observe_none hc, observe_none hc', seenBy_cons, if_pos rfl]; simp [seenBy]
        | some r' => exact hs.elim
      | some r =>
        cases r' with
        | none => exact hs.elim
        | some r' =>
          obtain ⟨q, h1⟩ := r
          obtain ⟨q', h1'⟩ := r'
          obtain ⟨rfl, hi1, hr⟩ := hs
          obtain ⟨_, hself1, hr0⟩ := hs0
          rw [observe_some hc, observe_some hc', seenBy_cons, if_pos rfl, List.prefix_cons_inj]
          have hDD : (fun i => (D i ∨ Foreign O j i) ∨ i ∈ c.frees) = fun i => (D i ∨ i ∈ c.frees) ∨ Foreign O j i := by
            funext i; exact propext ⟨by tauto, by tauto⟩
          have hi2 := alike_append hl hi1 hr
          rw [hDD] at hi2
          refine ih (D := fun i => D i ∨ i ∈ c.frees) (by simp [hl]) ?_ (hO' q) hown' (alike_append rfl hself1 hr0) hi2 ?_ hD' hu'.2
          · rw [List.length_append, List.length_append, hl']
            exact (ownNumber_succ_own hOj).symm
          · intro n hn
            rw [addr_append, addr_append, hl, hl']
            by_cases hx : n = ν.length
            · rw [if_pos hx, if_pos (by rw [hx])]
            · rw [if_neg hx]
              rcases Nat.lt_or_gt_of_ne hx with hx | hx
              · have hO2 : O[n]? = some j := by
                  have hlt : n < O.length := hx.trans (List.getElem?_eq_some_iff.1 hOj).1
                  by_contra hne
                  exact hn ⟨O[n], List.getElem?_eq_getElem hlt, fun e => hne (by rw [List.getElem?_eq_getElem hlt, e])⟩
                rw [if_neg (by have := ownNumber_lt hO2 hx; omega)]
                exact hμ n hn
              · rw [if_neg (by have := ownNumber_lt hOj hx; omega)]
                exact hμ n hn
    · rw [List.filter_cons, if_neg (by simpa using hjk)]
      cases r with
      | none => rw [observe_none hc, seenBy_cons, if_neg hjk]; simp [seenBy]
      | some r =>
        obtain ⟨q, h1⟩ := r
        rw [observe_some hc, seenBy_cons, if_neg hjk]
        rw [hc] at hs0
        obtain ⟨_, hself1, hr0⟩ := hs0
        have hf : Foreign O k ν.length := ⟨j, hOj, hjk⟩
        have hk : ∀ n, ¬ D n → ¬ Foreign O k n → addr ν n ≠ 0 → h1.get? (addr ν n) = h.get? (addr ν n) := by
          intro n hnD hnf hz
          have hne : ∀ m ∈ c.names, n ≠ m := by
            rintro m hm rfl
            have hlt : n < ν.length := by
              by_contra hge
              exact hz (addr_ge (Nat.le_of_not_lt hge))
            have hlt : n < O.length := hlt.trans (List.getElem?_eq_some_iff.1 hOj).1
            have e := hown (j, c) (List.mem_cons_self ..) n hm O[n] (List.getElem?_eq_getElem hlt)
            exact hnf ⟨O[n], List.getElem?_eq_getElem hlt, fun e' => hjk (e.symm.trans e')⟩
          by_cases hq0 : q = 0
          · exact step_frame hc hz (fun m hm => hself.left n m hnD (hDc m hm) (hne m hm) hz) (by rw [hq0]; exact hz)
          · refine step_frame hc hz (fun m hm => hself.left n m hnD (hDc m hm) (hne m hm) hz) ?_
            intro e
            rcases hr0 with ⟨h0, _⟩ | ⟨_, _, _, _, hnew⟩
            · exact hq0 h0
            · exact (hnew n (fun x => x.elim hnD fun x => hne n (frees_names x) rfl)).1 e
        have := alike_foreign (q := q) hl hf hi hk
        refine ih (D := fun i => D i ∨ i ∈ c.frees) (by simp [hl]) ?_ (hO' q) hown' (alike_append rfl hself1 hr0)
          (alike_mono this fun i => ?_) ?_ hD' hu'.2
        · rw [List.length_append, hl']
          exact (ownNumber_succ_other (by rw [hOj]; simpa using hjk)).symm
        · exact fun x => x.elim (fun x => .inl (.inl x)) .inr
        · intro n hn
          rw [addr_append, hl]
          rw [if_neg (by rintro rfl; exact hn hf)]
          exact hμ n hn

theorem observe_length_le (E : Nat → Ctx) (t : List Cmd) : ∀ (ν : List Ptr) (h : Heap), (observe E ν h t).length ≤ t.length := by
  induction t with
  | nil => intros; exact Nat.le_refl _
  | cons c t ih =>
    intro ν h
    cases hc : c.step (E ν.length) ν h with
    | mk o r =>
      cases r with
      | none => rw [observe_none hc]; simp
      | some r =>
        obtain ⟨q, h1⟩ := r
        rw [observe_some hc]
        simpa using ih (ν ++ [q]) h1

theorem observe_full {E : Nat → Ctx} {t : List Cmd} : ∀ {ν : List Ptr} {h : Heap}, NoStop (observe E ν h t) →
    (observe E ν h t).length = t.length := by
  induction t with
  | nil => intros; rfl
  | cons c t ih =>
    intro ν h hn
    cases hc : c.step (E ν.length) ν h with
    | mk o r =>
      cases r with
      | none =>
        rw [observe_none hc] at hn
        have := hn o (List.mem_singleton.2 rfl)
        rcases step_stops hc with h | h
        · exact absurd h this.1
        · exact absurd h this.2
      | some r =>
        obtain ⟨q, h1⟩ := r
        rw [observe_some hc] at hn ⊢
        rw [List.length_cons, List.length_cons, ih fun o ho => hn o (List.mem_cons_of_mem _ ho)]

theorem seenBy_length (k : Nat) : ∀ {t : PartedC} {l : List Obs}, l.length = t.length → (seenBy t k l).length = (t.filter fun s => s.1 == k).length
  | [], [], _ => rfl
  | s :: t, o :: l, h => by
    have ih := seenBy_length k (t := t) (l := l) (by simpa using h)
    rw [seenBy_cons, List.filter_cons]
    by_cases hk : s.1 = k
    · rw [if_pos hk, if_pos (by simpa using hk), List.length_cons, List.length_cons, ih]
    · rw [if_neg hk, if_neg (by simpa using hk), ih]

theorem mem_seenBy {o : Obs} : ∀ {t : PartedC} {l : List Obs}, l.length ≤ t.length → o ∈ l → ∃ k, o ∈ seenBy t k l
  | [], [], _, h => nomatch h
  | s :: t, x :: l, h, hm => by
    rcases List.mem_cons.1 hm with rfl | hm
    · exact ⟨s.1, by rw [seenBy_cons, if_pos rfl]; exact List.mem_cons_self ..⟩
    · obtain ⟨k, hk⟩ := mem_seenBy (t := t) (l := l) (by simpa using h) hm
      refine ⟨k, ?_⟩
      rw [seenBy_cons]
      split
      · exact List.mem_cons_of_mem _ hk
      · exact hk

/-- **C133.** What a part of a C program sees, until the whole program ends, is what it sees when it runs without the other parts,
whatever addresses the two runs get and however the allocator reuses them. -/
theorem C133_prefix {t : PartedC} (hs : OwnNames t) (hu : NoUseAfterFree (t.map Prod.snd)) {E : Nat → Ctx} {F : Nat → Nat → Ctx}
    (hE : Fits t E F) (k : Nat) :
    seenBy t k (observe E [] HMap.empty (t.map Prod.snd)) <+: observe (F k) [] HMap.empty (cPart t k) := by
  refine part_observe (D := fun _ => False) (μ := []) (fun n hn => hE n k hn) rfl (by simp [ownNumber]) (by intro i; simp) hs
    (alike_self_null rfl _ _) (alike_self_null rfl _ _) (fun _ _ => rfl) (fun _ _ _ _ h => h) hu

/-- **C133.** If the whole program runs to its end, every part sees exactly what it sees alone. -/
theorem C133_alone {t : PartedC} (hs : OwnNames t) (hu : NoUseAfterFree (t.map Prod.snd)) {E : Nat → Ctx} {F : Nat → Nat → Ctx}
    (hE : Fits t E F) (hn : NoStop (observe E [] HMap.empty (t.map Prod.snd))) (k : Nat) :
    observe (F k) [] HMap.empty (cPart t k) = seenBy t k (observe E [] HMap.empty (t.map Prod.snd)) := by
  refine ((C133_prefix hs hu hE k).eq_of_length_le ?_).symm
  rw [seenBy_length k ((observe_full hn).trans (List.length_map _))]
  refine (observe_length_le ..).trans ?_
  unfold cPart
  rw [List.length_map]

/-- **C133.** The whole program runs to its end iff every part does alone. -/
theorem C133_safe {t : PartedC} (hs : OwnNames t) (hu : NoUseAfterFree (t.map Prod.snd)) {E : Nat → Ctx} {F : Nat → Nat → Ctx}
    (hE : Fits t E F) :
    NoStop (observe E [] HMap.empty (t.map Prod.snd)) ↔ ∀ k, NoStop (observe (F k) [] HMap.empty (cPart t k)) := by
  constructor
  · intro hn k o ho
    rw [C133_alone hs hu hE hn k] at ho
    obtain ⟨x, hx, rfl⟩ := List.mem_map.1 ho
    exact hn _ (List.of_mem_zip (List.mem_filter.1 hx).1).2
  · intro hn o ho
    obtain ⟨k, hk⟩ := mem_seenBy ((observe_length_le ..).trans (List.length_map _).le) ho
    exact hn k o ((C133_prefix hs hu hE k).subset hk)

/-- **C133.** Two interleavings of the same parts: if the one runs to its end so does the other, and every part sees the same in both. -/
theorem C133_schedules {t t' : PartedC} (ht : ∀ k, cPart t k = cPart t' k) (hs : OwnNames t) (hs' : OwnNames t')
    (hu : NoUseAfterFree (t.map Prod.snd)) (hu' : NoUseAfterFree (t'.map Prod.snd)) {E E' : Nat → Ctx} {F : Nat → Nat → Ctx}
    (hE : Fits t E F) (hE' : Fits t' E' F) (hn : NoStop (observe E [] HMap.empty (t.map Prod.snd))) :
    NoStop (observe E' [] HMap.empty (t'.map Prod.snd)) ∧
      ∀ k, seenBy t' k (observe E' [] HMap.empty (t'.map Prod.snd)) = seenBy t k (observe E [] HMap.empty (t.map Prod.snd)) := by
  have h1 : NoStop (observe E' [] HMap.empty (t'.map Prod.snd)) :=
    (C133_safe hs' hu' hE').2 fun k => by rw [← ht k]; exact (C133_safe hs hu hE).1 hn k
  exact ⟨h1, fun k => by rw [← C133_alone hs' hu' hE' h1 k, ← C133_alone hs hu hE hn k, ht k]⟩

/-! ### Examples -/

/-- Part 0 makes a directed graph with an edge, frees it and makes an undirected one; part 1 makes an undirected graph in between. -/
def exPC : PartedC :=
  [(0, .call .newDirected), (1, .call .newUndirected), (0, .call (.addEdge 0 1 2)), (1, .call (.addEdge 1 3 4)), (0, .call (.freeGraph 0)),
    (1, .call (.duplicate 1)), (0, .call .newUndirected), (1, .call (.edgeCount 5)), (0, .call (.edgeCount 6)), (1, .same 1 5)]

/-- The same parts, one after the other. -/
def exPC' : PartedC :=
  [(0, .call .newDirected), (0, .call (.addEdge 0 1 2)), (0, .call (.freeGraph 0)), (0, .call .newUndirected), (0, .call (.edgeCount 3)),
    (1, .call .newUndirected), (1, .call (.addEdge 5 3 4)), (1, .call (.duplicate 5)), (1, .call (.edgeCount 7)), (1, .same 5 7)]

example : OwnNames exPC ∧ NoUseAfterFree (exPC.map Prod.snd) ∧ OwnNames exPC' ∧ NoUseAfterFree (exPC'.map Prod.snd) ∧
    Fits exPC (fun _ => exE) (fun k _ => exEk k) ∧ Fits exPC' exEk (fun k _ => exEk k) ∧
    cPart exPC 0 = [.call .newDirected, .call (.addEdge 0 1 2), .call (.freeGraph 0), .call .newUndirected, .call (.edgeCount 3)] ∧
    cPart exPC 1 = [.call .newUndirected, .call (.addEdge 0 3 4), .call (.duplicate 0), .call (.edgeCount 2), .same 0 2] ∧
    cPart exPC' 0 = cPart exPC 0 ∧ cPart exPC' 1 = cPart exPC 1 ∧
    observe (fun _ => exE) [] HMap.empty (exPC.map Prod.snd) =
      [.address, .address, .nothing, .nothing, .nothing, .address, .address, .num 2, .num 0, .equal false] ∧
    observe (exEk) [] HMap.empty (cPart exPC 1) = [.address, .nothing, .address, .num 2, .equal false] :=
  ⟨by unfold OwnNames; simp [exPC, labels, Cmd.names, Call.pointers], by unfold NoUseAfterFree; decide,
    by unfold OwnNames; simp [exPC', labels, Cmd.names, Call.pointers], by unfold NoUseAfterFree; decide,
    fun _ _ _ => ⟨rfl, rfl, rfl⟩, fun _ _ _ => ⟨rfl, rfl, rfl⟩, rfl, rfl, rfl, rfl, rfl, rfl⟩

/-- **C133.** Parts that share an object do see each other: the condition on the names cannot be dropped. -/
theorem C133_sharing_matters : ∃ (t : PartedC) (k : Nat), NoUseAfterFree (t.map Prod.snd) ∧
    NoStop (observe (fun _ => exE) [] HMap.empty (t.map Prod.snd)) ∧
    observe (fun _ => exE) [] HMap.empty (cPart t k) ≠ seenBy t k (observe (fun _ => exE) [] HMap.empty (t.map Prod.snd)) := by
  refine ⟨[(0, .call .newDirected), (1, .call (.addEdge 0 1 2)), (0, .call (.edgeCount 0))], 0, by unfold NoUseAfterFree; decide, ?_, ?_⟩
  · have e : observe (fun _ => exE) [] HMap.empty [.call .newDirected, .call (.addEdge 0 1 2), .call (.edgeCount 0)] =
        [.address, .nothing, .num 1] := rfl
    intro o ho
    simp only [List.map_cons, List.map_nil] at ho
    rw [e] at ho
    simp at ho
    rcases ho with rfl | rfl | rfl <;> simp
  · intro h
    have h2 : ([Obs.address, Obs.num 0] : List Obs) = [Obs.address, Obs.num 1] := h
    simp at h2

end Verif.Props
