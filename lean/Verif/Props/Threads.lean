import Verif.Spec.Threads
import Verif.Props.CUndef

/-!
# Programs with several threads: C117
-/

namespace Verif.Props
open Verif Spec

/-! ## Calls depend on the addresses they are given only -/

/-- The same environment with an allocator that returns `q` whenever it is free. -/
def choosing (E : Ctx) (q : Ptr) : Ctx where
  P := E.P
  fresh h := if q ≠ 0 ∧ h.get? q = none then q else E.fresh h
  fresh_ne h := by
    split
    · next e => exact e.1
    · exact E.fresh_ne h
  fresh_free h := by
    split
    · next e => exact e.2
    · exact E.fresh_free h
  o₁ := E.o₁
  o₂ := E.o₂

/-- Run on a memory that agrees on `U`, the second computation does what the first one did, and both change `W` only. -/
def Sim {α : Type} (U W : Ptr → Prop) (G : α → Prop) (x x' : CM α) : Prop :=
  ∀ h h' a h1, (∀ p, p ≠ 0 → U p → h'.get? p = h.get? p) → x h = .ok a h1 → G a →
    ∃ h1', x' h' = .ok a h1' ∧ (∀ p, p ≠ 0 → U p → h1'.get? p = h1.get? p) ∧
      (∀ p, ¬ W p ∨ p = 0 → h1.get? p = h.get? p) ∧ (∀ p, ¬ W p ∨ p = 0 → h1'.get? p = h'.get? p)

section sim
variable {U W : Ptr → Prop} {α β : Type}

theorem sim_pure {G : α → Prop} (a : α) : Sim U W G (pure a) (pure a) := by
  intro h h' b h1 ha he _
  cases he
  exact ⟨h', rfl, ha, fun _ _ => rfl, fun _ _ => rfl⟩

theorem sim_bind {G : β → Prop} {x x' : CM α} {f f' : α → CM β} (hx : Sim U W (fun _ => True) x x')
    (hf : ∀ a, (∃ h h1, x h = .ok a h1) → Sim U W G (f a) (f' a)) : Sim U W G (x >>= f) (x' >>= f') := by
  intro h h' b h2 ha he hG
  change CM.bind x f h = _ at he
  unfold CM.bind at he
  cases hxe : x h with
  | ub => rw [hxe] at he; cases he
  | abort => rw [hxe] at he; cases he
  | ok a h1 =>
    rw [hxe] at he
    obtain ⟨h1', e1, a1, b1, c1⟩ := hx h h' a h1 ha hxe trivial
    obtain ⟨h2', e2, a2, b2, c2⟩ := hf a ⟨h, h1, hxe⟩ h1 h1' b h2 a1 he hG
    refine ⟨h2', ?_, a2, fun p hp => (b2 p hp).trans (b1 p hp), fun p hp => (c2 p hp).trans (c1 p hp)⟩
    change CM.bind x' f' h' = _
    unfold CM.bind
    rw [e1]
    exact e2

theorem sim_ret {G : Val → Prop} {x x' : CM α} {f : α → Val} (hx : Sim U W (fun a => G (f a)) x x') :
    Sim U W G (x.ret f) (x'.ret f) := by
  intro h h' b h1 ha he hG
  unfold CM.ret at he
  cases hxe : x h with
  | ub => rw [hxe] at he; cases he
  | abort => rw [hxe] at he; cases he
  | ok a h2 =>
    rw [hxe] at he
    cases he
    obtain ⟨h1', e1, r⟩ := hx h h' a h1 ha hxe hG
    refine ⟨h1', ?_, r⟩
    unfold CM.ret
    rw [e1]

/-- Changing one address. -/
theorem agree_insert {h h' : Heap} {p : Ptr} (ha : ∀ p, p ≠ 0 → U p → h'.get? p = h.get? p) (x : Obj) :
    ∀ q, q ≠ 0 → U q → (h'.insert p x).get? q = (h.insert p x).get? q := by
  intro q hq hu
  rw [HMap.get?_insert, HMap.get?_insert, ha q hq hu]

theorem insert_frame {h : Heap} {p : Ptr} (hp : p ≠ 0) (hw : W p) (x : Obj) :
    ∀ q, ¬ W q ∨ q = 0 → (h.insert p x).get? q = h.get? q := by
  intro q hq
  rw [HMap.get?_insert, if_neg]
  rintro rfl
  exact hq.elim (fun h => h hw) hp

theorem remove_frame {h : Heap} {p : Ptr} (hp : p ≠ 0) (hw : W p) :
    ∀ q, ¬ W q ∨ q = 0 → (h.remove p).get? q = h.get? q := by
  intro q hq
  rw [HMap.get?_remove, if_neg]
  rintro rfl
  exact hq.elim (fun h => h hw) hp

theorem sim_rust {G : Option α → Prop} (r : Res α) : Sim U W G (CApi.rust r) (CApi.rust r) := by
  intro h h' a h1 ha he _
  cases r <;> cases he <;> exact ⟨h', rfl, ha, fun _ _ => rfl, fun _ _ => rfl⟩

theorem sim_rustTotal {G : α → Prop} (r : Res α) : Sim U W G (CApi.rustTotal r) (CApi.rustTotal r) := by
  intro h h' a h1 ha he _
  cases r <;> cases he <;> exact ⟨h', rfl, ha, fun _ _ => rfl, fun _ _ => rfl⟩

theorem sim_graphRef {G : Option Graph → Prop} {p : Ptr} (hp : U p) : Sim U W G (CApi.graphRef p) (CApi.graphRef p) := by
  intro h h' a h1 ha he _
  unfold CApi.graphRef at he ⊢
  by_cases hz : p = 0
  · rw [if_pos hz] at he ⊢; cases he; exact ⟨h', rfl, ha, fun _ _ => rfl, fun _ _ => rfl⟩
  · rw [if_neg hz] at he ⊢
    rw [ha p hz hp]
    cases hg : h.get? p with
    | none => rw [hg] at he; cases he
    | some o => rw [hg] at he; cases o <;> cases he; exact ⟨h', rfl, ha, fun _ _ => rfl, fun _ _ => rfl⟩

theorem sim_cgraphRef {G : Option CGraph → Prop} {p : Ptr} (hp : U p) : Sim U W G (CApi.cgraphRef p) (CApi.cgraphRef p) := by
  intro h h' a h1 ha he _
  unfold CApi.cgraphRef at he ⊢
  by_cases hz : p = 0
  · rw [if_pos hz] at he ⊢; cases he; exact ⟨h', rfl, ha, fun _ _ => rfl, fun _ _ => rfl⟩
  · rw [if_neg hz] at he ⊢
    rw [ha p hz hp]
    cases hg : h.get? p with
    | none => rw [hg] at he; cases he
    | some o => rw [hg] at he; cases o <;> cases he; exact ⟨h', rfl, ha, fun _ _ => rfl, fun _ _ => rfl⟩

theorem sim_matrixRef {G : Option (SqMatrix F64) → Prop} {p : Ptr} (hp : U p) :
    Sim U W G (CApi.matrixRef p) (CApi.matrixRef p) := by
  intro h h' a h1 ha he _
  unfold CApi.matrixRef at he ⊢
  by_cases hz : p = 0
  · rw [if_pos hz] at he ⊢; cases he; exact ⟨h', rfl, ha, fun _ _ => rfl, fun _ _ => rfl⟩
  · rw [if_neg hz] at he ⊢
    rw [ha p hz hp]
    cases hg : h.get? p with
    | none => rw [hg] at he; cases he
    | some o => rw [hg] at he; cases o <;> cases he; exact ⟨h', rfl, ha, fun _ _ => rfl, fun _ _ => rfl⟩

theorem sim_setUsize {G : Unit → Prop} {p : Ptr} (hp : U p) (hw : W p) (n : Nat) :
    Sim U W G (CApi.setUsize p n) (CApi.setUsize p n) := by
  intro h h' a h1 ha he _
  unfold CApi.setUsize at he ⊢
  by_cases hz : p = 0
  · rw [if_pos hz] at he ⊢; cases he; exact ⟨h', rfl, ha, fun _ _ => rfl, fun _ _ => rfl⟩
  · rw [if_neg hz] at he ⊢
    rw [ha p hz hp]
    cases hg : h.get? p with
    | none => rw [hg] at he; cases he
    | some o =>
      rw [hg] at he
      cases o <;> cases he
      exact ⟨_, rfl, agree_insert ha _, insert_frame hz hw _, insert_frame hz hw _⟩

theorem sim_setU8 {G : Unit → Prop} {p : Ptr} (hp : U p) (hw : W p) (n : Nat) :
    Sim U W G (CApi.setU8 p n) (CApi.setU8 p n) := by
  intro h h' a h1 ha he _
  unfold CApi.setU8 at he ⊢
  by_cases hz : p = 0
  · rw [if_pos hz] at he ⊢; cases he; exact ⟨h', rfl, ha, fun _ _ => rfl, fun _ _ => rfl⟩
  · rw [if_neg hz] at he ⊢
    rw [ha p hz hp]
    cases hg : h.get? p with
    | none => rw [hg] at he; cases he
    | some o =>
      rw [hg] at he
      cases o <;> cases he
      exact ⟨_, rfl, agree_insert ha _, insert_frame hz hw _, insert_frame hz hw _⟩

theorem sim_readBytes {G : Bytes → Prop} {p : Ptr} (hz : p ≠ 0) (hp : U p) (n : Nat) :
    Sim U W G (CApi.readBytes p n) (CApi.readBytes p n) := by
  intro h h' a h1 ha he _
  unfold CApi.readBytes at he ⊢
  rw [ha p hz hp]
  cases hg : h.get? p with
  | none => rw [hg] at he; cases he
  | some o =>
    rw [hg] at he
    cases o <;> try cases he
    all_goals
      simp only at he ⊢
      split at he
      · next hn => cases he; exact ⟨h', if_pos hn, ha, fun _ _ => rfl, fun _ _ => rfl⟩
      · cases he

theorem sim_inputBytes {G : Bytes → Prop} {p : Ptr} {n : Nat} (hz : ¬ (p = 0 ∧ n ≠ 0)) (hp : U p) :
    Sim U W G (CApi.inputBytes p n) (CApi.inputBytes p n) := by
  unfold CApi.inputBytes
  split
  · exact sim_pure _
  · next hn => exact sim_readBytes (fun h => hz ⟨h, hn⟩) hp n

theorem sim_readU64s {G : List Nat → Prop} {p : Ptr} (hz : p ≠ 0) (hp : U p) (n : Nat) :
    Sim U W G (CApi.readU64s p n) (CApi.readU64s p n) := by
  intro h h' a h1 ha he _
  unfold CApi.readU64s at he ⊢
  rw [ha p hz hp]
  cases hg : h.get? p with
  | none => rw [hg] at he; cases he
  | some o =>
    rw [hg] at he
    cases o <;> try cases he
    all_goals
      simp only at he ⊢
      split at he
      · next hn => cases he; exact ⟨h', if_pos hn, ha, fun _ _ => rfl, fun _ _ => rfl⟩
      · cases he

theorem sim_writeGraph {G : Unit → Prop} {p : Ptr} (hz : p ≠ 0) (hw : W p) (g : Graph) :
    Sim U W G (CApi.writeGraph p g) (CApi.writeGraph p g) := by
  intro h h' a h1 ha he _
  cases he
  exact ⟨_, rfl, agree_insert ha _, insert_frame hz hw _, insert_frame hz hw _⟩

theorem sim_freeObj {G : Unit → Prop} {p : Ptr} (hp : U p) (hw : W p) (ok : Obj → Bool) :
    Sim U W G (CApi.freeObj ok p) (CApi.freeObj ok p) := by
  intro h h' a h1 ha he _
  unfold CApi.freeObj at he ⊢
  by_cases hz : p = 0
  · rw [if_pos hz] at he ⊢; cases he; exact ⟨h', rfl, ha, fun _ _ => rfl, fun _ _ => rfl⟩
  · rw [if_neg hz] at he ⊢
    rw [ha p hz hp]
    cases hg : h.get? p with
    | none => rw [hg] at he; cases he
    | some o =>
      rw [hg] at he
      simp only at he ⊢
      split at he
      · next ho =>
        cases he
        refine ⟨_, if_pos ho, ?_, remove_frame hz hw, remove_frame hz hw⟩
        intro q hq hu
        rw [HMap.get?_remove, HMap.get?_remove, ha q hq hu]
      · cases he

/-- The allocator can return the same address if it is free. -/
theorem sim_boxNew {E : Ctx} {q : Ptr} (hu : U q) (hw : W q) (x : Obj) :
    Sim U W (fun a => a = 0 ∨ a = q) (CApi.boxNew E x) (CApi.boxNew (choosing E q) x) := by
  intro h h' a h1 ha he hG
  unfold CApi.boxNew at he ⊢
  cases he
  have hne := E.fresh_ne h
  have hfr := E.fresh_free h
  have hq : E.fresh h = q := hG.resolve_left hne
  rw [hq] at hne hfr ⊢
  have : (choosing E q).fresh h' = q := if_pos ⟨hne, (ha q hne hu).trans hfr⟩
  rw [this]
  exact ⟨_, rfl, agree_insert ha _, insert_frame hne hw _, insert_frame hne hw _⟩

theorem sim_cstring {E : Ctx} {q : Ptr} (hu : U q) (hw : W q) (s : Option (List Char)) :
    Sim U W (fun a => a = 0 ∨ a = q) (CApi.cstringOrNull E s) (CApi.cstringOrNull (choosing E q) s) := by
  unfold CApi.cstringOrNull
  cases s with
  | none => exact sim_pure _
  | some s =>
    simp only
    split
    · exact sim_pure _
    · exact sim_boxNew hu hw _

theorem sim_boxedBytes {E : Ctx} {q p : Ptr} (hu : U q) (hw : W q) (hp : U p) (hpw : W p) (b : Bytes) :
    Sim U W (fun a => a = 0 ∨ a = q) (CApi.boxedBytesToRaw E b p) (CApi.boxedBytesToRaw (choosing E q) b p) :=
  sim_bind (sim_setUsize hp hpw _) fun _ _ => sim_boxNew hu hw _

end sim

theorem sim_mono {U W : Ptr → Prop} {α : Type} {G G' : α → Prop} {x x' : CM α} (h : ∀ a, G' a → G a) (hx : Sim U W G x x') :
    Sim U W G' x x' := fun k k' a k1 ha he hg => hx k k' a k1 ha he (h a hg)

theorem graphRef_some {p : Ptr} {g : Graph} (h : ∃ k k1, CApi.graphRef p k = .ok (some g) k1) : p ≠ 0 := by
  rintro rfl
  obtain ⟨k, k1, h⟩ := h
  cases h

/-- What a call does depends only on the addresses it is given, if it gets the same address from the allocator. -/
theorem exec_sim (E : Ctx) (c : Call) (q : Ptr) {U W : Ptr → Prop} (hu : U q) (hw : W q) (hU : ∀ p ∈ c.pointers, U p)
    (hW : ∀ p ∈ c.writes, W p) :
    Sim U W (fun v => ∀ r, v = .ptr r → r = 0 ∨ r = q) (c.exec E) (c.exec (choosing E q)) := by
  have hG : ∀ a : Ptr, (∀ r, Val.ptr a = .ptr r → r = 0 ∨ r = q) → a = 0 ∨ a = q := fun a h => h a rfl
  cases c
  case' fromBytes b n e =>
    refine sim_ret (sim_mono hG (sim_bind (sim_setU8 (hU e (by simp [Call.pointers])) (hW e (by simp [Call.writes])) _) fun _ _ => ?_))
    split
    · exact sim_bind (sim_setU8 (hU e (by simp [Call.pointers])) (hW e (by simp [Call.writes])) _) fun _ _ => sim_pure _
    · next hz =>
      refine sim_bind (sim_inputBytes hz (hU b (by simp [Call.pointers]))) fun _ _ => sim_bind (sim_rust _) fun a _ => ?_
      cases a
      · exact sim_bind (sim_setU8 (hU e (by simp [Call.pointers])) (hW e (by simp [Call.writes])) _) fun _ _ => sim_pure _
      · exact sim_boxNew hu hw _
  case' cFromBytes b n e =>
    refine sim_ret (sim_mono hG (sim_bind (sim_setU8 (hU e (by simp [Call.pointers])) (hW e (by simp [Call.writes])) _) fun _ _ => ?_))
    split
    · exact sim_bind (sim_setU8 (hU e (by simp [Call.pointers])) (hW e (by simp [Call.writes])) _) fun _ _ => sim_pure _
    · next hz =>
      refine sim_bind (sim_inputBytes hz (hU b (by simp [Call.pointers]))) fun _ _ => sim_bind (sim_rust _) fun a _ => ?_
      cases a
      · exact sim_bind (sim_setU8 (hU e (by simp [Call.pointers])) (hW e (by simp [Call.writes])) _) fun _ _ => sim_pure _
      · exact sim_boxNew hu hw _
  case' addVertex p v l n =>
    refine sim_ret (sim_bind (sim_graphRef (hU p (by simp [Call.pointers]))) fun a ha => ?_)
    cases a with
    | none => exact sim_pure _
    | some g =>
      have hp := graphRef_some ha
      have hpw := hW p (by simp [Call.writes])
      simp only
      split
      · exact sim_pure _
      · next hz =>
        split
        · exact sim_writeGraph hp hpw _
        · next hn =>
          exact sim_bind (sim_readU64s (fun h => hz ⟨h, hn⟩) (hU l (by simp [Call.pointers])) _) fun _ _ =>
            sim_writeGraph hp hpw _
  case' addEdge p u v =>
    refine sim_ret (sim_bind (sim_graphRef (hU p (by simp [Call.pointers]))) fun a ha => ?_)
    cases a with
    | none => exact sim_pure _
    | some g => exact sim_writeGraph (graphRef_some ha) (hW p (by simp [Call.writes])) _
  case' deleteEdge p u v =>
    refine sim_ret (sim_bind (sim_graphRef (hU p (by simp [Call.pointers]))) fun a ha => ?_)
    cases a with
    | none => exact sim_pure _
    | some g => exact sim_writeGraph (graphRef_some ha) (hW p (by simp [Call.writes])) _
  all_goals
    simp only [Call.pointers, Call.writes, Call.out, List.mem_cons, List.not_mem_nil, or_false, forall_eq_or_imp, forall_eq] at hU hW
    first
    | exact sim_ret (sim_freeObj hU hW _)
    | exact sim_ret (sim_mono hG (sim_boxNew hu hw _))
    | (refine sim_ret (sim_bind (sim_graphRef hU) fun a _ => ?_); cases a <;> exact sim_pure _)
    | (refine sim_ret (sim_bind (sim_cgraphRef hU) fun a _ => ?_); cases a <;> exact sim_pure _)
    | (refine sim_ret (sim_bind (sim_matrixRef hU) fun a _ => ?_); cases a <;> exact sim_pure _)
    | (refine sim_ret (sim_mono hG (sim_bind (sim_graphRef hU) fun a _ => ?_))
       cases a
       · exact sim_pure _
       · first
         | exact sim_boxNew hu hw _
         | exact sim_bind (sim_rust _) fun _ _ => sim_cstring hu hw _
         | exact sim_bind (sim_rustTotal _) fun _ _ => sim_boxNew hu hw _)
    | (refine sim_ret (sim_mono hG (sim_bind (sim_cgraphRef hU) fun a _ => ?_))
       cases a
       · exact sim_pure _
       · first
         | exact sim_boxNew hu hw _
         | exact sim_bind (sim_rust _) fun _ _ => sim_cstring hu hw _
         | exact sim_bind (sim_rustTotal _) fun _ _ => sim_boxNew hu hw _)
    | (refine sim_ret (sim_mono hG (sim_bind (sim_matrixRef hU) fun a _ => ?_))
       cases a
       · exact sim_pure _
       · first
         | exact sim_boxNew hu hw _
         | exact sim_bind (sim_rust _) fun _ _ => sim_cstring hu hw _
         | exact sim_bind (sim_rustTotal _) fun _ _ => sim_cstring hu hw _)
    | (refine sim_ret (sim_mono hG (sim_bind (sim_setUsize hU.2 hW _) fun _ _ => sim_bind (sim_graphRef hU.1) fun a _ => ?_))
       cases a
       · exact sim_pure _
       · first
         | exact sim_bind (sim_setUsize hU.2 hW _) fun _ _ => sim_boxNew hu hw _
         | (refine sim_bind (sim_rust _) fun b _ => ?_
            cases b
            · exact sim_pure _
            · exact sim_boxedBytes hu hw hU.2 hW _))
    | (refine sim_ret (sim_mono hG (sim_bind (sim_setUsize hU.2 hW _) fun _ _ => sim_bind (sim_cgraphRef hU.1) fun a _ => ?_))
       cases a
       · exact sim_pure _
       · refine sim_bind (sim_rust _) fun b _ => ?_
         cases b
         · exact sim_pure _
         · exact sim_boxedBytes hu hw hU.2 hW _)
    | (refine sim_ret (sim_mono hG (sim_bind (sim_setUsize hU.2 hW _) fun _ _ => sim_bind (sim_matrixRef hU.1) fun a _ => ?_))
       cases a
       · exact sim_pure _
       · exact sim_bind (sim_setUsize hU.2 hW _) fun _ _ => sim_boxNew hu hw _)

/-! ## Actions -/

/-- The calls that change an address are given it. -/
theorem writes_pointers (c : Call) (p : Ptr) (hp : p ≠ 0) (h : p ∈ c.writes) : p ∈ c.pointers := by
  cases c <;> simp_all [Call.writes, Call.pointers, Call.out]

theorem step_local {h h1 h' : Heap} {a : Act} (hs : a.Step h h1) (ha : ∀ p, p ≠ 0 → p ∈ a.uses → h'.get? p = h.get? p) :
    ∃ h1', a.Step h' h1' ∧ (∀ p, p ≠ 0 → p ∈ a.changes → h1'.get? p = h1.get? p) ∧
      (∀ p, p ∉ a.changes ∨ p = 0 → h1.get? p = h.get? p) ∧ (∀ p, p ∉ a.changes ∨ p = 0 → h1'.get? p = h'.get? p) := by
  cases hs with
  | @call E F c v _ _ hP ho₁ ho₂ he =>
    have hq : ∃ q, (q = 0 ∨ q ∈ returned v) ∧ ∀ r, v = .ptr r → r = 0 ∨ r = q := by
      cases v with
      | ptr q => exact ⟨q, .inr (List.mem_singleton.2 rfl), fun r hr => by cases hr; exact .inr rfl⟩
      | unit => exact ⟨0, .inl rfl, fun r hr => by cases hr⟩
      | num n => exact ⟨0, .inl rfl, fun r hr => by cases hr⟩
      | f64 x => exact ⟨0, .inl rfl, fun r hr => by cases hr⟩
    obtain ⟨q, hq, hr⟩ := hq
    have sim := exec_sim F c q (U := fun p => p = 0 ∨ p ∈ (Act.call E c v).uses) (W := fun p => p = 0 ∨ p ∈ (Act.call E c v).changes)
      (hq.imp_right fun h => List.mem_append_right _ h) (hq.imp_right fun h => List.mem_append_right _ h)
      (fun p hp => .inr (List.mem_append_left _ hp)) (fun p hp => .inr (List.mem_append_left _ hp))
    obtain ⟨h1', e1, a1, b1, c1⟩ := sim h h' v h1 (fun p hp hu => ha p hp (hu.resolve_left hp)) he hr
    have hw : ∀ p, p ∉ (Act.call E c v).changes ∨ p = 0 → ¬ (p = 0 ∨ p ∈ (Act.call E c v).changes) ∨ p = 0 := by
      intro p hp; tauto
    refine ⟨h1', .call (F := choosing F q) hP ho₁ ho₂ e1, fun p hp hc => a1 p hp (.inr ?_), fun p hp => b1 p (hw p hp), fun p hp => c1 p (hw p hp)⟩
    rcases List.mem_append.1 hc with hc | hc
    · exact List.mem_append_left _ (writes_pointers c p hp hc)
    · exact List.mem_append_right _ hc
  | read hp hx =>
    exact ⟨h', .read hp ((ha _ hp (List.mem_singleton.2 rfl)).trans hx), fun p _ hc => absurd hc List.not_mem_nil,
      fun _ _ => rfl, fun _ _ => rfl⟩
  | @write _ p x hp hy hx =>
    have hm : ∀ q, q ∉ (Act.write p x).changes ∨ q = 0 → q ≠ p := by
      rintro q hq rfl
      exact hq.elim (fun h => h (List.mem_singleton.2 rfl)) hp
    refine ⟨h'.insert p x, .write hp (fun y h => hy y ?_) hx, ?_, ?_, ?_⟩
    · rw [← ha p hp (List.mem_singleton.2 rfl)]; exact h
    · intro q _ hc
      have : q = p := List.mem_singleton.1 hc
      rw [this, HMap.get?_insert, HMap.get?_insert, if_pos rfl, if_pos rfl]
    · intro q hq; rw [HMap.get?_insert, if_neg (hm q hq)]
    · intro q hq; rw [HMap.get?_insert, if_neg (hm q hq)]
  | @drop _ p hp hy =>
    have hm : ∀ q, q ∉ (Act.drop p).changes ∨ q = 0 → q ≠ p := by
      rintro q hq rfl
      exact hq.elim (fun h => h (List.mem_singleton.2 rfl)) hp
    refine ⟨h'.remove p, .drop hp (fun y h => hy y ?_), ?_, ?_, ?_⟩
    · rw [← ha p hp (List.mem_singleton.2 rfl)]; exact h
    · intro q _ hc
      have : q = p := List.mem_singleton.1 hc
      rw [this, HMap.get?_remove, HMap.get?_remove, if_pos rfl, if_pos rfl]
    · intro q hq; rw [HMap.get?_remove, if_neg (hm q hq)]
    · intro q hq; rw [HMap.get?_remove, if_neg (hm q hq)]

/-- The action on equal memories. -/
theorem step_congr {h h1 h' : Heap} {a : Act} (hs : a.Step h h1) (ha : h'.get? = h.get?) :
    ∃ h1', a.Step h' h1' ∧ h1'.get? = h1.get? := by
  obtain ⟨h1', e, a1, b1, c1⟩ := step_local hs (fun p _ _ => congrFun ha p)
  refine ⟨h1', e, funext fun p => ?_⟩
  by_cases hp : p ∉ a.changes ∨ p = 0
  · rw [c1 p hp, b1 p hp, ha]
  · push Not at hp
    exact a1 p hp.2 hp.1

theorem steps_congr {t : List Act} : ∀ {h h1 h' : Heap}, Act.Steps h t h1 → h'.get? = h.get? →
    ∃ h1', Act.Steps h' t h1' ∧ h1'.get? = h1.get? := by
  induction t with
  | nil => intro h h1 h' hs ha; cases hs; exact ⟨h', .nil, ha⟩
  | cons a t ih =>
    intro h h1 h' hs ha
    cases hs with
    | cons s r =>
      obtain ⟨k, s', e⟩ := step_congr s ha
      obtain ⟨k', r', e'⟩ := ih r e
      exact ⟨k', .cons s' r', e'⟩

/-- **C117.** Two actions one after the other, neither of which changes what the other one uses, can be done in the other
order: both return the same as before, and the memory is the same afterwards. -/
theorem C117_commute {h h1 h2 : Heap} {a b : Act} (ha : a.Step h h1) (hb : b.Step h1 h2) (hi : a.Independent b) :
    ∃ k1 k2, b.Step h k1 ∧ a.Step k1 k2 ∧ k2.get? = h2.get? := by
  obtain ⟨_, _, _, fa, _⟩ := step_local ha (fun _ _ _ => rfl)
  obtain ⟨k1, sb, eb, fb, gb⟩ := step_local (h' := h) hb (fun p hp hu => (fa p (.inl fun hc => (hi p hp).1 hc hu)).symm)
  obtain ⟨k2, sa, ea, _, ga⟩ := step_local (h' := k1) ha (fun p hp hu => gb p (.inl fun hc => (hi p hp).2 hc hu))
  refine ⟨k1, k2, sb, sa, funext fun p => ?_⟩
  have cu : ∀ a : Act, ∀ p, p ≠ 0 → p ∈ a.changes → p ∈ a.uses := by
    intro a p hp hc
    cases a with
    | call E c v =>
      rcases List.mem_append.1 hc with hc | hc
      · exact List.mem_append_left _ (writes_pointers c p hp hc)
      · exact List.mem_append_right _ hc
    | read p x => exact absurd hc List.not_mem_nil
    | write p x => exact hc
    | drop p => exact hc
  by_cases hz : p = 0
  · rw [ga p (.inr hz), gb p (.inr hz), fb p (.inr hz), fa p (.inr hz)]
  by_cases hca : p ∈ a.changes
  · have hnb : p ∉ b.changes := fun h => (hi p hz).1 hca (cu b p hz h)
    rw [ea p hz hca, fb p (.inl hnb)]
  · rw [ga p (.inl hca)]
    by_cases hcb : p ∈ b.changes
    · exact eb p hz hcb
    · rw [gb p (.inl hcb), fb p (.inl hcb), fa p (.inl hca)]

/-- Moving an action to the front. -/
theorem steps_move {a : Act} {t r : List Act} : ∀ {h h' : Heap}, Act.Steps h (t ++ a :: r) h' → (∀ b ∈ t, b.Independent a) →
    ∃ k, Act.Steps h (a :: (t ++ r)) k ∧ k.get? = h'.get? := by
  induction t with
  | nil => intro h h' hs _; exact ⟨h', hs, rfl⟩
  | cons b t ih =>
    intro h h' hs hi
    cases hs with
    | cons sb hs =>
      obtain ⟨k, hk, e⟩ := ih hs (fun c hc => hi c (List.mem_cons_of_mem _ hc))
      cases hk with
      | cons sa hr =>
        obtain ⟨k1, k2, sa', sb', e2⟩ := C117_commute sb sa (hi b (List.mem_cons_self ..))
        obtain ⟨k3, hr', e3⟩ := steps_congr hr e2
        exact ⟨k3, .cons sa' (.cons sb' hr'), e3.trans e⟩

theorem split_first {i : Nat} {a : Act} {r : List (Nat × Act)} : ∀ {t : List (Nat × Act)},
    t.filter (fun b => b.1 == i) = (i, a) :: r → ∃ t1 t2, t = t1 ++ (i, a) :: t2 ∧ ∀ b ∈ t1, b.1 ≠ i := by
  intro t
  induction t with
  | nil => intro h; cases h
  | cons b t ih =>
    intro h
    by_cases hb : b.1 = i
    · rw [List.filter_cons_of_pos (by simpa using hb)] at h
      cases h
      exact ⟨[], t, rfl, fun b hb => absurd hb List.not_mem_nil⟩
    · rw [List.filter_cons_of_neg (by simpa using hb)] at h
      obtain ⟨t1, t2, e, h1⟩ := ih h
      refine ⟨b :: t1, t2, by rw [e]; rfl, ?_⟩
      intro c hc
      rcases List.mem_cons.1 hc with rfl | hc
      · exact hb
      · exact h1 c hc

/-- **C117.** Threads that do not change what the others use can be scheduled in any way: the calls return the same, the
reads read the same, and the memory is the same at the end. -/
theorem C117_schedules {t' : List (Nat × Act)} : ∀ {t : List (Nat × Act)} {h h' : Heap}, RaceFree t → SameThreads t t' →
    Act.Steps h (t.map Prod.snd) h' → ∃ k, Act.Steps h (t'.map Prod.snd) k ∧ k.get? = h'.get? := by
  induction t' with
  | nil =>
    intro t h h' _ hs ht
    cases t with
    | nil => exact ⟨h', ht, rfl⟩
    | cons a t =>
      have := hs a.1
      rw [List.filter_cons_of_pos (by simp)] at this
      cases this
  | cons a t' ih =>
    obtain ⟨i, a⟩ := a
    intro t h h' hr hs ht
    have hi := hs i
    rw [List.filter_cons_of_pos (by simp)] at hi
    obtain ⟨t1, t2, rfl, hne⟩ := split_first hi
    rw [List.map_append, List.map_cons] at ht
    have hr' := List.pairwise_append.1 hr
    have hind : ∀ b ∈ t1.map Prod.snd, b.Independent a := by
      intro b hb
      obtain ⟨c, hc, rfl⟩ := List.mem_map.1 hb
      exact hr'.2.2 c hc (i, a) (List.mem_cons_self ..) (hne c hc)
    obtain ⟨k, hk, e⟩ := steps_move ht hind
    cases hk with
    | cons sa hk =>
      rw [← List.map_append] at hk
      have hrf : RaceFree (t1 ++ t2) :=
        hr.sublist (List.Sublist.append_left (List.sublist_cons_self _ _) _)
      have hst : SameThreads (t1 ++ t2) t' := by
        intro j
        have hj := hs j
        rw [List.filter_append] at hj ⊢
        by_cases hji : i = j
        · subst hji
          have h1 : t1.filter (fun b => b.1 == i) = [] := List.filter_eq_nil_iff.2 fun b hb => by simpa using hne b hb
          rw [h1, List.filter_cons_of_pos (by simp), List.filter_cons_of_pos (by simp)] at hj
          rw [h1]
          exact (List.cons.inj hj).2
        · rw [List.filter_cons_of_neg (by simpa using hji), List.filter_cons_of_neg (by simpa using hji)] at hj
          exact hj
      obtain ⟨k', hk', e'⟩ := ih hrf hst hk
      exact ⟨k', .cons sa hk', e'.trans e⟩

theorem panics_allocator {E F : Ctx} (hP : F.P = E.P) (ho₁ : F.o₁ = E.o₁) (ho₂ : F.o₂ = E.o₂) (M : Mem) (c : Call) :
    Panics F M c ↔ Panics E M c := by
  obtain ⟨P, f, f1, f2, o₁, o₂⟩ := E
  obtain ⟨P', f', f1', f2', o₁', o₂'⟩ := F
  simp only at hP ho₁ ho₂
  subst hP ho₁ ho₂
  unfold Panics
  have h1 : ∀ x, c.makes ⟨P', f', f1', f2', o₁', o₂'⟩ x = c.makes ⟨P', f, f1, f2, o₁', o₂'⟩ x := by
    intro x; cases c <;> rfl
  have h2 : c.decodes ⟨P', f', f1', f2', o₁', o₂'⟩ = c.decodes ⟨P', f, f1, f2, o₁', o₂'⟩ := by cases c <;> rfl
  simp only [h1, h2]

/-- **C117.** In every one of these schedules each call returns, whatever address the allocator chooses: no schedule leads to
undefined behaviour or to an abort. -/
theorem C117_safe {t t' r r' : List (Nat × Act)} {h h' : Heap} {i : Nat} {E : Ctx} {c : Call} {v : Val} (hr : RaceFree t)
    (hs : SameThreads t t') (ht : Act.Steps h (t.map Prod.snd) h') (ht' : t' = r ++ (i, .call E c v) :: r') :
    ∃ k, Act.Steps h (r.map Prod.snd) k ∧
      ∀ F : Ctx, F.P = E.P → F.o₁ = E.o₁ → F.o₂ = E.o₂ → ∃ w k', c.exec F k = .ok w k' := by
  obtain ⟨k, hk, _⟩ := C117_schedules hr hs ht
  rw [ht', List.map_append, List.map_cons] at hk
  have : ∀ {r s : List Act} {h k : Heap}, Act.Steps h (r ++ s) k → ∃ m, Act.Steps h r m ∧ Act.Steps m s k := by
    intro r s
    induction r with
    | nil => intro h k hk; exact ⟨h, .nil, hk⟩
    | cons a r ih =>
      intro h k hk
      cases hk with
      | cons sa hk =>
        obtain ⟨m, h1, h2⟩ := ih hk
        exact ⟨m, .cons sa h1, h2⟩
  obtain ⟨m, h1, h2⟩ := this hk
  refine ⟨m, h1, fun F hP ho₁ ho₂ => ?_⟩
  cases h2 with
  | cons sa _ =>
    cases sa with
    | @call _ F' _ _ _ k' hP' ho₁' ho₂' he =>
      have hv := (C115_returns_iff F' c m).1.1 ⟨_, _, he⟩
      refine (C115_returns_iff F c m).1.2 ⟨hv.1, fun hp => hv.2 ?_⟩
      exact (panics_allocator (hP'.trans hP.symm) (ho₁'.trans ho₁.symm) (ho₂'.trans ho₂.symm) _ _).2 hp

/-- **C117.** Calls that neither edit nor free, made with null out-parameters, are independent of each other even on the same
objects, as long as the new objects they return are at addresses that the other call does not use. -/
theorem C117_readers {E F : Ctx} {c d : Call} {v w : Val} (hc : ∀ p ∈ c.writes, p = 0) (hd : ∀ p ∈ d.writes, p = 0)
    (hv : ∀ p ∈ returned v, p = 0 ∨ (p ∉ d.pointers ∧ p ∉ returned w)) (hw : ∀ p ∈ returned w, p = 0 ∨ (p ∉ c.pointers ∧ p ∉ returned v)) :
    (Act.call E c v).Independent (.call F d w) := by
  intro p hp
  constructor
  · intro h
    rcases List.mem_append.1 h with h | h
    · exact absurd (hc p h) hp
    · have := (hv p h).resolve_left hp
      exact fun h' => (List.mem_append.1 h').elim this.1 this.2
  · intro h
    rcases List.mem_append.1 h with h | h
    · exact absurd (hd p h) hp
    · have := (hw p h).resolve_left hp
      exact fun h' => (List.mem_append.1 h').elim this.1 this.2

/-! ### Examples -/

/-- Two threads that each make a graph, with the first one also reading the shared graph at 5. -/
def exT : List (Nat × Act) :=
  [(0, .call exE .newDirected (.ptr 6)), (1, .call exE .newUndirected (.ptr 7)), (0, .call exE (.addEdge 6 1 2) .unit),
    (1, .call exE (.addEdge 7 3 4) .unit), (0, .call exE (.isUndirected 5) (.num 0)), (1, .call exE (.isUndirected 5) (.num 0)),
    (0, .call exE (.edgeCount 6) (.num 1)), (1, .call exE (.edgeCount 7) (.num 2)), (1, .call exE (.freeGraph 7) .unit)]

/-- The second thread first. -/
def exT' : List (Nat × Act) :=
  [(1, .call exE .newUndirected (.ptr 7)), (1, .call exE (.addEdge 7 3 4) .unit), (1, .call exE (.isUndirected 5) (.num 0)),
    (1, .call exE (.edgeCount 7) (.num 2)), (1, .call exE (.freeGraph 7) .unit), (0, .call exE .newDirected (.ptr 6)),
    (0, .call exE (.addEdge 6 1 2) .unit), (0, .call exE (.isUndirected 5) (.num 0)), (0, .call exE (.edgeCount 6) (.num 1))]

theorem exT_raceFree : RaceFree exT := by
  simp [RaceFree, exT, Act.Independent, Act.changes, Act.uses, Call.writes, Call.pointers, Call.out, returned]
  refine ⟨?_, ?_, ?_, ?_, ?_, ?_, ?_, ?_⟩ <;> (repeat' apply And.intro) <;> (intro p; grind)

theorem exT_same : SameThreads exT exT' := by
  intro i
  rcases i with _ | _ | i
  · simp [exT, exT']
  · simp [exT, exT']
  · simp [exT, exT']

theorem exT_steps : ∃ h, Act.Steps exH (exT.map Prod.snd) h :=
  ⟨_, .cons (.call (F := exE) rfl rfl rfl rfl) (.cons (.call (F := exE) rfl rfl rfl rfl) (.cons (.call (F := exE) rfl rfl rfl rfl)
    (.cons (.call (F := exE) rfl rfl rfl rfl) (.cons (.call (F := exE) rfl rfl rfl rfl) (.cons (.call (F := exE) rfl rfl rfl rfl)
    (.cons (.call (F := exE) rfl rfl rfl rfl) (.cons (.call (F := exE) rfl rfl rfl rfl) (.cons (.call (F := exE) rfl rfl rfl rfl) .nil))))))))⟩

example : ∃ h, Act.Steps exH (exT'.map Prod.snd) h :=
  let ⟨_, h⟩ := exT_steps
  let ⟨k, hk, _⟩ := C117_schedules exT_raceFree exT_same h
  ⟨k, hk⟩

/-- The memory afterwards and what the calls return depend on the order if a thread edits a graph that another one reads: `exD` has
no edge from 0 to 9, and one thread adds it while the other one asks for it. -/
example : ¬ (Act.call exE (.addEdge 5 0 9) .unit).Independent (.call exE (.doesEdgeExist 5 0 9) (.num 1)) ∧
    (∃ h, Act.Steps exH [.call exE (.addEdge 5 0 9) .unit, .call exE (.doesEdgeExist 5 0 9) (.num 1)] h) ∧
    ¬ ∃ h, Act.Steps exH [.call exE (.doesEdgeExist 5 0 9) (.num 1), .call exE (.addEdge 5 0 9) .unit] h := by
  refine ⟨fun h => (h 5 (by decide)).1 (by decide) (by decide), ?_, ?_⟩
  · exact ⟨_, .cons (.call (F := exE) rfl rfl rfl rfl) (.cons (.call (F := exE) rfl rfl rfl rfl) .nil)⟩
  · rintro ⟨h, hs⟩
    cases hs with
    | cons s _ =>
      cases s with
      | call _ _ _ he => cases he

end Verif.Props
