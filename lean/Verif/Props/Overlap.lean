import Verif.Spec.Overlap
import Verif.Props.Threads

/-!
# Calls that overlap in time: C129
-/

namespace Verif.Props
open Verif Spec

/-! ## The steps of a call make up the call -/

theorem run_bind {α β : Type} (E : Ctx) (x : Prog α) (f : α → Prog β) :
    (x >>= f).run E = x.run E >>= fun a => (f a).run E := by
  change (x.bind f).run E = CM.bind (x.run E) fun a => (f a).run E
  induction x with
  | ret a => rfl
  | ub => rfl
  | abort => rfl
  | load p k ih => funext h; exact congrFun (ih (h.get? p)) h
  | store p x k ih => funext h; exact congrFun ih _
  | free p k ih => funext h; exact congrFun ih _
  | alloc x k ih => funext h; exact congrFun (ih (E.fresh h)) _

/-- Uninterrupted, the program does what the computation does. -/
def Same {α : Type} (E : Ctx) (x : Prog α) (y : CM α) : Prop := x.run E = y

section same
variable {E : Ctx} {α β : Type}

theorem same_pure (a : α) : Same E (pure a) (pure a) := rfl

theorem same_bind {x : Prog α} {y : CM α} {f : α → Prog β} {g : α → CM β} (hx : Same E x y) (hf : ∀ a, Same E (f a) (g a)) :
    Same E (x >>= f) (y >>= g) := by
  unfold Same at *
  rw [run_bind, hx]
  congr 1
  exact funext hf

theorem same_ret {x : Prog α} {y : CM α} {f : α → Val} (hx : Same E x y) : Same E (x.map f) (y.ret f) := by
  unfold Same at *
  have := run_bind E x (fun a => Prog.ret (f a))
  change (x.map f).run E = _ at this
  rw [this, hx]
  funext h
  change CM.bind y _ h = _
  unfold CM.bind CM.ret
  cases y h <;> rfl

theorem same_graphRef (p : Ptr) : Same E (CSteps.graphRef p) (CApi.graphRef p) := by
  funext h
  unfold CSteps.graphRef CApi.graphRef
  by_cases e : p = 0
  · simp only [if_pos e]; rfl
  · simp only [if_neg e]
    cases e2 : h.get? p with
    | none => simp only [Prog.run, e2]
    | some x => cases x <;> simp only [Prog.run, e2]

theorem same_cgraphRef (p : Ptr) : Same E (CSteps.cgraphRef p) (CApi.cgraphRef p) := by
  funext h
  unfold CSteps.cgraphRef CApi.cgraphRef
  by_cases e : p = 0
  · simp only [if_pos e]; rfl
  · simp only [if_neg e]
    cases e2 : h.get? p with
    | none => simp only [Prog.run, e2]
    | some x => cases x <;> simp only [Prog.run, e2]

theorem same_matrixRef (p : Ptr) : Same E (CSteps.matrixRef p) (CApi.matrixRef p) := by
  funext h
  unfold CSteps.matrixRef CApi.matrixRef
  by_cases e : p = 0
  · simp only [if_pos e]; rfl
  · simp only [if_neg e]
    cases e2 : h.get? p with
    | none => simp only [Prog.run, e2]
    | some x => cases x <;> simp only [Prog.run, e2]

theorem same_setUsize (p : Ptr) (n : Nat) : Same E (CSteps.setUsize p n) (CApi.setUsize p n) := by
  funext h
  unfold CSteps.setUsize CApi.setUsize
  by_cases e : p = 0
  · simp only [if_pos e]; rfl
  · simp only [if_neg e]
    cases e2 : h.get? p with
    | none => simp only [Prog.run, e2]
    | some x => cases x <;> simp only [Prog.run, e2]

theorem same_setU8 (p : Ptr) (n : Nat) : Same E (CSteps.setU8 p n) (CApi.setU8 p n) := by
  funext h
  unfold CSteps.setU8 CApi.setU8
  by_cases e : p = 0
  · simp only [if_pos e]; rfl
  · simp only [if_neg e]
    cases e2 : h.get? p with
    | none => simp only [Prog.run, e2]
    | some x => cases x <;> simp only [Prog.run, e2]

theorem same_readBytes (p : Ptr) (n : Nat) : Same E (CSteps.readBytes p n) (CApi.readBytes p n) := by
  funext h
  unfold CSteps.readBytes CApi.readBytes
  cases e2 : h.get? p with
  | none => simp only [Prog.run, e2]
  | some x =>
    cases x with
    | callerBytes b => simp only [Prog.run, e2]; split <;> rfl
    | bytes b => simp only [Prog.run, e2]; split <;> rfl
    | _ => simp only [Prog.run, e2]

theorem same_readU64s (p : Ptr) (n : Nat) : Same E (CSteps.readU64s p n) (CApi.readU64s p n) := by
  funext h
  unfold CSteps.readU64s CApi.readU64s
  cases e2 : h.get? p with
  | none => simp only [Prog.run, e2]
  | some x =>
    cases x with
    | callerU64s b => simp only [Prog.run, e2]; split <;> rfl
    | vertices b => simp only [Prog.run, e2]; split <;> rfl
    | _ => simp only [Prog.run, e2]

theorem same_inputBytes (p : Ptr) (n : Nat) : Same E (CSteps.inputBytes p n) (CApi.inputBytes p n) := by
  unfold CSteps.inputBytes CApi.inputBytes
  split
  · exact same_pure _
  · exact same_readBytes _ _

theorem same_boxNew (x : Obj) : Same E (CSteps.boxNew x) (CApi.boxNew E x) := rfl

theorem same_writeGraph (p : Ptr) (g : Graph) : Same E (CSteps.writeGraph p g) (CApi.writeGraph p g) := rfl

theorem same_rust (r : Res α) : Same E (CSteps.rust r) (CApi.rust r) := by
  cases r <;> rfl

theorem same_rustTotal (r : Res α) : Same E (CSteps.rustTotal r) (CApi.rustTotal r) := by
  cases r <;> rfl

theorem same_freeObj (ok : Obj → Bool) (p : Ptr) : Same E (CSteps.freeObj ok p) (CApi.freeObj ok p) := by
  funext h
  unfold CSteps.freeObj CApi.freeObj
  by_cases e : p = 0
  · simp only [if_pos e]; rfl
  · simp only [if_neg e]
    cases e2 : h.get? p with
    | none => simp only [Prog.run, e2]
    | some x => simp only [Prog.run, e2]; split <;> rfl

theorem same_cstring (s : Option (List Char)) : Same E (CSteps.cstringOrNull s) (CApi.cstringOrNull E s) := by
  unfold CSteps.cstringOrNull CApi.cstringOrNull
  cases s with
  | none => exact same_pure _
  | some s =>
    simp only
    split
    · exact same_pure _
    · exact same_boxNew _

theorem same_boxedBytes (b : Bytes) (p : Ptr) : Same E (CSteps.boxedBytesToRaw b p) (CApi.boxedBytesToRaw E b p) :=
  same_bind (same_setUsize _ _) fun _ => same_boxNew _

end same

/-- A call that is not interrupted does what the function of the model does. -/
theorem C129_same (E : Ctx) (c : Call) : (c.prog E).run E = c.exec E := by
  change Same E (c.prog E) (c.exec E)
  cases c
  case' fromBytes b n e =>
    refine same_ret (same_bind (same_setU8 _ _) fun _ => ?_)
    split
    · exact same_bind (same_setU8 _ _) fun _ => same_pure _
    · refine same_bind (same_inputBytes _ _) fun _ => same_bind (same_rust _) fun a => ?_
      cases a
      · exact same_bind (same_setU8 _ _) fun _ => same_pure _
      · exact same_boxNew _
  case' cFromBytes b n e =>
    refine same_ret (same_bind (same_setU8 _ _) fun _ => ?_)
    split
    · exact same_bind (same_setU8 _ _) fun _ => same_pure _
    · refine same_bind (same_inputBytes _ _) fun _ => same_bind (same_rust _) fun a => ?_
      cases a
      · exact same_bind (same_setU8 _ _) fun _ => same_pure _
      · exact same_boxNew _
  case' addVertex p v l n =>
    refine same_ret (same_bind (same_graphRef _) fun a => ?_)
    cases a with
    | none => exact same_pure _
    | some g =>
      simp only
      split
      · exact same_pure _
      · split
        · exact same_writeGraph _ _
        · exact same_bind (same_readU64s _ _) fun _ => same_writeGraph _ _
  all_goals
    first
    | exact same_ret (same_freeObj _ _)
    | exact same_ret (same_boxNew _)
    | (refine same_ret (same_bind (same_graphRef _) fun a => ?_)
       cases a
       · exact same_pure _
       · first
         | exact same_pure _
         | exact same_writeGraph _ _
         | exact same_boxNew _
         | exact same_bind (same_rust _) fun _ => same_cstring _
         | exact same_bind (same_rustTotal _) fun _ => same_boxNew _)
    | (refine same_ret (same_bind (same_cgraphRef _) fun a => ?_)
       cases a
       · exact same_pure _
       · first
         | exact same_pure _
         | exact same_boxNew _
         | exact same_bind (same_rust _) fun _ => same_cstring _
         | exact same_bind (same_rustTotal _) fun _ => same_boxNew _)
    | (refine same_ret (same_bind (same_matrixRef _) fun a => ?_)
       cases a
       · exact same_pure _
       · first
         | exact same_pure _
         | exact same_boxNew _
         | exact same_bind (same_rust _) fun _ => same_cstring _
         | exact same_bind (same_rustTotal _) fun _ => same_cstring _)
    | (refine same_ret (same_bind (same_setUsize _ _) fun _ => same_bind (same_graphRef _) fun a => ?_)
       cases a
       · exact same_pure _
       · first
         | exact same_bind (same_setUsize _ _) fun _ => same_boxNew _
         | (refine same_bind (same_rust _) fun b => ?_
            cases b
            · exact same_pure _
            · exact same_boxedBytes _ _))
    | (refine same_ret (same_bind (same_setUsize _ _) fun _ => same_bind (same_cgraphRef _) fun a => ?_)
       cases a
       · exact same_pure _
       · refine same_bind (same_rust _) fun b => ?_
         cases b
         · exact same_pure _
         · exact same_boxedBytes _ _)
    | (refine same_ret (same_bind (same_setUsize _ _) fun _ => same_bind (same_matrixRef _) fun a => ?_)
       cases a
       · exact same_pure _
       · exact same_bind (same_setUsize _ _) fun _ => same_boxNew _)

/-! ## What the steps of a call touch -/

/-- The program loads addresses in `U` only, stores in `W` only and in what it allocated, and allocates once at most; `Q` is what it has
allocated so far, `G` holds when it ends. -/
def Fits {α : Type} (U W : Ptr → Prop) (G : List Ptr → α → Prop) : List Ptr → Prog α → Prop
  | Q, .ret a => G Q a
  | Q, .ub => Q = []
  | Q, .abort => Q = []
  | Q, .load p k => p ≠ 0 ∧ U p ∧ ∀ x, Fits U W G Q (k x)
  | Q, .store p _ k => p ≠ 0 ∧ (U p ∧ W p ∨ p ∈ Q) ∧ Fits U W G Q k
  | Q, .free p k => p ≠ 0 ∧ U p ∧ W p ∧ Fits U W G Q k
  | Q, .alloc _ k => Q = [] ∧ ∀ q, q ≠ 0 → Fits U W G [q] (k q)

section fits
variable {U W : Ptr → Prop} {α β : Type}

theorem fits_bind {G' : List Ptr → α → Prop} {G : List Ptr → β → Prop} {f : α → Prog β} :
    ∀ {x : Prog α} {Q : List Ptr}, Fits U W G' Q x → (∀ Q' a, G' Q' a → Fits U W G Q' (f a)) → Fits U W G Q (x >>= f) := by
  intro x
  induction x with
  | ret a => exact fun hx hf => hf _ _ hx
  | ub => exact fun hx _ => hx
  | abort => exact fun hx _ => hx
  | load p k ih => exact fun hx hf => ⟨hx.1, hx.2.1, fun y => ih y (hx.2.2 y) hf⟩
  | store p y k ih => exact fun hx hf => ⟨hx.1, hx.2.1, ih hx.2.2 hf⟩
  | free p k ih => exact fun hx hf => ⟨hx.1, hx.2.1, hx.2.2.1, ih hx.2.2.2 hf⟩
  | alloc y k ih => exact fun hx hf => ⟨hx.1, fun q hq => ih q (hx.2 q hq) hf⟩

/-- Nothing was allocated, and the value satisfies `G`. -/
def Quiet (G : α → Prop) (Q : List Ptr) (a : α) : Prop := Q = [] ∧ G a

/-- What was allocated is what is returned. -/
def Gives (Q : List Ptr) (a : Ptr) : Prop := ∀ q ∈ Q, a = q

theorem fits_quiet {G : α → Prop} {H : List Ptr → β → Prop} {x : Prog α} {f : α → Prog β} (hx : Fits U W (Quiet G) [] x)
    (hf : ∀ a, G a → Fits U W H [] (f a)) : Fits U W H [] (x >>= f) :=
  fits_bind hx fun Q a h => by
    obtain ⟨rfl, h⟩ := h
    exact hf a h

theorem fits_pure {G : α → Prop} {a : α} (h : G a) : Fits U W (Quiet G) [] (pure a : Prog α) := ⟨rfl, h⟩

theorem fits_null {a : Ptr} : Fits U W Gives [] (pure a : Prog Ptr) := by
  intro q hq
  cases hq

theorem fits_graphRef {p : Ptr} (hp : U p) : Fits U W (Quiet fun a => a ≠ none → p ≠ 0) [] (CSteps.graphRef p) := by
  unfold CSteps.graphRef
  split
  · exact ⟨rfl, fun h => absurd rfl h⟩
  · next e =>
    refine ⟨e, hp, fun x => ?_⟩
    beta_reduce
    split
    · exact ⟨rfl, fun _ => e⟩
    · exact rfl

theorem fits_cgraphRef {p : Ptr} (hp : U p) : Fits U W (Quiet fun a => a ≠ none → p ≠ 0) [] (CSteps.cgraphRef p) := by
  unfold CSteps.cgraphRef
  split
  · exact ⟨rfl, fun h => absurd rfl h⟩
  · next e =>
    refine ⟨e, hp, fun x => ?_⟩
    beta_reduce
    split
    · exact ⟨rfl, fun _ => e⟩
    · exact rfl

theorem fits_matrixRef {p : Ptr} (hp : U p) : Fits U W (Quiet fun a => a ≠ none → p ≠ 0) [] (CSteps.matrixRef p) := by
  unfold CSteps.matrixRef
  split
  · exact ⟨rfl, fun h => absurd rfl h⟩
  · next e =>
    refine ⟨e, hp, fun x => ?_⟩
    beta_reduce
    split
    · exact ⟨rfl, fun _ => e⟩
    · exact rfl

theorem fits_setUsize {p : Ptr} (hp : U p) (hw : W p) (n : Nat) : Fits U W (Quiet fun _ => True) [] (CSteps.setUsize p n) := by
  unfold CSteps.setUsize
  split
  · exact ⟨rfl, trivial⟩
  · next e =>
    refine ⟨e, hp, fun x => ?_⟩
    beta_reduce
    split
    · exact ⟨e, .inl ⟨hp, hw⟩, rfl, trivial⟩
    · exact rfl

theorem fits_setU8 {p : Ptr} (hp : U p) (hw : W p) (n : Nat) : Fits U W (Quiet fun _ => True) [] (CSteps.setU8 p n) := by
  unfold CSteps.setU8
  split
  · exact ⟨rfl, trivial⟩
  · next e =>
    refine ⟨e, hp, fun x => ?_⟩
    beta_reduce
    split
    · exact ⟨e, .inl ⟨hp, hw⟩, rfl, trivial⟩
    · exact rfl

theorem fits_readBytes {p : Ptr} (hz : p ≠ 0) (hp : U p) (n : Nat) : Fits U W (Quiet fun _ => True) [] (CSteps.readBytes p n) := by
  unfold CSteps.readBytes
  refine ⟨hz, hp, fun x => ?_⟩
  beta_reduce
  split
  · split
    · exact ⟨rfl, trivial⟩
    · exact rfl
  · split
    · exact ⟨rfl, trivial⟩
    · exact rfl
  · exact rfl

theorem fits_readU64s {p : Ptr} (hz : p ≠ 0) (hp : U p) (n : Nat) : Fits U W (Quiet fun _ => True) [] (CSteps.readU64s p n) := by
  unfold CSteps.readU64s
  refine ⟨hz, hp, fun x => ?_⟩
  beta_reduce
  split
  · split
    · exact ⟨rfl, trivial⟩
    · exact rfl
  · split
    · exact ⟨rfl, trivial⟩
    · exact rfl
  · exact rfl

theorem fits_inputBytes {p : Ptr} {n : Nat} (hz : ¬ (p = 0 ∧ n ≠ 0)) (hp : U p) :
    Fits U W (Quiet fun _ => True) [] (CSteps.inputBytes p n) := by
  unfold CSteps.inputBytes
  split
  · exact ⟨rfl, trivial⟩
  · next hn => exact fits_readBytes (fun h => hz ⟨h, hn⟩) hp n

theorem fits_boxNew (x : Obj) : Fits U W Gives [] (CSteps.boxNew x) := by
  refine ⟨rfl, fun q _ r hr => ?_⟩
  exact (List.mem_singleton.1 hr).symm

theorem fits_writeGraph {p : Ptr} (hz : p ≠ 0) (hp : U p) (hw : W p) (g : Graph) :
    Fits U W (Quiet fun _ => True) [] (CSteps.writeGraph p g) :=
  ⟨hz, .inl ⟨hp, hw⟩, rfl, trivial⟩

theorem fits_rust (r : Res α) : Fits U W (Quiet fun _ => True) [] (CSteps.rust r) := by
  cases r
  · exact ⟨rfl, trivial⟩
  · exact ⟨rfl, trivial⟩
  · exact rfl

theorem fits_rustTotal (r : Res α) : Fits U W (Quiet fun _ => True) [] (CSteps.rustTotal r) := by
  cases r
  · exact ⟨rfl, trivial⟩
  · exact rfl
  · exact rfl

theorem fits_freeObj {p : Ptr} (hp : U p) (hw : W p) (ok : Obj → Bool) :
    Fits U W (Quiet fun _ => True) [] (CSteps.freeObj ok p) := by
  unfold CSteps.freeObj
  split
  · exact ⟨rfl, trivial⟩
  · next e =>
    refine ⟨e, hp, fun x => ?_⟩
    beta_reduce
    split
    · split
      · exact ⟨e, hp, hw, rfl, trivial⟩
      · exact rfl
    · exact rfl

theorem fits_cstring (s : Option (List Char)) : Fits U W Gives [] (CSteps.cstringOrNull s) := by
  unfold CSteps.cstringOrNull
  cases s with
  | none => exact fits_null
  | some s =>
    simp only
    split
    · exact fits_null
    · exact fits_boxNew _

theorem fits_boxedBytes {p : Ptr} (hp : U p) (hw : W p) (b : Bytes) : Fits U W Gives [] (CSteps.boxedBytesToRaw b p) :=
  fits_quiet (fits_setUsize hp hw _) fun _ _ => fits_boxNew _

/-- What was allocated is what is returned. -/
def GivesVal (Q : List Ptr) (v : Val) : Prop := ∀ q ∈ Q, v = .ptr q

theorem fits_ptr {x : Prog Ptr} (hx : Fits U W Gives [] x) : Fits U W GivesVal [] (x.map .ptr) :=
  fits_bind hx fun _ a h q hq => by
    rw [h q hq]

theorem fits_val {x : Prog α} {f : α → Val} (hx : Fits U W (Quiet fun _ => True) [] x) : Fits U W GivesVal [] (x.map f) :=
  fits_quiet hx fun _ _ q hq => by cases hq

end fits

/-- A call accesses the addresses it is given and the one it returns. -/
theorem fits_call (E : Ctx) (c : Call) :
    Fits (· ∈ c.pointers) (· ∈ c.writes) GivesVal [] (c.prog E) := by
  generalize hU' : (· ∈ c.pointers) = U
  generalize hW' : (· ∈ c.writes) = W
  have hU : ∀ p ∈ c.pointers, U p := by subst hU'; exact fun p h => h
  have hW : ∀ p ∈ c.writes, W p := by subst hW'; exact fun p h => h
  clear hU' hW'
  cases c
  case' fromBytes b n e =>
    refine fits_ptr (fits_quiet (fits_setU8 (hU e (by simp [Call.pointers])) (hW e (by simp [Call.writes])) _) fun _ _ => ?_)
    split
    · exact fits_quiet (fits_setU8 (hU e (by simp [Call.pointers])) (hW e (by simp [Call.writes])) _) fun _ _ => fits_null
    · next hz =>
      refine fits_quiet (fits_inputBytes hz (hU b (by simp [Call.pointers]))) fun _ _ => fits_quiet (fits_rust _) fun a _ => ?_
      cases a
      · exact fits_quiet (fits_setU8 (hU e (by simp [Call.pointers])) (hW e (by simp [Call.writes])) _) fun _ _ => fits_null
      · exact fits_boxNew _
  case' cFromBytes b n e =>
    refine fits_ptr (fits_quiet (fits_setU8 (hU e (by simp [Call.pointers])) (hW e (by simp [Call.writes])) _) fun _ _ => ?_)
    split
    · exact fits_quiet (fits_setU8 (hU e (by simp [Call.pointers])) (hW e (by simp [Call.writes])) _) fun _ _ => fits_null
    · next hz =>
      refine fits_quiet (fits_inputBytes hz (hU b (by simp [Call.pointers]))) fun _ _ => fits_quiet (fits_rust _) fun a _ => ?_
      cases a
      · exact fits_quiet (fits_setU8 (hU e (by simp [Call.pointers])) (hW e (by simp [Call.writes])) _) fun _ _ => fits_null
      · exact fits_boxNew _
  case' addVertex p v l n =>
    have hpu := hU p (by simp [Call.pointers])
    refine fits_val (fits_quiet (fits_graphRef hpu) fun a ha => ?_)
    cases a with
    | none => exact fits_pure trivial
    | some g =>
      have hp := ha (by simp)
      have hpw := hW p (by simp [Call.writes])
      simp only
      split
      · exact fits_pure trivial
      · next hz =>
        split
        · exact fits_writeGraph hp hpu hpw _
        · next hn =>
          exact fits_quiet (fits_readU64s (fun h => hz ⟨h, hn⟩) (hU l (by simp [Call.pointers])) _) fun _ _ =>
            fits_writeGraph hp hpu hpw _
  case' addEdge p u v =>
    have hpu := hU p (by simp [Call.pointers])
    refine fits_val (fits_quiet (fits_graphRef hpu) fun a ha => ?_)
    cases a with
    | none => exact fits_pure trivial
    | some g => exact fits_writeGraph (ha (by simp)) hpu (hW p (by simp [Call.writes])) _
  case' deleteEdge p u v =>
    have hpu := hU p (by simp [Call.pointers])
    refine fits_val (fits_quiet (fits_graphRef hpu) fun a ha => ?_)
    cases a with
    | none => exact fits_pure trivial
    | some g => exact fits_writeGraph (ha (by simp)) hpu (hW p (by simp [Call.writes])) _
  all_goals
    simp only [Call.pointers, Call.writes, Call.out, List.mem_cons, List.not_mem_nil, or_false, forall_eq_or_imp, forall_eq] at hU hW
    first
    | exact fits_val (fits_freeObj hU hW _)
    | exact fits_ptr (fits_boxNew _)
    | (refine fits_val (fits_quiet (fits_graphRef hU) fun a _ => ?_); cases a <;> exact fits_pure trivial)
    | (refine fits_val (fits_quiet (fits_cgraphRef hU) fun a _ => ?_); cases a <;> exact fits_pure trivial)
    | (refine fits_val (fits_quiet (fits_matrixRef hU) fun a _ => ?_); cases a <;> exact fits_pure trivial)
    | (refine fits_ptr (fits_quiet (fits_graphRef hU) fun a _ => ?_)
       cases a
       · exact fits_null
       · first
         | exact fits_boxNew _
         | exact fits_quiet (fits_rust _) fun _ _ => fits_cstring _
         | exact fits_quiet (fits_rustTotal _) fun _ _ => fits_boxNew _)
    | (refine fits_ptr (fits_quiet (fits_cgraphRef hU) fun a _ => ?_)
       cases a
       · exact fits_null
       · first
         | exact fits_boxNew _
         | exact fits_quiet (fits_rust _) fun _ _ => fits_cstring _
         | exact fits_quiet (fits_rustTotal _) fun _ _ => fits_boxNew _)
    | (refine fits_ptr (fits_quiet (fits_matrixRef hU) fun a _ => ?_)
       cases a
       · exact fits_null
       · first
         | exact fits_boxNew _
         | exact fits_quiet (fits_rust _) fun _ _ => fits_cstring _
         | exact fits_quiet (fits_rustTotal _) fun _ _ => fits_cstring _)
    | (refine fits_ptr (fits_quiet (fits_setUsize hU.2 hW _) fun _ _ => fits_quiet (fits_graphRef hU.1) fun a _ => ?_)
       cases a
       · exact fits_null
       · first
         | exact fits_quiet (fits_setUsize hU.2 hW _) fun _ _ => fits_boxNew _
         | (refine fits_quiet (fits_rust _) fun b _ => ?_
            cases b
            · exact fits_null
            · exact fits_boxedBytes hU.2 hW _))
    | (refine fits_ptr (fits_quiet (fits_setUsize hU.2 hW _) fun _ _ => fits_quiet (fits_cgraphRef hU.1) fun a _ => ?_)
       cases a
       · exact fits_null
       · refine fits_quiet (fits_rust _) fun b _ => ?_
         cases b
         · exact fits_null
         · exact fits_boxedBytes hU.2 hW _)
    | (refine fits_ptr (fits_quiet (fits_setUsize hU.2 hW _) fun _ _ => fits_quiet (fits_matrixRef hU.1) fun a _ => ?_)
       cases a
       · exact fits_null
       · exact fits_quiet (fits_setUsize hU.2 hW _) fun _ _ => fits_boxNew _)

/-- The accesses of a program that fits. -/
theorem reaches_fits {α : Type} {U W : Ptr → Prop} {G : List Ptr → α → Prop} {R : List Ptr} {a b : Prog α} {s : List Micro}
    (hr : Reaches R a s b) : ∀ {Q : List Ptr}, Fits U W G Q a → (∀ p ∈ R, p ≠ 0 ∧ (U p ∨ p ∈ Q)) →
    ∃ Q', Q ⊆ Q' ∧ Fits U W G Q' b ∧
      ∀ m ∈ s, m.at ≠ 0 ∧ (U m.at ∨ m.at ∈ Q') ∧ (m.changes → W m.at ∨ m.at ∈ Q') := by
  induction hr with
  | done => exact fun {Q} hf _ => ⟨Q, fun _ h => h, hf, fun m hm => by cases hm⟩
  | @load R p x k s b _ ih =>
    intro Q hf hR
    obtain ⟨Q', h1, h2, h3⟩ := ih (hf.2.2 x) (by
      intro r hr
      rcases List.mem_cons.1 hr with rfl | hr
      · exact ⟨hf.1, .inl hf.2.1⟩
      · exact hR r hr)
    refine ⟨Q', h1, h2, fun m hm => ?_⟩
    rcases List.mem_cons.1 hm with rfl | hm
    · exact ⟨hf.1, .inl hf.2.1, fun h => h.elim⟩
    · exact h3 m hm
  | @again R p x a s b hp _ ih =>
    intro Q hf hR
    obtain ⟨Q', h1, h2, h3⟩ := ih hf hR
    refine ⟨Q', h1, h2, fun m hm => ?_⟩
    rcases List.mem_cons.1 hm with rfl | hm
    · exact ⟨(hR p hp).1, (hR p hp).2.imp id fun h => h1 h, fun h => h.elim⟩
    · exact h3 m hm
  | @store R p x k s b _ ih =>
    intro Q hf hR
    obtain ⟨Q', h1, h2, h3⟩ := ih hf.2.2 hR
    refine ⟨Q', h1, h2, fun m hm => ?_⟩
    rcases List.mem_cons.1 hm with rfl | hm
    · exact ⟨hf.1, hf.2.1.imp And.left fun h => h1 h, fun _ => hf.2.1.imp And.right fun h => h1 h⟩
    · exact h3 m hm
  | @storing R p x y k s b _ ih =>
    intro Q hf hR
    obtain ⟨Q', h1, h2, h3⟩ := ih hf hR
    refine ⟨Q', h1, h2, fun m hm => ?_⟩
    rcases List.mem_cons.1 hm with rfl | hm
    · exact ⟨hf.1, hf.2.1.imp And.left fun h => h1 h, fun _ => hf.2.1.imp And.right fun h => h1 h⟩
    · exact h3 m hm
  | @free R p k s b _ ih =>
    intro Q hf hR
    obtain ⟨Q', h1, h2, h3⟩ := ih hf.2.2.2 (fun r hr => hR r (List.mem_filter.1 hr).1)
    refine ⟨Q', h1, h2, fun m hm => ?_⟩
    rcases List.mem_cons.1 hm with rfl | hm
    · exact ⟨hf.1, .inl hf.2.1, fun _ => .inl hf.2.2.1⟩
    · exact h3 m hm
  | @freeing R p y k s b _ ih =>
    intro Q hf hR
    obtain ⟨Q', h1, h2, h3⟩ := ih hf hR
    refine ⟨Q', h1, h2, fun m hm => ?_⟩
    rcases List.mem_cons.1 hm with rfl | hm
    · exact ⟨hf.1, .inl hf.2.1, fun _ => .inl hf.2.2.1⟩
    · exact h3 m hm
  | @alloc R q x y k s b hq _ ih =>
    intro Q hf hR
    obtain ⟨rfl, hf⟩ := hf
    obtain ⟨Q', h1, h2, h3⟩ := ih (Q := [q]) ⟨hq, .inr (by simp), hf q hq⟩ (by
      intro r hr
      rcases List.mem_cons.1 hr with rfl | hr
      · exact ⟨hq, .inr (by simp)⟩
      · exact ⟨(hR r hr).1, (hR r hr).2.imp id fun h => by cases h⟩)
    refine ⟨Q', List.nil_subset _, h2, fun m hm => ?_⟩
    rcases List.mem_cons.1 hm with rfl | hm
    · exact ⟨hq, .inr (h1 (by simp [Micro.at])), fun _ => .inr (h1 (by simp [Micro.at]))⟩
    · exact h3 m hm

/-- An action accesses the addresses it uses and changes those it changes only. -/
theorem C129_footprint {a : Act} {s : List Micro} (hs : a.Path s) :
    ∀ m ∈ s, m.at ≠ 0 ∧ m.at ∈ a.uses ∧ (m.changes → m.at ∈ a.changes) := by
  cases hs with
  | @call E c v s hr =>
    obtain ⟨Q, _, hQ, h⟩ := reaches_fits hr (fits_call E c) (fun p hp => by cases hp)
    intro m hm
    obtain ⟨h1, h2, h3⟩ := h m hm
    have hq : m.at ∈ Q → m.at ∈ returned v := fun hq => by
      have : v = .ptr m.at := hQ m.at hq
      rw [this]
      simp [returned]
    exact ⟨h1, List.mem_append.2 (h2.imp id hq), fun hc => List.mem_append.2 ((h3 hc).imp id hq)⟩
  | read hp =>
    intro m hm
    simp only [List.mem_singleton] at hm
    subst hm
    exact ⟨hp, by simp [Act.uses, Micro.at], fun h => h.elim⟩
  | write hp =>
    intro m hm
    simp only [List.mem_cons, List.not_mem_nil, or_false] at hm
    rcases hm with rfl | rfl
    · exact ⟨hp, by simp [Act.uses, Micro.at], fun h => h.elim⟩
    · exact ⟨hp, by simp [Act.uses, Micro.at], fun _ => by simp [Act.changes, Micro.at]⟩
  | drop hp =>
    intro m hm
    simp only [List.mem_cons, List.not_mem_nil, or_false] at hm
    rcases hm with rfl | rfl
    · exact ⟨hp, by simp [Act.uses, Micro.at], fun h => h.elim⟩
    · exact ⟨hp, by simp [Act.uses, Micro.at], fun _ => by simp [Act.changes, Micro.at]⟩

/-! ## An action whose steps are not interrupted -/

/-- The accesses of a program, each made once. -/
inductive Exact {α : Type} : Prog α → List Micro → Prog α → Prop
  | done {a} : Exact a [] a
  | load {p x k s b} : Exact (k x) s b → Exact (.load p k) (.load p x :: s) b
  | store {p x k s b} : Exact k s b → Exact (.store p x k) (.store p x :: s) b
  | free {p k s b} : Exact k s b → Exact (.free p k) (.free p :: s) b
  | alloc {q x k s b} : q ≠ 0 → Exact (k q) s b → Exact (.alloc x k) (.alloc q x :: s) b

/-- Nothing remains to be done. -/
def Final {α : Type} : Prog α → Prop
  | .ret _ | .ub | .abort => True
  | _ => False

theorem exact_of_reaches {α : Type} {R : List Ptr} {a b : Prog α} {s : List Micro} (hr : Reaches R a s b) (hb : Final b) :
    ∀ {M M' : Mem}, Micro.Steps M s M' → ∃ s', Exact a s' b ∧ Micro.Steps M s' M' := by
  induction hr with
  | done => exact fun hs => ⟨[], .done, hs⟩
  | load _ ih =>
    intro M M' hs
    cases hs with
    | cons h1 h2 =>
      obtain ⟨s', e, h⟩ := ih hb h2
      exact ⟨_, .load e, .cons h1 h⟩
  | again _ _ ih =>
    intro M M' hs
    cases hs with
    | cons h1 h2 =>
      cases h1
      exact ih hb h2
  | store _ ih =>
    intro M M' hs
    cases hs with
    | cons h1 h2 =>
      obtain ⟨s', e, h⟩ := ih hb h2
      exact ⟨_, .store e, .cons h1 h⟩
  | storing _ ih =>
    intro M M' hs
    cases hs with
    | cons h1 h2 =>
      cases h1
      obtain ⟨s', e, h⟩ := ih hb h2
      cases e with
      | done => exact hb.elim
      | store e =>
        cases h with
        | cons h3 h4 =>
          cases h3
          rw [Mem.put_put] at h4
          exact ⟨_, .store e, .cons .store h4⟩
  | free _ ih =>
    intro M M' hs
    cases hs with
    | cons h1 h2 =>
      obtain ⟨s', e, h⟩ := ih hb h2
      exact ⟨_, .free e, .cons h1 h⟩
  | freeing _ ih =>
    intro M M' hs
    cases hs with
    | cons h1 h2 =>
      cases h1
      obtain ⟨s', e, h⟩ := ih hb h2
      cases e with
      | done => exact hb.elim
      | free e =>
        cases h with
        | cons h3 h4 =>
          cases h3
          rw [Mem.put_put] at h4
          exact ⟨_, .free e, .cons .free h4⟩
  | alloc hq _ ih =>
    intro M M' hs
    cases hs with
    | cons h1 h2 =>
      cases h1 with
      | alloc h5 h6 =>
        obtain ⟨s', e, h⟩ := ih hb h2
        cases e with
        | done => exact hb.elim
        | store e =>
          cases h with
          | cons h3 h4 =>
            cases h3
            rw [Mem.put_put] at h4
            exact ⟨_, .alloc hq e, .cons (.alloc h5 h6) h4⟩

theorem exact_allocs {α : Type} {U W : Ptr → Prop} {G : List Ptr → α → Prop} {a b : Prog α} {s : List Micro} (he : Exact a s b) :
    ∀ {Q : List Ptr}, Fits U W G Q a → ∃ Q', Q ⊆ Q' ∧ Fits U W G Q' b ∧ ∀ q x, Micro.alloc q x ∈ s → q ∈ Q' := by
  induction he with
  | done => exact fun {Q} hf => ⟨Q, fun _ h => h, hf, fun q x h => by cases h⟩
  | load _ ih =>
    intro Q hf
    obtain ⟨Q', h1, h2, h3⟩ := ih (hf.2.2 _)
    exact ⟨Q', h1, h2, fun q x h => h3 q x (by simpa using h)⟩
  | store _ ih =>
    intro Q hf
    obtain ⟨Q', h1, h2, h3⟩ := ih hf.2.2
    exact ⟨Q', h1, h2, fun q x h => h3 q x (by simpa using h)⟩
  | free _ ih =>
    intro Q hf
    obtain ⟨Q', h1, h2, h3⟩ := ih hf.2.2.2
    exact ⟨Q', h1, h2, fun q x h => h3 q x (by simpa using h)⟩
  | @alloc r y k s b hq _ ih =>
    intro Q hf
    obtain ⟨rfl, hf⟩ := hf
    obtain ⟨Q', h1, h2, h3⟩ := ih (hf _ hq)
    refine ⟨Q', List.nil_subset _, h2, fun q x h => ?_⟩
    rcases List.mem_cons.1 h with h | h
    · cases h
      exact h1 (by simp)
    · exact h3 q x h

theorem exact_run {α : Type} {E : Ctx} {r : Ptr} {a b : Prog α} {s : List Micro} (he : Exact a s b) :
    ∀ {h : Heap} {M' : Mem}, (∀ q x, Micro.alloc q x ∈ s → q = r) → Micro.Steps h.get? s M' →
      ∃ h', h'.get? = M' ∧ a.run (choosing E r) h = b.run (choosing E r) h' := by
  induction he with
  | done =>
    intro h M' _ hs
    cases hs
    exact ⟨h, rfl, rfl⟩
  | load _ ih =>
    intro h M' ha hs
    cases hs with
    | cons h1 h2 =>
      cases h1
      exact ih (fun q x hm => ha q x (List.mem_cons_of_mem _ hm)) h2
  | store _ ih =>
    intro h M' ha hs
    cases hs with
    | cons h1 h2 =>
      cases h1
      rw [← get?_insert_put] at h2
      exact ih (fun q x hm => ha q x (List.mem_cons_of_mem _ hm)) h2
  | free _ ih =>
    intro h M' ha hs
    cases hs with
    | cons h1 h2 =>
      cases h1
      rw [← get?_remove_put] at h2
      exact ih (fun q x hm => ha q x (List.mem_cons_of_mem _ hm)) h2
  | @alloc q x k s b hq _ ih =>
    intro h M' ha hs
    cases hs with
    | cons h1 h2 =>
      cases h1 with
      | alloc _ hn =>
        rw [← get?_insert_put] at h2
        obtain rfl := ha q x (by simp)
        obtain ⟨h', e1, e2⟩ := ih (fun q x hm => ha q x (List.mem_cons_of_mem _ hm)) h2
        refine ⟨h', e1, ?_⟩
        have hfr : (choosing E q).fresh h = q := by
          change (if q ≠ 0 ∧ h.get? q = none then q else E.fresh h) = q
          rw [if_pos ⟨hq, hn⟩]
        change (k ((choosing E q).fresh h)).run _ (h.insert ((choosing E q).fresh h) x) = _
        rw [hfr]
        exact e2

/-- The steps of a call do not depend on the allocator. -/
theorem prog_congr {E F : Ctx} (hP : F.P = E.P) (ho₁ : F.o₁ = E.o₁) (ho₂ : F.o₂ = E.o₂) (c : Call) : c.prog F = c.prog E := by
  cases c <;> simp only [Call.prog, CSteps.fromBytes, CSteps.matrixString, CSteps.toBytes, CSteps.findAvgPoolMatrix, CSteps.approximate,
    CSteps.compress, CSteps.getEdgeList, CSteps.getInEdgesList, CSteps.getOutEdgesList, CSteps.cMatrixString, CSteps.cToBytes,
    CSteps.cFromBytes, CSteps.decompress, CSteps.mToString, CSteps.mToStringWithPrecision, CSteps.mGetEntryList, hP, ho₁, ho₂]

/-- The steps of an action, not interrupted, are the action. -/
theorem path_step {a : Act} {s : List Micro} {h : Heap} {M' : Mem} (hp : a.Path s) (hs : Micro.Steps h.get? s M') :
    ∃ h', a.Step h h' ∧ h'.get? = M' := by
  cases hp with
  | @call E c v s hr =>
    obtain ⟨s', he, hs'⟩ := exact_of_reaches hr trivial hs
    obtain ⟨Q, _, hQ, ha⟩ := exact_allocs he (fits_call E c)
    have hv : ∃ r, ∀ q x, Micro.alloc q x ∈ s' → q = r := by
      cases v with
      | ptr r =>
        refine ⟨r, fun q x hm => ?_⟩
        have : Val.ptr r = .ptr q := hQ q (ha q x hm)
        cases this
        rfl
      | _ => exact ⟨0, fun q x hm => by have := hQ q (ha q x hm); cases this⟩
    obtain ⟨r, hr⟩ := hv
    obtain ⟨h', e1, e2⟩ := exact_run (E := E) (r := r) he hr hs'
    refine ⟨h', .call (F := choosing E r) rfl rfl rfl ?_, e1⟩
    rw [← C129_same, prog_congr (E := E) (F := choosing E r) rfl rfl rfl, e2]
    rfl
  | read hp =>
    cases hs with
    | cons h1 h2 =>
      cases h2
      generalize hx : some _ = y at h1
      cases h1
      exact ⟨h, .read hp hx.symm, rfl⟩
  | write hp hy hx =>
    cases hs with
    | cons h1 h2 =>
      cases h1
      cases h2 with
      | cons h2 h3 =>
        cases h2
        cases h3
        exact ⟨_, .write hp hy hx, get?_insert_put _ _ _⟩
  | drop hp hy =>
    cases hs with
    | cons h1 h2 =>
      cases h1
      cases h2 with
      | cons h2 h3 =>
        cases h2
        cases h3
        exact ⟨_, .drop hp hy, get?_remove_put _ _⟩

/-! ## Exchanging steps -/

theorem put_comm (M : Mem) {p q : Ptr} (h : p ≠ q) (x y : Option Obj) : (M.put p x).put q y = (M.put q y).put p x := by
  funext r
  unfold Mem.put
  split
  · next e =>
    split
    · next e2 => exact absurd (e2.symm.trans e) h
    · rfl
  · rfl

theorem put_other (M : Mem) {p q : Ptr} (h : q ≠ p) (x : Option Obj) : M.put p x q = M q := if_neg h

theorem micro_commute {M M1 M2 : Mem} {a b : Micro} (ha : a.Step M M1) (hb : b.Step M1 M2) (hi : a.Independent b) :
    ∃ M1', b.Step M M1' ∧ a.Step M1' M2 := by
  cases ha with
  | @load p =>
    cases hb with
    | load => exact ⟨M, .load, .load⟩
    | @store q x =>
      have hn : p ≠ q := fun e => (hi e).2 trivial
      refine ⟨_, .store, ?_⟩
      rw [← put_other M hn (some x)]
      exact .load
    | @free q =>
      have hn : p ≠ q := fun e => (hi e).2 trivial
      refine ⟨_, .free, ?_⟩
      rw [← put_other M hn none]
      exact .load
    | @alloc q x h1 h2 =>
      have hn : p ≠ q := fun e => (hi e).2 trivial
      refine ⟨_, .alloc h1 h2, ?_⟩
      rw [← put_other M hn (some x)]
      exact .load
  | @store p x =>
    cases hb with
    | @load q =>
      have hn : q ≠ p := fun e => (hi e.symm).1 trivial
      rw [put_other M hn]
      exact ⟨M, .load, .store⟩
    | @store q y =>
      have hn : p ≠ q := fun e => (hi e).1 trivial
      refine ⟨_, .store, ?_⟩
      rw [put_comm M hn]
      exact .store
    | @free q =>
      have hn : p ≠ q := fun e => (hi e).1 trivial
      refine ⟨_, .free, ?_⟩
      rw [put_comm M hn]
      exact .store
    | @alloc q y h1 h2 =>
      have hn : p ≠ q := fun e => (hi e).1 trivial
      rw [put_other M hn.symm] at h2
      refine ⟨_, .alloc h1 h2, ?_⟩
      rw [put_comm M hn]
      exact .store
  | @free p =>
    cases hb with
    | @load q =>
      have hn : q ≠ p := fun e => (hi e.symm).1 trivial
      rw [put_other M hn]
      exact ⟨M, .load, .free⟩
    | @store q y =>
      have hn : p ≠ q := fun e => (hi e).1 trivial
      refine ⟨_, .store, ?_⟩
      rw [put_comm M hn]
      exact .free
    | @free q =>
      have hn : p ≠ q := fun e => (hi e).1 trivial
      refine ⟨_, .free, ?_⟩
      rw [put_comm M hn]
      exact .free
    | @alloc q y h1 h2 =>
      have hn : p ≠ q := fun e => (hi e).1 trivial
      rw [put_other M hn.symm] at h2
      refine ⟨_, .alloc h1 h2, ?_⟩
      rw [put_comm M hn]
      exact .free
  | @alloc p x g1 g2 =>
    cases hb with
    | @load q =>
      have hn : q ≠ p := fun e => (hi e.symm).1 trivial
      rw [put_other M hn]
      exact ⟨M, .load, .alloc g1 g2⟩
    | @store q y =>
      have hn : p ≠ q := fun e => (hi e).1 trivial
      refine ⟨_, .store, ?_⟩
      rw [put_comm M hn]
      exact .alloc g1 (by rw [put_other M hn, g2])
    | @free q =>
      have hn : p ≠ q := fun e => (hi e).1 trivial
      refine ⟨_, .free, ?_⟩
      rw [put_comm M hn]
      exact .alloc g1 (by rw [put_other M hn, g2])
    | @alloc q y h1 h2 =>
      have hn : p ≠ q := fun e => (hi e).1 trivial
      rw [put_other M hn.symm] at h2
      refine ⟨_, .alloc h1 h2, ?_⟩
      rw [put_comm M hn]
      exact .alloc g1 (by rw [put_other M hn, g2])

theorem micro_steps_append {s t : List Micro} : ∀ {M M' : Mem}, Micro.Steps M (s ++ t) M' ↔ ∃ M1, Micro.Steps M s M1 ∧ Micro.Steps M1 t M' := by
  induction s with
  | nil =>
    intro M M'
    refine ⟨fun h => ⟨M, .nil, h⟩, ?_⟩
    rintro ⟨M1, h1, h2⟩
    cases h1
    exact h2
  | cons a s ih =>
    intro M M'
    constructor
    · intro h
      cases h with
      | cons h1 h2 =>
        obtain ⟨M1, h3, h4⟩ := ih.1 h2
        exact ⟨M1, .cons h1 h3, h4⟩
    · rintro ⟨M1, h1, h2⟩
      cases h1 with
      | cons h3 h4 => exact .cons h3 (ih.2 ⟨M1, h4, h2⟩)

theorem micro_delay {a : Micro} {s u : List Micro} : ∀ {M M' : Mem}, Micro.Steps M (a :: (s ++ u)) M' → (∀ b ∈ s, a.Independent b) →
    Micro.Steps M (s ++ a :: u) M' := by
  induction s with
  | nil => exact fun h _ => h
  | cons b s ih =>
    intro M M' h hi
    cases h with
    | cons h1 h2 =>
      cases h2 with
      | cons h2 h3 =>
        obtain ⟨M1, h4, h5⟩ := micro_commute h1 h2 (hi b (by simp))
        exact .cons h4 (ih (.cons h5 h3) fun c hc => hi c (List.mem_cons_of_mem _ hc))

theorem micro_front {P : Nat × Micro → Bool} {t : List (Nat × Micro)} : ∀ {M M' : Mem}, Micro.Steps M (t.map Prod.snd) M' →
    (t.Pairwise fun a b => P a = false → P b = true → a.2.Independent b.2) →
    Micro.Steps M ((t.filter P).map Prod.snd ++ (t.filter (fun a => !P a)).map Prod.snd) M' := by
  induction t with
  | nil => exact fun h _ => h
  | cons a t ih =>
    intro M M' h hp
    rw [List.pairwise_cons] at hp
    cases h with
    | cons h1 h2 =>
      have h3 := ih h2 hp.2
      cases ha : P a with
      | true =>
        rw [List.filter_cons_of_pos ha, List.filter_cons_of_neg (by simp [ha])]
        exact .cons h1 h3
      | false =>
        rw [List.filter_cons_of_neg (by simp [ha]), List.filter_cons_of_pos (by simp [ha])]
        refine micro_delay (.cons h1 h3) fun b hb => ?_
        obtain ⟨c, hc, rfl⟩ := List.mem_map.1 hb
        rw [List.mem_filter] at hc
        exact hp.1 c hc.1 ha hc.2

/-! ## Overlapping actions -/

theorem overlap_aux {l : List Act} : ∀ {n : Nat} {t : List (Nat × Micro)} {h : Heap} {M' : Mem},
    (∀ k (hk : k < l.length), l[k].Path (stepsOf (n + k) t)) → (t.Pairwise fun a b => b.1 < a.1 → a.2.Independent b.2) →
    (∀ a ∈ t, n ≤ a.1) → Micro.Steps h.get? (t.map Prod.snd) M' →
    ∃ h1, Act.Steps h l h1 ∧ Micro.Steps h1.get? ((t.filter fun a => decide (n + l.length ≤ a.1)).map Prod.snd) M' := by
  induction l with
  | nil =>
    intro n t h M' _ _ hn hs
    refine ⟨h, .nil, ?_⟩
    have : (t.filter fun a => decide (n + ([] : List Act).length ≤ a.1)) = t := by
      rw [List.filter_eq_self]
      intro a ha
      simpa using hn a ha
    rw [this]
    exact hs
  | cons a l ih =>
    intro n t h M' hp ho hn hs
    have hf := micro_front (P := fun a => a.1 == n) hs (ho.imp_of_mem fun {x y} hx _ hi h1 h2 => by
      have e1 : x.1 ≠ n := by simpa using h1
      have e2 : y.1 = n := by simpa using h2
      have := hn x hx
      exact hi (by omega))
    obtain ⟨M1, hs1, hs2⟩ := micro_steps_append.1 hf
    obtain ⟨h1, ha, rfl⟩ := path_step (hp 0 (by simp)) hs1
    obtain ⟨h2, hl, hr⟩ := ih (n := n + 1) (t := t.filter fun a => !(a.1 == n)) (h := h1) (M' := M') (by
        intro k hk
        have := hp (k + 1) (by simpa using hk)
        simp only [List.getElem_cons_succ] at this
        convert this using 1
        unfold stepsOf
        rw [List.filter_filter]
        congr 1
        apply List.filter_congr
        intro x _
        have : n + 1 + k = n + (k + 1) := by omega
        rw [this]
        by_cases e : x.1 = n + (k + 1)
        · simp [e]
        · simp [e]) (ho.sublist List.filter_sublist) (by
        intro x hx
        rw [List.mem_filter] at hx
        have h1 := hn x hx.1
        have h2 : x.1 ≠ n := by simpa using hx.2
        omega) hs2
    refine ⟨h2, .cons ha hl, ?_⟩
    convert hr using 2
    rw [List.filter_filter]
    apply List.filter_congr
    intro x _
    simp only [List.length_cons]
    by_cases e : n + (l.length + 1) ≤ x.1
    · have h1 : n + 1 + l.length ≤ x.1 := by omega
      have h2 : x.1 ≠ n := by omega
      simp [e, h1, h2]
    · have h1 : ¬ n + 1 + l.length ≤ x.1 := by omega
      simp [e, h1]

/-- Actions that overlap in time without a race have the effect and the results of doing them one after another; the steps of actions
that are not finished come afterwards. -/
theorem C129_overlap {l : List Act} {t : List (Nat × Micro)} {h : Heap} {M' : Mem} (ho : Overlap l t)
    (hs : Micro.Steps h.get? (t.map Prod.snd) M') :
    ∃ h1, Act.Steps h l h1 ∧ Micro.Steps h1.get? ((t.filter fun a => decide (l.length ≤ a.1)).map Prod.snd) M' := by
  have := overlap_aux (n := 0) (l := l) (t := t) (h := h) (M' := M') (fun k hk => by simpa using ho.path k hk) ho.order
    (fun _ _ => Nat.zero_le _) hs
  simpa only [Nat.zero_add] using this

/-- If all of them are finished: the memory is the same. -/
theorem C129_complete {l : List Act} {t : List (Nat × Micro)} {h : Heap} {M' : Mem} (ho : Overlap l t) (hl : ∀ a ∈ t, a.1 < l.length)
    (hs : Micro.Steps h.get? (t.map Prod.snd) M') : ∃ h1, Act.Steps h l h1 ∧ h1.get? = M' := by
  obtain ⟨h1, h2, h3⟩ := C129_overlap ho hs
  have : (t.filter fun a => decide (l.length ≤ a.1)) = [] := by
    rw [List.filter_eq_nil_iff]
    intro a ha
    have := hl a ha
    simp only [decide_eq_true_eq]
    omega
  rw [this] at h3
  cases h3
  exact ⟨h1, h2, rfl⟩

/-- Accesses of independent actions do not race. -/
theorem C129_no_race {a b : Act} {s s' : List Micro} (ha : a.Path s) (hb : b.Path s') (hi : a.Independent b) :
    ∀ m ∈ s, ∀ m' ∈ s', m.Independent m' := by
  intro m hm m' hm' he
  obtain ⟨h1, h2, h3⟩ := C129_footprint ha m hm
  obtain ⟨_, h5, h6⟩ := C129_footprint hb m' hm'
  exact ⟨fun h => (hi m.at h1).1 (h3 h) (he ▸ h5), fun h => (hi m'.at (he ▸ h1)).2 (h6 h) (he ▸ h2)⟩

/-- Threads whose actions are independent of those of the others: whatever the steps of the calls in progress are interleaved with, the
result is that of any of the serial schedules. -/
theorem C129_threads {l l' : List (Nat × Act)} {t : List (Nat × Micro)} {h : Heap} {M' : Mem} (hr : RaceFree l)
    (hp : ∀ k (hk : k < l.length), l[k].2.Path (stepsOf k t)) (hl : ∀ a ∈ t, a.1 < l.length)
    (ht : t.Pairwise fun a b => b.1 < a.1 → ∀ (ha : a.1 < l.length) (hb : b.1 < l.length), l[a.1].1 ≠ l[b.1].1)
    (hs : Micro.Steps h.get? (t.map Prod.snd) M') (hl' : SameThreads l l') :
    ∃ h1, Act.Steps h (l'.map Prod.snd) h1 ∧ h1.get? = M' := by
  have ho : Overlap (l.map Prod.snd) t := by
    refine ⟨fun k hk => ?_, ht.imp_of_mem fun {a b} ha hb hn hlt => ?_⟩
    · rw [List.getElem_map]
      exact hp k (by simpa using hk)
    · have h1 := hl a ha
      have h2 := hl b hb
      have hi : l[b.1].2.Independent l[a.1].2 := (List.pairwise_iff_getElem.1 hr b.1 a.1 h2 h1 hlt) (hn hlt h1 h2).symm
      have := C129_no_race (hp b.1 h2) (hp a.1 h1) hi b.2 (List.mem_map.2 ⟨b, List.mem_filter.2 ⟨hb, by simp⟩, rfl⟩) a.2
        (List.mem_map.2 ⟨a, List.mem_filter.2 ⟨ha, by simp⟩, rfl⟩)
      exact fun e => (this e.symm).symm
  obtain ⟨h1, h2, h3⟩ := C129_complete ho (by simpa using hl) hs
  obtain ⟨h4, h5, h6⟩ := C117_schedules hr hl' h2
  exact ⟨h4, h5, h6.trans h3⟩

/-! ## Undefined behaviour and aborts -/

theorem exact_quiet {α : Type} {E : Ctx} {a b : Prog α} {s : List Micro} (he : Exact a s b) :
    ∀ {h : Heap} {M' : Mem}, (∀ q x, Micro.alloc q x ∉ s) → Micro.Steps h.get? s M' →
      ∃ h', h'.get? = M' ∧ a.run E h = b.run E h' := by
  induction he with
  | done =>
    intro h M' _ hs
    cases hs
    exact ⟨h, rfl, rfl⟩
  | load _ ih =>
    intro h M' ha hs
    cases hs with
    | cons h1 h2 =>
      cases h1
      exact ih (fun q x hm => ha q x (List.mem_cons_of_mem _ hm)) h2
  | store _ ih =>
    intro h M' ha hs
    cases hs with
    | cons h1 h2 =>
      cases h1
      rw [← get?_insert_put] at h2
      exact ih (fun q x hm => ha q x (List.mem_cons_of_mem _ hm)) h2
  | free _ ih =>
    intro h M' ha hs
    cases hs with
    | cons h1 h2 =>
      cases h1
      rw [← get?_remove_put] at h2
      exact ih (fun q x hm => ha q x (List.mem_cons_of_mem _ hm)) h2
  | alloc => exact fun ha => absurd (List.mem_cons_self ..) (ha _ _)

/-- A call that overlaps with others without a race runs into undefined behaviour (or aborts) only if it does so when it is made after
the finished ones, alone. -/
theorem C129_failure {l : List Act} {t : List (Nat × Micro)} {h : Heap} {M' : Mem} {E : Ctx} {c : Call} {b : Prog Val}
    (ho : Overlap l t) (hs : Micro.Steps h.get? (t.map Prod.snd) M') (hb : b = .ub ∨ b = .abort)
    (hc : Reaches [] (c.prog E) (stepsOf l.length t) b) :
    ∃ h1, Act.Steps h l h1 ∧ (b = .ub → c.exec E h1 = .ub) ∧ (b = .abort → c.exec E h1 = .abort) := by
  obtain ⟨h1, hl, hr⟩ := C129_overlap ho hs
  refine ⟨h1, hl, ?_⟩
  have hf := micro_front (P := fun a => a.1 == l.length) hr ((ho.order.sublist List.filter_sublist).imp_of_mem
    fun {x y} hx _ hi h1 h2 => by
      have e1 : x.1 ≠ l.length := by simpa using h1
      have e2 : y.1 = l.length := by simpa using h2
      have e3 : l.length ≤ x.1 := by simpa using (List.mem_filter.1 hx).2
      exact hi (by omega))
  obtain ⟨M1, hs1, _⟩ := micro_steps_append.1 hf
  have e : ((t.filter fun a => decide (l.length ≤ a.1)).filter fun a => a.1 == l.length).map Prod.snd = stepsOf l.length t := by
    unfold stepsOf
    rw [List.filter_filter]
    congr 1
    apply List.filter_congr
    intro x _
    by_cases e : x.1 = l.length <;> simp [e]
  rw [e] at hs1
  have hfin : Final b := by rcases hb with rfl | rfl <;> trivial
  obtain ⟨s', he, hs'⟩ := exact_of_reaches hc hfin hs1
  obtain ⟨Q, _, hQ, ha⟩ := exact_allocs he (fits_call E c)
  have hQ' : Q = [] := by rcases hb with rfl | rfl <;> exact hQ
  obtain ⟨h2, _, h3⟩ := exact_quiet (E := E) he (fun q x hm => by have := ha q x hm; rw [hQ'] at this; cases this) hs'
  rw [← C129_same, h3]
  exact ⟨fun e => by rw [e]; rfl, fun e => by rw [e]; rfl⟩

/-! ## Every execution of the model is one -/

theorem run_reaches {α : Type} {E : Ctx} {a : Prog α} : ∀ {R : List Ptr} {h : Heap},
    (∀ v h', a.run E h = .ok v h' → ∃ s, Reaches R a s (.ret v) ∧ Micro.Steps h.get? s h'.get?) ∧
    (a.run E h = .ub → ∃ s M', Reaches R a s .ub ∧ Micro.Steps h.get? s M') ∧
    (a.run E h = .abort → ∃ s M', Reaches R a s .abort ∧ Micro.Steps h.get? s M') := by
  induction a with
  | ret a =>
    intro R h
    refine ⟨fun v h' e => ?_, fun e => (nomatch e), fun e => (nomatch e)⟩
    cases e
    exact ⟨[], .done, .nil⟩
  | ub => exact fun {R h} => ⟨fun v h' e => (nomatch e), fun _ => ⟨[], _, .done, .nil⟩, fun e => (nomatch e)⟩
  | abort => exact fun {R h} => ⟨fun v h' e => (nomatch e), fun e => (nomatch e), fun _ => ⟨[], _, .done, .nil⟩⟩
  | load p k ih =>
    intro R h
    obtain ⟨i1, i2, i3⟩ := ih (h.get? p) (R := p :: R) (h := h)
    refine ⟨fun v h' e => ?_, fun e => ?_, fun e => ?_⟩
    · obtain ⟨s, h1, h2⟩ := i1 v h' e
      exact ⟨_, .load h1, .cons .load h2⟩
    · obtain ⟨s, M', h1, h2⟩ := i2 e
      exact ⟨_, M', .load h1, .cons .load h2⟩
    · obtain ⟨s, M', h1, h2⟩ := i3 e
      exact ⟨_, M', .load h1, .cons .load h2⟩
  | store p x k ih =>
    intro R h
    obtain ⟨i1, i2, i3⟩ := ih (R := R) (h := h.insert p x)
    rw [get?_insert_put] at i1 i2 i3
    refine ⟨fun v h' e => ?_, fun e => ?_, fun e => ?_⟩
    · obtain ⟨s, h1, h2⟩ := i1 v h' e
      exact ⟨_, .store h1, .cons .store h2⟩
    · obtain ⟨s, M', h1, h2⟩ := i2 e
      exact ⟨_, M', .store h1, .cons .store h2⟩
    · obtain ⟨s, M', h1, h2⟩ := i3 e
      exact ⟨_, M', .store h1, .cons .store h2⟩
  | free p k ih =>
    intro R h
    obtain ⟨i1, i2, i3⟩ := ih (R := R.filter (· != p)) (h := h.remove p)
    rw [get?_remove_put] at i1 i2 i3
    refine ⟨fun v h' e => ?_, fun e => ?_, fun e => ?_⟩
    · obtain ⟨s, h1, h2⟩ := i1 v h' e
      exact ⟨_, .free h1, .cons .free h2⟩
    · obtain ⟨s, M', h1, h2⟩ := i2 e
      exact ⟨_, M', .free h1, .cons .free h2⟩
    · obtain ⟨s, M', h1, h2⟩ := i3 e
      exact ⟨_, M', .free h1, .cons .free h2⟩
  | alloc x k ih =>
    intro R h
    obtain ⟨i1, i2, i3⟩ := ih (E.fresh h) (R := E.fresh h :: R) (h := h.insert (E.fresh h) x)
    rw [get?_insert_put, ← Mem.put_put h.get? (E.fresh h) (some x) (some x)] at i1 i2 i3
    refine ⟨fun v h' e => ?_, fun e => ?_, fun e => ?_⟩
    · obtain ⟨s, h1, h2⟩ := i1 v h' e
      exact ⟨_, .alloc (y := x) (E.fresh_ne h) (.store h1), .cons (.alloc (E.fresh_ne h) (E.fresh_free h)) (.cons .store h2)⟩
    · obtain ⟨s, M', h1, h2⟩ := i2 e
      exact ⟨_, M', .alloc (y := x) (E.fresh_ne h) (.store h1), .cons (.alloc (E.fresh_ne h) (E.fresh_free h)) (.cons .store h2)⟩
    · obtain ⟨s, M', h1, h2⟩ := i3 e
      exact ⟨_, M', .alloc (y := x) (E.fresh_ne h) (.store h1), .cons (.alloc (E.fresh_ne h) (E.fresh_free h)) (.cons .store h2)⟩

/-- Every action consists of steps: what the model does in one piece is one of the executions considered. -/
theorem C129_steps {a : Act} {h h' : Heap} (hs : a.Step h h') : ∃ s, a.Path s ∧ Micro.Steps h.get? s h'.get? := by
  cases hs with
  | @call E F c v _ _ h1 h2 h3 he =>
    rw [← C129_same] at he
    obtain ⟨s, e1, e2⟩ := run_reaches.1 v h' he
    exact ⟨s, .call (prog_congr h1 h2 h3 c ▸ e1), e2⟩
  | @read _ p x hp hx =>
    refine ⟨_, .read hp, ?_⟩
    rw [← hx]
    exact .cons .load .nil
  | write hp hy hx =>
    refine ⟨_, .write hp hy hx, ?_⟩
    rw [get?_insert_put]
    exact .cons .load (.cons .store .nil)
  | drop hp hy =>
    refine ⟨_, .drop hp hy, ?_⟩
    rw [get?_remove_put]
    exact .cons .load (.cons .free .nil)

/-! ### Examples -/

/-- Two threads add edges to different graphs at the same time: while the first one is in the middle of it (its graph has some
intermediate content), the second one reads its own graph and the list of targets. -/
def exOv (g : Graph) (l : List Nat) : List (Nat × Micro) :=
  [(0, .load 5 (some (.graph exD))), (1, .load 6 (some (.graph g))), (0, .store 5 (.graph exU)), (1, .load 7 (some (.callerU64s l))),
    (1, .store 6 (.graph exD)), (0, .load 5 (some (.graph exU))), (1, .load 7 (some (.callerU64s l))),
    (0, .store 5 (.graph (exD.addEdge 0 9))), (1, .store 6 (.graph (g.addVertex 3 (some (l.take 2)))))]

/-- The two calls. -/
def exOvl : List Act := [.call exE (.addEdge 5 0 9) .unit, .call exE (.addVertex 6 3 7 2) .unit]

theorem exOv_overlap {g : Graph} {l : List Nat} (hl : 2 ≤ l.length) : Overlap exOvl (exOv g l) := by
  refine ⟨fun k hk => ?_, ?_⟩
  · rcases k with _ | _ | k
    · exact .call (.load (.storing (.again (by simp) (.store .done))))
    · refine .call (.load (.load ?_))
      change Reaches _ (Prog.bind (if 2 ≤ l.length then _ else _) _ |>.bind _) _ _
      rw [if_pos hl]
      exact .storing (.again (by simp) (.store .done))
    · exact absurd hk (by simp [exOvl])
  · simp [exOv, Micro.Independent, Micro.at, Micro.changes]

theorem exOv_steps (g : Graph) (l : List Nat) {h : Heap} (h5 : h.get? 5 = some (.graph exD)) (h6 : h.get? 6 = some (.graph g))
    (h7 : h.get? 7 = some (.callerU64s l)) : ∃ M', Micro.Steps h.get? ((exOv g l).map Prod.snd) M' := by
  have ld : ∀ {M : Mem} {p x t M'}, M p = x → Micro.Steps M t M' → Micro.Steps M (.load p x :: t) M' := by
    intro M p x t M' e h
    subst e
    exact .cons .load h
  refine ⟨_, ld h5 (ld h6 (.cons .store (ld ?_ (.cons .store (ld ?_ (ld ?_ (.cons .store (.cons .store .nil))))))))⟩
  all_goals simp [Mem.put, h7]

/-- Both edits are there, as if one had been made after the other one. -/
example (g : Graph) (l : List Nat) (hl : 2 ≤ l.length) {h : Heap} (h5 : h.get? 5 = some (.graph exD)) (h6 : h.get? 6 = some (.graph g))
    (h7 : h.get? 7 = some (.callerU64s l)) : ∃ h1, Act.Steps h exOvl h1 := by
  obtain ⟨M', hs⟩ := exOv_steps g l h5 h6 h7
  obtain ⟨h1, h2, _⟩ := C129_complete (exOv_overlap hl) (by simp [exOv, exOvl]) hs
  exact ⟨h1, h2⟩

/-- Threads that make graphs of their own while both read the graph at 5. -/
example : ∃ t M', Micro.Steps exH.get? (t.map Prod.snd) M' ∧
    (∀ k (hk : k < exT.length), exT[k].2.Path (stepsOf k t)) ∧ ∃ h1, Act.Steps exH (exT'.map Prod.snd) h1 ∧ h1.get? = M' := by
  have aux : ∀ (l : List (Nat × Act)) (n : Nat) (h h' : Heap), Act.Steps h (l.map Prod.snd) h' →
      ∃ t, Micro.Steps h.get? (t.map Prod.snd) h'.get? ∧ (∀ a ∈ t, n ≤ a.1 ∧ a.1 < n + l.length) ∧ (t.Pairwise fun a b => a.1 ≤ b.1) ∧
        ∀ k (hk : k < l.length), l[k].2.Path (stepsOf (n + k) t) := by
    intro l
    induction l with
    | nil =>
      intro n h h' hs
      cases hs
      exact ⟨[], .nil, by simp, .nil, fun k hk => absurd hk (by simp)⟩
    | cons a l ih =>
      intro n h h' hs
      cases hs with
      | cons h1 h2 =>
        obtain ⟨s, e1, e2⟩ := C129_steps h1
        obtain ⟨t, i1, i2, i3, i4⟩ := ih (n + 1) _ _ h2
        refine ⟨s.map (fun m => (n, m)) ++ t, ?_, ?_, ?_, ?_⟩
        · rw [List.map_append, List.map_map]
          have : (Prod.snd ∘ fun m : Micro => (n, m)) = id := rfl
          rw [this, List.map_id]
          exact micro_steps_append.2 ⟨_, e2, i1⟩
        · intro x hx
          rcases List.mem_append.1 hx with hx | hx
          · obtain ⟨m, _, rfl⟩ := List.mem_map.1 hx
            simp
          · have := i2 x hx
            simp only [List.length_cons]
            omega
        · rw [List.pairwise_append]
          refine ⟨?_, i3, ?_⟩
          · rw [List.pairwise_map]
            exact List.pairwise_of_forall fun _ _ => Nat.le_refl _
          · intro x hx y hy
            obtain ⟨m, _, rfl⟩ := List.mem_map.1 hx
            have := i2 y hy
            change n ≤ y.1
            omega
        · intro k hk
          unfold stepsOf
          rw [List.filter_append, List.map_append]
          rcases k with _ | k
          · have z1 : (s.map fun m => (n, m)).filter (fun a => a.1 == n + 0) = s.map fun m => (n, m) := by
              rw [List.filter_eq_self]
              intro x hx
              obtain ⟨m, _, rfl⟩ := List.mem_map.1 hx
              simp
            have z2 : t.filter (fun a => a.1 == n + 0) = [] := by
              rw [List.filter_eq_nil_iff]
              intro x hx
              have := i2 x hx
              simp only [Nat.add_zero, beq_iff_eq]
              omega
            rw [z1, z2, List.map_map]
            have : (Prod.snd ∘ fun m : Micro => (n, m)) = id := rfl
            rw [this, List.map_id]
            simpa using e1
          · have z1 : (s.map fun m => (n, m)).filter (fun a => a.1 == n + (k + 1)) = [] := by
              rw [List.filter_eq_nil_iff]
              intro x hx
              obtain ⟨m, _, rfl⟩ := List.mem_map.1 hx
              simp
            rw [z1]
            have := i4 k (by simpa using hk)
            unfold stepsOf at this
            have e : n + 1 + k = n + (k + 1) := by omega
            rw [e] at this
            simpa using this
  obtain ⟨h, hh⟩ := exT_steps
  obtain ⟨t, h1, h2, h3, h4⟩ := aux exT 0 _ _ hh
  simp only [Nat.zero_add] at h2 h4
  exact ⟨t, h.get?, h1, h4, C129_threads exT_raceFree h4 (fun a ha => (h2 a ha).2)
    (h3.imp fun {a b} hle hlt => absurd hle (by omega)) h1 exT_same⟩

/-- Without the requirement on races it would be false: two calls that add an edge to the same graph, where both read it before
one of them writes. The first edge is lost; in no order do the two calls leave a graph without it. -/
theorem C129_race_matters : ∃ (a b : Act) (t : List (Nat × Micro)) (M' : Mem),
    a.Path (stepsOf 0 t) ∧ b.Path (stepsOf 1 t) ∧ (∀ x ∈ t, x.1 < 2) ∧ Micro.Steps exH.get? (t.map Prod.snd) M' ∧
    (∀ h1, Act.Steps exH [a, b] h1 → h1.get? ≠ M') ∧ ∀ h1, Act.Steps exH [b, a] h1 → h1.get? ≠ M' := by
  refine ⟨.call exE (.addEdge 5 0 9) .unit, .call exE (.addEdge 5 0 8) .unit,
    [(0, .load 5 (some (.graph exD))), (1, .load 5 (some (.graph exD))), (0, .store 5 (.graph (exD.addEdge 0 9))),
      (1, .store 5 (.graph (exD.addEdge 0 8)))], _, .call (.load (.store .done)), .call (.load (.store .done)), by simp,
    .cons .load (.cons .load (.cons .store (.cons .store .nil))), ?_, ?_⟩
  · intro h1 hs he
    cases hs with
    | cons s1 s2 =>
      cases s1 with
      | @call _ F _ _ _ _ _ _ _ e1 =>
        have : Call.exec F (.addEdge 5 0 9) exH = .ok .unit (exH.insert 5 (.graph (exD.addEdge 0 9))) := rfl
        rw [this] at e1
        cases e1
        cases s2 with
        | cons s2 s3 =>
          cases s3
          cases s2 with
          | @call _ F _ _ _ _ _ _ _ e1 =>
            have : Call.exec F (.addEdge 5 0 8) (exH.insert 5 (.graph (exD.addEdge 0 9))) =
              .ok .unit ((exH.insert 5 (.graph (exD.addEdge 0 9))).insert 5 (.graph ((exD.addEdge 0 9).addEdge 0 8))) := rfl
            rw [this] at e1
            cases e1
            have := congrArg (fun M : Mem => (M 5).map fun x => match x with | .graph g => g.doesEdgeExist 0 9 | _ => false) he
            revert this
            decide +kernel
  · intro h1 hs he
    cases hs with
    | cons s1 s2 =>
      cases s1 with
      | @call _ F _ _ _ _ _ _ _ e1 =>
        have : Call.exec F (.addEdge 5 0 8) exH = .ok .unit (exH.insert 5 (.graph (exD.addEdge 0 8))) := rfl
        rw [this] at e1
        cases e1
        cases s2 with
        | cons s2 s3 =>
          cases s3
          cases s2 with
          | @call _ F _ _ _ _ _ _ _ e1 =>
            have : Call.exec F (.addEdge 5 0 9) (exH.insert 5 (.graph (exD.addEdge 0 8))) =
              .ok .unit ((exH.insert 5 (.graph (exD.addEdge 0 8))).insert 5 (.graph ((exD.addEdge 0 8).addEdge 0 9))) := rfl
            rw [this] at e1
            cases e1
            have := congrArg (fun M : Mem => (M 5).map fun x => match x with | .graph g => g.doesEdgeExist 0 9 | _ => false) he
            revert this
            decide +kernel

/-- A call that uses a graph freed before by the same thread, while another thread works on its own: undefined, with or without the
other one. -/
example : ∃ (l : List Act) (t : List (Nat × Micro)) (M' : Mem), Overlap l t ∧ Micro.Steps exH.get? (t.map Prod.snd) M' ∧
    Reaches [] (Call.prog exE (.edgeCount 5)) (stepsOf l.length t) .ub := by
  have ld : ∀ {M : Mem} {p x t M'}, M p = x → Micro.Steps M t M' → Micro.Steps M (.load p x :: t) M' := by
    intro M p x t M' e h
    subst e
    exact .cons .load h
  refine ⟨[.call exE (.freeGraph 5) .unit, .read 1 (.callerUsize 9)],
    [(0, .load 5 (some (.graph exD))), (3, .alloc 8 (.graph exU)), (0, .free 5), (2, .load 5 none), (1, .load 1 (some (.callerUsize 9)))], _,
    ⟨fun k hk => ?_, ?_⟩, ld rfl (.cons (.alloc (by decide) rfl) (.cons .free (ld rfl (ld rfl .nil)))), .load .done⟩
  · rcases k with _ | _ | k
    · exact .call (.load (.free .done))
    · exact .read (by decide)
    · exact absurd hk (by simp)
  · simp [Micro.Independent, Micro.at, Micro.changes]

end Verif.Props
