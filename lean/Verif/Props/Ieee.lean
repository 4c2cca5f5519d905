import Verif.Props.Pooling
import Verif.Props.F32

/-!
# Floating-point cells are rounded as IEEE-754 requires: C94

`Format.RoundsTo F q x` (`Spec/Ieee.lean`): `x` is the number of the format closest to `q`, of two equally close ones
the one with an even significand, and an infinity from the overflow threshold on.
-/

namespace Verif.Props
open Verif Spec

/-- **C94.** Rounding is a function: exactly one value of the format results, for every exact result. -/
theorem C94_rounds_to_one :
    (∀ q, ∃! x, binary64.RoundsTo q x) ∧ (∀ q, ∃! x, binary32.RoundsTo q x) :=
  ⟨fun q => ⟨F64.rnd q, (F64.roundsTo _ _).2 rfl, fun x h => (F64.roundsTo _ _).1 h⟩,
   fun q => ⟨F32.rnd q, (F32.roundsTo _ _).2 rfl, fun x h => (F32.roundsTo _ _).1 h⟩⟩

/-- What adding one to a cell must give. -/
def PlusOne (F : Format) : F64 → F64 → Prop
  | .nan, y => y = .nan
  | .inf s, y => y = .inf s
  | .fin q, y => F.RoundsTo (q + 1) y

theorem increment_getEntry {T : Type} {N : Numeric T} {P : Platform} (m : SqMatrix T) {c r : Nat}
    (hc : c < U64_MAX) (hr : r < U64_MAX) (hN : ∀ x, ∃ y, N.addOne P x = .ok y) (h0 : N.addOne P N.zero = .ok N.one) :
    ∃ m', m.incrementEntry N P c r = .ok m' ∧ N.addOne P (m.getEntry N c r) = .ok (m'.getEntry N c r) ∧
      (∀ c' r', (c', r') ≠ (c, r) → m'.getEntry N c' r' = m.getEntry N c' r') := by
  obtain ⟨m', hm⟩ := SqMatrix.incrementEntry_isOk m c r hN
  obtain ⟨e, he, hat, _, _⟩ := SqMatrix.incrementEntry_ok hc hr hm
  refine ⟨m', hm, ?_, fun c' r' hne => ?_⟩
  · rw [SqMatrix.getEntry_eq, SqMatrix.getEntry_eq, hat, if_pos ⟨rfl, rfl⟩]
    cases ho : m.at? c r with
    | none =>
      rw [ho] at he
      have he : N.one = e := by simpa [SqMatrix.incValue] using he
      rw [← he]
      exact h0
    | some x =>
      rw [ho] at he
      exact he
  · rw [SqMatrix.getEntry_eq, SqMatrix.getEntry_eq, hat, if_neg (fun h => hne (by rw [h.1, h.2]))]

/-- **C94.** `increment_entry` on an `f64` matrix replaces a finite entry `q` by the double nearest to `q + 1` (ties to
even, overflow to infinity), keeps infinities and NaN, and no other entry changes. -/
theorem C94_increment_f64 (m : SqMatrix F64) (P : Platform) {c r : Nat} (hc : c < 2 ^ 64 - 1) (hr : r < 2 ^ 64 - 1) :
    ∃ m', m.incrementEntry f64Numeric P c r = .ok m' ∧
      PlusOne binary64 (m.getEntry f64Numeric c r) (m'.getEntry f64Numeric c r) ∧
      (∀ c' r', (c', r') ≠ (c, r) → m'.getEntry f64Numeric c' r' = m.getEntry f64Numeric c' r') := by
  have h1 : F64.lit 1 = .fin 1 := F64.lit_one
  obtain ⟨m', hm, hv, hrest⟩ := increment_getEntry (N := f64Numeric) (P := P) m hc hr (fun _ => ⟨_, rfl⟩) (by
    change Res.ok (F64.add (F64.lit 0) (F64.lit 1)) = Res.ok (F64.lit 1)
    rw [F64.lit_zero, h1]
    change Res.ok (F64.rnd (0 + 1)) = _
    rw [zero_add]
    exact congrArg _ h1)
  refine ⟨m', hm, ?_, hrest⟩
  have hv : F64.add (m.getEntry f64Numeric c r) (F64.lit 1) = m'.getEntry f64Numeric c r := Res.ok.inj hv
  rw [h1] at hv
  rw [← hv]
  cases m.getEntry f64Numeric c r with
  | nan => rfl
  | inf s => rfl
  | fin q => exact (F64.roundsTo _ _).2 rfl

/-- **C94.** The same for `f32` matrices and the single-precision format. -/
theorem C94_increment_f32 (m : SqMatrix F64) (P : Platform) {c r : Nat} (hc : c < 2 ^ 64 - 1) (hr : r < 2 ^ 64 - 1) :
    ∃ m', m.incrementEntry f32Numeric P c r = .ok m' ∧
      PlusOne binary32 (m.getEntry f32Numeric c r) (m'.getEntry f32Numeric c r) ∧
      (∀ c' r', (c', r') ≠ (c, r) → m'.getEntry f32Numeric c' r' = m.getEntry f32Numeric c' r') := by
  have h1 : F32.rnd 1 = .fin 1 := F32.one_eq
  obtain ⟨m', hm, hv, hrest⟩ := increment_getEntry (N := f32Numeric) (P := P) m hc hr (fun _ => ⟨_, rfl⟩) (by
    change Res.ok (F32.add (F32.rnd 0) (F32.rnd 1)) = Res.ok (F32.rnd 1)
    rw [F32.zero_eq, h1]
    change Res.ok (F32.rnd (0 + 1)) = _
    rw [zero_add]
    exact congrArg _ h1)
  refine ⟨m', hm, ?_, hrest⟩
  have hv : F32.add (m.getEntry f32Numeric c r) (F32.rnd 1) = m'.getEntry f32Numeric c r := Res.ok.inj hv
  rw [h1] at hv
  rw [← hv]
  cases m.getEntry f32Numeric c r with
  | nan => rfl
  | inf s => rfl
  | fin q => exact (F32.roundsTo _ _).2 rfl

/-- The `f64` value `0.1` becomes the double nearest to itself plus one; it is not the double nearest to `1.1`
minus or plus one unit, and a huge value does not change. -/
example : okAnd (runNum f64Numeric exP [.set (F64.lit (1 / 10)) 0 0, .increment 0 0, .set (.fin (2 ^ 60)) 1 1,
      .increment 1 1, .set (.inf true) 2 2, .increment 2 2])
    (fun m => decide (m.getEntry f64Numeric 0 0 = F64.lit (11 / 10)) &&
      decide (m.getEntry f64Numeric 1 1 = .fin (2 ^ 60)) && decide (m.getEntry f64Numeric 2 2 = .inf true)) := by
  decide +kernel

theorem mul_product (a b : F64) : binary64.Product a b (F64.mul a b) := by
  refine ⟨?_, ?_, ?_⟩
  · rintro (rfl | rfl | ⟨rfl | rfl, rfl⟩ | ⟨rfl, rfl | rfl⟩)
    · rfl
    · cases a <;> rfl
    all_goals simp [F64.mul]
  · intro ha hb h0 h1 hi
    cases a with
    | nan => exact absurd rfl ha
    | inf s =>
      cases b with
      | nan => exact absurd rfl hb
      | inf t => cases s <;> cases t <;> simp [F64.mul, IsInf, Negative]
      | fin q =>
        have hq : q ≠ 0 := fun h => h1 (by rw [h])
        by_cases hn : q < 0 <;> cases s <;> simp [F64.mul, IsInf, Negative, hq, hn]
    | fin p =>
      have hp : p ≠ 0 := fun h => h0 (by rw [h])
      cases b with
      | nan => exact absurd rfl hb
      | inf t => by_cases hn : p < 0 <;> cases t <;> simp [F64.mul, IsInf, Negative, hp, hn]
      | fin q => simp [IsInf] at hi
  · rintro p q rfl rfl
    exact (F64.roundsTo _ _).2 rfl

/-- **C94.** `multiply_entries_by` (used by pooling) on any matrix built from outside the crate, and any factor:
exactly the stored entries are multiplied, as IEEE-754 says for finite numbers, infinities and NaN, and neither the
dimension nor the number of entries changes. -/
theorem C94_multiply (P : Platform) (h : List (NumOp F64)) {m : SqMatrix F64} (hm : runNum f64Numeric P h = .ok m)
    (x : F64) :
    (m.multiplyEntriesBy x).dimension = m.dimension ∧ (m.multiplyEntriesBy x).entryCount = m.entryCount ∧
    ∀ o o' : HashOrder, (∀ e c r, (e, c, r) ∈ m.items o →
        ∃ y, (y, c, r) ∈ (m.multiplyEntriesBy x).items o' ∧ binary64.Product e x y) ∧
      (∀ y c r, (y, c, r) ∈ (m.multiplyEntriesBy x).items o' →
        ∃ e, (e, c, r) ∈ m.items o ∧ binary64.Product e x y) := by
  have hw : m.WF := (values_inv (I := fun _ => True) h (fun _ _ _ _ => trivial) trivial
    (fun _ _ _ _ => trivial) hm).1
  refine ⟨rfl, rfl, fun o o' => ⟨fun e c r he => ?_, fun y c r hy => ?_⟩⟩
  · refine ⟨F64.mul e x, (SqMatrix.mem_items (hw.multiplyEntriesBy x) o').2 ?_, mul_product _ _⟩
    rw [SqMatrix.multiplyEntriesBy_at, (SqMatrix.mem_items hw o).1 he]
    rfl
  · have h1 := (SqMatrix.mem_items (hw.multiplyEntriesBy x) o').1 hy
    rw [SqMatrix.multiplyEntriesBy_at] at h1
    obtain ⟨e, he, rfl⟩ := Option.map_eq_some_iff.1 h1
    exact ⟨e, (SqMatrix.mem_items hw o).2 he, mul_product _ _⟩

/-- Entries `0.1`, `-inf`, `inf`, `3` times `-inf`, and times `0.1`. -/
example : okAnd (runNum f64Numeric exP [.set (F64.lit (1 / 10)) 0 0, .set (.inf true) 1 1, .set (.inf false) 2 2,
      .set (.fin 3) 3 0])
    (fun m => decide ((m.multiplyEntriesBy (.inf true)).items .id =
        [(.inf true, 3, 0), (.inf true, 2, 2), (.inf false, 1, 1), (.inf true, 0, 0)]) &&
      decide ((m.multiplyEntriesBy (F64.lit (1 / 10))).getEntry f64Numeric 0 0 = .fin (5764607523034236 / 2 ^ 59)) &&
      decide ((m.multiplyEntriesBy (.fin 0)).getEntry f64Numeric 1 1 = .nan)) := by
  decide +kernel

/-- **C94.** Value of a pooled entry for every effective block dimension below `2^32` (C39 is the case up to `2^26`):
with `s` the double nearest to the number of cells and `y` the double nearest to `1/s`, the entry is
the double nearest to the edge count (at most `2^53`, see C83) times `y`. -/
theorem C94_pooling_rounds {g : Graph} (hg : GReach g) (P : Platform) (o : HashOrder) (b : Nat)
    (hb : effBlock g.vertexCount b < 2 ^ 32) :
    ∃ m, g.findAvgPoolMatrix P o b = .ok m ∧ ∀ c r,
      let b' := effBlock g.vertexCount b
      let k := blockCount g.doesEdgeExist b' c r
      ∃ s y : ℚ, binary64.RoundsTo (b' * b' : Nat) (.fin s) ∧ binary64.RoundsTo (1 / s) (.fin y) ∧
        binary64.RoundsTo ((min k (2 ^ 53) : Nat) * y) (m.getEntry f64Numeric c r) := by
  have hpos : 0 < effBlock g.vertexCount b := by unfold effBlock; omega
  have h1 : 1 ≤ effBlock g.vertexCount b * effBlock g.vertexCount b := Nat.mul_pos hpos hpos
  have hU := Graph.sq_le_U64 hb
  by_cases hn : g.vertexCount = 0
  · refine ⟨SqMatrix.new, by unfold Graph.findAvgPoolMatrix; rw [if_pos hn], fun c r => ?_⟩
    simp only
    rw [blockCount_zero_of_empty hg.ok hn, SqMatrix.getEntry_eq, SqMatrix.new_at]
    obtain ⟨r1, r2, r3⟩ := pool_rounds h1 hU 0
    refine ⟨_, _, r1, r2, ?_⟩
    have hz : F64.poolQ (effBlock g.vertexCount b * effBlock g.vertexCount b) 0 = 0 := by
      unfold F64.poolQ; simp [F64.rndQ_zero]
    rw [hz] at r3
    change binary64.RoundsTo _ (F64.lit 0)
    rw [F64.lit_zero]
    exact r3
  · have hcl := clamp_eff (b := b) hn
    obtain ⟨m, hm, hwf, hdim, hat⟩ := Graph.pool_ok hg.ok P o b hn (by rw [hcl]; exact hb)
    refine ⟨m, hm, fun c r => ?_⟩
    rw [hcl] at hat
    obtain ⟨r1, r2, r3⟩ := pool_rounds h1 hU (blockCount g.doesEdgeExist (effBlock g.vertexCount b) c r)
    refine ⟨_, _, r1, r2, ?_⟩
    rw [SqMatrix.getEntry_eq, hat]
    split
    · next h =>
      rw [h] at r3 ⊢
      have hz : F64.poolQ (effBlock g.vertexCount b * effBlock g.vertexCount b) 0 = 0 := by
        unfold F64.poolQ; simp [F64.rndQ_zero]
      rw [hz] at r3
      change binary64.RoundsTo _ (F64.lit 0)
      rw [F64.lit_zero]
      exact r3
    · exact r3

/-- One edge among nine cells. -/
example : GReach exD ∧ effBlock exD.vertexCount 3 = 3 ∧ blockCount exD.doesEdgeExist 3 0 0 = 1 ∧
    okAnd (exD.findAvgPoolMatrix exP .id 3) (fun m =>
      decide (m.getEntry f64Numeric 0 0 = .fin (8006399337547548 / 2 ^ 56))) :=
  ⟨exD_reach, by decide, by decide, by decide +kernel⟩

/-- **C46**, release builds: nothing ever panics, but the number of cells is only known modulo `2^64`.  If that is not
zero, entries are computed from it as in `C94_pooling_rounds`; if it is zero, every block with an edge gets the entry
`+∞`, and the others `0`. -/
theorem C46_release {g : Graph} (hg : GReach g) {P : Platform} (hP : P.profile = .release) (o₁ o₂ : HashOrder) (b : Nat)
    (t : F64) :
    (∃ a, g.approximate P o₁ o₂ b t = .ok a) ∧
    ∃ m, g.findAvgPoolMatrix P o₁ b = .ok m ∧ ∀ c r,
      let b' := effBlock g.vertexCount b
      let k := blockCount g.doesEdgeExist b' c r
      let w : Nat := b' * b' % 2 ^ 64
      (w ≠ 0 → ∃ s y : ℚ, binary64.RoundsTo w (.fin s) ∧ binary64.RoundsTo (1 / s) (.fin y) ∧
        binary64.RoundsTo ((min k (2 ^ 53) : Nat) * y) (m.getEntry f64Numeric c r)) ∧
      (w = 0 → m.getEntry f64Numeric c r = if k = 0 then .fin 0 else .inf false) := by
  have hmul : ∀ x : Nat, P.u64Mul x x = .ok (x * x % 2 ^ 64) := by
    intro x
    unfold Platform.u64Mul Platform.wrapTo
    split
    · next h => rw [Nat.mod_eq_of_lt (by unfold U64_MAX at h; omega)]
    · rw [hP]; rfl
  have hpool : ∃ m, g.findAvgPoolMatrix P o₁ b = .ok m ∧ ∀ c r,
      let b' := effBlock g.vertexCount b
      let k := blockCount g.doesEdgeExist b' c r
      let w : Nat := b' * b' % 2 ^ 64
      (w ≠ 0 → ∃ s y : ℚ, binary64.RoundsTo w (.fin s) ∧ binary64.RoundsTo (1 / s) (.fin y) ∧
        binary64.RoundsTo ((min k (2 ^ 53) : Nat) * y) (m.getEntry f64Numeric c r)) ∧
      (w = 0 → m.getEntry f64Numeric c r = if k = 0 then .fin 0 else .inf false) := by
    have hz : ∀ w, F64.poolQ w 0 = 0 := by intro w; unfold F64.poolQ; simp [F64.rndQ_zero]
    by_cases hn : g.vertexCount = 0
    · refine ⟨SqMatrix.new, by unfold Graph.findAvgPoolMatrix; rw [if_pos hn], fun c r => ?_⟩
      simp only
      rw [blockCount_zero_of_empty hg.ok hn, SqMatrix.getEntry_eq, SqMatrix.new_at]
      have h0 : f64Numeric.zero = .fin 0 := F64.lit_zero
      refine ⟨fun hw => ?_, fun _ => by rw [if_pos rfl]; exact h0⟩
      obtain ⟨r1, r2, r3⟩ := pool_rounds (Nat.pos_of_ne_zero hw)
        (Nat.le_of_lt_succ (Nat.mod_lt _ (by norm_num [U64_MAX]))) 0
      rw [hz] at r3
      refine ⟨_, _, r1, r2, ?_⟩
      change binary64.RoundsTo _ (F64.lit 0)
      rw [F64.lit_zero]
      exact r3
    · obtain ⟨m, hwf, hdim, hat, h⟩ := Graph.pool_general hg.ok P o₁ b hn
      rw [clamp_eff hn] at hat h
      rw [hmul] at h
      refine ⟨_, h, fun c r => ?_⟩
      simp only
      generalize effBlock g.vertexCount b = b' at *
      rw [SqMatrix.getEntry_eq, SqMatrix.multiplyEntriesBy_at, hat]
      generalize blockCount g.doesEdgeExist b' c r = k
      have h0 : f64Numeric.zero = .fin 0 := F64.lit_zero
      constructor
      · intro hw
        have hU : b' * b' % 2 ^ 64 ≤ U64_MAX := by unfold U64_MAX; omega
        obtain ⟨r1, r2, r3⟩ := pool_rounds (Nat.pos_of_ne_zero hw) hU k
        refine ⟨_, _, r1, r2, ?_⟩
        split
        · next h => subst h; rw [hz] at r3; change binary64.RoundsTo _ (F64.lit 0); rw [F64.lit_zero]; exact r3
        · rw [F64.div_eq_recip (Nat.pos_of_ne_zero hw) hU, Option.map_some, F64.mul_cnt_recip (Nat.pos_of_ne_zero hw) hU]
          exact r3
      · intro hw
        rw [hw]
        split
        · exact h0
        · next hk =>
          have hd : F64.div (F64.lit 1) (F64.ofNat 0) = .inf false := by decide +kernel
          rw [hd, Option.map_some]
          change F64.mul (F64.cnt k) (.inf false) = _
          unfold F64.cnt F64.mul
          have : (0 : ℚ) < ((min k (2 ^ 53) : Nat) : ℚ) := by
            have : 0 < min k (2 ^ 53) := by omega
            exact_mod_cast this
          simp only
          rw [if_neg this.ne', decide_eq_false (not_lt.2 this.le)]
          rfl
  refine ⟨?_, hpool⟩
  by_cases hs : b ≤ 1 ∨ g.vertexCount ≤ 1
  · exact ⟨g, C43_copy _ _ _ _ _ _ hs⟩
  · obtain ⟨m, hm, _⟩ := hpool
    rw [Graph.approximate_eq P o₁ o₂ t (by omega) (by omega), hm]
    exact ⟨_, rfl⟩

/-- A graph on more than `2^32` vertices: blocks of dimension `2^32` have `0` cells modulo `2^64`. -/
example : GReach hugeG ∧ ({ exP with profile := .release } : Platform).profile = .release ∧
    effBlock hugeG.vertexCount (2 ^ 32) * effBlock hugeG.vertexCount (2 ^ 32) % 2 ^ 64 = 0 :=
  ⟨hugeG_reach, rfl, by decide +kernel⟩

end Verif.Props
