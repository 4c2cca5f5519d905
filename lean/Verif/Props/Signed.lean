import Verif.Model.Signed
import Verif.Lemmas.MapValues
import Verif.Spec.ResRel
import Verif.Props.Ieee

/-!
# Negative zeros make no difference: C116

`Model/Signed.lean` keeps `-0.0` and `0.0` apart; the theorems compare it with the simpler model all the other
properties are about.
-/

namespace Verif.Props
open Verif Spec

/-- The value is one of `f64`, or one of `f32`. -/
def InFormat (F : Format) (x : F64) : Prop := ∀ q, x = .fin q → F.Has q

/-- The operation with the sign of a zero forgotten. -/
def unsignedOp : NumOp S64 → NumOp F64
  | .set x c r => .set x.toF64 c r
  | .zero c r => .zero c r
  | .increment c r => .increment c r

/-- Every observation of the matrix with signed zeros is that of the other one, and no negative zero is in it. -/
structure SameEntries (F : NumFmt S64) (F' : NumFmt F64) (m : SqMatrix S64) (m' : SqMatrix F64) : Prop where
  no_negative_zero : ∀ o c r, (S64.negZero, c, r) ∉ m.items o
  dimension : m.dimension = m'.dimension
  entryCount : m.entryCount = m'.entryCount
  entry : ∀ c r, m.getEntry F.toNumeric c r = .val (m'.getEntry F'.toNumeric c r)
  items : ∀ o, ∃ o', m.items o = (m'.items o').map (fun x => (.val x.1, x.2))
  text : ∀ o₁ o₂, ∃ o₁' o₂', ∀ P d,
    m.toStringWithPrecision P F o₁ o₂ d = m'.toStringWithPrecision P F' o₁' o₂' d

theorem toF64_val (x : F64) : (S64.val x).toF64 = x := rfl

theorem s64_fmtHom : SqMatrix.FmtHom S64.val f64Fmt s64Fmt where
  zero := rfl
  maxV := rfl
  minV := rfl
  hasDecimal := rfl
  lt _ _ := rfl
  gt _ _ := rfl
  digitCount _ := rfl
  fmt _ _ _ := rfl
  fmtW _ _ := rfl

theorem s32_fmtHom : SqMatrix.FmtHom S64.val f32Fmt s32Fmt where
  zero := rfl
  maxV := rfl
  minV := rfl
  hasDecimal := rfl
  lt _ _ := rfl
  gt _ _ := rfl
  digitCount _ := rfl
  fmt _ _ _ := rfl
  fmtW _ _ := rfl

theorem sameEntries_mapV {F : NumFmt S64} {F' : NumFmt F64} (H : SqMatrix.FmtHom S64.val F' F) (m : SqMatrix F64) :
    SameEntries F F' (m.mapV .val) m where
  no_negative_zero o c r := by
    rw [SqMatrix.items_mapV toF64_val]
    simp
  dimension := rfl
  entryCount := rfl
  entry c r := SqMatrix.getEntry_mapV H.zero m c r
  items o := ⟨_, SqMatrix.items_mapV toF64_val o m⟩
  text o₁ o₂ := ⟨_, _, fun P d => SqMatrix.toString_mapV toF64_val H P o₁ o₂ m d⟩

/-! ## Adding one -/

theorem Has_grid {F : Format} {q : ℚ} (h : F.Has q) : ∃ k : ℤ, q = k * 2 ^ F.emin := by
  obtain ⟨s, e, rfl, _, he, _⟩ := h
  obtain ⟨n, hn⟩ := Int.le.dest he
  refine ⟨s * 2 ^ n, ?_⟩
  rw [← hn, zpow_add₀ two_ne_zero]
  push_cast
  rw [zpow_natCast]
  ring

/-- A number of the format plus one does not underflow. -/
theorem plus_one_no_underflow {F : Format} (hp : 1 < F.p) (he : F.emin ≤ 0) (hx : F.emin < F.emax) {q : ℚ} (hq : F.Has q)
    (h : F.RoundsTo (q + 1) (.fin 0)) : q + 1 = 0 := by
  obtain ⟨_, _, hn, _⟩ := h
  obtain ⟨k, hk⟩ := Has_grid hq
  obtain ⟨n, hn0⟩ := Int.le.dest he
  have h1 : (1 : ℚ) = ((2 ^ n : ℤ) : ℚ) * 2 ^ F.emin := by
    push_cast
    rw [← zpow_natCast, ← zpow_add₀ two_ne_zero, add_comm, hn0, zpow_zero]
  have hpos : (0 : ℚ) < 2 ^ F.emin := zpow_pos two_pos _
  have key : q + 1 = ((k + 2 ^ n : ℤ) : ℚ) * 2 ^ F.emin := by
    rw [hk]; push_cast at h1 ⊢; linarith
  have hs : ∀ s : ℤ, |s| = 1 → F.Has (s * 2 ^ F.emin) := by
    intro s hs
    refine ⟨s, F.emin, rfl, ?_, le_refl _, ?_⟩
    · rw [hs]; exact one_lt_pow₀ (by norm_num) (by omega)
    · rw [abs_mul, abs_of_pos hpos, ← Int.cast_abs, hs]
      simpa using zpow_lt_zpow_right₀ (by norm_num : (1 : ℚ) < 2) hx
  by_contra hne
  have hK : k + 2 ^ n ≠ 0 := fun h0 => hne (by rw [key, h0]; simp)
  generalize k + 2 ^ n = K at *
  rw [key] at hn
  rcases lt_or_gt_of_ne hK with hneg | hpos'
  · have := hn _ (hs (-1) (by simp))
    rw [zero_sub, abs_neg, ← sub_mul, abs_mul, abs_mul, abs_of_pos hpos] at this
    have := le_of_mul_le_mul_right this hpos
    have h2 : |K| ≤ |(-1) - K| := by exact_mod_cast this
    rw [abs_of_neg hneg, abs_of_nonneg (by omega)] at h2
    omega
  · have := hn _ (hs 1 (by simp))
    rw [zero_sub, abs_neg, ← sub_mul, abs_mul, abs_mul, abs_of_pos hpos] at this
    have := le_of_mul_le_mul_right this hpos
    have h2 : |K| ≤ |1 - K| := by exact_mod_cast this
    rw [abs_of_pos hpos', abs_of_nonpos (by omega)] at h2
    omega

theorem roundsTo_inFormat {F : Format} {q : ℚ} {x : F64} (h : F.RoundsTo q x) : InFormat F x := by
  rintro y rfl
  exact h.2.1

theorem s64_add_one {x : F64} (hx : InFormat binary64 x) :
    S64.add F64.add (.val x) (.val (F64.lit 1)) = .val (F64.add x (F64.lit 1)) := by
  have h1 : F64.lit 1 = .fin 1 := F64.lit_one
  rw [h1]
  cases x with
  | nan => rfl
  | inf s => rfl
  | fin q =>
    simp only [S64.add, S64.toF64, S64.withSign]
    rw [if_neg]
    rintro ⟨h0, hs⟩
    have := plus_one_no_underflow (F := binary64) (by decide) (by decide) (by decide) (hx q rfl)
      ((F64.roundsTo _ _).2 h0.symm)
    rw [if_pos this] at hs
    simp only [S64.sign, Bool.and_eq_true, decide_eq_true_eq] at hs
    linarith [hs.2]

theorem s32_add_one {x : F64} (hx : InFormat binary32 x) :
    S64.add F32.add (.val x) (.val (F32.rnd 1)) = .val (F32.add x (F32.rnd 1)) := by
  have h1 : F32.rnd 1 = .fin 1 := F32.one_eq
  rw [h1]
  cases x with
  | nan => rfl
  | inf s => rfl
  | fin q =>
    simp only [S64.add, S64.toF64, S64.withSign]
    rw [if_neg]
    rintro ⟨h0, hs⟩
    have := plus_one_no_underflow (F := binary32) (by decide) (by decide) (by decide) (hx q rfl)
      ((F32.roundsTo _ _).2 h0.symm)
    rw [if_pos this] at hs
    simp only [S64.sign, Bool.and_eq_true, decide_eq_true_eq] at hs
    linarith [hs.2]

theorem f64_add_inFormat (x : F64) : InFormat binary64 (F64.add x (F64.lit 1)) := by
  have h1 : F64.lit 1 = .fin 1 := F64.lit_one
  rw [h1]
  cases x with
  | nan => intro q h; cases h
  | inf s => intro q h; cases h
  | fin p => exact roundsTo_inFormat ((F64.roundsTo (p + 1) _).2 rfl)

theorem f32_add_inFormat (x : F64) : InFormat binary32 (F32.add x (F32.rnd 1)) := by
  have h1 : F32.rnd 1 = .fin 1 := F32.one_eq
  rw [h1]
  cases x with
  | nan => intro q h; cases h
  | inf s => intro q h; cases h
  | fin p => exact roundsTo_inFormat ((F32.roundsTo (p + 1) _).2 rfl)

/-! ## Histories -/

theorem runNum_mapV {N : Numeric S64} {N' : Numeric F64} {P : Platform} {I : F64 → Prop}
    (h1 : N.one = .val N'.one) (he : ∀ x, N.eq x N.zero = N'.eq x.toF64 N'.zero)
    (hz : N'.eq (.fin 0) N'.zero = true)
    (hadd : ∀ x, I x → N.addOne P (.val x) = (N'.addOne P x).map .val)
    (hI1 : I N'.one) (hIadd : ∀ x y, I x → N'.addOne P x = .ok y → I y) (h : List (NumOp S64))
    (hset : ∀ x c r, NumOp.set x c r ∈ h → I x.toF64) :
    runNum N P h = (runNum N' P (h.map unsignedOp)).map (SqMatrix.mapV .val) := by
  induction h using List.reverseRecOn with
  | nil => rfl
  | append_singleton h op ih =>
    have hset' : ∀ x c r, NumOp.set x c r ∈ h → I x.toF64 := fun x c r hm => hset x c r (by simp [hm])
    have ih := ih hset'
    unfold runNum at ih ⊢
    rw [List.map_append, Res.foldl_append, Res.foldl_append, ih]
    cases hr : Res.foldl (NumOp.call N' P) SqMatrix.new (h.map unsignedOp) with
    | err e => rfl
    | panic => rfl
    | ok m =>
      have hv := values_inv (N := N') (P := P) (I := I) (h.map unsignedOp) (by
        intro x c r hx
        obtain ⟨op', hm, ho⟩ := List.mem_map.1 hx
        cases op' with
        | set y c' r' =>
          simp only [unsignedOp, NumOp.set.injEq] at ho
          rw [← ho.1]
          exact hset' _ _ _ hm
        | zero c' r' => cases ho
        | increment c' r' => cases ho) hI1 hIadd hr
      simp only [Res.map, Res.bind, List.map_cons, List.map_nil, Res.foldl]
      have step : NumOp.call N P (m.mapV .val) op = (NumOp.call N' P m (unsignedOp op)).map (SqMatrix.mapV .val) := by
        cases op with
        | set x c r =>
          simp only [NumOp.call, unsignedOp, Res.map]
          rw [SqMatrix.setEntry_mapV (N := N') m (he x) _ c r]
          intro hf
          cases x with
          | negZero => rw [S64.toF64, hz] at hf; cases hf
          | val x => rfl
        | zero c r =>
          simp only [NumOp.call, unsignedOp, Res.map]
          rw [SqMatrix.zeroEntry_mapV]
        | increment c r =>
          simp only [NumOp.call, unsignedOp]
          refine SqMatrix.incrementEntry_mapV m h1 c r ?_
          intro t e ht her
          refine hadd e (hv.2 c r e ?_)
          unfold SqMatrix.at? get2
          rw [ht]
          exact her
      rw [step]
      cases NumOp.call N' P m (unsignedOp op) <;> rfl

theorem runNum_total {T : Type} {N : Numeric T} {P : Platform} (hN : ∀ x, ∃ y, N.addOne P x = .ok y)
    (h : List (NumOp T)) : ∃ m, runNum N P h = .ok m := by
  unfold runNum
  generalize SqMatrix.new = m
  induction h generalizing m with
  | nil => exact ⟨m, rfl⟩
  | cons op h ih =>
    have : ∃ m', NumOp.call N P m op = .ok m' := by
      cases op with
      | set x c r => exact ⟨_, rfl⟩
      | zero c r => exact ⟨_, rfl⟩
      | increment c r => exact SqMatrix.incrementEntry_isOk m c r hN
    obtain ⟨m', hm⟩ := this
    obtain ⟨m'', hm'⟩ := ih m'
    exact ⟨m'', by simp only [Res.foldl, hm]; exact hm'⟩

theorem f64_eq_zero (x : S64) : s64Numeric.eq x s64Numeric.zero = f64Numeric.eq x.toF64 f64Numeric.zero := rfl

theorem f64_zero_eq : f64Numeric.eq (.fin 0) f64Numeric.zero = true := by
  change F64.eq (.fin 0) (F64.lit 0) = true
  rw [F64.lit_zero]
  decide

theorem f32_zero_eq : f32Numeric.eq (.fin 0) f32Numeric.zero = true := by
  change F64.eq (.fin 0) (F32.rnd 0) = true
  rw [F32.zero_eq]
  decide

/-- **C116.** A matrix of `f64` never contains `-0.0`, whatever values (also `-0.0`) are set in whatever history, and it
answers everything, and prints, as the matrix of the model without negative zeros. -/
theorem C116_f64 (P : Platform) (h : List (NumOp S64))
    (hd : ∀ x c r, NumOp.set x c r ∈ h → InFormat binary64 x.toF64) :
    ∃ m m', runNum s64Numeric P h = .ok m ∧ runNum f64Numeric P (h.map unsignedOp) = .ok m' ∧
      SameEntries s64Fmt f64Fmt m m' := by
  have key := runNum_mapV (N := s64Numeric) (N' := f64Numeric) (P := P) (I := InFormat binary64) rfl
    (fun _ => rfl) f64_zero_eq (fun x hx => congrArg Res.ok (s64_add_one hx))
    (roundsTo_inFormat ((F64.roundsTo 1 _).2 rfl))
    (fun x y _ hy => Res.ok.inj hy ▸ f64_add_inFormat x) h hd
  obtain ⟨m', hm⟩ := runNum_total (N := f64Numeric) (P := P) (fun x => ⟨_, rfl⟩) (h.map unsignedOp)
  exact ⟨m'.mapV .val, m', by rw [key, hm]; rfl, hm, sameEntries_mapV s64_fmtHom m'⟩

/-- **C116.** The same for `f32`. -/
theorem C116_f32 (P : Platform) (h : List (NumOp S64))
    (hd : ∀ x c r, NumOp.set x c r ∈ h → InFormat binary32 x.toF64) :
    ∃ m m', runNum s32Numeric P h = .ok m ∧ runNum f32Numeric P (h.map unsignedOp) = .ok m' ∧
      SameEntries s32Fmt f32Fmt m m' := by
  have key := runNum_mapV (N := s32Numeric) (N' := f32Numeric) (P := P) (I := InFormat binary32) rfl
    (fun _ => rfl) f32_zero_eq (fun x hx => congrArg Res.ok (s32_add_one hx))
    (roundsTo_inFormat ((F32.roundsTo 1 _).2 rfl))
    (fun x y _ hy => Res.ok.inj hy ▸ f32_add_inFormat x) h hd
  obtain ⟨m', hm⟩ := runNum_total (N := f32Numeric) (P := P) (fun x => ⟨_, rfl⟩) (h.map unsignedOp)
  exact ⟨m'.mapV .val, m', by rw [key, hm]; rfl, hm, sameEntries_mapV s32_fmtHom m'⟩

/-- `-0.0` is not stored, also not over another entry; `-1.0` incremented is stored as `0.0`.  Had a negative zero been
stored, its text would be different. -/
example : okAnd (runNum s64Numeric exP [.set .negZero 0 0, .set (.val (.fin (-1))) 1 1, .increment 1 1,
      .set (.val (.fin 5)) 2 1, .set .negZero 2 1])
    (fun m => decide (m.getEntry s64Numeric 0 0 = .val (.fin 0)) && decide (m.getEntry s64Numeric 1 1 = .val (.fin 0)) &&
      decide (m.getEntry s64Numeric 2 1 = .val (.fin 5)) && decide (m.entryCount = 2) &&
      okAnd (m.toStringWithPrecision exP s64Fmt .id .id 1) (fun s => s.contains '5' && !s.contains '-')) &&
    decide (S64.negZero.chars 1 = ['-', '0', '.', '0']) && decide ((S64.val (.fin 0)).chars 1 = ['0', '.', '0']) := by
  decide +kernel

/-! ## Pooling, approximation and compression -/

/-- Positive sign bit. -/
def Plus (x : F64) : Prop := InFormat binary64 x ∧ (S64.val x).sign = false

theorem sign_fin (q : ℚ) : (S64.val (.fin q)).sign = decide (q < 0) := rfl

theorem plus_rnd {q : ℚ} (h : 0 ≤ q) : Plus (F64.rnd q) := by
  refine ⟨roundsTo_inFormat ((F64.roundsTo q _).2 rfl), ?_⟩
  unfold F64.rnd
  split
  · rw [sign_fin]
    simpa using F64.rndQ_nonneg h
  · simpa [S64.sign] using h

theorem plus_add {x : F64} (hx : Plus x) : Plus (F64.add x (F64.lit 1)) := by
  refine ⟨f64_add_inFormat x, ?_⟩
  have h1 : F64.lit 1 = .fin 1 := F64.lit_one
  rw [h1]
  cases x with
  | nan => rfl
  | inf s => exact hx.2
  | fin q =>
    have h0 : 0 ≤ q := by simpa [S64.sign] using hx.2
    exact (plus_rnd (q := q + 1) (by linarith)).2

theorem mul_plus {a b : F64} (ha : (S64.val a).sign = false) (hb : (S64.val b).sign = false) :
    S64.mul (.val a) (.val b) = .val (F64.mul a b) := by
  simp [S64.mul, ha, hb, S64.withSign, S64.toF64]

theorem plus_div {a b : F64} (ha : (S64.val a).sign = false) (hb : (S64.val b).sign = false) :
    (S64.val (F64.div a b)).sign = false := by
  cases a with
  | nan => rfl
  | inf s =>
    cases b with
    | nan => rfl
    | inf t => rfl
    | fin q =>
      change (s != decide (q < 0)) = false
      rw [sign_fin] at hb
      have ha : s = false := ha
      rw [hb, ha]
      rfl
  | fin p =>
    cases b with
    | nan => rfl
    | inf t => rfl
    | fin q =>
      have hp : 0 ≤ p := by simpa [S64.sign] using ha
      have hq : 0 ≤ q := by simpa [S64.sign] using hb
      simp only [F64.div]
      split
      · split
        · rfl
        · simpa [S64.sign] using hp
      · exact (plus_rnd (div_nonneg hp hq)).2

theorem div_plus {a b : F64} (ha : (S64.val a).sign = false) (hb : (S64.val b).sign = false) :
    S64.div (.val a) (.val b) = .val (F64.div a b) := by
  have h := plus_div ha hb
  unfold S64.div
  rw [ha, hb]
  simp only [toF64_val]
  cases hd : F64.div a b with
  | nan => rfl
  | fin q => simp [S64.withSign]
  | inf s =>
    rw [hd] at h
    change s = false at h
    rw [h]
    rfl

theorem sign_lit {q : ℚ} (h : 0 ≤ q) : (S64.val (F64.lit q)).sign = false := (plus_rnd h).2

theorem sign_ofNat (n : Nat) : (S64.val (F64.ofNat n)).sign = false := (plus_rnd (q := (n : ℚ)) (by positivity)).2

theorem clampThresholdS_eq (t : S64) : (clampThresholdS t).toF64 = clampThreshold t.toF64 := by
  unfold clampThresholdS clampThreshold
  rw [div_plus (sign_lit (by norm_num)) (sign_ofNat _)]
  have e1 : S64.lt (.val (F64.lit 1)) t = F64.lt (F64.lit 1) t.toF64 := rfl
  have e2 : S64.le t (.val (F64.lit 0)) = F64.le t.toF64 (F64.lit 0) := rfl
  rw [e1, e2]
  by_cases h1 : F64.lt (F64.lit 1) t.toF64 = true
  · rw [if_pos h1, if_pos h1]; rfl
  · rw [if_neg h1, if_neg h1]
    by_cases h2 : F64.le t.toF64 (F64.lit 0) = true
    · rw [if_pos h2, if_pos h2]; rfl
    · rw [if_neg h2, if_neg h2]

theorem withSign_toF64 (n : Bool) (x : F64) : (S64.withSign n x).toF64 = x := by
  unfold S64.withSign
  split
  · rename_i h; exact h.1.symm
  · rfl

theorem sub_toF64 (a b : S64) : (S64.sub a b).toF64 = F64.sub a.toF64 b.toF64 := by
  have hn : (S64.neg b).toF64 = F64.neg b.toF64 := by
    cases b with
    | negZero => simp [S64.neg, S64.toF64, F64.neg]
    | val x =>
      by_cases h : x = .fin 0
      · rw [h]; simp [S64.neg, S64.toF64, F64.neg]
      · simp only [S64.neg, if_neg h, S64.toF64]
  unfold S64.sub F64.sub S64.add
  rw [hn]
  split
  · rename_i p q h1 h2
    rw [withSign_toF64, h1, h2]
  · rfl

theorem compressThresholdS_eq (l : Nat) : (Graph.compressThresholdS l).toF64 = Graph.compressThreshold l := by
  unfold Graph.compressThresholdS Graph.compressThreshold
  rw [sub_toF64, div_plus (sign_ofNat _) (sign_lit (by norm_num))]
  rfl

theorem foldl_incs {T : Type} (N : Numeric T) (P : Platform) (b : Nat) (l : List (Nat × Nat)) :
    Res.foldl (fun m (e : Nat × Nat) => m.incrementEntry N P (e.1 / b) (e.2 / b)) SqMatrix.new l =
      runNum N P (l.map (fun e => .increment (e.1 / b) (e.2 / b))) := by
  unfold runNum
  generalize SqMatrix.new = m
  induction l generalizing m with
  | nil => rfl
  | cons e l ih => simp only [Res.foldl, List.map_cons, NumOp.call, ih]

theorem multiplyS_mapV {m : SqMatrix F64} (h : ∀ c r x, m.at? c r = some x → (S64.val x).sign = false) {x : F64}
    (hx : (S64.val x).sign = false) :
    (m.mapV .val).multiplyEntriesByS (.val x) = (m.multiplyEntriesBy x).mapV .val := by
  unfold SqMatrix.multiplyEntriesByS SqMatrix.multiplyEntriesBy SqMatrix.mapV
  simp only [SqMatrix.mk.injEq, true_and, and_true]
  apply HMap.ext_entries
  simp only [HMap.mapValues, List.map_map, Function.comp_def]
  refine List.map_congr_left fun ct hct => Prod.ext rfl (HMap.ext_entries ?_)
  simp only [Function.comp_def]
  refine List.map_congr_left fun re hre => Prod.ext rfl ?_
  refine mul_plus (h ct.1 re.1 re.2 ?_) hx
  unfold SqMatrix.at? get2
  rw [HMap.mem_entries_iff.1 hct]
  exact HMap.mem_entries_iff.1 hre

theorem poolS_mapV (P : Platform) (o : HashOrder) (g : Graph) (b : Nat) :
    g.findAvgPoolMatrixS P o b = (g.findAvgPoolMatrix P o b).map (SqMatrix.mapV .val) := by
  unfold Graph.findAvgPoolMatrixS Graph.findAvgPoolMatrix
  split
  · rfl
  · unfold Graph.countBlocksS Graph.countBlocks
    simp only [foldl_incs]
    generalize Graph.clampBlockDimension g.vertexCount b = b'
    generalize g.adjacencyMatrix.items o = l
    have key := runNum_mapV (N := s64Numeric) (N' := f64Numeric) (P := P) (I := InFormat binary64) rfl
      (fun _ => rfl) f64_zero_eq (fun x hx => congrArg Res.ok (s64_add_one hx))
      (roundsTo_inFormat ((F64.roundsTo 1 _).2 rfl))
      (fun x y _ hy => Res.ok.inj hy ▸ f64_add_inFormat x)
      (l.map (fun e => NumOp.increment (e.1 / b') (e.2 / b'))) (by simp)
    rw [List.map_map] at key
    change runNum s64Numeric P _ = (runNum f64Numeric P (l.map (fun e => NumOp.increment (e.1 / b') (e.2 / b')))).map _ at key
    rw [key]
    obtain ⟨m, hm⟩ := runNum_total (N := f64Numeric) (P := P) (fun x => ⟨_, rfl⟩)
      (l.map (fun e => NumOp.increment (e.1 / b') (e.2 / b')))
    have hv := values_inv (N := f64Numeric) (P := P) (I := Plus) _ (by simp) (plus_rnd (q := 1) (by norm_num))
      (fun x y hx hy => Res.ok.inj hy ▸ plus_add hx) hm
    rw [hm]
    simp only [Res.map, Res.bind_ok]
    cases P.u64Mul b' b' with
    | err e => rfl
    | panic => rfl
    | ok sq =>
      simp only [Res.bind_ok]
      rw [div_plus (sign_lit (by norm_num)) (sign_ofNat sq), SqMatrix.setMinimumDimension_mapV, multiplyS_mapV]
      · intro c r x hx
        rw [SqMatrix.setMinimumDimension_eq] at hx
        exact (hv.2 c r x hx).2
      · exact plus_div (sign_lit (by norm_num)) (sign_ofNat sq)

/-- **C116.** The pooled matrix: the same outcome, and no negative zero in it. -/
theorem C116_pooling (P : Platform) (o : HashOrder) (g : Graph) (b : Nat) :
    ResRel (SameEntries s64Fmt f64Fmt) (g.findAvgPoolMatrixS P o b) (g.findAvgPoolMatrix P o b) := by
  rw [poolS_mapV]
  cases g.findAvgPoolMatrix P o b with
  | ok m => exact sameEntries_mapV s64_fmtHom m
  | err e => rfl
  | panic => trivial

/-- **C116.** `approximate` gives the same graph, also when its threshold is `-0.0`. -/
theorem C116_approximate (P : Platform) (o₁ o₂ : HashOrder) :
    ∃ o₂', ∀ (g : Graph) (b : Nat) (t : S64), g.approximateS P o₁ o₂ b t = g.approximate P o₁ o₂' b t.toF64 := by
  refine ⟨o₂.pull S64.val S64.toF64 toF64_val, fun g b t => ?_⟩
  unfold Graph.approximateS Graph.approximate
  split
  · rfl
  · simp only [poolS_mapV]
    cases g.findAvgPoolMatrix P o₁ (if b > g.vertexCount then g.vertexCount else b) with
    | err e => rfl
    | panic => rfl
    | ok m =>
      simp only [Res.map, Res.bind_ok]
      rw [SqMatrix.items_mapV toF64_val, List.foldl_map]
      simp only [S64.le, clampThresholdS_eq, toF64_val]

/-- **C116.** `compress` gives the same compressed graph. -/
theorem C116_compress (P : Platform) (o₁ o₂ : HashOrder) :
    ∃ o₂', ∀ (g : Graph) (l : Nat), g.compressS P o₁ o₂ l = g.compress P o₁ o₂' l := by
  refine ⟨o₂.pull S64.val S64.toF64 toF64_val, fun g l => ?_⟩
  unfold Graph.compressS Graph.compress
  simp only [poolS_mapV]
  cases g.findAvgPoolMatrix P o₁ COMPRESSION_BLOCK_DIMENSION with
  | err e => rfl
  | panic => rfl
  | ok m =>
    simp only [Res.map, Res.bind_ok]
    rw [SqMatrix.items_mapV toF64_val]
    generalize CGraph.builderNew g.isUndirected g.vertexCount (clampCompressionLevel l) = c
    generalize SqMatrix.items _ m = its
    induction its generalizing c with
    | nil => rfl
    | cons x its ih =>
      have : Graph.compressBlockS P g (Graph.compressThresholdS (clampCompressionLevel l)) c (.val x.1, x.2) =
          Graph.compressBlock P g (Graph.compressThreshold (clampCompressionLevel l)) c x := by
        unfold Graph.compressBlockS Graph.compressBlock
        simp only [S64.le, compressThresholdS_eq, toF64_val]
      simp only [List.map_cons, Res.foldl, this, ih]

/-- Pooling, approximation with threshold `-0.0` and compression on a small graph. -/
example : okAnd (exD.findAvgPoolMatrixS exP .id 2) (fun m => decide (0 < m.entryCount)) &&
    okAnd (exD.approximateS exP .id .id 2 .negZero) (fun g => decide (0 < g.edgeCount)) &&
    okAnd (exD.approximateS exP .id .id 2 (.val (F64.lit 1))) (fun g => decide (g.edgeCount = 0)) &&
    okAnd (exD.compressS exP .id .id 1) (fun c => decide (0 < c.edgeCount)) := by
  decide +kernel

end Verif.Props
