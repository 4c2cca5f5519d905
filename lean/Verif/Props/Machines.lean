import Verif.Spec.MachinesC
import Verif.Lemmas.Machines
import Verif.Props.Py
import Verif.Props.Compress
import Verif.Props.TextPanic
import Verif.Props.F32

/-!
# C125: machines agree
-/

namespace Verif.Props
open Verif Spec

/-- A machine that is larger than two given ones. -/
def joined (P P' : Platform) : Platform :=
  { usizeMax := max P.usizeMax P'.usizeMax, alloc := fun n => P.alloc n || P'.alloc n, profile := .release, fmtMax := max P.fmtMax P'.fmtMax }

theorem larger_left (P P' : Platform) : Larger P (joined P P') where
  usize := le_max_left _ _
  alloc n h := by simp [joined, h]
  fmt := le_max_left _ _
  profile := by cases h : P.profile <;> simp [joined]

theorem larger_right (P P' : Platform) : Larger P' (joined P P') where
  usize := le_max_right _ _
  alloc n h := by simp [joined, h]
  fmt := le_max_right _ _
  profile := by cases h : P'.profile <;> simp [joined]

/-- If a third machine delivers what the two deliver, the two agree. -/
theorem agree_of {α : Type} {r r' s : Res α} (h : Carries r s) (h' : Carries r' s) : Consistent r r' := by
  intro x y hx hy
  have := (h x hx).symm.trans (h' y hy)
  cases this
  rfl

/-- **C125.** What a machine computes without an error or a panic, a larger machine computes as well: files are written and read in the
same way, pictures are the same, and so are the results of compressing, decompressing, pooling and approximating. -/
theorem C125_larger {P P' : Platform} (L : Larger P P') :
    (∀ g o, Carries (g.toBytes P o) (Graph.toBytes P' o g)) ∧
    (∀ b, Carries (Graph.tryFrom P b) (Graph.tryFrom P' b)) ∧
    (∀ g, Carries (g.matrixString P) (Graph.matrixString P' g)) ∧
    (∀ c o, Carries (c.toBytes P o) (CGraph.toBytes P' o c)) ∧
    (∀ b, Carries (CGraph.tryFrom P b) (CGraph.tryFrom P' b)) ∧
    (∀ c o, Carries (c.decompress P o) (CGraph.decompress P' o c)) ∧
    (∀ g o k, Carries (g.findAvgPoolMatrix P o k) (Graph.findAvgPoolMatrix P' o g k)) ∧
    (∀ g o₁ o₂ k t, Carries (g.approximate P o₁ o₂ k t) (Graph.approximate P' o₁ o₂ g k t)) ∧
    (∀ g o₁ o₂ l, Carries (g.compress P o₁ o₂ l) (Graph.compress P' o₁ o₂ g l)) ∧
    ∀ m : AdjMatrix, Carries (m.tryToString P) (m.tryToString P') :=
  ⟨fun g o => L.graph_bytes o g, L.graph_decode, fun g => L.matrixText _, fun c o => L.compressed_bytes o c, L.compressed_decode,
    fun c o => L.decompress o c, fun g o k => L.pool o g k, fun g o₁ o₂ k t => L.approximate o₁ o₂ g k t,
    fun g o₁ o₂ l => L.compress o₁ o₂ g l, L.matrixText⟩

/-- Two builds of the library: 32 bits with overflow checks, and 64 bits without. -/
def small32 : Platform := { usizeMax := 2 ^ 32 - 1, alloc := fun n => n < 1000, profile := .debug, fmtMax := 65535 }
def big64 : Platform := { usizeMax := 2 ^ 64 - 1, alloc := fun _ => true, profile := .release, fmtMax := 2 ^ 64 - 1 }

theorem small_big : Larger small32 big64 := ⟨by decide, fun _ _ => rfl, by decide, .inl rfl⟩

example : okAnd (exU.toBytes small32 .rev) fun b => okAnd (Graph.tryFrom small32 b) fun g => g.edgeCount == exU.edgeCount := by
  decide +kernel
example : okAnd (exU.matrixString small32) fun s => okAnd (exU.compress small32 .id .rev 1) fun c => okAnd (c.toBytes small32 .id) fun b =>
    okAnd (CGraph.tryFrom small32 b) fun c' => okAnd (c'.decompress small32 .id) fun g => g.edgeCount == exU.edgeCount && s.length > 3 := by
  decide +kernel

/-- **C125.** Any two machines, of whatever sizes and profiles, never give two different answers. -/
theorem C125_agree (P P' : Platform) :
    (∀ g o, Consistent (g.toBytes P o) (Graph.toBytes P' o g)) ∧
    (∀ b, Consistent (Graph.tryFrom P b) (Graph.tryFrom P' b)) ∧
    (∀ g, Consistent (g.matrixString P) (Graph.matrixString P' g)) ∧
    (∀ c o, Consistent (c.toBytes P o) (CGraph.toBytes P' o c)) ∧
    (∀ b, Consistent (CGraph.tryFrom P b) (CGraph.tryFrom P' b)) ∧
    (∀ c o, Consistent (c.decompress P o) (CGraph.decompress P' o c)) ∧
    (∀ g o k, Consistent (g.findAvgPoolMatrix P o k) (Graph.findAvgPoolMatrix P' o g k)) ∧
    (∀ g o₁ o₂ k t, Consistent (g.approximate P o₁ o₂ k t) (Graph.approximate P' o₁ o₂ g k t)) ∧
    (∀ g o₁ o₂ l, Consistent (g.compress P o₁ o₂ l) (Graph.compress P' o₁ o₂ g l)) ∧
    ∀ m : AdjMatrix, Consistent (m.tryToString P) (m.tryToString P') := by
  obtain ⟨a1, a2, a3, a4, a5, a6, a7, a8, a9, a10⟩ := C125_larger (larger_left P P')
  obtain ⟨b1, b2, b3, b4, b5, b6, b7, b8, b9, b10⟩ := C125_larger (larger_right P P')
  exact ⟨fun g o => agree_of (a1 g o) (b1 g o), fun b => agree_of (a2 b) (b2 b), fun g => agree_of (a3 g) (b3 g),
    fun g o => agree_of (a4 g o) (b4 g o), fun b => agree_of (a5 b) (b5 b), fun g o => agree_of (a6 g o) (b6 g o),
    fun g o k => agree_of (a7 g o k) (b7 g o k), fun g o₁ o₂ k t => agree_of (a8 g o₁ o₂ k t) (b8 g o₁ o₂ k t),
    fun g o₁ o₂ l => agree_of (a9 g o₁ o₂ l) (b9 g o₁ o₂ l), fun m => agree_of (a10 m) (b10 m)⟩

/-- A release build for 32 bits and a debug build for 64 bits: neither is larger than the other, and they agree. -/
example : ¬ Larger { small32 with profile := .release } { big64 with profile := .debug } ∧
    ¬ Larger { big64 with profile := .debug } { small32 with profile := .release } ∧
    okAnd (exU.findAvgPoolMatrix { small32 with profile := .release } .id 2) (fun m =>
      okAnd (exU.findAvgPoolMatrix { big64 with profile := .debug } .id 2) fun m' => m.entryCount == m'.entryCount && m.entryCount > 0) := by
  refine ⟨fun h => ?_, fun h => absurd h.usize (by decide), by decide +kernel⟩
  rcases h.profile with h | h <;> cases h

/-- **C125.** A file that both machines can hold is read as the same graph by both, or refused by both as malformed. -/
theorem C125_decode {P P' : Platform} {b : Bytes} (h : b.length ≤ P.usizeMax) (h' : b.length ≤ P'.usizeMax) :
    ((∃ g, Graph.tryFrom P b = .ok g ∧ Graph.tryFrom P' b = .ok g) ∨
      (∃ s s', Graph.tryFrom P b = .err (.InvalidFormat s) ∧ Graph.tryFrom P' b = .err (.InvalidFormat s'))) ∧
    ((∃ c, CGraph.tryFrom P b = .ok c ∧ CGraph.tryFrom P' b = .ok c) ∨
      (∃ s s', CGraph.tryFrom P b = .err (.InvalidFormat s) ∧ CGraph.tryFrom P' b = .err (.InvalidFormat s'))) := by
  obtain ⟨-, ag, -, -, ac, -⟩ := C125_agree P P'
  constructor
  · rcases C16_decode_total P b h with ⟨g, hg⟩ | ⟨s, hs⟩
    · obtain ⟨g', hg'⟩ := (C18_accepts_iff h').2 ((C18_accepts_iff h).1 ⟨g, hg⟩)
      cases ag b g g' hg hg'
      exact .inl ⟨g, hg, hg'⟩
    · rcases C16_decode_total P' b h' with ⟨g, hg⟩ | ⟨s', hs'⟩
      · obtain ⟨g', hg'⟩ := (C18_accepts_iff h).2 ((C18_accepts_iff h').1 ⟨g, hg⟩)
        rw [hs] at hg'; cases hg'
      · exact .inr ⟨s, s', hs, hs'⟩
  · rcases C33_decode_total P b h with ⟨g, hg⟩ | ⟨s, hs⟩
    · obtain ⟨g', hg'⟩ := (C66_accepts_iff h').2 ((C66_accepts_iff h).1 ⟨g, hg⟩)
      cases ac b g g' hg hg'
      exact .inl ⟨g, hg, hg'⟩
    · rcases C33_decode_total P' b h' with ⟨g, hg⟩ | ⟨s', hs'⟩
      · obtain ⟨g', hg'⟩ := (C66_accepts_iff h).2 ((C66_accepts_iff h').1 ⟨g, hg⟩)
        rw [hs] at hg'; cases hg'
      · exact .inr ⟨s, s', hs, hs'⟩

example : exF.length ≤ small32.usizeMax ∧ exF.length ≤ big64.usizeMax ∧ okAnd (CGraph.tryFrom small32 exF) (fun c => c.vertexCount == 10) := by
  decide +kernel

/-- **C125.** Compressing and decompressing do not depend on the machine at all, and with blocks below `2^32` neither do pooling and
approximating. -/
theorem C125_compute (P P' : Platform) :
    (∀ g, GReach g → ∀ o₁ o₂ l, ∃ c, g.compress P o₁ o₂ l = .ok c ∧ g.compress P' o₁ o₂ l = .ok c) ∧
    (∀ c, CReach c → ∀ o, ∃ g, c.decompress P o = .ok g ∧ c.decompress P' o = .ok g) ∧
    ∀ g, GReach g → ∀ k, effBlock g.vertexCount k < 2 ^ 32 → ∀ o₁ o₂ t,
      (∃ m, g.findAvgPoolMatrix P o₁ k = .ok m ∧ g.findAvgPoolMatrix P' o₁ k = .ok m) ∧
      ∃ a, g.approximate P o₁ o₂ k t = .ok a ∧ g.approximate P' o₁ o₂ k t = .ok a := by
  obtain ⟨-, -, -, -, -, ad, ap, aa, ac, -⟩ := C125_agree P P'
  refine ⟨fun g hg o₁ o₂ l => ?_, fun c hc o => ?_, fun g hg k hk o₁ o₂ t => ⟨?_, ?_⟩⟩
  · obtain ⟨c, hc, -⟩ := C46_compress_never_fails hg P o₁ o₂ l
    obtain ⟨c', hc', -⟩ := C46_compress_never_fails hg P' o₁ o₂ l
    cases ac g o₁ o₂ l c c' hc hc'
    exact ⟨c, hc, hc'⟩
  · obtain ⟨g, hg, -⟩ := CGraph.decompress_spec hc.ok P o
    obtain ⟨g', hg', -⟩ := CGraph.decompress_spec hc.ok P' o
    cases ad c o g g' hg hg'
    exact ⟨g, hg, hg'⟩
  · obtain ⟨⟨m, hm, -⟩, -⟩ := (C46_no_overflow_partial hg P o₁ o₂ k t).1 hk
    obtain ⟨⟨m', hm', -⟩, -⟩ := (C46_no_overflow_partial hg P' o₁ o₂ k t).1 hk
    cases ap g o₁ k m m' hm hm'
    exact ⟨m, hm, hm'⟩
  · obtain ⟨-, m, hm⟩ := (C46_no_overflow_partial hg P o₁ o₂ k t).1 hk
    obtain ⟨-, m', hm'⟩ := (C46_no_overflow_partial hg P' o₁ o₂ k t).1 hk
    cases aa g o₁ o₂ k t m m' hm hm'
    exact ⟨m, hm, hm'⟩

example : GReach exC ∧ effBlock exC.vertexCount 3 < 2 ^ 32 ∧ okAnd (exC.approximate small32 .id .rev 3 (.fin (1 / 9))) (fun a => a.edgeCount > 0) :=
  ⟨exC_reach, by decide +kernel, by decide +kernel⟩

/-- **C125.** Histories of calls on a numeric matrix: any entry type for which adding one carries over. -/
theorem runNum_carries {T : Type} (N : Numeric T) {P P' : Platform} (hN : ∀ x, Carries (N.addOne P x) (N.addOne P' x)) (h : List (NumOp T)) :
    Carries (runNum N P h) (runNum N P' h) := by
  unfold runNum
  refine Carries.foldl _ (fun m op _ => ?_) _
  cases op with
  | set x c r => exact .refl _
  | zero c r => exact .refl _
  | increment c r =>
    change Carries (m.incrementEntry N P c r) (m.incrementEntry N P' c r)
    unfold SqMatrix.incrementEntry
    split
    · exact .refl _
    · split
      · exact .refl _
      · dsimp only
        split
        · exact .refl _
        · exact Carries.bind (hN _) fun _ _ => .refl _

/-- **C125.** Matrices of integers and floating-point numbers built by the same calls are the same on a larger machine. -/
theorem C125_matrices {P P' : Platform} (L : Larger P P') :
    (∀ max h, Carries (runNum (uintFmt max).toNumeric P h) (runNum (uintFmt max).toNumeric P' h)) ∧
    (∀ max d h, Carries (runNum (sintFmt max d).toNumeric P h) (runNum (sintFmt max d).toNumeric P' h)) ∧
    (∀ h, runNum f64Numeric P h = runNum f64Numeric P' h) ∧ ∀ h, runNum f32Numeric P h = runNum f32Numeric P' h := by
  refine ⟨fun max h => runNum_carries _ (fun x => L.wrapTo _ _) h, fun max d h => runNum_carries _ (fun x => ?_) h, fun _ => rfl, fun _ => rfl⟩
  change Carries (if x + 1 ≤ (max : Int) then _ else _) (if x + 1 ≤ (max : Int) then _ else _)
  refine Carries.ite (fun _ => .refl _) fun _ => ?_
  rcases L.profile with h | h
  · rw [h]; exact .panic _
  · rw [h]; exact .refl _

/-- A matrix of bytes in which 255 is incremented. -/
example : okAnd (runNum (uintFmt 255).toNumeric small32 [.set 254 0 1, .increment 0 1, .increment 3 2]) (fun m => m.dimension == 4) ∧
    isPanic (runNum (uintFmt 255).toNumeric small32 [.set 255 0 1, .increment 0 1]) = true ∧
    okAnd (runNum (uintFmt 255).toNumeric big64 [.set 255 0 1, .increment 0 1]) (fun m => m.dimension == 2) := by
  decide +kernel

/-! ### Pictures of numeric matrices -/

theorem digitsOf_f32 (hl : F64 × F64) : 1 ≤ SqMatrix.digitsOf f32Fmt hl ∧ SqMatrix.digitsOf f32Fmt hl ≤ 40 := by
  have : SqMatrix.digitsOf f32Fmt hl = SqMatrix.digitsOf f64Fmt hl := by
    have h : f32Fmt.digitCount = f64Fmt.digitCount := by unfold f32Fmt f64Fmt; rfl
    unfold SqMatrix.digitsOf
    rw [h]
  rw [this]
  exact SqMatrix.digitsOf_f64 hl

theorem numeral_digits {z : Int} (h : |z| < 10 ^ 39) : (numeral z).length ≤ 40 := by
  have h1 : (Nat.toDigits 10 z.natAbs).length ≤ 39 :=
    (Nat.length_toDigits_le_iff (by norm_num) (by norm_num)).2 (by rw [Int.abs_eq_natAbs] at h; exact_mod_cast h)
  unfold numeral
  split
  · rw [List.length_cons]; omega
  · omega

theorem runNum_wf {T : Type} {N : Numeric T} {P : Platform} {h : List (NumOp T)} {m : SqMatrix T} (hm : runNum N P h = .ok m) : m.WF := by
  have := runNum_rel N P h
  rw [hm] at this
  cases ha : ANum.run N P h with
  | ok a => rw [ha] at this; exact this.wf
  | err _ => rw [ha] at this; exact this.elim
  | panic => rw [ha] at this; exact this.elim

theorem wide_cell {T : Type} {F : NumFmt T} {P : Platform} {d : Nat} {hl : T × T} (h : Wide P d) (hd : SqMatrix.digitsOf F hl ≤ 40) :
    P.profile = .debug ∨ SqMatrix.cellWidth F hl d + 2 ≤ P.usizeMax := by
  refine h.imp id fun h => ?_
  unfold SqMatrix.cellWidth
  split <;> omega

/-- **C125, pictures of floating-point matrices.** -/
theorem text_floats {P P' : Platform} (L : Larger P P') {m : SqMatrix F64} (hw : m.WF) {d : Nat} (hd : Wide P d) (o₁ o₂ : HashOrder) :
    Carries (m.toStringWithPrecision P f64Fmt o₁ o₂ d) (m.toStringWithPrecision P' f64Fmt o₁ o₂ d) ∧
    Carries (m.toStringWithPrecision P f32Fmt o₁ o₂ d) (m.toStringWithPrecision P' f32Fmt o₁ o₂ d) :=
  ⟨L.text _ _ _ hw _ (SqMatrix.digitsOf_f64 _).1 (wide_cell hd (SqMatrix.digitsOf_f64 _).2), L.text _ _ _ hw _ (digitsOf_f32 _).1 (wide_cell hd (digitsOf_f32 _).2)⟩

theorem text_uint {P P' : Platform} (L : Larger P P') {max : Nat} (hmax : max < 2 ^ 128) {m : SqMatrix Nat} (hw : m.WF)
    (hb : ∀ c r, m.getEntry (uintFmt max).toNumeric c r ≤ max) {d : Nat} (hd : Wide P d) (o₁ o₂ : HashOrder) :
    Carries (m.toStringWithPrecision P (uintFmt max) o₁ o₂ d) (m.toStringWithPrecision P' (uintFmt max) o₁ o₂ d) := by
  have hb' : ∀ c r v, m.at? c r = some v → v ≤ max := fun c r v h => by
    have := hb c r; rw [SqMatrix.getEntry_eq, h] at this; exact this
  refine L.text _ _ _ hw _ ?_ (wide_cell hd ((uint_digits_le hb' o₁).trans (numeral_digits ?_)))
  · unfold SqMatrix.digitsOf
    rw [(uintFmt_isInt max).digitCount]
    exact (numeral_length_pos _).trans (le_max_left _ _)
  · rw [abs_of_nonneg (by omega)]
    have : (max : Int) < 2 ^ 128 := by exact_mod_cast hmax
    exact lt_trans this (by norm_num)

theorem text_sint {P P' : Platform} (L : Larger P P') {max : Nat} (hmax : max < 2 ^ 127) {dec : Bool} {m : SqMatrix Int} (hw : m.WF)
    (hb : ∀ c r, InRange max (m.getEntry (sintFmt max dec).toNumeric c r)) {d : Nat} (hd : Wide P d) (o₁ o₂ : HashOrder) :
    Carries (m.toStringWithPrecision P (sintFmt max dec) o₁ o₂ d) (m.toStringWithPrecision P' (sintFmt max dec) o₁ o₂ d) := by
  have hb' : ∀ c r v, m.at? c r = some v → InRange max v := fun c r v h => by
    have := hb c r; rw [SqMatrix.getEntry_eq, h] at this; exact this
  refine L.text _ _ _ hw _ ?_ (wide_cell hd ((sint_digits_le hb' o₁).trans (numeral_digits ?_)))
  · unfold SqMatrix.digitsOf
    rw [(sintFmt_isInt max dec).digitCount]
    exact (numeral_length_pos _).trans (le_max_left _ _)
  · have : (max : Int) < 2 ^ 127 := by exact_mod_cast hmax
    rw [abs_of_neg (by omega)]
    have h2 : (2 : Int) ^ 127 < 10 ^ 39 := by norm_num
    omega

/-- The full claim about pictures: at every precision that is a number of the smaller machine. -/
def C125_full : Prop := ∀ P P' : Platform, Larger P P' → 65535 ≤ P.usizeMax → ∀ (g : Graph), GReach g → ∀ (o₁ o₂ : HashOrder) (b d : Nat) (m : SqMatrix F64),
  g.findAvgPoolMatrix P o₁ b = .ok m → d ≤ P.usizeMax →
  Carries (m.toStringWithPrecision P f64Fmt o₁ o₂ d) (m.toStringWithPrecision P' f64Fmt o₁ o₂ d)

/-- A 32-bit machine with plenty of memory, without overflow checks. -/
def room32 : Platform := { usizeMax := 2 ^ 32 - 1, alloc := fun _ => true, profile := .release, fmtMax := 2 ^ 32 - 1 }

theorem room_big : Larger room32 big64 := ⟨by decide, fun _ _ => rfl, by decide, .inr rfl⟩

/-- One vertex, no edge. -/
def oneG : Graph := Graph.newUndirected.addVertex 0 none

/-- **C125.** It fails when `1 + decimal_digits` is `2^32` on a 32-bit machine: the picture has 43 characters there, and more than `2^32`
on a 64-bit machine. -/
theorem C125_full_false : ¬ C125_full := by
  intro h
  obtain ⟨m, hm, hp⟩ := okAnd_elim (show okAnd (oneG.findAvgPoolMatrix room32 .id 1) (fun m => decide (m.dimension = 1) &&
    decide (m.edgesTable.entries.length = 0) && okAnd (m.toStringWithPrecision room32 f64Fmt .id .id (2 ^ 32 - 1)) (fun s => s.length < 100)) = true
    by decide +kernel)
  simp only [Bool.and_eq_true, decide_eq_true_eq] at hp
  obtain ⟨⟨h1, h2⟩, h3⟩ := hp
  obtain ⟨s, hs, hl⟩ := okAnd_elim h3
  simp only [decide_eq_true_eq] at hl
  have hg : GReach oneG := .addVertex _ _ .newUndirected
  have := h room32 big64 room_big (by decide) oneG hg .id .id 1 (2 ^ 32 - 1) m hm (by decide) s hs
  obtain ⟨hd1, hd2⟩ := SqMatrix.digitsOf_f64 (SqMatrix.extremes f64Fmt .id m)
  have hcw : SqMatrix.cellWidth f64Fmt (SqMatrix.extremes f64Fmt .id m) (2 ^ 32 - 1) =
    SqMatrix.digitsOf f64Fmt (SqMatrix.extremes f64Fmt .id m) + (1 + (2 ^ 32 - 1)) := rfl
  have hnone : ∀ c r, m.at? c r = none := by
    intro c r
    have : m.edgesTable.entries = [] := List.length_eq_zero_iff.1 h2
    simp [SqMatrix.at?, get2, HMap.get?, this, HMap.lookup]
  rw [SqMatrix.toString_ok (text := fun _ => []) .id .id (pooled_entries hg hm).1 (by omega) hd1 rfl
    (by rw [h1, hcw]; change _ ≤ 2 ^ 64 - 1; omega) (fun c r v hv => by rw [hnone] at hv; cases hv)] at this
  rw [if_pos (show big64.alloc _ = true from rfl)] at this
  cases this
  have hgl := grid_length m.dimension (SqMatrix.cellWidth f64Fmt (SqMatrix.extremes f64Fmt .id m) (2 ^ 32 - 1)) (by omega)
    (fun c r => match m.at? c r with
      | some v => []
      | none => SqMatrix.zeroCell (SqMatrix.cellWidth f64Fmt (SqMatrix.extremes f64Fmt .id m) (2 ^ 32 - 1))
        (SqMatrix.digitsOf f64Fmt (SqMatrix.extremes f64Fmt .id m) - 1))
    (fun c _ r _ => by simp only [hnone, SqMatrix.zeroCell_length])
  rw [hcw] at hgl
  simp only [h1, hnone] at hgl hl
  rw [hcw] at hl
  omega

/-- **C125, pictures of numeric matrices**, for precisions that leave room for the width of a cell (or builds with overflow checks).
Floating-point matrices are those made by pooling or by any history of calls; integers are up to 128 bits. -/
theorem C125_partial {P P' : Platform} (L : Larger P P') {d : Nat} (hd : Wide P d) (o₁ o₂ : HashOrder) :
    (∀ g, GReach g → ∀ Q o b m, g.findAvgPoolMatrix Q o b = .ok m →
      Carries (m.toStringWithPrecision P f64Fmt o₁ o₂ d) (m.toStringWithPrecision P' f64Fmt o₁ o₂ d)) ∧
    (∀ Q h m, runNum f64Numeric Q h = .ok m →
      Carries (m.toStringWithPrecision P f64Fmt o₁ o₂ d) (m.toStringWithPrecision P' f64Fmt o₁ o₂ d)) ∧
    (∀ Q h m, runNum f32Numeric Q h = .ok m →
      Carries (m.toStringWithPrecision P f32Fmt o₁ o₂ d) (m.toStringWithPrecision P' f32Fmt o₁ o₂ d)) ∧
    (∀ max < 2 ^ 128, ∀ Q h m, runNum (uintFmt max).toNumeric Q h = .ok m → (∀ c r, m.getEntry (uintFmt max).toNumeric c r ≤ max) →
      Carries (m.toStringWithPrecision P (uintFmt max) o₁ o₂ d) (m.toStringWithPrecision P' (uintFmt max) o₁ o₂ d)) ∧
    (∀ max < 2 ^ 127, ∀ dec Q h m, runNum (sintFmt max dec).toNumeric Q h = .ok m →
      (∀ c r, -(max : Int) - 1 ≤ m.getEntry (sintFmt max dec).toNumeric c r ∧ m.getEntry (sintFmt max dec).toNumeric c r ≤ max) →
      Carries (m.toStringWithPrecision P (sintFmt max dec) o₁ o₂ d) (m.toStringWithPrecision P' (sintFmt max dec) o₁ o₂ d)) ∧
    (Wide P 0 → ∀ c, CReach c → Carries (c.matrixString P o₁ o₂) (c.matrixString P' o₁ o₂)) := by
  refine ⟨fun g hg Q o b m hm => (text_floats L (pooled_entries hg hm).1 hd _ _).1, fun Q h m hm => (text_floats L (runNum_wf hm) hd _ _).1,
    fun Q h m hm => (text_floats L (runNum_wf hm) hd _ _).2, fun max hmax Q h m hm hb => text_uint L hmax (runNum_wf hm) hb hd _ _,
    fun max hmax dec Q h m hm hb => text_sint L hmax (runNum_wf hm) hb hd _ _, fun h0 c hc => ?_⟩
  refine text_uint L (max := U64_MAX) (by decide) hc.ok.wf (fun x y => ?_) h0 _ _
  rw [SqMatrix.getEntry_eq]
  cases hat : c.adjacencyMatrix.at? x y with
  | none => exact Nat.zero_le _
  | some v =>
    have := (hc.ok.word x y v hat).2
    change v ≤ U64_MAX
    unfold U64_MAX; omega

example : Wide small32 (2 ^ 32) ∧ Wide room32 100 ∧ okAnd (exU.findAvgPoolMatrix small32 .id 2) (fun m =>
    okAnd (m.toStringWithPrecision small32 f64Fmt .id .rev 3) fun s => s.length > 10) :=
  ⟨.inl rfl, .inr (by decide), by decide +kernel⟩

/-- **C125, any two machines**: pictures of numeric matrices never differ. -/
theorem C125_text_partial (P P' : Platform) {d : Nat} (hd : Wide P d) (hd' : Wide P' d) (o₁ o₂ : HashOrder) :
    (∀ g, GReach g → ∀ Q o b m, g.findAvgPoolMatrix Q o b = .ok m →
      Consistent (m.toStringWithPrecision P f64Fmt o₁ o₂ d) (m.toStringWithPrecision P' f64Fmt o₁ o₂ d)) ∧
    (∀ Q h m, runNum f64Numeric Q h = .ok m →
      Consistent (m.toStringWithPrecision P f64Fmt o₁ o₂ d) (m.toStringWithPrecision P' f64Fmt o₁ o₂ d)) ∧
    (∀ Q h m, runNum f32Numeric Q h = .ok m →
      Consistent (m.toStringWithPrecision P f32Fmt o₁ o₂ d) (m.toStringWithPrecision P' f32Fmt o₁ o₂ d)) ∧
    (∀ max < 2 ^ 128, ∀ Q h m, runNum (uintFmt max).toNumeric Q h = .ok m → (∀ c r, m.getEntry (uintFmt max).toNumeric c r ≤ max) →
      Consistent (m.toStringWithPrecision P (uintFmt max) o₁ o₂ d) (m.toStringWithPrecision P' (uintFmt max) o₁ o₂ d)) ∧
    (∀ max < 2 ^ 127, ∀ dec Q h m, runNum (sintFmt max dec).toNumeric Q h = .ok m →
      (∀ c r, -(max : Int) - 1 ≤ m.getEntry (sintFmt max dec).toNumeric c r ∧ m.getEntry (sintFmt max dec).toNumeric c r ≤ max) →
      Consistent (m.toStringWithPrecision P (sintFmt max dec) o₁ o₂ d) (m.toStringWithPrecision P' (sintFmt max dec) o₁ o₂ d)) ∧
    (Wide P 0 → Wide P' 0 → ∀ c, CReach c → Consistent (c.matrixString P o₁ o₂) (c.matrixString P' o₁ o₂)) := by
  obtain ⟨a1, a2, a3, a4, a5, a6⟩ := C125_partial (larger_left P P') hd o₁ o₂
  obtain ⟨b1, b2, b3, b4, b5, b6⟩ := C125_partial (larger_right P P') hd' o₁ o₂
  exact ⟨fun g hg Q o b m hm => agree_of (a1 g hg Q o b m hm) (b1 g hg Q o b m hm), fun Q h m hm => agree_of (a2 Q h m hm) (b2 Q h m hm),
    fun Q h m hm => agree_of (a3 Q h m hm) (b3 Q h m hm),
    fun max hx Q h m hm hb => agree_of (a4 max hx Q h m hm hb) (b4 max hx Q h m hm hb),
    fun max hx dec Q h m hm hb => agree_of (a5 max hx dec Q h m hm hb) (b5 max hx dec Q h m hm hb),
    fun h h' c hc => agree_of (a6 h c hc) (b6 h' c hc)⟩

end Verif.Props
