import Verif.Lemmas.TextTotal
import Verif.Lemmas.GraphCodec
import Verif.Model.Pool
import Verif.Spec.Machines

/-!
# A larger machine delivers what a smaller one delivers
-/

namespace Verif.Spec
open Verif

namespace Carries

variable {α β : Type}

theorem refl (r : Res α) : Carries r r := fun _ h => h

theorem of_eq {r r' : Res α} (h : r = r') : Carries r r' := h ▸ refl r

theorem bind {r r' : Res α} {f f' : α → Res β} (h : Carries r r') (hf : ∀ x, r = .ok x → Carries (f x) (f' x)) :
    Carries (r >>= f) (r' >>= f') := by
  intro y hy
  obtain ⟨x, hx, hy⟩ := Res.bind_eq_ok.1 hy
  exact Res.bind_eq_ok.2 ⟨x, h x hx, hf x hx y hy⟩

theorem map {r r' : Res α} (h : Carries r r') (f : α → β) : Carries (r.map f) (r'.map f) := by
  intro y hy
  cases r with
  | ok x => rw [h x rfl]; exact hy
  | err _ => cases hy
  | panic => cases hy

theorem err (e : GraphRoxError) (r : Res α) : Carries (.err e) r := fun _ h => by cases h

theorem panic (r : Res α) : Carries .panic r := fun _ h => by cases h

theorem ite {p : Prop} [Decidable p] {a a' b b' : Res α} (h : p → Carries a a') (h' : ¬ p → Carries b b') :
    Carries (if p then a else b) (if p then a' else b') := by
  by_cases hp : p
  · rw [if_pos hp, if_pos hp]; exact h hp
  · rw [if_neg hp, if_neg hp]; exact h' hp

theorem foldl {f f' : β → α → Res β} (l : List α) (h : ∀ b, ∀ a ∈ l, Carries (f b a) (f' b a)) : ∀ b,
    Carries (Res.foldl f b l) (Res.foldl f' b l) := by
  induction l with
  | nil => intro b; exact refl _
  | cons a l ih =>
    intro b
    exact bind (h b a (by simp)) fun b' _ => ih (fun b a ha => h b a (by simp [ha])) b'

theorem option {o o' : Option α} (e : GraphRoxError) (h : ∀ x, o = some x → o' = some x) :
    Carries (Res.ofOption o e) (Res.ofOption o' e) := by
  intro x hx
  cases o with
  | none => cases hx
  | some y => rw [h y rfl]; exact hx

end Carries

namespace Larger

variable {P P' : Platform} (L : Larger P P')
include L

theorem wrapTo (max x : Nat) : Carries (P.wrapTo max x) (P'.wrapTo max x) := by
  unfold Platform.wrapTo
  refine Carries.ite (fun _ => .refl _) fun _ => ?_
  rcases L.profile with h | h
  · rw [h]; exact .panic _
  · rw [h]; exact .refl _

theorem usizeTryFrom (x y : Nat) (h : P.usizeTryFrom x = some y) : P'.usizeTryFrom x = some y := by
  have := L.usize
  unfold Platform.usizeTryFrom at *
  split at h
  · rw [if_pos (by omega)]; exact h
  · cases h

theorem checkedMul (a b y : Nat) (h : P.checkedMul a b = some y) : P'.checkedMul a b = some y := by
  have := L.usize
  unfold Platform.checkedMul at *
  split at h
  · rw [if_pos (by omega)]; exact h
  · cases h

theorem checkedAdd (a b y : Nat) (h : P.checkedAdd a b = some y) : P'.checkedAdd a b = some y := by
  have := L.usize
  unfold Platform.checkedAdd at *
  split at h
  · rw [if_pos (by omega)]; exact h
  · cases h

omit L in
theorem obind {α β : Type} {o o' : Option α} {f f' : α → Option β} (h : ∀ x, o = some x → o' = some x)
    (hf : ∀ x y, f x = some y → f' x = some y) (y : β) (hy : o.bind f = some y) : o'.bind f' = some y := by
  obtain ⟨x, hx, hy⟩ := Option.bind_eq_some_iff.1 hy
  exact Option.bind_eq_some_iff.2 ⟨x, h x hx, hf x y hy⟩

theorem alloc_ite {α : Type} (n : Nat) (a b b' : Res α) (hb : ∀ x, b ≠ .ok x) :
    Carries (if P.alloc n then a else b) (if P'.alloc n then a else b') := by
  intro x hx
  split at hx
  · rename_i h; rw [if_pos (L.alloc n h)]; exact hx
  · exact absurd hx (hb x)

/-! ### `usize` arithmetic without overflow -/

theorem usizeAdd {a b x : Nat} (hq : P.profile = .debug ∨ a + b ≤ P.usizeMax) (h : P.usizeAdd a b = .ok x) :
    x = a + b ∧ a + b ≤ P.usizeMax ∧ P'.usizeAdd a b = .ok (a + b) := by
  have hle : a + b ≤ P.usizeMax := by
    rcases hq with hq | hq
    · by_contra hc
      unfold Platform.usizeAdd Platform.wrapTo at h
      rw [if_neg hc, hq] at h
      cases h
    · exact hq
  rw [Platform.usizeAdd_ok hle] at h
  cases h
  exact ⟨rfl, hle, Platform.usizeAdd_ok (Nat.le_trans hle L.usize)⟩

theorem usizeMul {a b x : Nat} (hq : P.profile = .debug ∨ a * b ≤ P.usizeMax) (h : P.usizeMul a b = .ok x) :
    x = a * b ∧ P'.usizeMul a b = .ok (a * b) := by
  have hle : a * b ≤ P.usizeMax := by
    rcases hq with hq | hq
    · by_contra hc
      unfold Platform.usizeMul Platform.wrapTo at h
      rw [if_neg hc, hq] at h
      cases h
    · exact hq
  rw [Platform.usizeMul_ok hle] at h
  cases h
  exact ⟨rfl, Platform.usizeMul_ok (Nat.le_trans hle L.usize)⟩

/-! ### Graphs -/

theorem graph_bytes (o : HashOrder) (g : Graph) : Carries (g.toBytes P o) (g.toBytes P' o) := by
  unfold Graph.toBytes
  refine Carries.bind (Carries.option _ (obind (L.usizeTryFrom _) fun _ => obind (L.checkedMul _ _) fun _ => L.checkedMul _ _)) fun _ _ =>
    Carries.bind (Carries.option _ (L.checkedAdd _ _)) fun _ _ => L.alloc_ite _ _ _ _ fun _ h => by cases h

theorem readBE (k : Nat) (b : Bytes) (i : Nat) : Carries (Graph.readBE P k b i) (Graph.readBE P' k b i) := by
  unfold Graph.readBE
  exact Carries.bind (Carries.option _ (L.checkedAdd _ _)) fun _ _ => .refl _

theorem readBEC (k : Nat) (b : Bytes) (i : Nat) : Carries (CGraph.readBE P k b i) (CGraph.readBE P' k b i) := by
  unfold CGraph.readBE
  exact Carries.bind (Carries.option _ (L.checkedAdd _ _)) fun _ _ => .refl _

theorem readEdges (b : Bytes) (d e n : Nat) : ∀ (pos : Nat) (g : Graph),
    Carries (Graph.readEdges P b d e n pos g) (Graph.readEdges P' b d e n pos g) := by
  induction n with
  | zero => intro pos g; exact .refl _
  | succ n ih =>
    intro pos g
    unfold Graph.readEdges
    exact Carries.ite (fun _ => Carries.bind (L.readBE _ _ _) fun _ _ => Carries.bind (L.readBE _ _ _) fun _ _ =>
      Carries.ite (fun _ => .refl _) fun _ => ih _ _) fun _ => .refl _

theorem graph_decode (b : Bytes) : Carries (Graph.tryFrom P b) (Graph.tryFrom P' b) := by
  unfold Graph.tryFrom
  refine Carries.ite (fun _ => .refl _) fun _ => Carries.bind (L.readBE _ _ _) fun _ _ => Carries.bind (L.readBE _ _ _) fun _ _ =>
    Carries.bind (L.readBE _ _ _) fun _ _ => Carries.bind (L.readBE _ _ _) fun _ _ => Carries.bind (.refl _) fun _ _ =>
    Carries.bind (.refl _) fun _ _ => Carries.ite (fun _ => .refl _) fun _ => Carries.ite (fun _ => .refl _) fun _ =>
    Carries.ite (fun _ => .refl _) fun _ => Carries.ite (fun _ => .refl _) fun _ => Carries.ite (fun _ => .refl _) fun _ => ?_
  refine Carries.bind (Carries.option _ (obind (L.usizeTryFrom _) fun _ => obind (L.checkedMul _ _) fun _ =>
    obind (L.checkedMul _ _) fun _ => L.checkedAdd _ _)) fun _ _ => Carries.ite (fun _ => .refl _) fun _ => Carries.ite (fun _ => .refl _) fun _ => ?_
  exact Carries.bind (L.readEdges _ _ _ _ _ _) fun _ _ => .refl _

theorem matrixText (m : AdjMatrix) : Carries (m.tryToString P) (m.tryToString P') := by
  unfold AdjMatrix.tryToString
  refine Carries.ite (fun _ => .refl _) fun _ => Carries.bind (Carries.option _ (L.usizeTryFrom _)) fun _ _ =>
    Carries.bind (Carries.option _ (L.checkedMul _ _)) fun _ _ => Carries.bind (Carries.option _ (obind (L.checkedMul _ _) fun _ =>
      obind (obind (L.checkedMul _ _) fun _ => L.checkedAdd _ _) fun _ _ h => h)) fun _ _ => L.alloc_ite _ _ _ _ fun _ h => by cases h

/-! ### Compressed graphs -/

theorem compressed_bytes (o : HashOrder) (c : CGraph) : Carries (c.toBytes P o) (c.toBytes P' o) := by
  unfold CGraph.toBytes
  refine Carries.bind (Carries.option _ (obind (L.usizeTryFrom _) fun _ => obind (L.checkedMul _ _) fun _ => L.checkedMul _ _)) fun _ _ =>
    Carries.bind (Carries.option _ (L.checkedAdd _ _)) fun _ _ => L.alloc_ite _ _ _ _ fun _ h => by cases h

theorem readEntries (b : Bytes) (d v e n : Nat) : ∀ (pos k : Nat) (g : CGraph),
    Carries (CGraph.readEntries P b d v e n pos k g) (CGraph.readEntries P' b d v e n pos k g) := by
  induction n with
  | zero => intro pos k g; exact .refl _
  | succ n ih =>
    intro pos k g
    unfold CGraph.readEntries
    exact Carries.ite (fun _ => Carries.bind (L.readBEC _ _ _) fun _ _ => Carries.bind (L.readBEC _ _ _) fun _ _ =>
      Carries.bind (L.readBEC _ _ _) fun _ _ => Carries.ite (fun _ => .refl _) fun _ => Carries.ite (fun _ => .refl _) fun _ =>
      Carries.bind (.refl _) fun _ _ => Carries.bind (.refl _) fun _ _ => ih _ _ _) fun _ => .refl _

theorem compressed_decode (b : Bytes) : Carries (CGraph.tryFrom P b) (CGraph.tryFrom P' b) := by
  unfold CGraph.tryFrom
  refine Carries.ite (fun _ => .refl _) fun _ => Carries.bind (L.readBEC _ _ _) fun _ _ => Carries.bind (L.readBEC _ _ _) fun _ _ =>
    Carries.bind (L.readBEC _ _ _) fun _ _ => Carries.bind (L.readBEC _ _ _) fun _ _ => Carries.bind (L.readBEC _ _ _) fun _ _ =>
    Carries.bind (L.readBEC _ _ _) fun _ _ => Carries.bind (.refl _) fun _ _ =>
    Carries.bind (.refl _) fun _ _ => Carries.ite (fun _ => .refl _) fun _ => Carries.ite (fun _ => .refl _) fun _ =>
    Carries.ite (fun _ => .refl _) fun _ => Carries.ite (fun _ => .refl _) fun _ => Carries.ite (fun _ => .refl _) fun _ =>
    Carries.ite (fun _ => .refl _) fun _ => Carries.ite (fun _ => .refl _) fun _ => ?_
  refine Carries.bind (Carries.option _ (obind (L.usizeTryFrom _) fun _ => obind (L.checkedMul _ _) fun _ =>
    obind (L.checkedMul _ _) fun _ => L.checkedAdd _ _)) fun _ _ => Carries.ite (fun _ => .refl _) fun _ => Carries.ite (fun _ => .refl _) fun _ => ?_
  exact Carries.bind (L.readEntries _ _ _ _ _ _ _ _) fun _ _ => .refl _

theorem decompressBit (e c r : Nat) (s : Graph × Nat) (i : Nat) :
    Carries (CGraph.decompressBit P e c r s i) (CGraph.decompressBit P' e c r s i) := by
  unfold CGraph.decompressBit
  by_cases h : e &&& s.2 = s.2
  · simp only [if_pos h]
    exact Carries.bind (L.wrapTo _ _) fun _ _ => Carries.bind (L.wrapTo _ _) fun _ _ => Carries.bind (L.wrapTo _ _) fun _ _ =>
      Carries.bind (L.wrapTo _ _) fun _ _ => .refl _
  · simp only [if_neg h]
    exact .refl _

theorem decompress (o : HashOrder) (c : CGraph) : Carries (c.decompress P o) (c.decompress P' o) := by
  unfold CGraph.decompress
  exact Carries.foldl _ (fun _ x _ => (Carries.foldl _ (fun s i _ => L.decompressBit _ _ _ s i) _).map _) _

/-! ### Pooling -/

theorem pool (o : HashOrder) (g : Graph) (k : Nat) : Carries (g.findAvgPoolMatrix P o k) (g.findAvgPoolMatrix P' o k) := by
  unfold Graph.findAvgPoolMatrix
  refine Carries.ite (fun _ => .refl _) fun _ => Carries.bind ?_ fun _ _ => Carries.bind (L.wrapTo _ _) fun _ _ => .refl _
  exact Carries.foldl _ (fun m x _ => .refl _) _

theorem approximate (o₁ o₂ : HashOrder) (g : Graph) (k : Nat) (t : F64) :
    Carries (g.approximate P o₁ o₂ k t) (g.approximate P' o₁ o₂ k t) := by
  unfold Graph.approximate
  exact Carries.ite (fun _ => .refl _) fun _ => Carries.bind (L.pool _ _ _) fun _ _ => .refl _

theorem compressBit (g : Graph) (a b : Nat) (s : Graph.BitState) (x : Nat × Nat) :
    Carries (Graph.compressBit P g a b s x) (Graph.compressBit P' g a b s x) := by
  unfold Graph.compressBit
  exact Carries.bind (L.wrapTo _ _) fun _ _ => Carries.bind (L.wrapTo _ _) fun _ _ => .refl _

theorem compress (o₁ o₂ : HashOrder) (g : Graph) (l : Nat) : Carries (g.compress P o₁ o₂ l) (g.compress P' o₁ o₂ l) := by
  unfold Graph.compress
  refine Carries.bind (L.pool _ _ _) fun _ _ => Carries.foldl _ (fun b x _ => ?_) _
  unfold Graph.compressBlock
  exact Carries.ite (fun _ => Carries.bind (L.wrapTo _ _) fun _ _ => Carries.bind (L.wrapTo _ _) fun _ _ =>
    Carries.bind (Carries.foldl _ (fun s x _ => L.compressBit _ _ _ _ _) _) fun _ _ => .refl _) fun _ => .refl _

/-! ### Texts of matrices -/

section
variable {T : Type} (F : NumFmt T)
open SqMatrix

theorem formatEntry (hi lo : T) (e d : Nat) (v : T) (hq : P.profile = .debug ∨ F.digitCount hi + 1 ≤ P.usizeMax) :
    Carries (SqMatrix.formatEntry P F hi lo e d v) (SqMatrix.formatEntry P' F hi lo e d v) := by
  have hf := L.fmt
  unfold SqMatrix.formatEntry
  refine Carries.ite (fun _ => ?_) fun _ => ?_
  · intro x hx
    split at hx
    · rename_i hlt
      rw [if_pos hlt]
      obtain ⟨w, hw, hx⟩ := Res.bind_eq_ok.1 hx
      obtain ⟨rfl, _, hw'⟩ := L.usizeAdd hq hw
      rw [hw', Res.bind_ok]
      dsimp only at hx ⊢
      split at hx
      · cases hx
      · rw [if_neg (by omega)]; exact hx
    · rename_i hlt
      rw [if_neg hlt]
      rw [Res.bind_ok] at hx ⊢
      dsimp only at hx ⊢
      split at hx
      · cases hx
      · rw [if_neg (by omega)]; exact hx
  · intro x hx
    split at hx
    · cases hx
    · rw [if_neg (by omega)]; exact hx

theorem writeEntry (hi lo : T) (e d n : Nat) (buffer : List Char) (x : Nat × Nat × T) (hn : n ≤ P.usizeMax)
    (hsize : 4 * n + (e + 2) * (n * n) ≤ P.usizeMax) (hc : x.1 < n) (hr : x.2.1 < n)
    (hq : P.profile = .debug ∨ F.digitCount hi + 1 ≤ P.usizeMax) :
    Carries (SqMatrix.writeEntry P F hi lo e d (4 + n * (e + 2)) (e + 2) buffer x)
      (SqMatrix.writeEntry P' F hi lo e d (4 + n * (e + 2)) (e + 2) buffer x) := by
  have hu := L.usize
  have hend := cell_end (e := e) hc hr
  have hmod : ∀ Q : Platform, n ≤ Q.usizeMax → asUsize Q x.2.1 = x.2.1 ∧ asUsize Q x.1 = x.1 := fun Q h =>
    ⟨Nat.mod_eq_of_lt (by omega), Nat.mod_eq_of_lt (by omega)⟩
  unfold SqMatrix.writeEntry
  rw [(hmod P hn).1, (hmod P hn).2, (hmod P' (by omega)).1, (hmod P' (by omega)).2]
  have hm : ∀ Q : Platform, P.usizeMax ≤ Q.usizeMax → Q.usizeMul x.2.1 (4 + n * (e + 2)) = .ok (x.2.1 * (4 + n * (e + 2))) ∧
      Q.usizeAdd (x.2.1 * (4 + n * (e + 2))) 2 = .ok (x.2.1 * (4 + n * (e + 2)) + 2) ∧
      Q.usizeMul (e + 2) x.1 = .ok ((e + 2) * x.1) ∧
      Q.usizeAdd (x.2.1 * (4 + n * (e + 2)) + 2) ((e + 2) * x.1) = .ok (x.2.1 * (4 + n * (e + 2)) + 2 + (e + 2) * x.1) := fun Q h =>
    ⟨Platform.usizeMul_ok (by omega), Platform.usizeAdd_ok (by omega), Platform.usizeMul_ok (by omega), Platform.usizeAdd_ok (by omega)⟩
  obtain ⟨a1, a2, a3, a4⟩ := hm P (Nat.le_refl _)
  obtain ⟨b1, b2, b3, b4⟩ := hm P' hu
  rw [a1, Res.bind_ok, a2, Res.bind_ok, a3, Res.bind_ok, a4, Res.bind_ok, b1, Res.bind_ok, b2, Res.bind_ok, b3, Res.bind_ok, b4, Res.bind_ok]
  exact Carries.bind (L.formatEntry F hi lo e d _ hq) fun _ _ => .refl _

omit L in
/-- If checked arithmetic is used, a text was delivered only if the width of a cell fits. -/
theorem _root_.Verif.SqMatrix.debug_fits {Q : Platform} (hQ : Q.profile = .debug) (o₁ o₂ : HashOrder) {m : SqMatrix T} {d : Nat} {s : List Char}
    (hd : m.dimension ≠ 0) (h : m.toStringWithPrecision Q F o₁ o₂ d = .ok s) :
    cellWidth F (extremes F o₁ m) d + 2 ≤ Q.usizeMax := by
  have add : ∀ {a b x : Nat}, Q.usizeAdd a b = .ok x → x = a + b ∧ a + b ≤ Q.usizeMax := by
    intro a b x hx
    by_cases hc : a + b ≤ Q.usizeMax
    · rw [Platform.usizeAdd_ok hc] at hx
      cases hx
      exact ⟨rfl, hc⟩
    · unfold Platform.usizeAdd Platform.wrapTo at hx
      rw [if_neg hc, hQ] at hx
      cases hx
  unfold toStringWithPrecision at h
  rw [if_neg hd] at h
  have hmax : (if F.digitCount (extremes F o₁ m).1 > F.digitCount (extremes F o₁ m).2 then
      F.digitCount (extremes F o₁ m).1 else F.digitCount (extremes F o₁ m).2) = digitsOf F (extremes F o₁ m) := by
    unfold digitsOf; split <;> omega
  simp only [hmax] at h
  unfold cellWidth
  cases hdec : (F.hasDecimal || decide (d > 0)) with
  | true =>
    simp only [hdec, if_true] at h ⊢
    obtain ⟨x, hx, h⟩ := Res.bind_eq_ok.1 h
    obtain ⟨y, hy, h⟩ := Res.bind_eq_ok.1 h
    obtain ⟨z, hz, h⟩ := Res.bind_eq_ok.1 h
    obtain ⟨w, hw, h⟩ := Res.bind_eq_ok.1 h
    obtain ⟨p, hp, h⟩ := Res.bind_eq_ok.1 h
    obtain ⟨c, hc, h⟩ := Res.bind_eq_ok.1 h
    have := add hx
    have := add hy
    have := add hc
    omega
  | false =>
    simp only [hdec, Bool.false_eq_true, if_false] at h ⊢
    rw [Res.bind_ok] at h
    obtain ⟨w, hw, h⟩ := Res.bind_eq_ok.1 h
    obtain ⟨p, hp, h⟩ := Res.bind_eq_ok.1 h
    obtain ⟨c, hc, h⟩ := Res.bind_eq_ok.1 h
    have := add hc
    omega

theorem text (o₁ o₂ : HashOrder) {m : SqMatrix T} (hw : m.WF) (d : Nat) (hpos : 1 ≤ digitsOf F (extremes F o₁ m))
    (hq : P.profile = .debug ∨ cellWidth F (extremes F o₁ m) d + 2 ≤ P.usizeMax) :
    Carries (m.toStringWithPrecision P F o₁ o₂ d) (m.toStringWithPrecision P' F o₁ o₂ d) := by
  intro s hs
  by_cases hd : m.dimension = 0
  · unfold toStringWithPrecision at hs ⊢
    rw [if_pos hd] at hs ⊢
    exact hs
  · have hu := L.usize
    have hfit : cellWidth F (extremes F o₁ m) d + 2 ≤ P.usizeMax := hq.elim (fun h => SqMatrix.debug_fits F h o₁ o₂ hd hs) id
    have hdig : F.digitCount (extremes F o₁ m).1 + 1 ≤ P.usizeMax := by
      unfold cellWidth digitsOf at hfit
      omega
    rw [toString_prefix P F o₁ o₂ m d hd hpos hfit] at hs
    rw [toString_prefix P' F o₁ o₂ m d hd hpos (by omega)]
    generalize he : cellWidth F (extremes F o₁ m) d = e at *
    dsimp only at hs ⊢
    revert s
    change Carries _ _
    refine Carries.bind (Carries.option _ (L.usizeTryFrom _)) fun n hn => Carries.bind (Carries.option _ (L.checkedMul _ _)) fun k hk =>
      Carries.bind (Carries.option _ (obind (L.checkedMul _ _) fun _ => obind (obind (L.checkedMul _ _) fun _ => L.checkedAdd _ _)
        fun _ _ h => h)) fun size hsz => ?_
    have hn' : n = m.dimension ∧ m.dimension ≤ P.usizeMax := by
      unfold Platform.usizeTryFrom at hn
      split at hn
      · cases hn; exact ⟨rfl, by assumption⟩
      · cases hn
    obtain ⟨rfl, hnle⟩ := hn'
    have hk' : k = m.dimension * m.dimension := by
      unfold Platform.checkedMul at hk
      split at hk
      · cases hk; rfl
      · cases hk
    subst hk'
    have hsize : 4 * m.dimension + (e + 2) * (m.dimension * m.dimension) ≤ P.usizeMax := by
      unfold Platform.checkedMul Platform.checkedAdd at hsz
      split at hsz
      · rw [Option.bind_some] at hsz
        split at hsz
        · rw [Option.bind_some] at hsz
          split at hsz
          · omega
          · cases hsz
        · cases hsz
      · cases hsz
    intro s hs
    split at hs
    · cases hs
    · rename_i ha
      rw [if_neg (by simp only [Bool.not_eq_true, Bool.not_eq_false'] at ha ⊢; exact L.alloc _ ha)]
      have hnn : m.dimension ≤ m.dimension * m.dimension := Nat.le_mul_of_pos_left _ (by omega)
      have hle3 : m.dimension * (e + 2) ≤ (e + 2) * (m.dimension * m.dimension) := by
        rw [Nat.mul_comm]; exact Nat.mul_le_mul_left _ hnn
      have hm : ∀ Q : Platform, P.usizeMax ≤ Q.usizeMax → Q.usizeMul m.dimension (e + 2) = .ok (m.dimension * (e + 2)) ∧
          Q.usizeAdd 4 (m.dimension * (e + 2)) = .ok (4 + m.dimension * (e + 2)) := fun Q h =>
        ⟨Platform.usizeMul_ok (by omega), Platform.usizeAdd_ok (by omega)⟩
      obtain ⟨a1, a2⟩ := hm P (Nat.le_refl _)
      obtain ⟨b1, b2⟩ := hm P' hu
      simp only [a1, Res.bind_ok, a2] at hs
      simp only [b1, Res.bind_ok, b2]
      revert s
      change Carries _ _
      refine Carries.bind (.refl _) fun buffer _ => Carries.foldl _ (fun b x hx => ?_) _
      obtain ⟨c, r, v⟩ := x
      have hat : m.at? c r = some v := mem_flat.1 (((flatO_perm o₂ m.edgesTable).mem_iff).1 hx)
      have hb := hw.bound (c, r) (mem_keys.2 ⟨v, hat⟩)
      exact L.writeEntry F _ _ e d m.dimension b (c, r, v) hnle hsize hb.1 hb.2 (.inr hdig)

end

end Larger
end Verif.Spec
