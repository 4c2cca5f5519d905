import Verif.Props.Pooling

/-!
# C105: the threshold of `approximate` is a number of edges
-/

namespace Verif.Props
open Verif Spec

/-- **C105.** For every block dimension below `2^32` and every threshold (NaN and infinities included) there is one number of edges,
the same for all graphs, places, platforms and hash orders, such that `approximate` keeps exactly the blocks with at least that
many edges (or there is none, and every block is dropped).  It is never 0. -/
theorem C105_cutoff (b' : Nat) (h32 : b' < 2 ^ 32) (t : F64) :
    ∃ K : Option Nat, (∀ k, K = some k → 1 ≤ k) ∧
      ∀ g : Graph, GReach g → ∀ (P : Platform) (o₁ o₂ : HashOrder) (b : Nat), 2 ≤ b → 2 ≤ g.vertexCount →
        min b g.vertexCount = b' → ∃ a, g.approximate P o₁ o₂ b t = .ok a ∧ ∀ c r,
          (a.doesEdgeExist c r = true ↔ ∃ k, K = some k ∧ k ≤ blockCount g.doesEdgeExist b' c r) := by
  classical
  rcases Nat.eq_zero_or_pos b' with h0 | hpos
  · refine ⟨none, by simp, ?_⟩
    intro g _ P o₁ o₂ b hb hn he
    omega
  let p : Nat → Prop := fun k => 0 < k ∧ F64.le (effThreshold t) (.fin (F64.poolQ (b' * b') k)) = true
  have hmono : ∀ k k', k ≤ k' → p k → p k' := by
    rintro k k' hkk ⟨h1, h2⟩
    refine ⟨by omega, ?_⟩
    have hm := F64.poolQ_mono (Nat.mul_pos hpos hpos) (Graph.sq_le_U64 h32) hkk
    cases ht : effThreshold t with
    | nan => rw [ht] at h2; cases h2
    | inf s => rw [ht] at h2; cases s <;> first | exact h2 | rfl
    | fin q =>
      rw [ht, F64_le_fin] at h2
      rw [F64_le_fin]
      exact h2.trans hm
  refine ⟨if h : ∃ k, p k then some (Nat.find h) else none, ?_, ?_⟩
  · intro k hk
    split at hk
    · next h =>
      cases hk
      exact (Nat.find_spec h).1
    · cases hk
  · rintro g hg P o₁ o₂ b hb hn rfl
    obtain ⟨a, ha, he⟩ := approx_edges hg P o₁ o₂ t hb hn h32
    refine ⟨a, ha, fun c r => ?_⟩
    rw [he]
    change p _ ↔ _
    constructor
    · intro h
      rw [dif_pos ⟨_, h⟩]
      exact ⟨_, rfl, Nat.find_min' _ h⟩
    · rintro ⟨k, hk, hle⟩
      split at hk
      · next h =>
        cases hk
        exact hmono _ _ hle (Nat.find_spec h)
      · cases hk

/-- C105: the complete graph on 7 vertices in blocks of 3 and 4; with blocks of 3 there are blocks with 9, 3 and 1 edges, and the
threshold 1/4 stands for 3 edges. -/
example : GReach k7 ∧ min 3 k7.vertexCount = 3 ∧
    okAnd (k7.approximate exP .id .id 3 (.fin (1 / 4))) (fun a => a.doesEdgeExist 0 0 && a.doesEdgeExist 2 0 && !a.doesEdgeExist 2 2) ∧
    blockCount k7.doesEdgeExist 3 0 0 = 9 ∧ blockCount k7.doesEdgeExist 3 2 0 = 3 ∧ blockCount k7.doesEdgeExist 3 2 2 = 1 :=
  ⟨k7_reach, by decide +kernel, by decide +kernel, by decide +kernel, by decide +kernel, by decide +kernel⟩

/-- **C105, which number.** Up to block dimension `2^25` (33 million) rounding cannot change the decision about any block, except one
that has the number of edges closest to `q · b²`: every other block is kept exactly if it has at least `q · b²` edges. -/
theorem C105_nearest {g : Graph} (hg : GReach g) (P : Platform) (o₁ o₂ : HashOrder) {b : Nat} {q : ℚ}
    (hb : 2 ≤ b) (hn : 2 ≤ g.vertexCount) (h25 : min b g.vertexCount ≤ 2 ^ 25) (hq0 : 0 < q) (hq1 : q ≤ 1) :
    ∃ a, g.approximate P o₁ o₂ b (.fin q) = .ok a ∧ ∀ c r,
      let s : ℚ := (min b g.vertexCount : Nat) * (min b g.vertexCount : Nat)
      let k := blockCount g.doesEdgeExist (min b g.vertexCount) c r
      1 / 2 ≤ |(k : ℚ) - q * s| → (a.doesEdgeExist c r = true ↔ q * s ≤ k) := by
  obtain ⟨a, ha, he⟩ := approx_edges hg P o₁ o₂ (.fin q) hb hn (by omega)
  refine ⟨a, ha, fun c r => ?_⟩
  have heff : effThreshold (.fin q) = .fin q := by
    unfold effThreshold; simp only; rw [if_neg (not_lt.2 hq1), if_neg (not_le.2 hq0)]
  have he := he c r
  rw [heff, F64_le_fin] at he
  have hk := Graph.blockCount_le g.doesEdgeExist (min b g.vertexCount) c r
  have hpos : 0 < min b g.vertexCount := by omega
  simp only
  generalize min b g.vertexCount = b' at *
  generalize blockCount g.doesEdgeExist b' c r = k at *
  intro hfar
  have h1 : 1 ≤ b' * b' := Nat.mul_pos hpos hpos
  have h50 : b' * b' ≤ 2 ^ 50 := (Nat.mul_le_mul h25 h25).trans (by norm_num)
  have herr := F64.poolQ_err h1 (h50.trans (by norm_num)) hk
  have hs : (0 : ℚ) < (b' * b' : Nat) := by exact_mod_cast h1
  have hs50 : ((b' * b' : Nat) : ℚ) ≤ 2 ^ 50 := by exact_mod_cast h50
  have hks : (k : ℚ) ≤ (b' * b' : Nat) := by exact_mod_cast hk
  have hk0 : (0 : ℚ) ≤ k := by positivity
  have e : ((b' : Nat) : ℚ) * (b' : Nat) = (b' * b' : Nat) := by push_cast; rfl
  rw [e] at hfar ⊢
  generalize F64.poolQ (b' * b') k = x at *
  generalize ((b' * b' : Nat) : ℚ) = s at *
  have hx : |x * s - k| < 1 / 2 := by
    have e1 : x * s - k = (x - k / s) * s := by field_simp
    rw [e1, abs_mul, abs_of_pos hs]
    have h2 : (k : ℚ) / s * (1 / 2 ^ 52 + 1 / 2 ^ 106) * s = k * (1 / 2 ^ 52 + 1 / 2 ^ 106) := by field_simp
    have h3 : |x - k / s| * s ≤ k / s * (1 / 2 ^ 52 + 1 / 2 ^ 106) * s := mul_le_mul_of_nonneg_right herr hs.le
    rw [h2] at h3
    have h4 : (k : ℚ) * (1 / 2 ^ 52 + 1 / 2 ^ 106) ≤ 2 ^ 50 * (1 / 2 ^ 52 + 1 / 2 ^ 106) :=
      mul_le_mul_of_nonneg_right (hks.trans hs50) (by norm_num)
    refine lt_of_le_of_lt (h3.trans h4) ?_
    norm_num
  obtain ⟨hx1, hx2⟩ := abs_lt.1 hx
  rw [he]
  have hxs : q ≤ x ↔ q * s ≤ x * s := (mul_le_mul_iff_left₀ hs).symm
  rw [hxs]
  have hqs : 0 < q * s := mul_pos hq0 hs
  rcases le_abs.1 hfar with h | h
  · refine ⟨fun _ => by linarith, fun _ => ⟨?_, by linarith⟩⟩
    have : (0 : ℚ) < k := by linarith
    exact_mod_cast this
  · refine ⟨fun ⟨_, h'⟩ => by linarith, fun h' => by linarith⟩

/-- C105: the only block of the complete graph on 7 vertices in blocks of 7 has the number of edges closest to `1 · 7²` and is
dropped; with one edge too few or too many nothing can go wrong. -/
example : GReach k7 ∧ min 7 k7.vertexCount ≤ 2 ^ 25 ∧ blockCount k7.doesEdgeExist 7 0 0 = 49 ∧
    okAnd (k7.approximate exP .id .id 7 (.fin 1)) (fun a => !a.doesEdgeExist 0 0) ∧
    (1 : ℚ) / 2 ≤ |((49 : Nat) : ℚ) - 97 / 98 * ((7 : Nat) * (7 : Nat))| ∧
    okAnd (k7.approximate exP .id .id 7 (.fin (97 / 98))) (fun a => a.doesEdgeExist 0 0) :=
  ⟨k7_reach, by decide +kernel, by decide +kernel, by decide +kernel, by norm_num [abs_of_pos], by decide +kernel⟩

end Verif.Props
