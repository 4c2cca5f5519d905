import Verif.Props.Locality

/-!
# Where the exceptions of C42, C44 and C88 begin: exact rules
-/

namespace Verif.Props
open Verif Spec

/-- Edges of the approximation by the pooled entries, for all block dimensions below `2^32`. -/
theorem approx_rule {g : Graph} (hg : GReach g) (P : Platform) (o₁ o₂ : HashOrder) (b : Nat) (t : F64)
    (hs : ¬ (b ≤ 1 ∨ g.vertexCount ≤ 1)) (h32 : effBlock g.vertexCount b < 2 ^ 32) :
    ∃ m a, g.findAvgPoolMatrix P o₁ b = .ok m ∧ g.approximate P o₁ o₂ b t = .ok a ∧
      a.isUndirected = g.isUndirected ∧ a.vertexCount = ceilDiv g.vertexCount (min b g.vertexCount) ∧
      ∀ c r, ∃ x, m.getEntry f64Numeric c r = .fin x ∧
        x = F64.poolQ (effBlock g.vertexCount b * effBlock g.vertexCount b)
          (blockCount g.doesEdgeExist (effBlock g.vertexCount b) c r) ∧
        (a.doesEdgeExist c r = true ↔ x ≠ 0 ∧ F64.le (effThreshold t) (.fin x) = true) := by
  push Not at hs
  obtain ⟨m, hm, hv⟩ := pool_entry hg P o₁ b h32
  obtain ⟨a, ha, hu, hn, he⟩ := C40_approximate_keeps hg P o₁ o₂ t (by omega : 2 ≤ b) (by omega) hm
  refine ⟨m, a, hm, ha, hu, hn, fun c r => ⟨_, hv c r, rfl, ?_⟩⟩
  rw [he, hv]
  simp

/-- An entry of a pooled matrix with blocks of dimension 1 is 0 or 1. -/
theorem pool_unit {g : Graph} {b : Nat} (hs : b ≤ 1 ∨ g.vertexCount ≤ 1) (c r : Nat) {x : ℚ}
    (hx : x = F64.poolQ (effBlock g.vertexCount b * effBlock g.vertexCount b)
      (blockCount g.doesEdgeExist (effBlock g.vertexCount b) c r)) : x = 0 ∨ x = 1 := by
  have h1 : effBlock g.vertexCount b = 1 := by unfold effBlock; omega
  rw [h1] at hx
  have hle : blockCount g.doesEdgeExist 1 c r ≤ 1 := by
    unfold blockCount
    exact (Finset.card_filter_le _ _).trans (by simp)
  rcases Nat.le_one_iff_eq_zero_or_eq_one.1 hle with h | h
  · left; rw [hx, h]; decide +kernel
  · right; rw [hx, h]; decide +kernel

/-- The places of a pooled matrix with a value from `q` up to, but below, `10^-18`. -/
def InGap (m : SqMatrix F64) (q : ℚ) : Prop :=
  ∃ c r x, m.getEntry f64Numeric c r = .fin x ∧ q ≤ x ∧ x < tiny

/-- **C42**, exactly: for two thresholds `t₁ ≤ t₂` the edges at `t₂` are among those at `t₁` if and only if it is not the
case that `t₁` is zero or below, `t₂` is strictly between zero and `10^-18`, and some block has an average in
between `t₂` and `10^-18`. -/
theorem C42_exact {g : Graph} (hg : GReach g) (P : Platform) (o₁ o₂ o₃ o₄ : HashOrder) {b : Nat} {t₁ t₂ : F64}
    (h : F64.le t₁ t₂ = true) (h32 : effBlock g.vertexCount b < 2 ^ 32) :
    ∃ m a₁ a₂, g.findAvgPoolMatrix P o₁ b = .ok m ∧ g.approximate P o₁ o₂ b t₁ = .ok a₁ ∧
      g.approximate P o₃ o₄ b t₂ = .ok a₂ ∧
      ((∀ c r, a₂.doesEdgeExist c r = true → a₁.doesEdgeExist c r = true) ↔
        ¬ (NonPos t₁ ∧ ∃ q, 0 < q ∧ q < tiny ∧ t₂ = .fin q ∧ InGap m q)) := by
  by_cases hs : b ≤ 1 ∨ g.vertexCount ≤ 1
  · obtain ⟨m, hm, hv⟩ := pool_entry hg P o₁ b h32
    refine ⟨m, g, g, hm, C43_copy g P o₁ o₂ b t₁ hs, C43_copy g P o₃ o₄ b t₂ hs, fun _ => ?_, fun _ c r h => h⟩
    rintro ⟨_, q, h0, h1, -, c, r, x, hx, hq, hlt⟩
    rw [hv] at hx
    simp only [F64.fin.injEq] at hx
    have := tiny_le_one
    rcases pool_unit hs c r hx.symm with h | h <;> rw [h] at hq hlt <;> linarith
  · obtain ⟨m, a₁, hm, ha1, _, _, e1⟩ := approx_rule hg P o₁ o₂ b t₁ hs h32
    obtain ⟨m', a₂, hm', ha2, _, _, e2⟩ := approx_rule hg P o₃ o₄ b t₂ hs h32
    refine ⟨m, a₁, a₂, hm, ha1, ha2, ?_, ?_⟩
    · rintro hmono ⟨ht1, q, h0, h1, rfl, c, r, x, hx, hq, hlt⟩
      obtain ⟨x1, hx1, hp1, hk1⟩ := e1 c r
      obtain ⟨x2, hx2, hp2, hk2⟩ := e2 c r
      rw [hx] at hx1
      cases hx1
      rw [← hp1] at hp2
      subst hp2
      have := hk1.1 (hmono c r (hk2.2 ⟨by linarith, by
        rw [eff_of_eff q h0 (by have := tiny_le_one; linarith), F64_le_fin]; exact hq⟩))
      rw [eff_nonPos ht1, F64_le_fin] at this
      linarith
    · intro hno c r hc
      obtain ⟨x1, hx1, hp1, hk1⟩ := e1 c r
      obtain ⟨x2, hx2, hp2, hk2⟩ := e2 c r
      rw [← hp1] at hp2
      subst hp2
      obtain ⟨hne, hle⟩ := hk2.1 hc
      refine hk1.2 ⟨hne, ?_⟩
      by_cases hg' : NonPos t₁ ∧ ∃ q, 0 < q ∧ q < tiny ∧ t₂ = .fin q
      · obtain ⟨ht1, q, h0, h1, rfl⟩ := hg'
        rw [eff_of_eff q h0 (by have := tiny_le_one; linarith), F64_le_fin] at hle
        rw [eff_nonPos ht1, F64_le_fin]
        by_contra hlt
        exact hno ⟨ht1, q, h0, h1, rfl, c, r, x2, hx1, hle, not_le.1 hlt⟩
      · exact eff_mono h hg' hle

/-- **C44**, exactly: a threshold below `10^-18` acts like `10^-18` on a graph if and only if it is zero or below, or no
block has an average between the threshold and `10^-18`. -/
theorem C44_exact {g : Graph} (hg : GReach g) (P : Platform) (o₁ o₂ o₃ o₄ : HashOrder) {b : Nat} {t : F64}
    (h : F64.lt t (.fin tiny) = true) (h32 : effBlock g.vertexCount b < 2 ^ 32) :
    ∃ m a a', g.findAvgPoolMatrix P o₁ b = .ok m ∧ g.approximate P o₁ o₂ b t = .ok a ∧
      g.approximate P o₃ o₄ b (.fin tiny) = .ok a' ∧
      (Same a a' ↔ ∀ q, 0 < q → t = .fin q → ¬ InGap m q) := by
  have htp := tiny_pos
  have ht1 := tiny_le_one
  by_cases hs : b ≤ 1 ∨ g.vertexCount ≤ 1
  · obtain ⟨m, hm, hv⟩ := pool_entry hg P o₁ b h32
    refine ⟨m, g, g, hm, C43_copy g P o₁ o₂ b t hs, C43_copy g P o₃ o₄ b _ hs, fun _ => ?_,
      fun _ => same_of_obs hg.ok hg.ok rfl rfl fun _ _ => rfl⟩
    rintro q h0 - ⟨c, r, x, hx, hq, hlt⟩
    rw [hv] at hx
    simp only [F64.fin.injEq] at hx
    rcases pool_unit hs c r hx.symm with h | h <;> rw [h] at hq hlt <;> linarith
  · obtain ⟨m, a₁, hm, ha1, u1, n1, e1⟩ := approx_rule hg P o₁ o₂ b t hs h32
    obtain ⟨m', a₂, hm', ha2, u2, n2, e2⟩ := approx_rule hg P o₃ o₄ b (.fin tiny) hs h32
    have hcomb : ∀ c r, ∃ x, m.getEntry f64Numeric c r = .fin x ∧
        (a₁.doesEdgeExist c r = true ↔ x ≠ 0 ∧ F64.le (effThreshold t) (.fin x) = true) ∧
        (a₂.doesEdgeExist c r = true ↔ tiny ≤ x) := by
      intro c r
      obtain ⟨x1, hx1, hp1, hk1⟩ := e1 c r
      obtain ⟨x2, hx2, hp2, hk2⟩ := e2 c r
      rw [← hp1] at hp2
      subst hp2
      rw [eff_of_eff _ htp ht1, F64_le_fin] at hk2
      exact ⟨x2, hx1, hk1, hk2.trans ⟨fun h => h.2, fun h => ⟨by linarith, h⟩⟩⟩
    refine ⟨m, a₁, a₂, hm, ha1, ha2, ?_, ?_⟩
    · rintro hsame q h0 rfl ⟨c, r, x, hx, hq, hlt⟩
      obtain ⟨x', hx', hk1, hk2⟩ := hcomb c r
      rw [hx] at hx'
      cases hx'
      have h1 := hk1.2 ⟨by linarith, by
        have hqt : q < tiny := lt_of_le_of_lt hq hlt
        rw [eff_of_eff q h0 (by linarith), F64_le_fin]; exact hq⟩
      rw [hsame.edge] at h1
      have := hk2.1 h1
      linarith
    · intro hno
      refine same_of_obs (GReach.ok (.approximate _ _ _ _ _ hg ha1)) (GReach.ok (.approximate _ _ _ _ _ hg ha2))
        (by rw [u1, u2]) (by rw [n1, n2]) fun c r => ?_
      obtain ⟨x, hx, hk1, hk2⟩ := hcomb c r
      rw [Bool.eq_iff_iff, hk1, hk2]
      by_cases ht : NonPos t
      · rw [eff_nonPos ht, F64_le_fin]
        exact ⟨fun h => h.2, fun h => ⟨by linarith, h⟩⟩
      · cases t with
        | nan => cases h
        | inf s =>
          cases s
          · cases h
          · exact absurd (Or.inl rfl) ht
        | fin q =>
          have hq0 : 0 < q := by
            by_contra hq; exact ht (Or.inr ⟨q, not_lt.1 hq, rfl⟩)
          have hqt : q < tiny := by
            have h' := h
            simp only [F64.lt, Bool.and_eq_true, Bool.not_eq_true'] at h'
            by_contra hge
            rw [(F64_le_fin _ _).2 (not_lt.1 hge)] at h'
            exact absurd h'.2 (by decide)
          rw [eff_of_eff q hq0 (by linarith), F64_le_fin]
          constructor
          · rintro ⟨_, hle⟩
            by_contra hlt
            exact hno q hq0 rfl ⟨c, r, x, hx, hle, not_le.1 hlt⟩
          · intro hle
            exact ⟨by linarith, by linarith⟩

/-- The gap is met: one edge in a block of dimension `2^31`. -/
example : GReach bigG ∧ F64.le (.fin 0) gapT = true ∧ F64.lt gapT (.fin tiny) = true ∧
    effBlock bigG.vertexCount (2 ^ 31) < 2 ^ 32 ∧
    okAnd (bigG.findAvgPoolMatrix exP .id (2 ^ 31)) (fun m => decide (m.getEntry f64Numeric 0 0 = .fin (1 / 2 ^ 62))) ∧
    F64.rndQ (2 / 10 ^ 19) ≤ 1 / 2 ^ 62 ∧ (1 : ℚ) / 2 ^ 62 < tiny :=
  ⟨bigG_reach, by decide +kernel, by decide +kernel, by decide +kernel, by decide +kernel, by decide +kernel,
    by decide +kernel⟩

/-! ## C88 -/

/-- On all platforms, with all hash orders and with all thresholds of zero or below the approximation is the same. -/
theorem approx_same {g : Graph} (hg : GReach g) {b : Nat} (h32 : effBlock g.vertexCount b < 2 ^ 32) {t t' : F64}
    (ht : NonPos t) (ht' : NonPos t') (P P' : Platform) (o₁ o₂ o₁' o₂' : HashOrder) :
    ∃ a a', g.approximate P o₁ o₂ b t = .ok a ∧ g.approximate P' o₁' o₂' b t' = .ok a' ∧ Same a a' := by
  by_cases hs : b ≤ 1 ∨ g.vertexCount ≤ 1
  · exact ⟨g, g, C43_copy g P o₁ o₂ b t hs, C43_copy g P' o₁' o₂' b t' hs, same_of_obs hg.ok hg.ok rfl rfl fun _ _ => rfl⟩
  · obtain ⟨m, a, hm, ha, hu, hn, he⟩ := approx_rule hg P o₁ o₂ b t hs h32
    obtain ⟨m', a', hm', ha', hu', hn', he'⟩ := approx_rule hg P' o₁' o₂' b t' hs h32
    refine ⟨a, a', ha, ha', same_of_obs (GReach.ok (.approximate _ _ _ _ _ hg ha)) (GReach.ok (.approximate _ _ _ _ _ hg ha'))
        (by rw [hu, hu']) (by rw [hn, hn']) fun c r => ?_⟩
    obtain ⟨x, _, hp, hk⟩ := he c r
    obtain ⟨x', _, hp', hk'⟩ := he' c r
    rw [← hp] at hp'
    subst hp'
    rw [Bool.eq_iff_iff, hk, hk', eff_nonPos ht, eff_nonPos ht']

/-- `n` vertices and the edges from vertex 0 to the first `k` multiples of `s`. -/
def star (n k s : Nat) : Graph :=
  ((List.range k).map fun i => (0, i * s)).foldl (fun g e => g.addEdge e.1 e.2) (Graph.newDirected.addVertex (n - 1) none)

theorem star_reach (n k s : Nat) : GReach (star n k s) :=
  reach_foldl _ (fun _ e h => h.addEdge e.1 e.2) _ _ (.addVertex _ _ .newDirected)

theorem star_spec {n k s : Nat} (hn : 0 < n) (hU : n ≤ U64_MAX) (hk : ∀ i < k, i * s < n) :
    (star n k s).vertexCount = n ∧ (∀ i < k, (star n k s).doesEdgeExist 0 (i * s) = true) ∧
      ∀ b c r, 0 < b → blockCount (star n k s).doesEdgeExist b c r ≤ k := by
  have hl : ∀ e ∈ ((List.range k).map fun i => (0, i * s)), e.1 < n ∧ e.2 < n := by
    intro e he
    obtain ⟨i, hi, rfl⟩ := List.mem_map.1 he
    exact ⟨hn, hk i (List.mem_range.1 hi)⟩
  have hp := Graph.foldl_addEdge_pairs ((List.range k).map fun i => (0, i * s))
    (fun e he => ⟨(hl e he).1.trans_le hU, (hl e he).2.trans_le hU⟩) (Graph.newDirected.addVertex (n - 1) none)
  have hv0 : (Graph.newDirected.addVertex (n - 1) none).vertexCount = n := by
    rw [Graph.addVertex_none, Graph.touch_vertexCount]
    have h0 : Graph.newDirected.vertexCount = 0 := rfl
    rw [h0]
    split <;> omega
  have hu0 : (Graph.newDirected.addVertex (n - 1) none).isUndirected = false := by
    rw [Graph.addVertex_none, Graph.touch_isUndirected]; rfl
  have hp0 : ∀ p, p ∉ (Graph.newDirected.addVertex (n - 1) none).pairs := by
    intro p
    rw [Graph.addVertex_none, Graph.touch_pairs]
    intro h
    have := (Graph.doesEdgeExist_iff (g := Graph.newDirected) (u := p.1) (v := p.2)).2 h
    exact absurd this Bool.false_ne_true
  refine ⟨?_, fun i hi => ?_, fun b c r hb => ?_⟩
  · have : ∀ (l : List (Nat × Nat)) (g : Graph), (∀ e ∈ l, e.1 < n ∧ e.2 < n) → g.vertexCount = n →
        (l.foldl (fun g e => g.addEdge e.1 e.2) g).vertexCount = n := by
      intro l
      induction l with
      | nil => intro g _ h; exact h
      | cons e l ih =>
        intro g h1 h2
        have he := h1 e (by simp)
        refine ih _ (fun x hx => h1 x (by simp [hx])) ?_
        rw [Graph.addEdge_vertexCount (by omega) (by omega), h2]
        omega
    exact this _ _ hl hv0
  · rw [Graph.doesEdgeExist_iff]
    exact (hp _).2 (.inr (.inl (List.mem_map.2 ⟨i, List.mem_range.2 hi, rfl⟩)))
  · rw [blockCount_fiber (star_reach n k s).ok hb]
    calc _ ≤ (star n k s).pairs.card := Finset.card_filter_le _ _
      _ ≤ (((List.range k).map fun i => (0, i * s)).toFinset).card := by
          refine Finset.card_le_card fun p hpm => ?_
          rcases (hp p).1 hpm with h | h | ⟨h, _⟩
          · exact absurd h (hp0 p)
          · exact List.mem_toFinset.2 h
          · rw [hu0] at h; cases h
      _ ≤ k := (List.toFinset_card_le _).trans (by simp)

/-- A row of `k` edges in a block is counted. -/
theorem le_blockCount {e : Nat → Nat → Bool} {b k : Nat} (hb : k ≤ b) (h0 : 0 < b) (h : ∀ i < k, e 0 i = true) :
    k ≤ blockCount e b 0 0 := by
  unfold blockCount
  calc k = ((Finset.range k).image fun i => (0, i)).card := by
        rw [Finset.card_image_of_injective _ (fun a b h => by simpa using h), Finset.card_range]
    _ ≤ _ := Finset.card_le_card fun p hp => by
        obtain ⟨i, hi, rfl⟩ := Finset.mem_image.1 hp
        rw [Finset.mem_range] at hi
        rw [Finset.mem_filter, Finset.mem_product, Finset.mem_range, Finset.mem_range]
        exact ⟨⟨h0, by omega⟩, by simpa using h i hi⟩

/-- **C88**, exactly: for block dimensions with a product below `2^32`, coarsening twice is coarsening once on all graphs
if and only if the product is at most `10^9` or one of the two steps does nothing. -/
theorem C88_exact {b₁ b₂ : Nat} (h1 : 1 ≤ b₁) (h2 : 1 ≤ b₂) (h32 : b₁ * b₂ < 2 ^ 32) :
    (∀ (g : Graph), GReach g → ∀ (P P' P'' : Platform) (o₁ o₂ o₃ o₄ o₅ o₆ : HashOrder) (t t' t'' : F64),
      NonPos t → NonPos t' → NonPos t'' →
      ∃ a a' a'', g.approximate P o₁ o₂ b₁ t = .ok a ∧ a.approximate P' o₃ o₄ b₂ t' = .ok a' ∧
        g.approximate P'' o₅ o₆ (b₁ * b₂) t'' = .ok a'' ∧ Same a' a'') ↔
      b₁ * b₂ ≤ 10 ^ 9 ∨ b₁ = 1 ∨ b₂ = 1 := by
  have heff : ∀ n b, b < 2 ^ 32 → effBlock n b < 2 ^ 32 := by intro n b h; unfold effBlock; omega
  have hb1 : b₁ ≤ b₁ * b₂ := Nat.le_mul_of_pos_right _ h2
  have hb2 : b₂ ≤ b₁ * b₂ := Nat.le_mul_of_pos_left _ h1
  constructor
  · intro hall
    by_contra hno
    push Not at hno
    obtain ⟨h9, hn1, hn2⟩ := hno
    -- the smallest number of edges that the first (or second) step keeps
    let big := max b₁ b₂
    let k := (big * big + 10 ^ 18 - 1) / 10 ^ 18
    let s := if b₁ ≤ 10 ^ 9 then b₁ else 1
    have hmul2 : 2 * big ≤ b₁ * b₂ := by
      rcases max_cases b₁ b₂ with ⟨h, _⟩ | ⟨h, _⟩
      · calc 2 * big = big * 2 := Nat.mul_comm ..
          _ ≤ b₁ * b₂ := by unfold big; rw [h]; exact Nat.mul_le_mul_left _ (by omega)
      · unfold big; rw [h]; exact Nat.mul_le_mul_right _ (by omega)
    have hbig : big < 2 ^ 31 := by omega
    have hbb : big * big ≤ 2 ^ 31 * 2 ^ 31 := Nat.mul_le_mul hbig.le hbig.le
    have hbpos : 2 ≤ big := by unfold big; omega
    have hbb0 : 1 ≤ big * big := Nat.mul_pos (by omega) (by omega)
    have hk1 : 1 ≤ k := by unfold k; omega
    have hk5 : k ≤ 5 := by unfold k; omega
    have hkb : big * big ≤ 10 ^ 18 * k := by unfold k; omega
    have hkone : big ≤ 10 ^ 9 → k = 1 := by
      intro h
      have := Nat.mul_le_mul h h
      unfold k; omega
    have hBB : 4 * (big * big) ≤ b₁ * b₂ * (b₁ * b₂) := by
      calc 4 * (big * big) = (2 * big) * (2 * big) := by ring
        _ ≤ _ := Nat.mul_le_mul hmul2 hmul2
    have hB9 : (10 ^ 9 + 1) * (10 ^ 9 + 1) ≤ b₁ * b₂ * (b₁ * b₂) := Nat.mul_le_mul h9 h9
    have hkB : 10 ^ 18 * k < b₁ * b₂ * (b₁ * b₂) := by
      by_cases hb : big ≤ 10 ^ 9
      · rw [hkone hb]; omega
      · have : (10 ^ 9 + 1) * (10 ^ 9 + 1) ≤ big * big := Nat.mul_le_mul (by omega) (by omega)
        unfold k; omega
    have hs1 : 1 ≤ s := by unfold s; split <;> omega
    have hsmall : b₁ ≤ 10 ^ 9 ∨ b₂ ≤ 10 ^ 9 := by
      by_contra hc
      push Not at hc
      have : (10 ^ 9 + 1) * (10 ^ 9 + 1) ≤ b₁ * b₂ := Nat.mul_le_mul hc.1 hc.2
      omega
    have hin : ∀ i < k, i * s < b₁ * b₂ := by
      intro i hi
      by_cases hb : b₁ ≤ 10 ^ 9
      · have hsv : s = b₁ := by unfold s; rw [if_pos hb]
        rw [hsv, Nat.mul_comm]
        refine Nat.mul_lt_mul_of_pos_left ?_ (by omega)
        by_cases hbk : big ≤ 10 ^ 9
        · rw [hkone hbk] at hi; omega
        · have : b₂ = big := by unfold big; unfold big at hbk; omega
          omega
      · have hsv : s = 1 := by unfold s; rw [if_neg hb]
        rw [hsv]; omega
    obtain ⟨hv, hedge, hcnt⟩ := star_spec (n := b₁ * b₂) (k := k) (s := s) (by omega)
      (by unfold U64_MAX; omega) hin
    have hg := star_reach (b₁ * b₂) k s
    have hz : NonPos (.fin 0) := Or.inr ⟨0, le_refl _, rfl⟩
    obtain ⟨a, a', a'', ha, ha', ha'', hsame⟩ := hall _ hg exP exP exP .id .id .id .id .id .id _ _ _ hz hz hz
    -- one step drops the block
    have hdrop : a''.doesEdgeExist 0 0 = false := by
      obtain ⟨x, hx, he⟩ := C45_zero_threshold_partial hg exP .id .id hz (by omega : 2 ≤ b₁ * b₂) (by omega) (by omega)
      rw [ha''] at hx; cases hx
      have := (he 0 0).1
      rw [hv, Nat.min_self] at this
      rw [Bool.eq_false_iff]
      intro ht
      obtain ⟨_, hle, _⟩ := this.1 ht
      have := hcnt (b₁ * b₂) 0 0 (by omega)
      omega
    -- two steps keep it
    obtain ⟨x, hx, he⟩ := C45_zero_threshold_partial hg exP .id .id hz (by omega : 2 ≤ b₁) (by omega) (by omega)
    rw [ha] at hx; cases hx
    rw [hv, Nat.min_eq_left hb1] at he
    have hav : a.vertexCount = b₂ := by
      obtain ⟨m, hm, _⟩ := pool_entry hg exP .id b₁ (heff _ _ (by omega))
      obtain ⟨y, hy, _, hn, _⟩ := C40_approximate_keeps hg exP .id .id (.fin 0) (by omega : 2 ≤ b₁) (by omega) hm
      rw [ha] at hy; cases hy
      rw [hn, hv, Nat.min_eq_left hb1]
      unfold ceilDiv
      rw [Nat.add_sub_assoc (by omega), Nat.mul_add_div (by omega), Nat.div_eq_of_lt (by omega), Nat.add_zero]
    have har : GReach a := .approximate _ _ _ _ _ hg ha
    obtain ⟨y, hy, he'⟩ := C45_zero_threshold_partial har exP .id .id hz (by omega : 2 ≤ b₂) (by omega) (by omega)
    rw [ha'] at hy; cases hy
    rw [hav, Nat.min_self] at he'
    have hkeep : a'.doesEdgeExist 0 0 = true := by
      by_cases hb : b₁ ≤ 10 ^ 9
      · have hsv : s = b₁ := by unfold s; rw [if_pos hb]
        have hrow : ∀ i < k, a.doesEdgeExist 0 i = true := by
          intro i hi
          refine ((he 0 i).2.1 hb).2 ?_
          have := hedge i hi
          unfold blockCount
          rw [Finset.card_pos]
          refine ⟨(0, 0), ?_⟩
          rw [Finset.mem_filter, Finset.mem_product, Finset.mem_range]
          rw [hsv] at this ⊢
          exact ⟨⟨by omega, by omega⟩, by simpa using this⟩
        have hkb2 : k ≤ b₂ := by
          by_cases hbk : big ≤ 10 ^ 9
          · rw [hkone hbk]; omega
          · have : b₂ = big := by unfold big; unfold big at hbk; omega
            omega
        have hle := le_blockCount hkb2 (by omega) hrow
        refine ((he' 0 0).1).2 ⟨by omega, ?_, by omega⟩
        have hb22 : b₂ * b₂ ≤ big * big := Nat.mul_le_mul (le_max_right _ _) (le_max_right _ _)
        omega
      · have hsv : s = 1 := by unfold s; rw [if_neg hb]
        have hb2s : b₂ ≤ 10 ^ 9 := by omega
        refine ((he' 0 0).2.1 hb2s).2 ?_
        have hle : k ≤ blockCount (star (b₁ * b₂) k s).doesEdgeExist b₁ 0 0 :=
          le_blockCount (by omega) (by omega) fun i hi => by
            have := hedge i hi
            rwa [hsv, Nat.mul_one, ← hsv] at this
        have hb11 : b₁ * b₁ ≤ big * big := Nat.mul_le_mul (le_max_left _ _) (le_max_left _ _)
        have h00 : a.doesEdgeExist 0 0 = true := ((he 0 0).1).2 ⟨by omega, by omega, by omega⟩
        exact (le_blockCount (k := 1) (by omega) (by omega) fun i hi => by
          obtain rfl : i = 0 := by omega
          exact h00)
    have := hsame.edge 0 0
    rw [hkeep, hdrop] at this
    cases this
  · rintro hcase g hg P P' P'' o₁ o₂ o₃ o₄ o₅ o₆ t t' t'' ht ht' ht''
    rcases hcase with h | rfl | rfl
    · exact C88_coarsen_twice_partial hg P P' P'' o₁ o₂ o₃ o₄ o₅ o₆ ht ht' ht'' h1 h2 (by omega)
    · obtain ⟨a', a'', ha', ha'', hs⟩ := approx_same hg (heff g.vertexCount b₂ (by omega)) ht' ht'' P' P'' o₃ o₄ o₅ o₆
      exact ⟨g, a', a'', C43_copy g P o₁ o₂ 1 t (.inl le_rfl), ha', by rw [Nat.one_mul]; exact ha'', hs⟩
    · obtain ⟨a, a'', ha, ha'', hs⟩ := approx_same hg (heff g.vertexCount b₁ (by omega)) ht ht'' P P'' o₁ o₂ o₅ o₆
      exact ⟨a, a, a'', ha, C43_copy a P' o₃ o₄ 1 t' (.inl le_rfl), by rw [Nat.mul_one]; exact ha'', hs⟩

/-- Both sides of the rule are met. -/
example : (1 ≤ 31623 ∧ 31623 * 31623 < 2 ^ 32 ∧ ¬ (31623 * 31623 ≤ 10 ^ 9 ∨ 31623 = 1 ∨ 31623 = 1)) ∧
    31622 * 31622 ≤ 10 ^ 9 := by norm_num

end Verif.Props
