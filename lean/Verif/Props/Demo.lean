import Verif.Model.Demo
import Verif.Props.Metamorphic
import Verif.Props.Scripts
import Verif.Props.PyText
import Verif.Props.Ieee

/-! # C104: the demo script -/

namespace Verif.Props
open Verif Spec Script

/-! ## Decimals are unique -/

theorem isDecimal_unique {d : Nat} {q : ℚ} {s s' : List Char} (h : IsDecimal d q s) (h' : IsDecimal d q s') : s = s' := by
  obtain ⟨k, h1, h2, f, hf, ⟨z, hz⟩, rfl⟩ := h
  obtain ⟨k', h1', h2', f', hf', ⟨z', hz'⟩, rfl⟩ := h'
  have hk : k = k' := by
    have a1 := abs_le.1 h1
    have a2 := abs_le.1 h1'
    have key : ∀ k k' : Nat, k < k' → |(k : ℚ) - |q| * 10 ^ d| ≤ 1 / 2 → |(k' : ℚ) - |q| * 10 ^ d| ≤ 1 / 2 →
        k' = k + 1 ∧ |(k : ℚ) - |q| * 10 ^ d| = 1 / 2 ∧ |(k' : ℚ) - |q| * 10 ^ d| = 1 / 2 := by
      intro k k' hlt h1 h2
      have b1 := abs_le.1 h1
      have b2 := abs_le.1 h2
      have hq : (k : ℚ) + 1 ≤ k' := by exact_mod_cast hlt
      have e1 : (k : ℚ) - |q| * 10 ^ d = -(1 / 2) := by linarith [b1.1, b2.2]
      have e2 : (k' : ℚ) - |q| * 10 ^ d = 1 / 2 := by linarith [b1.1, b2.2]
      refine ⟨?_, by rw [e1, abs_neg, abs_of_pos (by norm_num)], by rw [e2, abs_of_pos (by norm_num)]⟩
      have : (k' : ℚ) = k + 1 := by linarith
      exact_mod_cast this
    rcases Nat.lt_trichotomy k k' with h | h | h
    · obtain ⟨e, t1, t2⟩ := key k k' h h1 h1'
      have := h2 t1; have := h2' t2; omega
    · exact h
    · obtain ⟨e, t1, t2⟩ := key k' k h h1' h1
      have := h2 t2; have := h2' t1; omega
  subst hk
  have : z = z' := by
    have e := hf.trans hf'.symm
    rw [hz, hz'] at e
    simpa using e
  subst this
  rw [hz, hz']

/-! ## Steps of the script -/

/-- Enough memory for everything the script prints, if the largest matrix has dimension `d ≥ 9`. -/
def DemoRoom (V : Env) (d : Nat) : Prop :=
  9 ≤ d ∧ ∀ k, 65535 ≤ (V.E k).P.usizeMax ∧ 42 ≤ (V.E k).P.fmtMax ∧
    ∀ m ≤ 4 * d + 3 * (d * d), m ≤ (V.E k).P.usizeMax ∧ (V.E k).P.alloc m = true

/-- In state `s` the object number `i` is the graph `g`. -/
def Has (s : State) (i : Nat) (g : Graph) : Prop := ∃ a, At s a ∧ a[i]? = some (some (.graph g))

/-- `x` prints `out` and keeps the graph `g`. -/
def Prints (x : SM Unit) (i : Nat) (g : Graph) (out : List (List Char)) : Prop :=
  ∀ s, Has s i g → ∃ s', x s = .ok () s' ∧ Has s' i g ∧ s'.printed = s.printed ++ out

theorem Prints.then {x y : SM Unit} {i : Nat} {g : Graph} {o₁ o₂ : List (List Char)} (h : Prints x i g o₁) (h' : Prints y i g o₂) :
    Prints (do x; y) i g (o₁ ++ o₂) := by
  intro s hs
  obtain ⟨s₁, e1, h1, p1⟩ := h s hs
  obtain ⟨s₂, e2, h2, p2⟩ := h' s₁ h1
  exact ⟨s₂, by rw [bind_ok e1, e2], h2, by rw [p2, p1, List.append_assoc]⟩

theorem printAll_run (l : List String) : ∀ s : State, printAll l s = .ok () { s with printed := s.printed ++ l.map String.toList } := by
  induction l with
  | nil => intro s; unfold printAll; simp only [List.map_nil, List.append_nil]; rfl
  | cons x l ih =>
    intro s
    unfold printAll
    rw [bind_ok (show print x.toList s = .ok () _ from rfl), ih]
    simp

theorem prints_all (l : List String) (i : Nat) (g : Graph) : Prints (printAll l) i g (l.map String.toList) :=
  fun s hs => ⟨_, printAll_run l s, hs, rfl⟩

theorem append_get {a : AWorld} {i : Nat} {x : Option AObj} (h : a[i]? = some x) (y : Option AObj) : (a ++ [y])[i]? = some x := by
  rw [List.getElem?_append_left (List.getElem?_eq_some_iff.1 h).1, h]

theorem append_last (a : AWorld) (y : Option AObj) : (a ++ [y])[a.length]? = some y := by
  rw [List.getElem?_append_right (Nat.le_refl _), Nat.sub_self]; rfl

/-- Printing a graph of moderate size. -/
theorem print_graph {V : Env} {d : Nat} (hV : DemoRoom V d) {s : State} {a : AWorld} (h : At s a) {i : Nat} {g : Graph}
    (hi : a[i]? = some (some (.graph g))) (hn : g.vertexCount ≠ 0) (hd : g.vertexCount ≤ d) :
    ∃ s', printGraph V i s = .ok () s' ∧ At s' a ∧ s'.printed = s.printed ++ [graphText g.vertexCount g.doesEdgeExist] := by
  obtain ⟨-, hV⟩ := hV
  obtain ⟨h1, h2, h3⟩ := hV s.calls
  have hsz : 4 * g.vertexCount + 3 * (g.vertexCount * g.vertexCount) ≤ 4 * d + 3 * (d * d) :=
    Nat.add_le_add (Nat.mul_le_mul_left _ hd) (Nat.mul_le_mul_left _ (Nat.mul_le_mul hd hd))
  have hpos : 0 < g.vertexCount * g.vertexCount := Nat.mul_pos (by omega) (by omega)
  have e := ((C49_matrix_string g (V.E s.calls).P).2 hn).1
    (by have := (h3 _ hsz).1; omega) (h3 _ (by omega)).2
  have hp := pyStep_call (E := V.E s.calls) hi .matrixString
  rw [AObj.means, e, show AOut.text (.ok (graphText g.vertexCount g.doesEdgeExist)) = _ from
    if_neg (Graph.matrixString_noNul e)] at hp
  obtain ⟨w', hw, hat⟩ := gx_ret h hp
  refine ⟨⟨s.calls + 1, w', s.printed ++ [graphText g.vertexCount g.doesEdgeExist]⟩, ?_, hat, rfl⟩
  unfold printGraph
  rw [bind_ok hw, bind_ok (show asStr (.str _) _ = .ok _ _ from rfl)]
  rfl

theorem prints_graph {V : Env} {d : Nat} (hV : DemoRoom V d) {i : Nat} {g : Graph} (hn : g.vertexCount ≠ 0) (hd : g.vertexCount ≤ d) :
    Prints (printGraph V i) i g [graphText g.vertexCount g.doesEdgeExist] := by
  rintro s ⟨a, hat, hi⟩
  obtain ⟨s', h1, h2, h3⟩ := print_graph hV hat hi hn hd
  exact ⟨s', h1, ⟨a, h2, hi⟩, h3⟩

theorem prints_approx {V : Env} {d : Nat} (hV : DemoRoom V d) {i : Nat} {g : Graph} {b : Int} {t : F64} {n : Nat} {f : Nat → Nat → Bool}
    (hn : n ≠ 0) (hd : n ≤ d) (hap : ∀ k, ∃ a, g.approximate (V.E k).P (V.E k).o₁ (V.E k).o₂ (toId b) t = .ok a ∧ a.vertexCount = n ∧
      ∀ c r, a.doesEdgeExist c r = f c r) :
    Prints (printApprox V i b t) i g [graphText n f] := by
  rintro s ⟨a, hat, hi⟩
  obtain ⟨g', hg', rfl, hf⟩ := hap s.calls
  have hp := pyStep_call (E := V.E s.calls) hi (.approximate b t)
  rw [AObj.means, hg'] at hp
  obtain ⟨w', hw, hat'⟩ := gx_ret hat hp
  obtain ⟨s', h1, h2, h3⟩ := print_graph hV hat' (append_last a (some (.graph g'))) hn hd
  refine ⟨s', ?_, ⟨_, h2, append_get hi _⟩, ?_⟩
  · unfold printApprox
    rw [bind_ok hw, bind_ok (show asRef (.ref a.length) _ = .ok a.length _ from rfl), h1]
  · rw [h3, show g'.doesEdgeExist = f from funext fun c => funext fun r => hf c r]

/-- The text of a pooled matrix with two decimals. -/
def poolText (n b : Nat) (edge : Nat → Nat → Bool) : List Char :=
  grid n fun c r => rightAligned 4 (f64Chars (.fin (F64.poolQ (b * b) (blockCount edge b c r))) 2)

theorem pool_text {g : Graph} (hg : GReach g) {P : Platform} (o o₁ o₂ : HashOrder) {b n : Nat} (hb : effBlock g.vertexCount b ≤ 2 ^ 26)
    (hn : g.vertexCount ≠ 0) (he : g.edgeCount ≠ 0) (hdim : ceilDiv g.vertexCount (effBlock g.vertexCount b) = n) (hn0 : n ≠ 0)
    (hf : 42 ≤ P.fmtMax) (hs : 4 * n + 6 * (n * n) ≤ P.usizeMax) (ha : P.alloc (4 * n + 6 * (n * n) - 2) = true) :
    ∃ m, g.findAvgPoolMatrix P o b = .ok m ∧
      m.toStringWithPrecision P f64Fmt o₁ o₂ 2 = .ok (poolText n (effBlock g.vertexCount b) g.doesEdgeExist) := by
  obtain ⟨m, hm, text, ht, hsh⟩ := C67_pooled_text hg P o b (by omega) 2 (by norm_num) (by omega)
  obtain ⟨m', hm', hd, -⟩ := C38_pooling_covers hg P o .id b (by omega)
  rw [hm] at hm'; cases hm'
  obtain ⟨m', hm', hv⟩ := C94_pooling_rounds hg P o b (by omega)
  rw [hm] at hm'; cases hm'
  rw [if_neg hn, hdim] at hd
  have h1 := (hsh o₁ o₂).1
  rw [if_neg he, hd] at h1
  refine ⟨m, hm, ?_⟩
  rw [h1.shows hn0 hs ha]
  unfold poolText
  congr 2
  funext c r
  congr 1
  obtain ⟨q, hq, _, _, hdec⟩ := ht c r
  have hpos : 0 < effBlock g.vertexCount b := by unfold effBlock; omega
  have hU : effBlock g.vertexCount b * effBlock g.vertexCount b ≤ U64_MAX :=
    (Nat.mul_le_mul hb hb).trans (by norm_num [U64_MAX])
  obtain ⟨r1, r2, r3⟩ := pool_rounds (Nat.mul_pos hpos hpos) hU (blockCount g.doesEdgeExist (effBlock g.vertexCount b) c r)
  obtain ⟨sq, y, v1, v2, v3⟩ := hv c r
  have u := C94_rounds_to_one.1
  have e1 := (u _).unique v1 r1
  cases e1
  have e2 := (u _).unique v2 r2
  cases e2
  have e3 := (u _).unique v3 r3
  rw [hq] at e3
  cases e3
  exact isDecimal_unique hdec (isDecimal_f64Chars 2 (by norm_num) _)

theorem prints_pool {V : Env} {d : Nat} (hV : DemoRoom V d) {i : Nat} {g : Graph} (hg : GReach g) {b : Int} {n : Nat}
    (hb : effBlock g.vertexCount (toId b) ≤ 2 ^ 26) (hn : g.vertexCount ≠ 0) (he : g.edgeCount ≠ 0)
    (hdim : ceilDiv g.vertexCount (effBlock g.vertexCount (toId b)) = n) (hn0 : n ≠ 0) (hn6 : n ≤ 6) :
    Prints (printPool V i b) i g [poolText n (effBlock g.vertexCount (toId b)) g.doesEdgeExist] := by
  rintro s ⟨a, hat, hi⟩
  obtain ⟨hd9, hV⟩ := hV
  obtain ⟨h1, h2, h3⟩ := hV (s.calls + 1)
  have h81 : 9 * 9 ≤ d * d := Nat.mul_le_mul hd9 hd9
  have hnn : n * n ≤ 6 * 6 := Nat.mul_le_mul hn6 hn6
  have key := fun P o o₁ o₂ => pool_text hg (P := P) o o₁ o₂ hb hn he hdim hn0
  obtain ⟨m, hm, -⟩ := C38_pooling_covers hg (V.E s.calls).P (V.E s.calls).o₁ .id (toId b) (by omega)
  have hp := pyStep_call (E := V.E s.calls) hi (.findAvgPoolMatrix b)
  rw [AObj.means, hm] at hp
  obtain ⟨w', hw, hat'⟩ := gx_ret hat hp
  obtain ⟨m', hm', ht⟩ := key (V.E (s.calls + 1)).P (V.E s.calls).o₁ (V.E (s.calls + 1)).o₁ (V.E (s.calls + 1)).o₂ h2
    (by have := (h3 (4 * d + 3 * (d * d)) (Nat.le_refl _)).1; omega)
    (h3 (4 * n + 6 * (n * n) - 2) (by omega)).2
  rw [pool_platform (g := g) _ (V.E s.calls).P _ (by omega), hm] at hm'
  cases hm'
  have hp' := pyStep_call (E := V.E (s.calls + 1)) (append_last a (some (.matrix m))) .str
  rw [AObj.means, show toSize (V.E (s.calls + 1)).P 2 = 2 by
    unfold toSize; rw [Int.emod_eq_of_lt (by omega) (by omega)]; rfl, ht,
    show AOut.text (.ok (poolText n (effBlock g.vertexCount (toId b)) g.doesEdgeExist)) = _ from
    if_neg (noNul_grid fun _ _ => noNul_rightAligned (noNul_f64Chars _ _))] at hp'
  obtain ⟨w'', hw'', hat''⟩ := gx_ret hat' hp'
  refine ⟨⟨s.calls + 2, w'', s.printed ++ [poolText n (effBlock g.vertexCount (toId b)) g.doesEdgeExist]⟩, ?_,
    ⟨_, hat'', append_get hi _⟩, rfl⟩
  unfold printPool
  rw [bind_ok hw, bind_ok (show asRef (.ref a.length) _ = .ok a.length _ from rfl), bind_ok hw'',
    bind_ok (show asStr (.str _) _ = .ok _ _ from rfl)]
  rfl

/-! ## The example graph -/

/-- The graph of the script. -/
def demoG : Graph := runCode true [.addEdge 7 8, .addEdge 5 5, .addEdge 5 4, .addVertex 1 (some [0, 2, 4, 7, 3]),
  .addVertex 5 (some [6, 8, 0, 1, 5, 4, 2])]

theorem demoG_reach : GReach demoG := reach_runCode _ _

/-- One edit of a graph. -/
theorem edit_step {V : Env} {s : State} {i : Nat} {g g' : Graph} (h : Has s i g) (m : Method)
    (hm : ∀ E a, AObj.means E a i (.graph g) m = .step (.graph g') .none) :
    ∃ s', gx V (.call i m) s = .ok .none s' ∧ Has s' i g' ∧ s'.printed = s.printed := by
  obtain ⟨a, hat, hi⟩ := h
  have hp := pyStep_call (E := V.E s.calls) hi m
  rw [hm] at hp
  obtain ⟨w', hw, hat'⟩ := gx_ret hat hp
  exact ⟨_, hw, ⟨_, hat', by rw [List.getElem?_set_self (List.getElem?_eq_some_iff.1 hi).1]⟩, rfl⟩

theorem demoGraph_run (V : Env) {s : State} {a : AWorld} (h : At s a) :
    ∃ i s', demoGraph V s = .ok i s' ∧ Has s' i demoG ∧ s'.printed = s.printed := by
  obtain ⟨w, hw, hat⟩ := gx_ret (V := V) (c := .newGraph true) h rfl
  have h0 : Has ⟨s.calls + 1, w, s.printed⟩ a.length Graph.newUndirected := ⟨_, hat, append_last _ _⟩
  generalize hG : Graph.newUndirected = g₀ at h0
  obtain ⟨s₁, e1, h1, p1⟩ := edit_step (V := V) h0 (.addEdge 7 8) (g' := (Edit.addEdge 7 8).call g₀) (fun _ _ => rfl)
  generalize hG1 : (Edit.addEdge 7 8).call g₀ = g₁ at h1
  obtain ⟨s₂, e2, h2, p2⟩ := edit_step (V := V) h1 (.addEdge 5 5) (g' := (Edit.addEdge 5 5).call g₁) (fun _ _ => rfl)
  generalize hG2 : (Edit.addEdge 5 5).call g₁ = g₂ at h2
  obtain ⟨s₃, e3, h3, p3⟩ := edit_step (V := V) h2 (.addEdge 5 4) (g' := (Edit.addEdge 5 4).call g₂) (fun _ _ => rfl)
  generalize hG3 : (Edit.addEdge 5 4).call g₂ = g₃ at h3
  obtain ⟨s₄, e4, h4, p4⟩ := edit_step (V := V) h3 (.addVertex 1 (some [0, 2, 4, 7, 3]))
    (g' := (Edit.addVertex 1 (some [0, 2, 4, 7, 3])).call g₃) (fun _ _ => rfl)
  generalize hG4 : (Edit.addVertex 1 (some [0, 2, 4, 7, 3])).call g₃ = g₄ at h4
  obtain ⟨s₅, e5, h5, p5⟩ := edit_step (V := V) h4 (.addVertex 5 (some [6, 8, 0, 1, 5, 4, 2]))
    (g' := (Edit.addVertex 5 (some [6, 8, 0, 1, 5, 4, 2])).call g₄) (fun _ _ => rfl)
  have hd : demoG = (Edit.addVertex 5 (some [6, 8, 0, 1, 5, 4, 2])).call g₄ := by
    unfold demoG runCode
    rw [if_pos rfl]
    simp only [List.foldl]
    rw [hG, hG1, hG2, hG3, hG4]
  rw [← hd] at h5
  refine ⟨a.length, s₅, ?_, h5, by rw [p5, p4, p3, p2, p1]⟩
  unfold demoGraph
  rw [bind_ok hw, bind_ok (show asRef (.ref a.length) _ = .ok a.length _ from rfl), bind_ok e1, bind_ok e2, bind_ok e3,
    bind_ok e4, bind_ok e5]
  rfl

/-- The edges that an approximation keeps. -/
def keeps (g : Graph) (b : Nat) (t : F64) (c r : Nat) : Bool :=
  decide (0 < blockCount g.doesEdgeExist (min b g.vertexCount) c r) &&
    F64.le (effThreshold t) (.fin (F64.poolQ (min b g.vertexCount * min b g.vertexCount)
      (blockCount g.doesEdgeExist (min b g.vertexCount) c r)))

theorem approximate_keeps {g : Graph} (hg : GReach g) (P : Platform) (o₁ o₂ : HashOrder) {b : Nat} (t : F64)
    (hb : 2 ≤ b) (hn : 2 ≤ g.vertexCount) (h32 : min b g.vertexCount < 2 ^ 32) :
    ∃ a, g.approximate P o₁ o₂ b t = .ok a ∧ a.vertexCount = ceilDiv g.vertexCount (min b g.vertexCount) ∧
      ∀ c r, a.doesEdgeExist c r = keeps g b t c r := by
  obtain ⟨a, ha, he⟩ := approx_edges hg P o₁ o₂ t hb hn h32
  obtain ⟨m, hm, -⟩ := C38_pooling_covers hg P o₁ .id b (by unfold effBlock; omega)
  obtain ⟨a', ha', -, hv, -⟩ := C40_approximate_keeps hg P o₁ o₂ t hb hn hm
  rw [ha] at ha'
  cases ha'
  refine ⟨a, ha, hv, fun c r => ?_⟩
  rw [Bool.eq_iff_iff, he]
  simp [keeps]

/-- What the script prints about the example graph. -/
def demoLines : List String :=
  ["GraphRox Demo", "", "GraphRox is a C library (with a Python wrapper) for generating approximations",
   "of graphs for the purpose of fast graph calculations.", "",
   "Adjacency matrix of an example graph with dimension of 9",
   "[ 0, 1, 0, 0, 0, 1, 0, 0, 0 ]\r\n[ 1, 0, 1, 1, 1, 1, 0, 1, 0 ]\r\n[ 0, 1, 0, 0, 0, 1, 0, 0, 0 ]\r\n" ++
   "[ 0, 1, 0, 0, 0, 0, 0, 0, 0 ]\r\n[ 0, 1, 0, 0, 0, 1, 0, 0, 0 ]\r\n[ 1, 1, 1, 0, 1, 1, 1, 0, 1 ]\r\n" ++
   "[ 0, 0, 0, 0, 0, 1, 0, 0, 0 ]\r\n[ 0, 1, 0, 0, 0, 0, 0, 0, 1 ]\r\n[ 0, 0, 0, 0, 0, 1, 0, 1, 0 ]",
   "", "2x2-block Average Pool Matrix",
   "[ 0.50, 0.50, 0.75, 0.25, 0.00 ]\r\n[ 0.50, 0.00, 0.25, 0.00, 0.00 ]\r\n[ 0.75, 0.25, 0.75, 0.25, 0.25 ]\r\n" ++
   "[ 0.25, 0.00, 0.25, 0.00, 0.25 ]\r\n[ 0.00, 0.00, 0.25, 0.25, 0.00 ]",
   "", "Approximation using 2x2 blocks and a threshold of 0.3",
   "[ 1, 1, 1, 0, 0 ]\r\n[ 1, 0, 0, 0, 0 ]\r\n[ 1, 0, 1, 0, 0 ]\r\n[ 0, 0, 0, 0, 0 ]\r\n[ 0, 0, 0, 0, 0 ]",
   "", "3x3-block Average Pool Matrix",
   "[ 0.44, 0.56, 0.11 ]\r\n[ 0.56, 0.33, 0.22 ]\r\n[ 0.11, 0.22, 0.22 ]",
   "", "Approximation using 3x3 blocks and a threshold of 0.2",
   "[ 1, 1, 0 ]\r\n[ 1, 1, 1 ]\r\n[ 0, 1, 1 ]",
   "", "--------------------------------------------------------------------------------", ""]

theorem demoG_texts :
    graphText 9 demoG.doesEdgeExist = demoLines[6].toList ∧
    poolText 5 2 demoG.doesEdgeExist = demoLines[9].toList ∧
    graphText 5 (keeps demoG 2 (F64.lit (3 / 10))) = demoLines[12].toList ∧
    poolText 3 3 demoG.doesEdgeExist = demoLines[15].toList ∧
    graphText 3 (keeps demoG 3 (F64.lit (2 / 10))) = demoLines[18].toList := by
  refine ⟨?_, ?_, ?_, ?_, ?_⟩ <;> decide +kernel

theorem vertex_count_run {V : Env} {s : State} {i : Nat} {g : Graph} (h : Has s i g) :
    ∃ s', gx V (.call i .vertexCount) s = .ok (.int g.vertexCount) s' ∧ Has s' i g ∧ s'.printed = s.printed := by
  obtain ⟨a, hat, hi⟩ := h
  obtain ⟨w', hw, hat'⟩ := gx_ret hat (pyStep_call (E := V.E s.calls) hi .vertexCount)
  exact ⟨_, hw, ⟨_, hat', hi⟩, rfl⟩

theorem edge_count_run {V : Env} {s : State} {i : Nat} {g : Graph} (h : Has s i g) :
    ∃ s', gx V (.call i .edgeCount) s = .ok (.int g.edgeCount) s' ∧ Has s' i g ∧ s'.printed = s.printed := by
  obtain ⟨a, hat, hi⟩ := h
  obtain ⟨w', hw, hat'⟩ := gx_ret hat (pyStep_call (E := V.E s.calls) hi .edgeCount)
  exact ⟨_, hw, ⟨_, hat', hi⟩, rfl⟩

/-- **C104.** The first part of the demo prints the same text in every environment with enough memory: on every platform, for all orders
in which the hash tables enumerate their entries, and whatever the program did before. -/
theorem C104_example {V : Env} (hV : DemoRoom V 9) {s : State} (hs : Started s) :
    ∃ s', demoExample V s = .ok () s' ∧ Started s' ∧ s'.printed = s.printed ++ demoLines.map String.toList := by
  obtain ⟨t, a, hR⟩ := hs
  have hat : At s a := ⟨t, hR⟩
  set s₀ : State := ⟨s.calls, s.world, s.printed ++ (demoLines.take 5).map String.toList⟩ with hs0
  obtain ⟨i, s₁, e1, h1, p1⟩ := demoGraph_run V (s := s₀) (a := a) hat
  obtain ⟨s₂, e2, h2, p2⟩ := vertex_count_run (V := V) h1
  have hn : demoG.vertexCount = 9 := by decide +kernel
  have he : demoG.edgeCount ≠ 0 := by decide +kernel
  obtain ⟨t1, t2, t3, t4, t5⟩ := demoG_texts
  have q1 := prints_graph hV (i := i) (g := demoG) (by omega) (by omega)
  have q2 := prints_pool hV (i := i) demoG_reach (b := 2) (n := 5) (by rw [hn]; decide +kernel) (by omega) he
    (by rw [hn]; decide +kernel) (by omega) (by omega)
  have q3 := prints_approx hV (i := i) (g := demoG) (b := 2) (t := F64.lit (3 / 10)) (n := 5) (f := keeps demoG 2 (F64.lit (3 / 10))) (by omega) (by omega)
    (fun k => by
      obtain ⟨a, h1, h2, h3⟩ := approximate_keeps demoG_reach (V.E k).P (V.E k).o₁ (V.E k).o₂ (b := 2) (F64.lit (3 / 10)) (by omega) (by omega) (by omega)
      exact ⟨a, h1, by rw [h2, hn]; decide +kernel, h3⟩)
  have q4 := prints_pool hV (i := i) demoG_reach (b := 3) (n := 3) (by rw [hn]; decide +kernel) (by omega) he
    (by rw [hn]; decide +kernel) (by omega) (by omega)
  have q5 := prints_approx hV (i := i) (g := demoG) (b := 3) (t := F64.lit (2 / 10)) (n := 3) (f := keeps demoG 3 (F64.lit (2 / 10))) (by omega) (by omega)
    (fun k => by
      obtain ⟨a, h1, h2, h3⟩ := approximate_keeps demoG_reach (V.E k).P (V.E k).o₁ (V.E k).o₂ (b := 3) (F64.lit (2 / 10)) (by omega) (by omega) (by omega)
      exact ⟨a, h1, by rw [h2, hn]; decide +kernel, h3⟩)
  rw [hn, t1] at q1
  rw [hn, show effBlock 9 (toId 2) = 2 by decide +kernel, t2] at q2
  rw [t3] at q3
  rw [hn, show effBlock 9 (toId 3) = 3 by decide +kernel, t4] at q4
  rw [t5] at q5
  have q := q1.then ((prints_all ["", "2x2-block Average Pool Matrix"] _ _).then
    (q2.then ((prints_all ["", "Approximation using 2x2 blocks and a threshold of 0.3"] _ _).then
    (q3.then ((prints_all ["", "3x3-block Average Pool Matrix"] _ _).then
    (q4.then ((prints_all ["", "Approximation using 3x3 blocks and a threshold of 0.2"] _ _).then
    (q5.then (prints_all ["", "--------------------------------------------------------------------------------", ""] i demoG)))))))))
  obtain ⟨s₃, e3, ⟨a₃, ⟨t₃, h3⟩, -⟩, p3⟩ := q ⟨s₂.calls, s₂.world, s₂.printed ++ [demoLines[5].toList]⟩ h2
  refine ⟨s₃, ?_, ⟨t₃, a₃, h3⟩, ?_⟩
  · unfold demoExample
    rw [bind_ok (printAll_run _ s)]
    refine (bind_ok e1).trans ?_
    rw [bind_ok e2, hn, bind_ok (show asInt (.int 9) _ = .ok 9 _ from rfl)]
    refine (bind_ok (show print _ s₂ = .ok () ⟨s₂.calls, s₂.world, s₂.printed ++ [demoLines[5].toList]⟩ from rfl)).trans ?_
    exact e3
  · rw [p3, p2, p1]
    simp only [hs0, List.append_assoc]
    rfl

/-! ## The sample files -/

/-- The edge from `u` to `v` is in the file. -/
def fileEdge (b : Bytes) (u v : Nat) : Bool := decide ((u, v) ∈ meantEdges (field b 24 1 == 1) (listedEdges b (field b 16 8)))

theorem fileEdge_eq {P : Platform} {b : Bytes} (hP : b.length ≤ P.usizeMax) {g : Graph} (h : Graph.tryFrom P b = .ok g) :
    g.doesEdgeExist = fileEdge b := by
  funext u v
  rw [Bool.eq_iff_iff, (C17_decoded_is_what_bytes_say hP h).2.2.2.2 u v]
  unfold fileEdge meantEdges
  rw [decide_eq_true_iff]
  by_cases hu : field b 24 1 = 1
  · simp only [hu, true_and, beq_self_eq_true, if_true, List.mem_toFinset, List.mem_append, List.mem_map]
    refine or_congr Iff.rfl ⟨fun h => ⟨_, h, rfl⟩, ?_⟩
    rintro ⟨⟨x, y⟩, h, he⟩
    cases he
    exact h
  · simp [hu]

/-- The four lines about a sample file: the numbers of vertices and edges, and one digit for every block of `B × B` places of the
adjacency matrix, `1` if at least `K` of them are edges. -/
def sampleText (b : Bytes) (title : String) (B K : Nat) : List (List Char) :=
  ["This graph has ".toList ++ numeral (field b 8 8) ++ " nodes and ".toList ++ numeral (field b 16 8) ++ " edges".toList, [],
   title.toList, graphText (ceilDiv (field b 8 8) B) (fun c r => decide (K ≤ blockCount (fileEdge b) B c r)), []]

theorem le_mono {t : F64} {x y : ℚ} (h : F64.le t (.fin x) = true) (hxy : x ≤ y) : F64.le t (.fin y) = true := by
  cases t with
  | nan => cases h
  | inf n => cases n with | true => rfl | false => cases h
  | fin q => exact decide_eq_true ((of_decide_eq_true h).trans hxy)

/-- The digits agree with the decision of `approximate`. -/
theorem keeps_iff {g : Graph} {B K : Nat} {t : F64} (hB : 1 ≤ B) (hU : B * B ≤ U64_MAX) (hn : B ≤ g.vertexCount)
    (hK : 0 < K) (h1 : F64.le (effThreshold t) (.fin (F64.poolQ (B * B) (K - 1))) = false)
    (h2 : F64.le (effThreshold t) (.fin (F64.poolQ (B * B) K)) = true) (c r : Nat) :
    keeps g B t c r = decide (K ≤ blockCount g.doesEdgeExist B c r) := by
  have hs : 1 ≤ B * B := Nat.mul_pos hB hB
  unfold keeps
  rw [Nat.min_eq_left hn, Bool.eq_iff_iff]
  generalize blockCount g.doesEdgeExist B c r = k
  simp only [Bool.and_eq_true, decide_eq_true_iff]
  constructor
  · rintro ⟨-, h⟩
    by_contra hk
    have := le_mono h (F64.poolQ_mono hs hU (show k ≤ K - 1 by omega))
    rw [h1] at this
    cases this
  · intro hk
    exact ⟨by omega, le_mono h2 (F64.poolQ_mono hs hU hk)⟩

theorem str_numeral (n : Nat) : str n = numeral n := by
  unfold str numeral
  rw [if_neg (by omega)]
  show (Nat.repr n).toList = _
  unfold Nat.repr
  rw [String.toList_ofList]
  rfl

theorem demoFile_run {V : Env} {d : Nat} (hV : DemoRoom V d) {s : State} (hs : Started s) {b : Bytes} (hb : ValidGraphFile b)
    (hP : ∀ k, b.length ≤ (V.E k).P.usizeMax) (title : String) {B K : Nat} {t : F64} (hB : 2 ≤ B) (hU : B < 2 ^ 32)
    (hn : B ≤ field b 8 8) (hd : ceilDiv (field b 8 8) B ≤ d)
    (hK : 0 < K) (h1 : F64.le (effThreshold t) (.fin (F64.poolQ (B * B) (K - 1))) = false)
    (h2 : F64.le (effThreshold t) (.fin (F64.poolQ (B * B) K)) = true) :
    ∃ s', demoFile V (some b) title B t s = .ok () s' ∧ Started s' ∧ s'.printed = s.printed ++ sampleText b title B K := by
  obtain ⟨tr, a, hr⟩ := hs
  obtain ⟨g, hg⟩ := (C18_accepts_iff (hP s.calls)).2 hb
  have e1 : pyStep (V.E s.calls) (.graphFromBytes b) a = .ret (.ref a.length) (a ++ [some (.graph g)]) := by
    simp only [pyStep, hg]; rfl
  obtain ⟨w₁, e2, hat⟩ := gx_ret ⟨tr, hr⟩ e1
  have hgood : GReach g := reached_good hat.choose_spec (append_last _ _)
  obtain ⟨f1, f2, -⟩ := C17_decoded_is_what_bytes_say (hP _) hg
  have h0 : Has ⟨s.calls + 1, w₁, s.printed⟩ a.length g := ⟨_, hat, append_last _ _⟩
  obtain ⟨s₂, e3, h3, p3⟩ := vertex_count_run (V := V) h0
  obtain ⟨s₃, e4, h4, p4⟩ := edge_count_run (V := V) h3
  have hid : toId (B : Int) = B := by
    unfold toId; rw [Int.emod_eq_of_lt (by omega) (by omega)]; rfl
  have q := prints_approx hV (i := a.length) (g := g) (b := (B : Int)) (t := t) (n := ceilDiv (field b 8 8) B)
    (f := fun c r => decide (K ≤ blockCount (fileEdge b) B c r))
    (Graph.ceilDiv_pos (by omega) (by omega)).ne' hd
    (fun k => by
      obtain ⟨a, h1', h2', h3'⟩ := approximate_keeps hgood (V.E k).P (V.E k).o₁ (V.E k).o₂ (b := B) t hB (by omega) (by omega)
      rw [hid]
      refine ⟨a, h1', by rw [h2', f1, Nat.min_eq_left hn], fun c r => ?_⟩
      rw [h3', keeps_iff (by omega) (Graph.sq_le_U64 hU) (by omega) hK h1 h2, fileEdge_eq (hP _) hg])
  obtain ⟨s₄, e5, ⟨a₅, ⟨t₅, h5⟩, -⟩, p5⟩ := ((prints_all ["", title] a.length g).then q)
    ⟨s₃.calls, s₃.world, s₃.printed ++ ["This graph has ".toList ++ numeral (field b 8 8) ++ " nodes and ".toList ++
      numeral (field b 16 8) ++ " edges".toList]⟩ h4
  refine ⟨⟨s₄.calls, s₄.world, s₄.printed ++ [[]]⟩, ?_, ⟨t₅, a₅, h5⟩, ?_⟩
  · unfold demoFile
    rw [bind_ok (show readFile (some b) s = .ok b s from rfl), bind_ok e2,
      bind_ok (show asRef (.ref a.length) _ = .ok a.length _ from rfl), bind_ok e3,
      bind_ok (show asInt (.int g.vertexCount) _ = .ok g.vertexCount _ from rfl), bind_ok e4,
      bind_ok (show asInt (.int g.edgeCount) _ = .ok g.edgeCount _ from rfl), f1, f2]
    rw [str_numeral, str_numeral]
    refine (bind_ok (show print _ s₃ = .ok () ⟨s₃.calls, s₃.world, s₃.printed ++ ["This graph has ".toList ++ numeral (field b 8 8) ++
      " nodes and ".toList ++ numeral (field b 16 8) ++ " edges".toList]⟩ from rfl)).trans ?_
    have e5' := congrArg (fun x => SM.bind (fun _ => x) (fun _ => print []) s₃) e5
    exact e5'

  · rw [p5, p4, p3]
    simp [sampleText]

theorem demoFile_missing (V : Env) (s : State) (title : String) (B : Int) (t : F64) :
    demoFile V none title B t s = .raised .FileNotFoundError s := rfl

theorem demoFile_invalid {V : Env} {s : State} (hs : Started s) {b : Bytes} (hb : ¬ ValidGraphFile b)
    (hP : b.length ≤ (V.E s.calls).P.usizeMax) (title : String) (B : Int) (t : F64) :
    ∃ s', demoFile V (some b) title B t s = .raised (.fromModule .TypeError) s' ∧ Started s' ∧ s'.printed = s.printed := by
  obtain ⟨tr, a, hr⟩ := hs
  obtain ⟨w', h1, h2⟩ := (C74_from_bytes_partial hr (V.E s.calls) b hP).2.1 hb
  refine ⟨⟨s.calls + 1, w', s.printed⟩, ?_, ⟨_, _, h2⟩, rfl⟩
  have : gx V (.graphFromBytes b) s = .raised (.fromModule .TypeError) ⟨s.calls + 1, w', s.printed⟩ := by unfold gx; rw [h1]
  unfold demoFile
  rw [bind_ok (show readFile (some b) s = .ok b s from rfl)]
  show SM.bind _ _ s = _
  unfold SM.bind
  rw [this]

/-! ## The whole script -/

/-- The text before the first sample. -/
def hepLines : List String :=
  ["Loading graph from ca-HepPh.gphrx...", "",
   "This graph represents the co-author network from Arxiv in the HEP-PH (High",
   "Energy Physics - Phenomenology) category for papers published between January", "1993 and April 2003", ""]

/-- The text before the second sample. -/
def astroLines : List String :=
  ["--------------------------------------------------------------------------------", "",
   "Loading graph from ca-AstroPh.gphrx...", "",
   "This graph represents the co-author network from Arxiv in the ASTRO-PH (Astro",
   "Physics) category for papers published between January 1993 and April 2003", ""]

/-- The end of the text. -/
def endLines : List String :=
  ["", "", "Co-author network graphs are provied courtesy of Stanford University and can",
   "be found at the following web address: http://snap.stanford.edu/data/", "", "Citation for co-author network graphs:",
   "J. Leskovec, J. Kleinberg and C. Faloutsos. Graph Evolution: Densification and",
   "Shrinking Diameters. ACM Transactions on Knowledge Discovery from Data (ACM", "TKDD), 1(1), 2007."]

/-- The lines about the first sample: blocks with at least 3825 of 1500 × 1500 places. -/
def hepSample (b : Bytes) : List (List Char) :=
  sampleText b "Approximation using 1500x1500 blocks and a threshold of 0.0017" 1500 3825

/-- The lines about the second sample: blocks with at least 4600 of 2000 × 2000 places. -/
def astroSample (b : Bytes) : List (List Char) :=
  sampleText b "Approximation using 2000x2000 blocks and a threshold of 0.00115" 2000 4600

/-- A graph file that the script can show: valid, readable by the platform, with at least `B` vertices and at most `d` blocks per row. -/
structure Sample (V : Env) (d B : Nat) (b : Bytes) : Prop where
  valid : ValidGraphFile b
  fits : ∀ k, b.length ≤ (V.E k).P.usizeMax
  large : B ≤ field b 8 8
  blocks : ceilDiv (field b 8 8) B ≤ d

theorem hep_run {V : Env} {d : Nat} (hV : DemoRoom V d) {s : State} (hs : Started s) {b : Bytes} (hb : Sample V d 1500 b) :
    ∃ s', demoFile V (some b) "Approximation using 1500x1500 blocks and a threshold of 0.0017" 1500 (F64.lit (17 / 10000)) s = .ok () s' ∧
      Started s' ∧ s'.printed = s.printed ++ hepSample b :=
  demoFile_run hV hs hb.valid hb.fits _ (by norm_num) (by norm_num) hb.large hb.blocks (by omega) (by decide +kernel) (by decide +kernel)

theorem astro_run {V : Env} {d : Nat} (hV : DemoRoom V d) {s : State} (hs : Started s) {b : Bytes} (hb : Sample V d 2000 b) :
    ∃ s', demoFile V (some b) "Approximation using 2000x2000 blocks and a threshold of 0.00115" 2000 (F64.lit (115 / 100000)) s = .ok () s' ∧
      Started s' ∧ s'.printed = s.printed ++ astroSample b :=
  demoFile_run hV hs hb.valid hb.fits _ (by norm_num) (by norm_num) hb.large hb.blocks (by omega) (by decide +kernel) (by decide +kernel)

/-- The script up to the first file. -/
theorem demo_start {V : Env} (hV : DemoRoom V 9) {s : State} (hs : Started s) (f f' : Option Bytes) :
    ∃ s', Started s' ∧ s'.printed = s.printed ++ (demoLines ++ hepLines).map String.toList ∧
      demo V f f' s = (do
        demoFile V f "Approximation using 1500x1500 blocks and a threshold of 0.0017" 1500 (F64.lit (17 / 10000))
        printAll astroLines
        demoFile V f' "Approximation using 2000x2000 blocks and a threshold of 0.00115" 2000 (F64.lit (115 / 100000))
        printAll endLines : SM Unit) s' := by
  obtain ⟨s₁, e1, h1, p1⟩ := C104_example hV hs
  refine ⟨⟨s₁.calls, s₁.world, s₁.printed ++ hepLines.map String.toList⟩, h1, ?_, ?_⟩
  · rw [p1, List.map_append, List.append_assoc]
  · unfold demo
    rw [bind_ok e1]
    exact bind_ok (printAll_run hepLines s₁)

theorem bind_raised {α β : Type} {x : SM α} {f : α → SM β} {s s' : State} {e : Exc} (h : x s = .raised e s') :
    (x >>= f) s = .raised e s' := by
  show SM.bind x f s = _
  unfold SM.bind
  rw [h]

theorem DemoRoom.nine {V : Env} {d : Nat} (h : DemoRoom V d) : DemoRoom V 9 :=
  ⟨Nat.le_refl _, fun k => ⟨(h.2 k).1, (h.2 k).2.1, fun m hm => (h.2 k).2.2 m (hm.trans (by
    have := Nat.mul_le_mul h.1 h.1
    have := h.1
    omega))⟩⟩

/-- **C104.** With two valid sample files the demo runs to its end, and prints what the files say: for every block of the adjacency
matrix whether it has at least 3825 (4600) edges.  That the decision is made with rounded numbers is not visible. -/
theorem C104_demo {V : Env} {d : Nat} (hV : DemoRoom V d) {s : State} (hs : Started s) {b b' : Bytes} (hb : Sample V d 1500 b)
    (hb' : Sample V d 2000 b') :
    ∃ s', demo V (some b) (some b') s = .ok () s' ∧ Started s' ∧
      s'.printed = s.printed ++ ((demoLines ++ hepLines).map String.toList ++ (hepSample b ++ (astroLines.map String.toList ++
        (astroSample b' ++ endLines.map String.toList)))) := by
  obtain ⟨s₀, h0, p0, e0⟩ := demo_start hV.nine hs (some b) (some b')
  obtain ⟨s₁, e1, h1, p1⟩ := hep_run hV h0 hb
  obtain ⟨s₂, e2, h2, p2⟩ := astro_run hV (s := ⟨s₁.calls, s₁.world, s₁.printed ++ astroLines.map String.toList⟩) h1 hb'
  refine ⟨⟨s₂.calls, s₂.world, s₂.printed ++ endLines.map String.toList⟩, ?_, h2, ?_⟩
  · rw [e0, bind_ok e1]
    refine (bind_ok (printAll_run astroLines s₁)).trans ?_
    rw [bind_ok e2]
    exact printAll_run endLines s₂
  · simp only [p2, p1, p0, List.append_assoc]

/-- **C104.** Without the first file the demo ends with `FileNotFoundError`, after the text that comes before it; with a file that is
not a valid graph file it ends with `TypeError`, after the same text. -/
theorem C104_first_file {V : Env} (hV : DemoRoom V 9) {s : State} (hs : Started s) (f' : Option Bytes) :
    (∃ s', demo V none f' s = .raised .FileNotFoundError s' ∧ Started s' ∧
      s'.printed = s.printed ++ (demoLines ++ hepLines).map String.toList) ∧
    ∀ b, ¬ ValidGraphFile b → (∀ k, b.length ≤ (V.E k).P.usizeMax) →
      ∃ s', demo V (some b) f' s = .raised (.fromModule .TypeError) s' ∧ Started s' ∧
        s'.printed = s.printed ++ (demoLines ++ hepLines).map String.toList := by
  constructor
  · obtain ⟨s₀, h0, p0, e0⟩ := demo_start hV hs none f'
    exact ⟨s₀, by rw [e0]; exact bind_raised (demoFile_missing V s₀ _ _ _), h0, p0⟩
  · intro b hb hP
    obtain ⟨s₀, h0, p0, e0⟩ := demo_start hV hs (some b) f'
    obtain ⟨s₁, e1, h1, p1⟩ := demoFile_invalid h0 hb (hP _) "Approximation using 1500x1500 blocks and a threshold of 0.0017" 1500
      (F64.lit (17 / 10000))
    exact ⟨s₁, by rw [e0]; exact bind_raised e1, h1, by rw [p1, p0]⟩

/-- **C104.** The same for the second file.  (The repository has no file `ca-AstroPh.gphrx`, so this is how the demo ends.) -/
theorem C104_second_file {V : Env} {d : Nat} (hV : DemoRoom V d) {s : State} (hs : Started s) {b : Bytes} (hb : Sample V d 1500 b) :
    (∃ s', demo V (some b) none s = .raised .FileNotFoundError s' ∧ Started s' ∧
      s'.printed = s.printed ++ ((demoLines ++ hepLines).map String.toList ++ (hepSample b ++ astroLines.map String.toList))) ∧
    ∀ b', ¬ ValidGraphFile b' → (∀ k, b'.length ≤ (V.E k).P.usizeMax) →
      ∃ s', demo V (some b) (some b') s = .raised (.fromModule .TypeError) s' ∧ Started s' ∧
        s'.printed = s.printed ++ ((demoLines ++ hepLines).map String.toList ++ (hepSample b ++ astroLines.map String.toList)) := by
  constructor
  · obtain ⟨s₀, h0, p0, e0⟩ := demo_start hV.nine hs (some b) none
    obtain ⟨s₁, e1, h1, p1⟩ := hep_run hV h0 hb
    refine ⟨⟨s₁.calls, s₁.world, s₁.printed ++ astroLines.map String.toList⟩, ?_, h1, by simp only [p1, p0, List.append_assoc]⟩
    rw [e0, bind_ok e1]
    refine (bind_ok (printAll_run astroLines s₁)).trans ?_
    exact bind_raised (demoFile_missing V _ _ _ _)
  · intro b' hb' hP
    obtain ⟨s₀, h0, p0, e0⟩ := demo_start hV.nine hs (some b) (some b')
    obtain ⟨s₁, e1, h1, p1⟩ := hep_run hV h0 hb
    obtain ⟨s₂, e2, h2, p2⟩ := demoFile_invalid (s := ⟨s₁.calls, s₁.world, s₁.printed ++ astroLines.map String.toList⟩) h1 hb' (hP _)
      "Approximation using 2000x2000 blocks and a threshold of 0.00115" 2000 (F64.lit (115 / 100000))
    refine ⟨s₂, ?_, h2, by simp only [p2, p1, p0, List.append_assoc]⟩
    rw [e0, bind_ok e1]
    refine (bind_ok (printAll_run astroLines s₁)).trans ?_
    exact bind_raised e2

/-- A sample file: an undirected graph with 2500 vertices and the edge between 7 and 1700. -/
def exSample : Bytes := graphFile true 2500 [(7, 1700), (1700, 7)]

/-- The hypotheses of C104 hold for a platform with 64 bits, and the example file is a sample for both parts. -/
example : DemoRoom exV 9 ∧ Started exS ∧ Sample exV 9 1500 exSample ∧ Sample exV 9 2000 exSample ∧ ¬ ValidGraphFile [] := by
  have hv : ValidGraphFile exSample :=
    ⟨by decide +kernel, by decide +kernel, by decide +kernel, by decide +kernel, by decide +kernel, by decide +kernel, by decide +kernel⟩
  have hl : exSample.length ≤ U64_MAX := by decide +kernel
  refine ⟨⟨Nat.le_refl _, fun _ => ⟨show 65535 ≤ U64_MAX by decide, show 42 ≤ U64_MAX by decide, fun m hm => ⟨hm.trans ?_, rfl⟩⟩⟩, exS_started,
    ⟨hv, fun _ => hl, by decide +kernel, by decide +kernel⟩, ⟨hv, fun _ => hl, by decide +kernel, by decide +kernel⟩, ?_⟩
  · show 4 * 9 + 3 * (9 * 9) ≤ U64_MAX
    decide +kernel
  · intro h
    exact absurd h.magic (by decide +kernel)

/-! ## The compressed sample files -/

/-- The first eight bytes of `ca-HepPh.cgphrx` and `ca-AstroPh.cgphrx`. -/
def oldHeader : Bytes := [0x71, 0xff, 0x7a, 0xed, 0, 0, 0, 1]

/-- **C104.** The compressed sample files of the repository cannot be read: whatever follows these eight bytes, every platform rejects
the file, and `CompressedGraph.from_bytes` raises `TypeError`. -/
theorem C104_old_samples (rest : Bytes) :
    (∀ P : Platform, (oldHeader ++ rest).length ≤ P.usizeMax → ∃ msg, CGraph.tryFrom P (oldHeader ++ rest) = .err (.InvalidFormat msg)) ∧
    ∀ {t} {w : PyWorld} {a : AWorld}, Reached t w a → ∀ E : Ctx, (oldHeader ++ rest).length ≤ E.P.usizeMax →
      ∃ w', w.exec E (.cgraphFromBytes (oldHeader ++ rest)) = .raised .TypeError w' ∧
        Reached (t ++ [(E, .cgraphFromBytes (oldHeader ++ rest), .exception .TypeError)]) w' a := by
  have hv : ¬ ValidCompressedFile (oldHeader ++ rest) := fun h => by
    have : field (oldHeader ++ rest) 4 4 = 1 := by
      show beValue [0, 0, 0, 1] = 1
      decide
    have h2 := h.version
    omega
  constructor
  · intro P hP
    rcases C33_decode_total P _ hP with h | h
    · exact absurd ((C66_accepts_iff hP).1 h) hv
    · exact h
  · intro t w a h E hE
    exact (C74_from_bytes_partial h E _ hE).2.2.2 hv

end Verif.Props
