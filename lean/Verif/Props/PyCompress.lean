import Verif.Props.Py

/-! # C78: storing and restoring compressed graphs in Python -/

namespace Verif.Props
open Verif Spec

/-- Object `i` of one program and object `j` of another are compressed graphs that answer all questions alike. -/
structure SameCompressed (w : PyWorld) (i : Nat) (w' : PyWorld) (j : Nat) : Prop where
  level : ∀ E E', ∃ v w₁ w₂, w.exec E (.call i .compressionLevel) = .ok v w₁ ∧ w'.exec E' (.call j .compressionLevel) = .ok v w₂
  direction : ∀ E E', ∃ v w₁ w₂, w.exec E (.call i .isUndirected) = .ok v w₁ ∧ w'.exec E' (.call j .isUndirected) = .ok v w₂
  vertexCount : ∀ E E', ∃ v w₁ w₂, w.exec E (.call i .vertexCount) = .ok v w₁ ∧ w'.exec E' (.call j .vertexCount) = .ok v w₂
  edgeCount : ∀ E E', ∃ v w₁ w₂, w.exec E (.call i .edgeCount) = .ok v w₁ ∧ w'.exec E' (.call j .edgeCount) = .ok v w₂
  edge : ∀ E E' x y, ∃ v w₁ w₂, w.exec E (.call i (.doesEdgeExist x y)) = .ok v w₁ ∧
    w'.exec E' (.call j (.doesEdgeExist x y)) = .ok v w₂
  entry : ∀ E E' x y, ∃ v w₁ w₂, w.exec E (.call i (.getCompressedMatrixEntry x y)) = .ok v w₁ ∧
    w'.exec E' (.call j (.getCompressedMatrixEntry x y)) = .ok v w₂

theorem same_compressed {t t'} {w w' : PyWorld} {a a' : AWorld} (h : Reached t w a) (h' : Reached t' w' a') {i j : Nat}
    {c c' : CGraph} (hi : a[i]? = some (some (.cgraph c))) (hj : a'[j]? = some (some (.cgraph c'))) (hs : SameC c' c) :
    SameCompressed w i w' j := by
  have hval : ∀ {t w a} {i : Nat} {c : CGraph}, Reached t w a → a[i]? = some (some (.cgraph c)) → ∀ E m v,
      (AObj.cgraph c).means E a i m = .val v → ∃ w', w.exec E (.call i m) = .ok v w' := by
    intro t w a i c h hi E m v hm
    have hp := pyStep_call (E := E) hi m
    rw [hm] at hp
    obtain ⟨w', hw', _⟩ := reached_ret h hp
    exact ⟨w', hw'⟩
  have both : ∀ (E E' : Ctx) (m : Method) (v : PyVal), (AObj.cgraph c).means E a i m = .val v →
      (AObj.cgraph c').means E' a' j m = .val v →
      ∃ v w₁ w₂, w.exec E (.call i m) = .ok v w₁ ∧ w'.exec E' (.call j m) = .ok v w₂ := by
    intro E E' m v h1 h2
    obtain ⟨w₁, hw₁⟩ := hval h hi E m v h1
    obtain ⟨w₂, hw₂⟩ := hval h' hj E' m v h2
    exact ⟨v, w₁, w₂, hw₁, hw₂⟩
  exact ⟨fun E E' => both E E' _ _ rfl (by simp only [AObj.means]; rw [hs.level]),
    fun E E' => both E E' _ _ rfl (by simp only [AObj.means]; rw [hs.direction]),
    fun E E' => both E E' _ _ rfl (by simp only [AObj.means]; rw [hs.vertexCount]),
    fun E E' => both E E' _ _ rfl (by simp only [AObj.means]; rw [hs.edgeCount]),
    fun E E' x y => both E E' _ _ rfl (by simp only [AObj.means]; rw [hs.edge]),
    fun E E' x y => both E E' _ _ rfl (by simp only [AObj.means]; rw [hs.entry])⟩

/-- `bytes(c)` gave `b`, not the empty string that stands for an error. -/
theorem bytes_of_exec {t} {w : PyWorld} {a : AWorld} (h : Reached t w a) {i : Nat} {c : CGraph}
    (hi : a[i]? = some (some (.cgraph c))) {E : Ctx} {b : Bytes} {w₁ : PyWorld}
    (hx : w.exec E (.call i .bytes) = .ok (.bytes b) w₁) (hne : b ≠ []) : c.toBytes E.P E.o₁ = .ok b := by
  have := reached_agree h E (.call i .bytes)
  rw [hx, pyStep_call hi, AObj.means] at this
  generalize c.toBytes E.P E.o₁ = r at this
  cases r with
  | ok b' => cases this; rfl
  | err e => cases this; exact absurd rfl hne
  | panic => cases this

/-- **C78.** A compressed graph made by `g.compress(l)`, stored with `bytes` and read back at any later time or in another program,
answers all questions as before.  (In the code the number of edges of `g` is a `u64`.) -/
theorem C78_round_trip {t t₁ t₂ : List (Ctx × PyCall × Seen)} {w w₁ w₁' w₂ : PyWorld} {a a₁ a₂ : AWorld}
    (h : Reached t w a) {i j : Nat} {g : Graph} (hi : a[i]? = some (some (.graph g))) (hE : g.edgeCount ≤ U64_MAX)
    {E E₁ E₂ : Ctx} {l : Int} {c : CGraph} (hc : g.compress E.P E.o₁ E.o₂ (clampLevel l) = .ok c)
    (h₁ : Reached t₁ w₁ a₁) (hj : a₁[j]? = some (some (.cgraph c))) {b : Bytes}
    (hx : w₁.exec E₁ (.call j .bytes) = .ok (.bytes b) w₁') (hne : b ≠ []) (hP : E₁.P.usizeMax ≤ U64_MAX)
    (h₂ : Reached t₂ w₂ a₂) (hP' : b.length ≤ E₂.P.usizeMax) :
    ∃ w' c', w₂.exec E₂ (.cgraphFromBytes b) = .ok (.ref a₂.length) w' ∧
      Reached (t₂ ++ [(E₂, .cgraphFromBytes b, .value (.ref a₂.length))]) w' (a₂ ++ [some (.cgraph c')]) ∧ SameC c' c ∧
      SameCompressed w₁ j w' a₂.length := by
  obtain ⟨c', hc', hs⟩ := C32_round_trip (reached_good h hi) hE hc hP (bytes_of_exec h₁ hj hx hne) hP'
  have hp : pyStep E₂ (.cgraphFromBytes b) a₂ = .ret (.ref a₂.length) (a₂ ++ [some (.cgraph c')]) := by
    simp only [pyStep, hc']; rfl
  obtain ⟨w', h1, h2⟩ := reached_ret h₂ hp
  refine ⟨w', c', h1, h2, hs, same_compressed h₁ h2 hj ?_ hs⟩
  rw [List.getElem?_append_right (Nat.le_refl _), Nat.sub_self]; rfl

/-- **C78.** At level 1 (or below) nothing is lost: the compressed graph, or a copy of it restored from bytes, decompresses to a
graph that answers all questions like the original did. -/
theorem C78_lossless {t t' : List (Ctx × PyCall × Seen)} {w w' : PyWorld} {a a' : AWorld}
    (h : Reached t w a) {i j : Nat} {g : Graph} (hi : a[i]? = some (some (.graph g))) {E E' : Ctx} {l : Int} (hl : l ≤ 1) {c c' : CGraph}
    (hc : g.compress E.P E.o₁ E.o₂ (clampLevel l) = .ok c) (hs : SameC c' c)
    (h' : Reached t' w' a') (hj : a'[j]? = some (some (.cgraph c'))) :
    ∃ A w'' d, PyAnswers t w a i A ∧ w'.exec E' (.call j .decompress) = .ok (.ref a'.length) w'' ∧
      Reached (t' ++ [(E', .call j .decompress, .value (.ref a'.length))]) w'' (a' ++ [some (.graph d)]) ∧
      PyAnswers (t' ++ [(E', .call j .decompress, .value (.ref a'.length))]) w'' (a' ++ [some (.graph d)]) a'.length A := by
  have hg : GReach g := reached_good h hi
  obtain ⟨A, hA, _⟩ := C01_history_from_reachable hg
  obtain ⟨c₁, d₁, hc₁, hd₁, hsame₁⟩ := C21_level_one_lossless hg E.P E'.P E.o₁ E.o₂ E'.o₁ (l := clampLevel l)
    (by unfold clampLevel; omega)
  rw [hc] at hc₁; cases hc₁
  obtain ⟨d, d₂, hd, hd₂, hsame₂⟩ := hs.decompress E'.P E'.P E'.o₁ E'.o₁
  rw [hd₁] at hd₂; cases hd₂
  have hp := pyStep_call (E := E') hj .decompress
  rw [AObj.means, hd] at hp
  obtain ⟨w'', h1, h2⟩ := reached_ret h' hp
  refine ⟨A, w'', d, py_answers h hi hA, h1, h2, py_answers h2 (g := d) ?_ (agrees_of_same hsame₂ (agrees_of_same hsame₁ hA))⟩
  rw [List.getElem?_append_right (Nat.le_refl _), Nat.sub_self]; rfl

/-- A program that compresses the example graph and stores it; all hypotheses hold. -/
example : ∃ t w w' c b, Reached t w [some (.graph exPyG), some (.edges [(0, 1), (1, 2)]), some (.cgraph c)] ∧
    exPyG.edgeCount ≤ U64_MAX ∧ exPyG.compress exE.P exE.o₁ exE.o₂ (clampLevel 1) = .ok c ∧
    w.exec exE (.call 2 .bytes) = .ok (.bytes b) w' ∧ b ≠ [] ∧ b.length ≤ exE.P.usizeMax ∧ exE.P.usizeMax ≤ U64_MAX ∧ SameC c c := by
  obtain ⟨w, hw⟩ := exPy_reached
  obtain ⟨c, w', hc, _, _, hr, _⟩ := C64_compress hw (i := 0) rfl exE 1 1 (fun _ => rfl) (by omega) (by omega)
  obtain ⟨c₂, hc₂, hb⟩ := okAnd_elim (show okAnd (exPyG.compress exP .id .id 1) (fun c => okAnd (c.toBytes exP .id)
    (fun b => b.length == 66)) = true by decide +kernel)
  rw [show exPyG.compress exE.P exE.o₁ exE.o₂ 1 = .ok c₂ from hc₂] at hc
  cases hc
  obtain ⟨b, hb, hlen⟩ := okAnd_elim hb
  have hp := pyStep_call (E := exE) (a := exPyA ++ [some (.cgraph c)]) (i := 2) rfl .bytes
  rw [AObj.means, show c.toBytes exE.P exE.o₁ = .ok b from hb] at hp
  obtain ⟨w₁, h1, _⟩ := reached_ret hr hp
  have hl : b.length = 66 := by simpa using hlen
  have hok := (CReach.compress exP .id .id 1 (reached_good hw (i := 0) rfl) hc₂).ok
  refine ⟨_, w', w₁, c, b, hr, by decide +kernel, hc₂, h1, ?_, ?_, by decide, sameC hok hok rfl rfl rfl rfl (fun _ _ => rfl)⟩
  · rintro rfl; cases hl
  · rw [hl]; decide

end Verif.Props
