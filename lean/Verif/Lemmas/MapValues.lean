import Verif.Lemmas.HMap
import Verif.Model.F64Fmt

/-! # Changing the type of the entries of a matrix: all operations commute with it -/

namespace Verif

namespace HMap
variable {V W X : Type}

theorem ext_entries {m m' : HMap V} (h : m.entries = m'.entries) : m = m' := by
  cases m; cases m'; cases h; rfl

theorem mapValues_empty (f : V → W) : (empty : HMap V).mapValues f = empty := rfl

theorem mapValues_remove (f : V → W) (m : HMap V) (k : Nat) : (m.remove k).mapValues f = (m.mapValues f).remove k := by
  apply ext_entries
  simp [mapValues, remove, List.filter_map, Function.comp_def]

theorem mapValues_insert (f : V → W) (m : HMap V) (k : Nat) (v : V) :
    (m.insert k v).mapValues f = (m.mapValues f).insert k (f v) := by
  apply ext_entries
  have := congrArg entries (mapValues_remove f m k)
  simp only [insert, mapValues, List.map_cons] at this ⊢
  rw [this]

theorem mapValues_id {f : V → W} {g : W → V} (h : ∀ x, g (f x) = x) (m : HMap V) : (m.mapValues f).mapValues g = m := by
  apply ext_entries
  simp [mapValues, Function.comp_def, h]

end HMap

section order
variable {A B V : Type}

open Classical in
/-- The order `F` on lists with values in `B`, used for values in `A`. -/
noncomputable def relabel (f : A → B) (g : B → A) (F : List (Nat × B) → List (Nat × B)) (l : List (Nat × V)) :
    List (Nat × V) :=
  if h : A = V then
    h ▸ (F (((h ▸ l : List (Nat × A))).map (fun e => (e.1, f e.2)))).map (fun e => (e.1, g e.2))
  else l

theorem relabel_self (f : A → B) (g : B → A) (F : List (Nat × B) → List (Nat × B)) (l : List (Nat × A)) :
    relabel f g F l = (F (l.map (fun e => (e.1, f e.2)))).map (fun e => (e.1, g e.2)) := by
  unfold relabel
  rw [dif_pos rfl]

theorem relabel_perm {f : A → B} {g : B → A} (hg : ∀ a, g (f a) = a) {F : List (Nat × B) → List (Nat × B)}
    (hF : ∀ l, (F l).Perm l) (l : List (Nat × V)) : (relabel f g F l).Perm l := by
  by_cases h : A = V
  · subst h
    rw [relabel_self]
    refine ((hF _).map _).trans ?_
    simp [Function.comp_def, hg]
  · unfold relabel
    rw [dif_neg h]

theorem relabel_map {f : A → B} {g : B → A} (hg : ∀ a, g (f a) = a) {F : List (Nat × B) → List (Nat × B)}
    (hF : ∀ l, (F l).Perm l) (l : List (Nat × A)) :
    F (l.map (fun e => (e.1, f e.2))) = (relabel f g F l).map (fun e => (e.1, f e.2)) := by
  rw [relabel_self, List.map_map]
  refine ((List.map_congr_left fun x hx => ?_).trans (List.map_id _)).symm
  obtain ⟨e, _, rfl⟩ := List.mem_map.1 ((hF _).mem_iff.1 hx)
  simp [hg]

end order

namespace HashOrder
variable {T U : Type}

/-- The order that a matrix over `T` must use so that items come as in the matrix over `U` with order `o`. -/
noncomputable def pull (φ : T → U) (ψ : U → T) (h : ∀ x, ψ (φ x) = x) (o : HashOrder) : HashOrder where
  cols l := relabel (HMap.mapValues φ) (HMap.mapValues ψ) o.cols l
  rows c _ l := relabel φ ψ (o.rows c) l
  cols_perm l := relabel_perm (HMap.mapValues_id h) o.cols_perm l
  rows_perm c _ l := relabel_perm h (o.rows_perm c) l

end HashOrder

namespace SqMatrix
variable {T U : Type}

/-- The matrix with every entry replaced by its image. -/
def mapV (φ : T → U) (m : SqMatrix T) : SqMatrix U :=
  ⟨m.dimension, m.edgesTable.mapValues (HMap.mapValues φ), m.entryCount⟩

theorem mapV_new (φ : T → U) : (SqMatrix.new : SqMatrix T).mapV φ = SqMatrix.new := rfl

theorem mapV_at {φ : T → U} (m : SqMatrix T) (c : Nat) :
    (m.mapV φ).edgesTable.get? c = (m.edgesTable.get? c).map (HMap.mapValues φ) := HMap.get?_mapValues _ _ _

theorem getEntry_mapV {N : Numeric T} {N' : Numeric U} {φ : T → U} (h0 : N'.zero = φ N.zero) (m : SqMatrix T) (c r : Nat) :
    (m.mapV φ).getEntry N' c r = φ (m.getEntry N c r) := by
  unfold getEntry
  rw [mapV_at]
  cases m.edgesTable.get? c with
  | none => exact h0
  | some t =>
    simp only [Option.map_some, HMap.get?_mapValues]
    cases t.get? r with
    | none => exact h0
    | some e => rfl

theorem zeroEntry_mapV (φ : T → U) (m : SqMatrix T) (c r : Nat) :
    (m.mapV φ).zeroEntry c r = (m.zeroEntry c r).mapV φ := by
  unfold zeroEntry
  rw [mapV_at]
  cases m.edgesTable.get? c with
  | none => rfl
  | some t =>
    simp only [Option.map_some, HMap.get?_mapValues, mapV, HMap.mapValues_insert, HMap.mapValues_remove, Option.isSome_map]

theorem setEntry_mapV {N : Numeric T} {N' : Numeric U} {φ : T → U} (m : SqMatrix T) {x : T} {y : U}
    (he : N'.eq y N'.zero = N.eq x N.zero) (hy : N.eq x N.zero = false → y = φ x) (c r : Nat) :
    (m.mapV φ).setEntry N' y c r = (m.setEntry N x c r).mapV φ := by
  unfold setEntry
  cases checkedAdd c 1 with
  | none => rfl
  | some cd =>
    cases checkedAdd r 1 with
    | none => rfl
    | some rd =>
      simp only [he]
      by_cases hz : N.eq x N.zero = true
      · rw [if_pos hz, if_pos hz]; rfl
      · rw [if_neg hz, if_neg hz, hy (by simpa using hz), mapV_at]
        cases m.edgesTable.get? c with
        | none =>
          simp only [Option.map_none, Option.getD_none, mapV, HMap.mapValues_insert, HMap.mapValues_empty]
          rfl
        | some t =>
          simp only [Option.map_some, Option.getD_some, mapV, HMap.mapValues_insert, HMap.get?_mapValues, Option.isNone_map]

theorem incrementEntry_mapV {N : Numeric T} {N' : Numeric U} {φ : T → U} {P : Platform} (m : SqMatrix T)
    (h1 : N'.one = φ N.one) (c r : Nat)
    (hadd : ∀ t e, m.edgesTable.get? c = some t → t.get? r = some e → N'.addOne P (φ e) = (N.addOne P e).map φ) :
    (m.mapV φ).incrementEntry N' P c r = (m.incrementEntry N P c r).map (mapV φ) := by
  unfold incrementEntry
  cases checkedAdd c 1 with
  | none => rfl
  | some cd =>
    cases checkedAdd r 1 with
    | none => rfl
    | some rd =>
      simp only [mapV_at]
      cases hc : m.edgesTable.get? c with
      | none =>
        simp only [Option.map_none, Option.getD_none, HMap.get?_empty, mapV, HMap.mapValues_insert, HMap.mapValues_empty,
          Res.map, h1]
      | some t =>
        simp only [Option.map_some, Option.getD_some, HMap.get?_mapValues]
        cases hr : t.get? r with
        | none => simp only [Option.map_none, mapV, HMap.mapValues_insert, Res.map, h1]
        | some e =>
          simp only [Option.map_some, hadd t e hc hr]
          cases N.addOne P e with
          | ok y => simp only [Res.map, Res.bind, mapV, HMap.mapValues_insert]
          | err _ => rfl
          | panic => rfl

theorem setMinimumDimension_mapV (φ : T → U) (m : SqMatrix T) (d : Nat) :
    (m.mapV φ).setMinimumDimension d = (m.setMinimumDimension d).mapV φ := by
  unfold setMinimumDimension
  by_cases hd : m.dimension < d
  · rw [if_pos hd, if_pos (show (m.mapV φ).dimension < d from hd)]; rfl
  · rw [if_neg hd, if_neg (show ¬ (m.mapV φ).dimension < d from hd)]

section orders
variable {φ : T → U} {ψ : U → T} (h : ∀ x, ψ (φ x) = x)
include h

theorem cols_pull (o : HashOrder) (t : HMap (HMap T)) :
    o.cols (t.mapValues (HMap.mapValues φ)).entries =
      ((o.pull φ ψ h).cols t.entries).map (fun e => (e.1, e.2.mapValues φ)) :=
  relabel_map (HMap.mapValues_id h) o.cols_perm _

theorem rows_pull (o : HashOrder) (c : Nat) (t : HMap T) :
    o.rows c (t.mapValues φ).entries = ((o.pull φ ψ h).rows c t.entries).map (fun e => (e.1, φ e.2)) :=
  relabel_map h (o.rows_perm c) _

theorem cells_mapV (o : HashOrder) (m : SqMatrix T) :
    cells o (m.mapV φ) = (cells (o.pull φ ψ h) m).map (fun x => (x.1, x.2.1, φ x.2.2)) := by
  unfold cells mapV
  simp only [cols_pull h, List.flatMap_map, List.map_flatMap, rows_pull h, List.map_map, Function.comp_def]

theorem values_mapV (o : HashOrder) (m : SqMatrix T) : values o (m.mapV φ) = (values (o.pull φ ψ h) m).map φ := by
  unfold values mapV
  simp only [cols_pull h, List.flatMap_map, List.map_flatMap, rows_pull h, List.map_map, Function.comp_def]

theorem items_mapV (o : HashOrder) (m : SqMatrix T) :
    items o (m.mapV φ) = (items (o.pull φ ψ h) m).map (fun x => (φ x.1, x.2)) := by
  have e : ∀ {V : Type} (o : HashOrder) (m : SqMatrix V), items o m =
      if m.dimension == 0 then [] else (cells o m).map (fun x => (x.2.2, x.1, x.2.1)) := by
    intro V o m
    unfold items
    rw [TableIter.collect_eq_pending]
    unfold TableIter.pending intoIter cells
    simp only [Option.getD_none, List.map_nil, List.nil_append]
    split <;> rfl
  rw [e, e, cells_mapV h]
  have : (m.mapV φ).dimension = m.dimension := rfl
  rw [this]
  split
  · rfl
  · simp [Function.comp_def]

end orders

/-- The printing operations of `U` on images are those of `T`. -/
structure FmtHom (φ : T → U) (F : NumFmt T) (F' : NumFmt U) : Prop where
  zero : F'.zero = φ F.zero
  maxV : F'.maxV = φ F.maxV
  minV : F'.minV = φ F.minV
  hasDecimal : F'.hasDecimal = F.hasDecimal
  lt : ∀ a b, F'.lt (φ a) (φ b) = F.lt a b
  gt : ∀ a b, F'.gt (φ a) (φ b) = F.gt a b
  digitCount : ∀ a, F'.digitCount (φ a) = F.digitCount a
  fmt : ∀ a w d, F'.fmt (φ a) w d = F.fmt a w d
  fmtW : ∀ a w, F'.fmtW (φ a) w = F.fmtW a w

section text
variable {φ : T → U} {ψ : U → T} (h : ∀ x, ψ (φ x) = x) {F : NumFmt T} {F' : NumFmt U} (H : FmtHom φ F F')
include H

theorem foldExtremes_mapV (l : List T) : ∀ a b : T,
    (l.map φ).foldl (fun hl v => (if F'.gt v hl.1 then v else hl.1, if F'.lt v hl.2 then v else hl.2)) (φ a, φ b) =
      Prod.map φ φ (l.foldl (fun hl v => (if F.gt v hl.1 then v else hl.1, if F.lt v hl.2 then v else hl.2)) (a, b)) := by
  induction l with
  | nil => intro a b; rfl
  | cons x l ih =>
    intro a b
    simp only [List.map_cons, List.foldl_cons, H.gt, H.lt, ← apply_ite φ]
    exact ih _ _

include h in
theorem extremes_mapV (o : HashOrder) (m : SqMatrix T) :
    extremes F' o (m.mapV φ) = Prod.map φ φ (extremes F (o.pull φ ψ h) m) := by
  unfold extremes
  have : (m.mapV φ).edgesTable.entries.length = m.edgesTable.entries.length := by simp [mapV, HMap.mapValues]
  rw [this]
  split
  · simp [H.zero, H.maxV]
  · rw [values_mapV h, H.minV, H.maxV]
    exact foldExtremes_mapV H _ _ _

theorem formatEntry_mapV (P : Platform) (hi lo v : T) (e d : Nat) :
    formatEntry P F' (φ hi) (φ lo) e d (φ v) = formatEntry P F hi lo e d v := by
  unfold formatEntry
  rw [H.hasDecimal, H.zero, H.lt, H.digitCount, H.fmt]
  simp only [H.fmtW]

theorem writeEntry_mapV (P : Platform) (hi lo : T) (e d cr ce : Nat) (l : List (Nat × Nat × T)) : ∀ buf : List Char,
    Res.foldl (writeEntry P F' (φ hi) (φ lo) e d cr ce) buf (l.map (fun x => (x.1, x.2.1, φ x.2.2))) =
      Res.foldl (writeEntry P F hi lo e d cr ce) buf l := by
  induction l with
  | nil => intro buf; rfl
  | cons x l ih =>
    intro buf
    have : writeEntry P F' (φ hi) (φ lo) e d cr ce buf (x.1, x.2.1, φ x.2.2) = writeEntry P F hi lo e d cr ce buf x := by
      unfold writeEntry
      simp only [formatEntry_mapV H]
    simp only [List.map_cons, Res.foldl, this, ih]

include h in
/-- The text is the same, for orders that visit the entries in the same way. -/
theorem toString_mapV (P : Platform) (o₁ o₂ : HashOrder) (m : SqMatrix T) (d : Nat) :
    (m.mapV φ).toStringWithPrecision P F' o₁ o₂ d =
      m.toStringWithPrecision P F (o₁.pull φ ψ h) (o₂.pull φ ψ h) d := by
  unfold toStringWithPrecision
  have hd : (m.mapV φ).dimension = m.dimension := rfl
  rw [hd, extremes_mapV h H, cells_mapV h]
  simp only [Prod.map_fst, Prod.map_snd, H.digitCount, H.hasDecimal, writeEntry_mapV H]

end text

end SqMatrix
end Verif
