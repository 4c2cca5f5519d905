import Verif.Model.Reach
import Verif.Lemmas.GraphCodec

/-! Every graph reachable through the safe API satisfies the invariant `Graph.OK`. -/

namespace Verif

theorem MReach.wf {m : AdjMatrix} (h : MReach m) : m.WF := by
  induction h with
  | new => exact AdjMatrix.WF.new
  | setEntry e c r _ ih => exact ih.setEntry e c r
  | zeroEntry c r _ ih => exact ih.zeroEntry c r

namespace Res

/-- An invariant of the state is an invariant of a loop. -/
theorem foldl_inv {α β : Type} {f : β → α → Res β} {I : β → Prop} (l : List α)
    (hf : ∀ b a b', a ∈ l → I b → f b a = .ok b' → I b') :
    ∀ {b b' : β}, I b → Res.foldl f b l = .ok b' → I b' := by
  induction l with
  | nil => intro b b' hb h; simp only [foldl, ok.injEq] at h; exact h ▸ hb
  | cons a l ih =>
    intro b b' hb h
    change (f b a >>= fun b' => foldl f b' l) = .ok b' at h
    rw [Res.bind_eq_ok] at h
    obtain ⟨b1, h1, h2⟩ := h
    exact ih (fun b a b' ha => hf b a b' (List.mem_cons_of_mem _ ha)) (hf _ _ _ (by simp) hb h1) h2

theorem map_eq_ok {α β : Type} {f : α → β} {x : Res α} {b : β} :
    x.map f = .ok b ↔ ∃ a, x = .ok a ∧ f a = b := by
  cases x <;> simp [map]

/-- A loop whose body never fails is a fold. -/
theorem foldl_ok {α β : Type} {f : β → α → Res β} {F : β → α → β} (l : List α)
    (hf : ∀ b, ∀ a ∈ l, f b a = .ok (F b a)) : ∀ b, Res.foldl f b l = .ok (l.foldl F b) := by
  induction l with
  | nil => intro b; rfl
  | cons a l ih =>
    intro b
    change (f b a >>= fun b' => foldl f b' l) = _
    rw [hf b a (by simp), Res.bind_ok, ih (fun b a ha => hf b a (by simp [ha])) (F b a)]
    rfl

end Res

namespace Graph

theorem OK.empty (u : Bool) : OK (if u then Graph.newUndirected else Graph.newDirected) := by
  cases u
  · exact OK.newDirected
  · exact OK.newUndirected

theorem OK.foldl {α : Type} (F : Graph → α → Graph) (hF : ∀ g a, OK g → OK (F g a)) (l : List α) :
    ∀ g, OK g → OK (l.foldl F g) := by
  induction l with
  | nil => intro g h; exact h
  | cons a l ih => intro g h; exact ih _ (hF g a h)

theorem OK.approximate {g g' : Graph} {P : Platform} {o₁ o₂ : HashOrder} {b : Nat} {t : F64} (h : OK g)
    (hg : g.approximate P o₁ o₂ b t = .ok g') : OK g' := by
  unfold Graph.approximate at hg
  split at hg
  · cases hg; exact h
  · simp only [Res.bind_eq_ok] at hg
    obtain ⟨m, _, hg⟩ := hg
    cases hg
    apply OK.foldl
    · intro g a hg
      split
      · exact hg.addEdge _ _
      · exact hg
    · exact (OK.empty _).addVertex _ _

end Graph

namespace CGraph

theorem decompress_OK {P : Platform} {o : HashOrder} {c : CGraph} {g : Graph}
    (h : c.decompress P o = .ok g) : g.OK := by
  unfold decompress at h
  refine Res.foldl_inv (I := Graph.OK) _ ?_ ?_ h
  · intro g a g' _ hg hb
    rw [Res.map_eq_ok] at hb
    obtain ⟨s, hs, rfl⟩ := hb
    refine Res.foldl_inv (I := fun s : Graph × Nat => s.1.OK) _ ?_ hg hs
    intro s i s' _ hs hb
    unfold decompressBit at hb
    split at hb
    · simp only [Res.bind_eq_ok] at hb
      obtain ⟨_, _, _, _, _, _, _, _, _, h, hb⟩ := hb
      cases h; cases hb
      exact hs.addEdge _ _
    · cases hb; exact hs
  · split
    · exact (Graph.OK.empty _).addVertex _ _
    · exact Graph.OK.empty _

end CGraph

theorem GReach.ok {g : Graph} : GReach g → g.OK
  | .newDirected => Graph.OK.newDirected
  | .newUndirected => Graph.OK.newUndirected
  | .directedFrom hm => Graph.OK.directedFrom hm.wf
  | .undirectedFrom _ hm h => Graph.OK.undirectedFrom hm.wf h
  | .addVertex v ts h => h.ok.addVertex v ts
  | .addEdge u v h => h.ok.addEdge u v
  | .deleteEdge u v h => h.ok.deleteEdge u v
  | .tryFrom _ _ h => Graph.OK.tryFrom h
  | .approximate _ _ _ _ _ h hg => h.ok.approximate hg
  | .decompress _ _ _ h => CGraph.decompress_OK h

end Verif
