import Verif.Lemmas.Pc
import Verif.Lemmas.PagQuery

/-!
# Lemmas for C105: conversions and local queries of graphs
-/

namespace Verif
namespace MG
variable {α : Type} [DecidableEq α]

/-- `{a, b} = {x, y}`. -/
def IsPair (a b x y : α) : Prop := (a = x ∧ b = y) ∨ (a = y ∧ b = x)

theorem unDirect_spec (G : MG α) {x y : α} (hxy : x ≠ y) :
    (G.unDirect x y).nodes = G.nodes ∧ (G.unDirect x y).types = G.types ∧ (∀ v, (G.unDirect x y).g v .circle = G.g v .circle) ∧
      (∀ a b, (G.unDirect x y).Arrow a b ↔ G.Arrow a b ∧ ¬ IsPair a b x y) ∧
      ∀ a b, (G.unDirect x y).Und a b ↔ G.Und a b ∨ ((G.Arrow a b ∨ G.Arrow b a) ∧ IsPair a b x y) := by
  unfold unDirect
  by_cases h : y ∈ G.parents x ∨ x ∈ G.parents y
  · rw [if_pos h]
    replace h : G.Arrow y x ∨ G.Arrow x y := h
    refine ⟨rfl, rfl, fun v => by simp [upd], fun a b => ?_, fun a b => ?_⟩
    · by_cases h1 : b = x
      · subst h1
        by_cases h2 : a = y <;> simp [Arrow, upd, IsPair, hxy, h2]
      · by_cases h2 : b = y
        · subst h2
          by_cases h3 : a = x <;> simp [Arrow, upd, IsPair, h1, h3]
        · simp [Arrow, upd, IsPair, h1, h2]
    · by_cases h1 : b = x
      · subst h1
        by_cases h2 : a = y
        · subst h2; simp [Und, upd, IsPair, hxy, h]
        · simp [Und, upd, IsPair, hxy, h2]
      · by_cases h2 : b = y
        · subst h2
          by_cases h3 : a = x
          · subst h3; simp [Und, upd, IsPair, h1, h.symm]
          · simp [Und, upd, IsPair, h1, h3]
        · simp [Und, upd, IsPair, h1, h2]
  · rw [if_neg h]
    have hn : ∀ a b, IsPair a b x y → ¬ (G.Arrow a b ∨ G.Arrow b a) := by
      rintro a b (⟨rfl, rfl⟩ | ⟨rfl, rfl⟩) h'
      · exact h h'.symm
      · exact h h'
    exact ⟨rfl, rfl, fun _ => rfl, fun a b => ⟨fun k => ⟨k, fun p => hn a b p (.inl k)⟩, fun k => k.1⟩,
      fun a b => ⟨.inl, fun k => k.elim id fun k => absurd k.1 (hn a b k.2)⟩⟩

omit [DecidableEq α] in
/-- The pairs of a list enumerating `S`. -/
theorem pairs_cover (o : SetOrder α) (S : Finset α) {a b : α} (hab : a ≠ b) :
    ((a, b) ∈ pairs (o.iter () S) ∨ (b, a) ∈ pairs (o.iter () S)) ↔ a ∈ S ∧ b ∈ S := by
  constructor
  · rintro (h | h)
    · exact ⟨(o.mem _ _ _).mp (mem_pairs_left h), (o.mem _ _ _).mp (mem_pairs_right h)⟩
    · exact ⟨(o.mem _ _ _).mp (mem_pairs_right h), (o.mem _ _ _).mp (mem_pairs_left h)⟩
  · exact fun hm => mem_pairs_or ((o.mem _ _ _).mpr hm.1) ((o.mem _ _ _).mpr hm.2) hab

theorem convertToUndirected_fold (o : SetOrder α) (G : MG α) (en : Finset α) :
    (G.convertToUndirected o en).nodes = G.nodes ∧ (G.convertToUndirected o en).types = G.types ∧
      (∀ v, (G.convertToUndirected o en).g v .circle = G.g v .circle) ∧
      (∀ a b, (G.convertToUndirected o en).Arrow a b ↔ G.Arrow a b ∧ ¬ ((a, b) ∈ pairs (o.iter () en) ∨ (b, a) ∈ pairs (o.iter () en))) ∧
      ∀ a b, (G.convertToUndirected o en).Und a b ↔
        G.Und a b ∨ ((G.Arrow a b ∨ G.Arrow b a) ∧ ((a, b) ∈ pairs (o.iter () en) ∨ (b, a) ∈ pairs (o.iter () en))) := by
  have key := foldl_inv (f := fun (G : MG α) (xy : α × α) => G.unDirect xy.1 xy.2)
    (fun done H => H.nodes = G.nodes ∧ H.types = G.types ∧ (∀ v, H.g v .circle = G.g v .circle) ∧
      (∀ a b, H.Arrow a b ↔ G.Arrow a b ∧ ¬ ((a, b) ∈ done ∨ (b, a) ∈ done)) ∧
      ∀ a b, H.Und a b ↔ G.Und a b ∨ ((G.Arrow a b ∨ G.Arrow b a) ∧ ((a, b) ∈ done ∨ (b, a) ∈ done)))
    (pairs (o.iter () en)) [] G ⟨rfl, rfl, fun _ => rfl, by simp, by simp⟩
    (by
      rintro done ⟨x, y⟩ H hxy ⟨i1, i2, i3, i4, i5⟩
      obtain ⟨u1, u2, u3, u4, u5⟩ := unDirect_spec H (mem_pairs_ne (o.nodup _ _) hxy)
      have hmem : ∀ a b, ((a, b) ∈ done ++ [(x, y)] ∨ (b, a) ∈ done ++ [(x, y)]) ↔ ((a, b) ∈ done ∨ (b, a) ∈ done) ∨ IsPair a b x y := by
        intro a b; simp only [List.mem_append, List.mem_singleton, Prod.mk.injEq, IsPair]; tauto
      refine ⟨u1.trans i1, u2.trans i2, fun v => (u3 v).trans (i3 v), fun a b => ?_, fun a b => ?_⟩
      · rw [u4, i4, hmem]; tauto
      · rw [u5, i5, i4, i4, hmem]; tauto)
  simp only [List.nil_append] at key
  exact key

theorem deleteAbsent_fold {src : MG α} (hs : src.PdagWF) : ∀ (l : List (α × α)) (G : MG α), (∀ p ∈ l, p.1 ≠ p.2) →
    ∃ H, l.foldlM (fun (G : MG α) ij => do
        if !(← src.isConnected ij.1 ij.2) then return G.pdagDeleteEdge ij.1 ij.2 else return G : MG α → α × α → Py (MG α)) G = .ok H ∧
      H.nodes = G.nodes ∧ (G.PdagWF → H.PdagWF) ∧
      (∀ a b, H.Arrow a b ↔ G.Arrow a b ∧ (((a, b) ∈ l ∨ (b, a) ∈ l) → src.PAdj a b)) ∧
      ∀ a b, H.Und a b ↔ G.Und a b ∧ (((a, b) ∈ l ∨ (b, a) ∈ l) → src.PAdj a b) := by
  have hsym : ∀ {a b}, src.PAdj a b → src.PAdj b a := by intro a b h; simp only [PAdj] at h ⊢; tauto
  intro l
  induction l with
  | nil => intro G _; exact ⟨G, rfl, rfl, id, by simp, by simp⟩
  | cons p l ih =>
    intro G hl
    obtain ⟨x, y⟩ := p
    obtain ⟨b, hb, hb'⟩ := isConnected_spec hs (hl (x, y) (by simp))
    rw [List.foldlM_cons]
    simp only [hb, bind, Except.bind, pure, Except.pure]
    cases b with
    | true =>
      obtain ⟨H, h1, h2, h3, h4, h5⟩ := ih G (fun p hp => hl p (by simp [hp]))
      have hc : src.PAdj x y := hb'.mp rfl
      have hm : ∀ a b, ((((a, b) ∈ (x, y) :: l ∨ (b, a) ∈ (x, y) :: l) → src.PAdj a b) ↔ (((a, b) ∈ l ∨ (b, a) ∈ l) → src.PAdj a b)) := by
        intro a b
        simp only [List.mem_cons, Prod.mk.injEq]
        refine ⟨fun k h => k (h.imp .inr .inr), fun k h => ?_⟩
        rcases h with (⟨rfl, rfl⟩ | h) | (⟨rfl, rfl⟩ | h)
        · exact hc
        · exact k (.inl h)
        · exact hsym hc
        · exact k (.inr h)
      exact ⟨H, h1, h2, h3, fun a b => by rw [h4, hm], fun a b => by rw [h5, hm]⟩
    | false =>
      obtain ⟨H, h1, h2, h3, h4, h5⟩ := ih (G.pdagDeleteEdge x y) (fun p hp => hl p (by simp [hp]))
      have hc : ¬ src.PAdj x y := fun h => by simpa using hb'.mpr h
      have hm : ∀ a b, ((((a, b) ∈ (x, y) :: l ∨ (b, a) ∈ (x, y) :: l) → src.PAdj a b) ↔
          ¬ ((a = x ∧ b = y) ∨ (a = y ∧ b = x)) ∧ (((a, b) ∈ l ∨ (b, a) ∈ l) → src.PAdj a b)) := by
        intro a b
        simp only [List.mem_cons, Prod.mk.injEq]
        refine ⟨fun k => ⟨?_, fun h => k (h.imp .inr .inr)⟩, fun k h => ?_⟩
        · rintro (⟨rfl, rfl⟩ | ⟨rfl, rfl⟩)
          · exact hc (k (.inl (.inl ⟨rfl, rfl⟩)))
          · exact hc (hsym (k (.inr (.inl ⟨rfl, rfl⟩))))
        · rcases h with (h | h) | (h | h)
          · exact absurd (.inl h) k.1
          · exact k.2 (.inl h)
          · exact absurd (.inr ⟨h.2, h.1⟩) k.1
          · exact k.2 (.inr h)
      refine ⟨H, h1, h2, fun hG => h3 (deleteEdge_wf hG x y), fun a b => ?_, fun a b => ?_⟩
      · rw [h4, hm, deleteEdge_arrow]; tauto
      · rw [h5, hm, deleteEdge_und]; tauto

end MG
end Verif
