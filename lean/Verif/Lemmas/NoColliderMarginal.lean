import Verif.Lemmas.NoCollider
import Mathlib.Data.Prod.Lex

/-!
# Hidden nodes in DAGs without unshielded colliders

The d-separations among some of the nodes are again those of a DAG without unshielded colliders: hidden nodes can be eliminated one by one.
-/

namespace Verif
open Relation
variable {α : Type} [LinearOrder α]

namespace Dag
variable {D : Dag α}

open Classical in
/-- The number of ancestors. -/
noncomputable def rank (D : Dag α) (a : α) : Nat := (D.nodes.filter (fun x => D.DPath x a)).card

theorem rank_lt (hD : D.WF) (hac : D.Acyclic) {a b : α} (h : D.Edge a b) : D.rank a < D.rank b := by
  classical
  refine Finset.card_lt_card ⟨fun x hx => ?_, fun hs => ?_⟩
  · rw [Finset.mem_filter] at hx ⊢
    exact ⟨hx.1, hx.2.tail h⟩
  · have := hs (Finset.mem_filter.2 ⟨(hD a b h).2, .refl⟩)
    exact hac b (TransGen.tail' (Finset.mem_filter.1 this).2 h)

/-- Before: fewer ancestors; ties are broken by the order of the names. -/
def Before (D : Dag α) (a b : α) : Prop := toLex (D.rank a, a) < toLex (D.rank b, b)

theorem before_of_edge (hD : D.WF) (hac : D.Acyclic) {a b : α} (h : D.Edge a b) : D.Before a b :=
  Prod.Lex.toLex_lt_toLex.mpr (Or.inl (rank_lt hD hac h))

theorem before_or {a b : α} (h : a ≠ b) : D.Before a b ∨ D.Before b a := by
  refine lt_or_gt_of_ne fun e => h ?_
  have := toLex.injective e
  exact (Prod.mk.inj this).2

open Classical in
/-- The DAG without the node `v`, whose neighbours become adjacent. -/
noncomputable def elim (D : Dag α) (v : α) : Dag α :=
  ⟨D.nodes.erase v, fun b => if b = v then ∅ else
    D.nodes.filter (fun a => a ≠ v ∧ (D.Edge a b ∨ D.Edge v b ∧ D.Adj a v ∧ D.Before a b))⟩

variable {v : α}

theorem elim_edge (hD : D.WF) {a b : α} :
    (D.elim v).Edge a b ↔ a ≠ v ∧ b ≠ v ∧ (D.Edge a b ∨ D.Edge v b ∧ D.Adj a v ∧ D.Before a b) := by
  rw [Edge, elim]
  by_cases hb : b = v
  · simp [hb]
  · simp only [hb, if_false, Finset.mem_filter, ne_eq, not_false_eq_true, true_and]
    refine ⟨fun h => h.2, fun h => ⟨?_, h⟩⟩
    rcases h.2 with h | ⟨-, h | h, -⟩
    · exact (hD _ _ h).1
    · exact (hD _ _ h).1
    · exact (hD _ _ h).2

theorem elim_wf (hD : D.WF) : (D.elim v).WF := by
  intro a b h
  obtain ⟨h1, h2, h3⟩ := (elim_edge hD).1 h
  refine ⟨Finset.mem_erase.2 ⟨h1, ?_⟩, Finset.mem_erase.2 ⟨h2, ?_⟩⟩
  · rcases h3 with h | ⟨-, h | h, -⟩
    · exact (hD _ _ h).1
    · exact (hD _ _ h).1
    · exact (hD _ _ h).2
  · rcases h3 with h | ⟨h, -⟩ <;> exact (hD _ _ h).2

theorem elim_acyclic (hD : D.WF) (hac : D.Acyclic) : (D.elim v).Acyclic := by
  have key : ∀ a b, TransGen (D.elim v).Edge a b → D.Before a b := by
    intro a b h
    have one : ∀ a b, (D.elim v).Edge a b → D.Before a b := by
      intro a b h
      rcases ((elim_edge hD).1 h).2.2 with h | ⟨-, -, h⟩
      · exact before_of_edge hD hac h
      · exact h
    induction h with
    | single h => exact one _ _ h
    | tail _ h ih => exact lt_trans ih (one _ _ h)
  exact fun a h => lt_irrefl _ (key a a h)

theorem NoUCol.elim_adj (hm : D.NoUCol) (hD : D.WF) (hac : D.Acyclic) {a b : α} :
    (D.elim v).Adj a b ↔ a ≠ v ∧ b ≠ v ∧ (D.Adj a b ∨ a ≠ b ∧ D.Adj a v ∧ D.Adj b v) := by
  constructor
  · rintro (h | h)
    · obtain ⟨h1, h2, h3⟩ := (elim_edge hD).1 h
      refine ⟨h1, h2, h3.imp Or.inl fun h => ⟨?_, h.2.1, Or.inr h.1⟩⟩
      rintro rfl
      exact lt_irrefl _ h.2.2
    · obtain ⟨h1, h2, h3⟩ := (elim_edge hD).1 h
      refine ⟨h2, h1, h3.imp Or.inr fun h => ⟨?_, Or.inr h.1, h.2.1⟩⟩
      rintro rfl
      exact lt_irrefl _ h.2.2
  · have key : ∀ a b, a ≠ v → b ≠ v → D.Adj a v → D.Adj b v → D.Before a b → (D.elim v).Adj a b := by
      intro a b ha hb hav hbv hlt
      rcases hbv with hbv | hbv
      · have hav' : D.Edge a v := by
          refine hav.resolve_right fun h => ?_
          exact lt_asymm hlt (lt_trans (before_of_edge hD hac hbv) (before_of_edge hD hac h))
        rcases hm.adj hav' hbv with rfl | h | h
        · exact absurd hlt (lt_irrefl _)
        · exact Or.inl ((elim_edge hD).2 ⟨ha, hb, Or.inl h⟩)
        · exact Or.inr ((elim_edge hD).2 ⟨hb, ha, Or.inl h⟩)
      · exact Or.inl ((elim_edge hD).2 ⟨ha, hb, Or.inr ⟨hbv, hav, hlt⟩⟩)
    rintro ⟨ha, hb, (h | h) | ⟨hne, h1, h2⟩⟩
    · exact Or.inl ((elim_edge hD).2 ⟨ha, hb, Or.inl h⟩)
    · exact Or.inr ((elim_edge hD).2 ⟨hb, ha, Or.inl h⟩)
    · rcases before_or (D := D) hne with h | h
      · exact key a b ha hb h1 h2 h
      · exact (key b a hb ha h2 h1 h).symm

theorem NoUCol.elim (hm : D.NoUCol) (hD : D.WF) (hac : D.Acyclic) : (D.elim v).NoUCol := by
  rintro a b c ⟨h1, h2, hne, hn⟩
  obtain ⟨ha, hb, h1⟩ := (elim_edge hD).1 h1
  obtain ⟨hc, -, h2⟩ := (elim_edge hD).1 h2
  refine hn ((hm.elim_adj hD hac).2 ⟨ha, hc, ?_⟩)
  rcases h1 with h1 | ⟨h1, k1, -⟩ <;> rcases h2 with h2 | ⟨h2, k2, -⟩
  · exact Or.inl ((hm.adj h1 h2).resolve_left hne)
  · exact Or.inr ⟨hne, (hm.adj h1 h2).resolve_left ha, k2⟩
  · exact Or.inr ⟨hne, k1, (hm.adj h2 h1).resolve_left hc⟩
  · exact Or.inr ⟨hne, k1, k2⟩

theorem NoUCol.elim_conn (hm : D.NoUCol) (hD : D.WF) (hac : D.Acyclic) {Z : Finset α} (hv : v ∉ Z) {i j : α} (hi : i ≠ v) (hj : j ≠ v) :
    (D.elim v).Conn (· ∉ Z) i j ↔ D.Conn (· ∉ Z) i j := by
  constructor
  · intro h
    clear hi hj
    induction h with
    | refl => exact .refl
    | tail _ h ih =>
      obtain ⟨h1, h2⟩ := h
      rcases ((hm.elim_adj hD hac).1 h1).2.2 with h | ⟨-, h3, h4⟩
      · exact ih.tail ⟨h, h2⟩
      · exact (ih.tail ⟨h3, hv⟩).tail ⟨h4.symm, h2⟩
  · intro h
    have key : (j ≠ v → (D.elim v).Conn (· ∉ Z) i j) ∧ (j = v → ∃ y, y ≠ v ∧ D.Adj y v ∧ (D.elim v).Conn (· ∉ Z) i y) := by
      clear hj
      induction h with
      | refl => exact ⟨fun _ => .refl, fun h => absurd h hi⟩
      | @tail b c _ h ih =>
        by_cases hb : b = v
        · obtain ⟨y, y1, y2, y3⟩ := ih.2 hb
          refine ⟨fun hc => ?_, fun _ => ⟨y, y1, y2, y3⟩⟩
          subst hb
          by_cases hyc : y = c
          · exact hyc ▸ y3
          · exact y3.tail ⟨(hm.elim_adj hD hac).2 ⟨y1, hc, Or.inr ⟨hyc, y2, h.1.symm⟩⟩, h.2⟩
        · refine ⟨fun hc => (ih.1 hb).tail ⟨(hm.elim_adj hD hac).2 ⟨hb, hc, Or.inl h.1⟩, h.2⟩, fun hc => ⟨b, hb, hc ▸ h.1, ih.1 hb⟩⟩
    exact key.1 hj

/-- The d-separations among observed nodes are those of a DAG over the observed nodes. -/
theorem NoUCol.marginal (hm : D.NoUCol) (hD : D.WF) (hac : D.Acyclic) {O : Finset α} (hO : O ⊆ D.nodes) :
    ∃ H : Dag α, H.nodes = O ∧ H.WF ∧ H.Acyclic ∧ H.NoUCol ∧
      ∀ i ∈ O, ∀ j ∈ O, ∀ Z ⊆ O, i ∉ Z → j ∉ Z → (H.DSeparated i j Z ↔ D.DSeparated i j Z) := by
  obtain ⟨n, hn⟩ : ∃ n, (D.nodes \ O).card = n := ⟨_, rfl⟩
  induction n generalizing D with
  | zero =>
    have : D.nodes = O := Finset.Subset.antisymm (Finset.sdiff_eq_empty_iff_subset.1 (Finset.card_eq_zero.1 hn)) hO
    exact ⟨D, this, hD, hac, hm, fun _ _ _ _ _ _ _ _ => Iff.rfl⟩
  | succ n ih =>
    obtain ⟨v, hv⟩ : (D.nodes \ O).Nonempty := Finset.card_pos.1 (by omega)
    rw [Finset.mem_sdiff] at hv
    obtain ⟨H, h1, h2, h3, h4, h5⟩ := ih (D := D.elim v) (hm.elim hD hac) (elim_wf hD) (elim_acyclic hD hac)
      (fun x hx => Finset.mem_erase.2 ⟨fun e => hv.2 (e ▸ hx), hO hx⟩) (by
        have : (D.elim v).nodes \ O = (D.nodes \ O).erase v := by
          ext x
          simp only [Dag.elim, Finset.mem_sdiff, Finset.mem_erase]
          tauto
        rw [this, Finset.card_erase_of_mem (Finset.mem_sdiff.2 hv), hn]
        rfl)
    refine ⟨H, h1, h2, h3, h4, fun i hi j hj Z hZ hiZ hjZ => (h5 i hi j hj Z hZ hiZ hjZ).trans ?_⟩
    rw [(hm.elim hD hac).dseparated (elim_acyclic hD hac) hiZ hjZ, hm.dseparated hac hiZ hjZ,
      hm.elim_conn hD hac (fun h => hv.2 (hZ h)) (fun e => hv.2 (e ▸ hi)) (fun e => hv.2 (e ▸ hj))]

end Dag
end Verif
