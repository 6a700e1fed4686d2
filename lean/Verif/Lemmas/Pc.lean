import Verif.Spec.Pc
import Verif.Model.Pc
import Verif.Lemmas.SepSet
import Verif.Lemmas.Markov
import Verif.Lemmas.Cpdag

/-!
# Lemmas about the PC algorithm
-/

namespace Verif
open Relation

theorem foldl_inv {β σ : Type} {f : σ → β → σ} (I : List β → σ → Prop) :
    ∀ (l : List β) (done : List β) (s : σ), I done s →
      (∀ done x s, x ∈ l → I done s → I (done ++ [x]) (f s x)) → I (done ++ l) (l.foldl f s) := by
  intro l
  induction l with
  | nil => intro done s h _; simpa using h
  | cons x l ih =>
    intro done s h hstep
    have := ih (done ++ [x]) (f s x) (hstep done x s (by simp) h)
      (fun d y s hy hI => hstep d y s (List.mem_cons_of_mem _ hy) hI)
    simpa using this

namespace MG
variable {α : Type} [DecidableEq α]

theorem pdagComplete_und {nodes : Finset α} {a b : α} :
    (pdagComplete nodes).Und a b ↔ a ∈ nodes ∧ b ∈ nodes ∧ a ≠ b := by
  simp only [Und, pdagComplete, complete, and_true]
  split
  · rename_i h; simp [h, and_comm]
  · rename_i h; simp [h]

theorem pdagComplete_arrow {nodes : Finset α} {a b : α} : ¬ (pdagComplete nodes).Arrow a b := by
  simp [Arrow, pdagComplete, complete]

theorem pdagComplete_wf (nodes : Finset α) : (pdagComplete nodes).PdagWF where
  types := by simp [pdagComplete, complete]
  mem := by
    intro a b m h
    cases m with
    | tail => have := pdagComplete_und.mp h; exact ⟨this.1, this.2.1⟩
    | arrow => exact absurd h pdagComplete_arrow
    | circle => simp [pdagComplete, complete] at h
  irrefl := by
    intro a m h
    cases m with
    | tail => exact (pdagComplete_und.mp h).2.2 rfl
    | arrow => exact absurd h pdagComplete_arrow
    | circle => simp [pdagComplete, complete] at h
  symm := by
    intro a b h
    have := pdagComplete_und.mp h
    exact pdagComplete_und.mpr ⟨this.2.1, this.1, this.2.2.symm⟩
  excl := by intro a b h; exact absurd h pdagComplete_arrow

/-! ### delete_edge -/

theorem deleteEdge_und {G : MG α} {i j a b : α} :
    (G.pdagDeleteEdge i j).Und a b ↔ G.Und a b ∧ ¬ ((a = i ∧ b = j) ∨ (a = j ∧ b = i)) := by
  simp only [Und, pdagDeleteEdge, deleteUndirectedEdge, deleteDirectedEdge]
  by_cases hi : b = i <;> by_cases hj : b = j <;> simp [hi, hj, mem_upd] <;> split_ifs <;> tauto

theorem deleteEdge_arrow {G : MG α} {i j a b : α} :
    (G.pdagDeleteEdge i j).Arrow a b ↔ G.Arrow a b ∧ ¬ ((a = i ∧ b = j) ∨ (a = j ∧ b = i)) := by
  simp only [Arrow, pdagDeleteEdge, deleteUndirectedEdge, deleteDirectedEdge]
  by_cases hi : b = i <;> by_cases hj : b = j <;> simp [hi, hj, mem_upd] <;> split_ifs <;> tauto

theorem deleteEdge_circle {G : MG α} {i j b : α} :
    (G.pdagDeleteEdge i j).g b .circle = G.g b .circle := by
  simp [pdagDeleteEdge, deleteUndirectedEdge, deleteDirectedEdge, upd]

theorem deleteEdge_wf {G : MG α} (hG : G.PdagWF) (i j : α) : (G.pdagDeleteEdge i j).PdagWF where
  types := hG.types
  mem := by
    intro a b m h
    cases m with
    | tail => exact hG.mem _ _ _ (deleteEdge_und.mp h).1
    | arrow => exact hG.mem _ _ _ (deleteEdge_arrow.mp h).1
    | circle => rw [deleteEdge_circle] at h; exact hG.mem _ _ _ h
  irrefl := by
    intro a m h
    cases m with
    | tail => exact hG.irrefl _ _ (deleteEdge_und.mp h).1
    | arrow => exact hG.irrefl _ _ (deleteEdge_arrow.mp h).1
    | circle => rw [deleteEdge_circle] at h; exact hG.irrefl _ _ h
  symm := by
    intro a b h
    obtain ⟨h1, h2⟩ := deleteEdge_und.mp h
    exact deleteEdge_und.mpr ⟨hG.symm _ _ h1, fun h => h2 (h.symm.imp And.symm And.symm)⟩
  excl := by
    intro a b h h'
    exact hG.excl _ _ (deleteEdge_arrow.mp h).1 (deleteEdge_und.mp h').1

/-! ### bi-directed edges -/

theorem unBidirect_spec {G : MG α} (hG : G.PdagWF) {x y : α} (hxy : x ≠ y) :
    (G.unBidirect x y).PdagWF ∧ (G.unBidirect x y).nodes = G.nodes ∧
      (∀ a b, (G.unBidirect x y).Arrow a b ↔
        G.Arrow a b ∧ ¬ (G.Arrow b a ∧ ((a = x ∧ b = y) ∨ (a = y ∧ b = x)))) ∧
      ∀ a b, (G.unBidirect x y).Und a b ↔
        G.Und a b ∨ (G.Arrow a b ∧ G.Arrow b a ∧ ((a = x ∧ b = y) ∨ (a = y ∧ b = x))) := by
  have hcase : (G.unBidirect x y).nodes = G.nodes ∧ (G.unBidirect x y).types = G.types ∧
      (∀ v, (G.unBidirect x y).g v .circle = G.g v .circle) ∧
      (∀ a b, (G.unBidirect x y).Arrow a b ↔
        G.Arrow a b ∧ ¬ (G.Arrow b a ∧ ((a = x ∧ b = y) ∨ (a = y ∧ b = x)))) ∧
      ∀ a b, (G.unBidirect x y).Und a b ↔
        G.Und a b ∨ (G.Arrow a b ∧ G.Arrow b a ∧ ((a = x ∧ b = y) ∨ (a = y ∧ b = x))) := by
    unfold unBidirect
    by_cases h : y ∈ G.parents x ∧ x ∈ G.parents y
    · rw [if_pos h]
      have h1 : G.Arrow y x := h.1
      have h2 : G.Arrow x y := h.2
      refine ⟨rfl, rfl, fun v => by simp [upd], fun a b => ?_, fun a b => ?_⟩
      · have : ((((G.upd x .arrow (fun s => s.erase y)).upd y .arrow (fun s => s.erase x)).upd x .tail (insert y)).upd y
          .tail (insert x)).Arrow a b ↔ G.Arrow a b ∧ ¬ ((a = x ∧ b = y) ∨ (a = y ∧ b = x)) := by
          simp only [Arrow]
          by_cases hx : b = x <;> by_cases hy : b = y <;> simp [hx, hy, mem_upd] <;> split_ifs <;> tauto
        rw [this]
        constructor
        · rintro ⟨h3, h4⟩; exact ⟨h3, fun h => h4 h.2⟩
        · rintro ⟨h3, h4⟩
          refine ⟨h3, fun h => h4 ⟨?_, h⟩⟩
          rcases h with ⟨rfl, rfl⟩ | ⟨rfl, rfl⟩ <;> assumption
      · have : ((((G.upd x .arrow (fun s => s.erase y)).upd y .arrow (fun s => s.erase x)).upd x .tail (insert y)).upd y
          .tail (insert x)).Und a b ↔ G.Und a b ∨ ((a = x ∧ b = y) ∨ (a = y ∧ b = x)) := by
          simp only [Und]
          by_cases hx : b = x <;> by_cases hy : b = y <;> simp [hx, hy, mem_upd] <;> split_ifs <;> tauto
        rw [this]
        constructor
        · rintro (h3 | h3)
          · exact Or.inl h3
          · refine Or.inr ?_
            rcases h3 with ⟨rfl, rfl⟩ | ⟨rfl, rfl⟩
            · exact ⟨h2, h1, Or.inl ⟨rfl, rfl⟩⟩
            · exact ⟨h1, h2, Or.inr ⟨rfl, rfl⟩⟩
        · rintro (h3 | h3)
          · exact Or.inl h3
          · exact Or.inr h3.2.2
    · rw [if_neg h]
      have hn : ∀ a b, ¬ (G.Arrow a b ∧ G.Arrow b a ∧ ((a = x ∧ b = y) ∨ (a = y ∧ b = x))) := by
        rintro a b ⟨h1, h2, ⟨rfl, rfl⟩ | ⟨rfl, rfl⟩⟩
        · exact h ⟨h2, h1⟩
        · exact h ⟨h1, h2⟩
      refine ⟨rfl, rfl, fun _ => rfl, fun a b => ?_, fun a b => ?_⟩
      · exact ⟨fun h1 => ⟨h1, fun h2 => hn a b ⟨h1, h2⟩⟩, fun h => h.1⟩
      · exact ⟨Or.inl, fun h => h.elim id (fun h => absurd h (hn a b))⟩
  obtain ⟨c1, c2, c3, c4, c5⟩ := hcase
  refine ⟨⟨by rw [c2]; exact hG.types, ?_, ?_, ?_, ?_⟩, c1, c4, c5⟩
  · intro a b m h
    rw [c1]
    cases m with
    | tail =>
      rcases (c5 a b).mp h with h | h
      · exact hG.mem _ _ _ h
      · exact hG.mem _ _ _ h.1
    | arrow => exact hG.mem _ _ _ ((c4 a b).mp h).1
    | circle => rw [c3] at h; exact hG.mem _ _ _ h
  · intro a m h
    cases m with
    | tail =>
      rcases (c5 a a).mp h with h | h
      · exact hG.irrefl _ _ h
      · exact hG.irrefl _ _ h.1
    | arrow => exact hG.irrefl _ _ ((c4 a a).mp h).1
    | circle => rw [c3] at h; exact hG.irrefl _ _ h
  · intro a b h
    refine (c5 b a).mpr ?_
    rcases (c5 a b).mp h with h | ⟨h1, h2, h3⟩
    · exact Or.inl (hG.symm _ _ h)
    · exact Or.inr ⟨h2, h1, h3.symm.imp And.symm And.symm⟩
  · intro a b h h'
    obtain ⟨h1, h2⟩ := (c4 a b).mp h
    rcases (c5 a b).mp h' with h3 | ⟨_, h4, h5⟩
    · exact hG.excl _ _ h1 h3
    · exact h2 ⟨h4, h5⟩

/-- `convert_bidirected_to_undirected` on a set of nodes. -/
theorem convertBidirected_on (o : SetOrder α) {G : MG α} (hG : G.PdagWF) (en : Finset α) :
    (G.convertBidirected o en).PdagWF ∧ (G.convertBidirected o en).nodes = G.nodes ∧
      (∀ a b, (G.convertBidirected o en).Arrow a b ↔ G.Arrow a b ∧ ¬ (G.Arrow b a ∧ a ∈ en ∧ b ∈ en)) ∧
      ∀ a b, (G.convertBidirected o en).Und a b ↔ G.Und a b ∨ (G.Arrow a b ∧ G.Arrow b a ∧ a ∈ en ∧ b ∈ en) := by
  obtain ⟨h1, h2, h3, h4⟩ := foldl_inv (f := fun (G : MG α) (xy : α × α) => G.unBidirect xy.1 xy.2)
    (fun done H => H.PdagWF ∧ H.nodes = G.nodes ∧
      (∀ a b, H.Arrow a b ↔ G.Arrow a b ∧ ¬ (G.Arrow b a ∧ ((a, b) ∈ done ∨ (b, a) ∈ done))) ∧
      ∀ a b, H.Und a b ↔ G.Und a b ∨ (G.Arrow a b ∧ G.Arrow b a ∧ ((a, b) ∈ done ∨ (b, a) ∈ done)))
    (pairs (o.iter () en)) [] G ⟨hG, rfl, by simp, by simp⟩
    (by
      rintro done ⟨x, y⟩ H hxy ⟨i1, i2, i3, i4⟩
      obtain ⟨u1, u2, u3, u4⟩ := unBidirect_spec i1 (mem_pairs_ne (o.nodup _ _) hxy)
      have hmem : ∀ a b, ((a, b) ∈ done ++ [(x, y)] ∨ (b, a) ∈ done ++ [(x, y)]) ↔
          ((a, b) ∈ done ∨ (b, a) ∈ done) ∨ ((a = x ∧ b = y) ∨ (a = y ∧ b = x)) := by
        intro a b; simp only [List.mem_append, List.mem_singleton, Prod.mk.injEq]; tauto
      refine ⟨u1, u2.trans i2, fun a b => ?_, fun a b => ?_⟩
      · rw [u3, i3, i3, hmem]
        constructor
        · rintro ⟨⟨h1, h2⟩, h3⟩
          refine ⟨h1, ?_⟩
          rintro ⟨h4, h5 | h5⟩
          · exact h2 ⟨h4, h5⟩
          · exact h3 ⟨⟨h4, fun h => h2 ⟨h4, h.2.symm⟩⟩, h5⟩
        · rintro ⟨h1, h2⟩
          exact ⟨⟨h1, fun h => h2 ⟨h.1, Or.inl h.2⟩⟩, fun h => h2 ⟨h.1.1, Or.inr h.2⟩⟩
      · rw [u4, i4, i3, i3, hmem]
        constructor
        · rintro ((h | h) | h)
          · exact Or.inl h
          · exact Or.inr ⟨h.1, h.2.1, Or.inl h.2.2⟩
          · exact Or.inr ⟨h.1.1, h.2.1.1, Or.inr h.2.2⟩
        · rintro (h | ⟨h1, h2, h3 | h3⟩)
          · exact Or.inl (Or.inl h)
          · exact Or.inl (Or.inr ⟨h1, h2, h3⟩)
          · by_cases hd : (a, b) ∈ done ∨ (b, a) ∈ done
            · exact Or.inl (Or.inr ⟨h1, h2, hd⟩)
            · exact Or.inr ⟨⟨h1, fun h => hd h.2⟩, ⟨h2, fun h => hd h.2.symm⟩, h3⟩)
  have hpair : ∀ a b, G.Arrow a b → (((a, b) ∈ pairs (o.iter () en) ∨ (b, a) ∈ pairs (o.iter () en)) ↔ a ∈ en ∧ b ∈ en) := by
    intro a b h
    constructor
    · rintro (h | h)
      · exact ⟨(o.mem _ _ _).mp (mem_pairs_left h), (o.mem _ _ _).mp (mem_pairs_right h)⟩
      · exact ⟨(o.mem _ _ _).mp (mem_pairs_right h), (o.mem _ _ _).mp (mem_pairs_left h)⟩
    · intro hm
      refine mem_pairs_or ((o.mem _ _ _).mpr hm.1) ((o.mem _ _ _).mpr hm.2) ?_
      rintro rfl; exact hG.irrefl _ _ h
  simp only [List.nil_append] at h3 h4
  refine ⟨h1, h2, fun a b => (h3 a b).trans ?_, fun a b => (h4 a b).trans ?_⟩
  · exact ⟨fun h => ⟨h.1, fun h' => h.2 ⟨h'.1, (hpair a b h.1).mpr h'.2⟩⟩,
      fun h => ⟨h.1, fun h' => h.2 ⟨h'.1, (hpair a b h.1).mp h'.2⟩⟩⟩
  · exact ⟨fun h => h.imp id (fun h => ⟨h.1, h.2.1, (hpair a b h.1).mp h.2.2⟩),
      fun h => h.imp id (fun h => ⟨h.1, h.2.1, (hpair a b h.1).mpr h.2.2⟩)⟩

/-- `convert_bidirected_to_undirected` on all nodes. -/
theorem convertBidirected_spec (o : SetOrder α) {G : MG α} (hG : G.PdagWF) :
    (G.convertBidirected o G.nodes).PdagWF ∧ (G.convertBidirected o G.nodes).nodes = G.nodes ∧
      (∀ a b, (G.convertBidirected o G.nodes).Arrow a b ↔ G.Arrow a b ∧ ¬ G.Arrow b a) ∧
      ∀ a b, (G.convertBidirected o G.nodes).Und a b ↔ G.Und a b ∨ (G.Arrow a b ∧ G.Arrow b a) := by
  obtain ⟨h1, h2, h3, h4⟩ := convertBidirected_on o hG G.nodes
  refine ⟨h1, h2, fun a b => (h3 a b).trans ?_, fun a b => (h4 a b).trans ?_⟩
  · exact ⟨fun h => ⟨h.1, fun h' => h.2 ⟨h', hG.mem _ _ _ h.1⟩⟩, fun h => ⟨h.1, fun h' => h.2 h'.1⟩⟩
  · exact ⟨fun h => h.imp id (fun h => ⟨h.1, h.2.1⟩), fun h => h.imp id (fun h => ⟨h.1, h.2, hG.mem _ _ _ h.1⟩)⟩

end MG

namespace Pc
variable {α : Type} [LinearOrder α]

theorem Witness.symm {ci : CITest α} {N : Finset α} {i j : α} {S : Finset α} (h : Witness ci N i j S) :
    Witness ci N j i S := by
  obtain ⟨l, k, h1, h2, h3, h4, h5⟩ := h
  exact ⟨l, k, h1, h2.symm, h4, h3, h5⟩

/-- Invariant of the skeleton search. -/
structure Inv (ci : CITest α) (N : Finset α) (st : PcState α) : Prop where
  nodes : st.graph.nodes = N
  wf : st.graph.PdagWF
  noArrow : ∀ a b, ¬ st.graph.Arrow a b
  key : ∀ i ∈ N, ∀ j ∈ N, i ≠ j → ∃ S, st.sep.get i j = .ok S
  witness : ∀ i ∈ N, ∀ j ∈ N, i ≠ j → ¬ st.graph.Und i j → ∃ S, st.sep.get i j = .ok S ∧ Witness ci N i j S

theorem init_inv (o : SetOrder α) (ci : CITest α) (N : Finset α) : Inv ci N (init o N) := by
  refine ⟨rfl, MG.pdagComplete_wf N, fun a b => MG.pdagComplete_arrow, ?_, ?_⟩
  · intro i hi j hj hne
    exact ⟨∅, by simp [init, SepSet.get_init, hi, hj, hne]⟩
  · intro i hi j hj hne hn
    exact absurd (MG.pdagComplete_und.mpr ⟨hi, hj, hne⟩) hn

theorem mem_condSets (o : SetOrder α) {src : MG α} (hsrc : src.PdagWF) {size : Nat} {i j : α} {z : List α}
    (h : z ∈ condSets o src size i j) : i ∉ z ∧ j ∉ z ∧ ∀ x ∈ z, x ∈ src.nodes := by
  rw [condSets, mem_uniqueElems, List.mem_append, mem_combs, mem_combs] at h
  have key : ∀ u v, z.Sublist (o.iter (size, i, j) (src.und u \ {v})) → u ∉ z ∧ v ∉ z ∧ ∀ x ∈ z, x ∈ src.nodes := by
    intro u v hs
    have hm : ∀ x ∈ z, x ∈ src.und u ∧ x ≠ v := by
      intro x hx
      have := (o.mem _ _ _).mp (hs.subset hx)
      simpa using this
    exact ⟨fun h => hsrc.irrefl _ _ (hm _ h).1, fun h => (hm _ h).2 rfl, fun x hx => (hsrc.mem _ _ _ (hm x hx).1).1⟩
  rcases h.1 with h | h
  · exact key i j h.1
  · obtain ⟨h1, h2, h3⟩ := key j i h.1; exact ⟨h2, h1, h3⟩

/-- Every set of `size` neighbours of `i` other than `j` is among the conditioning sets of the pair. -/
theorem exists_condSet (o : SetOrder α) {src : MG α} {size : Nat} {i j : α} {S : Finset α}
    (hS : (S ⊆ src.und i ∧ j ∉ S) ∨ (S ⊆ src.und j ∧ i ∉ S)) (hc : S.card = size) :
    ∃ z ∈ condSets o src size i j, z.toFinset = S := by
  have key : ∀ u v, S ⊆ src.und u → v ∉ S → ∃ z, z ∈ combs size (o.iter (size, i, j) (src.und u \ {v})) ∧
      z.toFinset = S := by
    intro u v h1 h2
    have hset : ((o.iter (size, i, j) (src.und u \ {v})).filter (· ∈ S)).toFinset = S := by
      ext x
      simp only [List.mem_toFinset, List.mem_filter, o.mem, Finset.mem_sdiff, Finset.mem_singleton, decide_eq_true_eq]
      constructor
      · exact fun h => h.2
      · intro h; exact ⟨⟨h1 h, by rintro rfl; exact h2 h⟩, h⟩
    refine ⟨(o.iter (size, i, j) (src.und u \ {v})).filter (· ∈ S), mem_combs.mpr ⟨List.filter_sublist, ?_⟩, hset⟩
    rw [← List.toFinset_card_of_nodup (List.Nodup.filter _ (o.nodup _ _)), hset, hc]
  simp only [condSets, mem_uniqueElems, List.mem_append, List.not_mem_nil, not_false_eq_true, and_true]
  rcases hS with ⟨h1, h2⟩ | ⟨h1, h2⟩
  · obtain ⟨z, hz, he⟩ := key i j h1 h2; exact ⟨z, Or.inl hz, he⟩
  · obtain ⟨z, hz, he⟩ := key j i h1 h2; exact ⟨z, Or.inr hz, he⟩

omit [LinearOrder α] in
theorem firstIndep_spec (ci : CITest α) (i j : α) : ∀ (zs : List (List α)) (k : Nat),
    (∀ z, (firstIndep ci i j zs k).1 = some z → z ∈ zs ∧ ∃ k, ci k i j z = true) ∧
    ((firstIndep ci i j zs k).1 = none → ∀ z ∈ zs, ∃ k, ci k i j z = false) := by
  intro zs
  induction zs with
  | nil => intro k; simp [firstIndep]
  | cons z zs ih =>
    intro k
    simp only [firstIndep]
    by_cases h : ci k i j z = true
    · rw [if_pos h]
      refine ⟨?_, by simp⟩
      rintro z' ⟨⟩; exact ⟨by simp, k, h⟩
    · rw [if_neg h]
      obtain ⟨h1, h2⟩ := ih (k + 1)
      refine ⟨fun z' hz' => ?_, fun hn z' hz' => ?_⟩
      · obtain ⟨h3, h4⟩ := h1 z' hz'; exact ⟨List.mem_cons_of_mem _ h3, h4⟩
      · rcases List.mem_cons.mp hz' with rfl | hz'
        · exact ⟨k, by simpa using h⟩
        · exact h2 hn z' hz'

/-- One pair. -/
theorem testPair_spec (o : SetOrder α) {ci : CITest α} {N : Finset α} {src : MG α} (hsrc : src.PdagWF)
    (hsn : src.nodes = N) (size : Nat) {st : PcState α} (hst : Inv ci N st)
    (hsub : ∀ a b, st.graph.Und a b → src.Und a b) {i j : α} (hi : i ∈ N) (hj : j ∈ N) (hij : i ≠ j) :
    ∃ st', testPair o ci src size st (i, j) = .ok st' ∧ Inv ci N st' ∧
      (∀ a b, st'.graph.Und a b → st.graph.Und a b) ∧
      (∀ a b, st.graph.Und a b → ¬ st'.graph.Und a b → ∃ S, Witness ci N a b S) ∧
      (st'.graph.Und i j → ∀ z ∈ condSets o src size i j, ∃ k, ci k i j z = false) := by
  obtain ⟨b, hb, hb'⟩ := MG.isConnected_spec hsrc hij
  cases b with
  | false =>
    refine ⟨st, by simp only [testPair, hb]; rfl, hst, fun _ _ h => h, fun _ _ h h' => absurd h h', fun h => ?_⟩
    exact absurd (hb'.mpr (Or.inr (Or.inr (Or.inl (hsub i j h))))) (by simp)
  | true =>
    obtain ⟨f1, f2⟩ := firstIndep_spec ci i j (condSets o src size i j) st.calls
    cases hf : firstIndep ci i j (condSets o src size i j) st.calls with
    | mk r k =>
      rw [hf] at f1 f2
      cases r with
      | none =>
        refine ⟨{ st with calls := k }, by simp only [testPair, hb]; simp [bind, Except.bind, hf]; rfl,
          ⟨hst.nodes, hst.wf, hst.noArrow, hst.key, hst.witness⟩, fun _ _ h => h, fun _ _ h h' => absurd h h',
          fun _ => f2 rfl⟩
      | some z =>
        obtain ⟨hz, k', hk'⟩ := f1 z rfl
        obtain ⟨z1, z2, z3⟩ := mem_condSets o hsrc hz
        rw [hsn] at z3
        have hw : Witness ci N i j z.toFinset := ⟨z, k', rfl, Or.inl hk', z1, z2, z3⟩
        refine ⟨⟨st.graph.pdagDeleteEdge i j, st.sep.set i j z.toFinset, k⟩,
          by simp only [testPair, hb]; simp [bind, Except.bind, hf]; rfl,
          ⟨hst.nodes, MG.deleteEdge_wf hst.wf i j, fun a b h => hst.noArrow a b (MG.deleteEdge_arrow.mp h).1, ?_, ?_⟩,
          fun a b h => (MG.deleteEdge_und.mp h).1, ?_, ?_⟩
        · intro a ha b hb hab
          simp only [SepSet.get_set]
          split
          · exact ⟨_, rfl⟩
          · exact hst.key a ha b hb hab
        · intro a ha b hb hab hn
          simp only [SepSet.get_set]
          split
          · rename_i h
            refine ⟨_, rfl, ?_⟩
            rcases h with ⟨rfl, rfl⟩ | ⟨rfl, rfl⟩
            · exact hw
            · exact hw.symm
          · rename_i h
            refine hst.witness a ha b hb hab (fun hu => hn (MG.deleteEdge_und.mpr ⟨hu, fun h' => h ?_⟩))
            rcases h' with ⟨rfl, rfl⟩ | ⟨rfl, rfl⟩
            · exact Or.inl ⟨rfl, rfl⟩
            · exact Or.inr ⟨rfl, rfl⟩
        · intro a b hu hn
          have : (a = i ∧ b = j) ∨ (a = j ∧ b = i) := by
            by_contra hc; exact hn (MG.deleteEdge_und.mpr ⟨hu, hc⟩)
          rcases this with ⟨rfl, rfl⟩ | ⟨rfl, rfl⟩
          · exact ⟨_, hw⟩
          · exact ⟨_, hw.symm⟩
        · intro h
          exact absurd (Or.inl ⟨rfl, rfl⟩) (MG.deleteEdge_und.mp h).2

/-- One round over all pairs. -/
theorem round_spec (o : SetOrder α) {ci : CITest α} {N : Finset α} (overwrite : Bool) {orig : MG α}
    (horig : orig.PdagWF) (hon : orig.nodes = N) (size : Nat) {st : PcState α} (hst : Inv ci N st)
    (hsub : ∀ a b, st.graph.Und a b → orig.Und a b) :
    ∃ st', (pairs (o.iter size orig.nodes)).foldlM
        (fun st ij => testPair o ci (if overwrite then st.graph else orig) size st ij) st = .ok st' ∧ Inv ci N st' ∧
      (∀ a b, st'.graph.Und a b → st.graph.Und a b) ∧
      (∀ a b, st.graph.Und a b → ¬ st'.graph.Und a b → ∃ S, Witness ci N a b S) ∧
      ∀ ij ∈ pairs (o.iter size orig.nodes), st'.graph.Und ij.1 ij.2 →
        ∃ src : MG α, (∀ a b, st'.graph.Und a b → src.Und a b) ∧
          ∀ z ∈ condSets o src size ij.1 ij.2, ∃ k, ci k ij.1 ij.2 z = false := by
  obtain ⟨st', h1, h2, h3, h4, h5⟩ := foldlM_ok_inv
    (f := fun st ij => testPair o ci (if overwrite then st.graph else orig) size st ij)
    (fun done st' => Inv ci N st' ∧ (∀ a b, st'.graph.Und a b → st.graph.Und a b) ∧
      (∀ a b, st.graph.Und a b → ¬ st'.graph.Und a b → ∃ S, Witness ci N a b S) ∧
      ∀ ij ∈ done, st'.graph.Und ij.1 ij.2 →
        ∃ src : MG α, (∀ a b, st'.graph.Und a b → src.Und a b) ∧
          ∀ z ∈ condSets o src size ij.1 ij.2, ∃ k, ci k ij.1 ij.2 z = false)
    (pairs (o.iter size orig.nodes)) [] st ⟨hst, fun _ _ h => h, fun _ _ h h' => absurd h h', by simp⟩
    (by
      rintro done ⟨i, j⟩ s hij ⟨i1, i2, i3, i4⟩
      have hi := (o.mem _ _ _).mp (mem_pairs_left hij)
      have hj := (o.mem _ _ _).mp (mem_pairs_right hij)
      have hne := mem_pairs_ne (o.nodup _ _) hij
      rw [hon] at hi hj
      have hs : (if overwrite then s.graph else orig).PdagWF := by split; exact i1.wf; exact horig
      have hsn : (if overwrite then s.graph else orig).nodes = N := by split; exact i1.nodes; exact hon
      have hss : ∀ a b, s.graph.Und a b → (if overwrite then s.graph else orig).Und a b := by
        intro a b h
        split
        · exact h
        · exact hsub a b (i2 a b h)
      obtain ⟨s', g1, g2, g3, g4, g5⟩ := testPair_spec o hs hsn size i1 hss hi hj hne
      refine ⟨s', g1, g2, fun a b h => i2 a b (g3 a b h), fun a b h h' => ?_, ?_⟩
      · by_cases hu : s.graph.Und a b
        · exact g4 a b hu h'
        · exact i3 a b h hu
      · intro ij hij' hu
        rcases List.mem_append.mp hij' with hd | hd
        · obtain ⟨src, c1, c2⟩ := i4 ij hd (g3 _ _ hu)
          exact ⟨src, fun a b h => c1 a b (g3 a b h), c2⟩
        · simp only [List.mem_singleton] at hd; subst hd
          exact ⟨_, fun a b h => hss a b (g3 a b h), g5 hu⟩)
  exact ⟨st', h1, h2, h3, h4, by simpa using h5⟩

omit [LinearOrder α] in
theorem exitCond_of_le {G : MG α} (hG : G.PdagWF) (hno : ∀ a b, ¬ G.Arrow a b) {size : Nat}
    (h : G.nodes.card ≤ size) : exitCond G size = true := by
  simp only [exitCond, decide_eq_true_eq]
  intro v hv
  have h0 : (G.parents v).card = 0 := by
    rw [Finset.card_eq_zero, Finset.eq_empty_iff_forall_notMem]
    exact fun a ha => hno a v ha
  have h1 : (G.und v).card ≤ G.nodes.card := Finset.card_le_card (fun a ha => (hG.mem _ _ _ ha).1)
  simp only [MG.fanIn, h0]; omega

/-- The loop over sizes, with a level invariant `Q`. -/
theorem skeletonLoop_spec (o : SetOrder α) {ci : CITest α} {N : Finset α} (overwrite : Bool) {orig : MG α}
    (horig : orig.PdagWF) (hon : orig.nodes = N) (Q : Nat → PcState α → Prop)
    (hQ : ∀ size st st', Inv ci N st → Q size st → Inv ci N st' →
      (∀ a b, st'.graph.Und a b → st.graph.Und a b) →
      (∀ a b, st.graph.Und a b → ¬ st'.graph.Und a b → ∃ S, Witness ci N a b S) →
      (∀ ij ∈ pairs (o.iter size orig.nodes), st'.graph.Und ij.1 ij.2 →
        ∃ src : MG α, (∀ a b, st'.graph.Und a b → src.Und a b) ∧
          ∀ z ∈ condSets o src size ij.1 ij.2, ∃ k, ci k ij.1 ij.2 z = false) → Q (size + 1) st') :
    ∀ (n size : Nat) (st : PcState α), N.card ≤ size + n → Inv ci N st → Q size st →
      (∀ a b, st.graph.Und a b → orig.Und a b) →
      ∃ st' size', skeletonLoop o ci overwrite orig (n + 1) size st = .ok st' ∧ Inv ci N st' ∧ Q size' st' ∧
        exitCond st'.graph size' = true ∧ ∀ a b, st'.graph.Und a b → st.graph.Und a b := by
  intro n
  induction n with
  | zero =>
    intro size st hn hst hq _
    have he := exitCond_of_le hst.wf hst.noArrow (size := size) (by rw [hst.nodes]; omega)
    exact ⟨st, size, by simp only [skeletonLoop]; rw [if_pos he], hst, hq, he, fun _ _ h => h⟩
  | succ n ih =>
    intro size st hn hst hq hsub
    rw [skeletonLoop]
    by_cases he : exitCond st.graph size = true
    · exact ⟨st, size, by rw [if_pos he], hst, hq, he, fun _ _ h => h⟩
    · rw [if_neg he]
      obtain ⟨st', h1, h2, h3, h4, h5⟩ := round_spec o overwrite horig hon size hst hsub
      obtain ⟨st'', size', g1, g2, g3, g4, g5⟩ := ih (size + 1) st' (by omega) h2
        (hQ size st st' hst hq h2 h3 h4 h5) (fun a b h => hsub a b (h3 a b h))
      exact ⟨st'', size', by simp only [h1]; exact g1, g2, g3, g4, fun a b h => h3 a b (g5 a b h)⟩

/-- Every kept pair was tested, and found dependent, with every set of remaining neighbours of one of its ends. -/
def Tested (ci : CITest α) (G : MG α) (size : Nat) : Prop :=
  ∀ i j, G.Und i j → ∀ S, S ⊆ G.und i → j ∉ S → S.card < size →
    ∃ z k, z.toFinset = S ∧ z.length = S.card ∧ (ci k i j z = false ∨ ci k j i z = false)

theorem condSets_length {o : SetOrder α} {src : MG α} {size : Nat} {i j : α} {z : List α}
    (h : z ∈ condSets o src size i j) : z.length = size := by
  rw [condSets, mem_uniqueElems, List.mem_append, mem_combs, mem_combs] at h
  rcases h.1 with h | h <;> exact h.2

theorem learnSkeleton_spec (o : SetOrder α) (ci : CITest α) (overwrite : Bool) (N : Finset α) (R : PcState α → Prop)
    (hR0 : R (init o N))
    (hR : ∀ st st', Inv ci N st → R st → Inv ci N st' →
      (∀ a b, st'.graph.Und a b → st.graph.Und a b) →
      (∀ a b, st.graph.Und a b → ¬ st'.graph.Und a b → ∃ S, Witness ci N a b S) → R st') :
    ∃ st', learnSkeleton o ci overwrite (init o N) = .ok st' ∧ Inv ci N st' ∧ R st' ∧
      ∀ i j, st'.graph.Und i j → ∀ S, S ⊆ st'.graph.und i → j ∉ S →
        ∃ z k, z.toFinset = S ∧ z.length = S.card ∧ (ci k i j z = false ∨ ci k j i z = false) := by
  obtain ⟨st', size', h1, h2, ⟨h3, h3'⟩, h4, -⟩ := skeletonLoop_spec o (ci := ci) (N := N) overwrite
    (orig := (init o N).graph) (MG.pdagComplete_wf N) rfl (fun size st => Tested ci st.graph size ∧ R st)
    (by
      intro size st st' hst ⟨hq, hr⟩ hst' hsub hwit hall
      refine ⟨?_, hR st st' hst hr hst' hsub hwit⟩
      intro i j hu S hS hj hc
      have hne : i ≠ j := by rintro rfl; exact hst'.wf.irrefl _ _ hu
      by_cases hlt : S.card < size
      · exact hq i j (hsub i j hu) S (fun a ha => hsub a i (hS ha)) hj hlt
      · have hceq : S.card = size := by omega
        have hm := hst'.wf.mem _ _ _ hu
        rw [hst'.nodes] at hm
        rcases mem_pairs_or ((o.mem size _ _).mpr hm.1) ((o.mem size _ _).mpr hm.2) hne with hp | hp
        · obtain ⟨src, c1, c2⟩ := hall _ hp hu
          obtain ⟨z, hz, hzS⟩ := exists_condSet o (src := src) (i := i) (j := j)
            (Or.inl ⟨fun a ha => c1 a i (hS ha), hj⟩) hceq
          obtain ⟨k, hk⟩ := c2 z hz
          exact ⟨z, k, hzS, by rw [condSets_length hz, hceq], Or.inl hk⟩
        · obtain ⟨src, c1, c2⟩ := hall _ hp (hst'.wf.symm _ _ hu)
          obtain ⟨z, hz, hzS⟩ := exists_condSet o (src := src) (i := j) (j := i)
            (Or.inr ⟨fun a ha => c1 a i (hS ha), hj⟩) hceq
          obtain ⟨k, hk⟩ := c2 z hz
          exact ⟨z, k, hzS, by rw [condSets_length hz, hceq], Or.inr hk⟩)
    (N.card + 1) 0 (init o N) (by omega) (init_inv o ci N) ⟨fun _ _ _ _ _ _ h => absurd h (Nat.not_lt_zero _), hR0⟩
    (fun _ _ h => h)
  refine ⟨st', h1, h2, h3', fun i j hu S hS hj => h3 i j hu S hS hj ?_⟩
  simp only [exitCond, decide_eq_true_eq] at h4
  have hfi := h4 i (h2.wf.mem _ _ _ hu).1
  simp only [MG.fanIn] at hfi
  have hlt : S.card < (st'.graph.und i).card := Finset.card_lt_card
    ⟨hS, fun h => hj (h (h2.wf.symm _ _ hu))⟩
  omega

/-! ### Orientation of v-structures -/

/-- `a *-> b` is oriented by the v-structure step: there is `c` with `a --- b --- c`, `a` and `c` not adjacent, and `b`
not in the recorded separation set of `a` and `c`. -/
def VS (sep : SepSet α) (G : MG α) (a b : α) : Prop :=
  ∃ c, a ≠ c ∧ G.Und a b ∧ G.Und c b ∧ ¬ G.PAdj a c ∧ ∃ S, sep.get a c = .ok S ∧ b ∉ S

theorem orientVStructures_spec (o : SetOrder α) (sep : SepSet α) {G : MG α} (hG : G.PdagWF)
    (hno : ∀ a b, ¬ G.Arrow a b) (hkey : ∀ i ∈ G.nodes, ∀ j ∈ G.nodes, i ≠ j → ∃ S, sep.get i j = .ok S) :
    ∃ G', orientVStructures o sep G = .ok G' ∧ G'.PdagWF ∧ G'.nodes = G.nodes ∧
      (∀ a b, G'.PAdj a b ↔ G.PAdj a b) ∧ ∀ a b, G'.Arrow a b ↔ VS sep G a b := by
  obtain ⟨G', h1, h2, h3, h4, h5⟩ := foldlM_ok_inv
    (f := fun (H : MG α) z => (pairs (o.iter z (G.und z))).foldlM (fun (H : MG α) (xy : α × α) => do
      if ← H.isConnected xy.1 xy.2 then return H
      let S ← sep.get xy.1 xy.2
      if z ∉ S then return (H.orientEdge xy.1 z).orientEdge xy.2 z
      else return H) H)
    (fun done H => H.PdagWF ∧ H.nodes = G.nodes ∧ (∀ a b, H.PAdj a b ↔ G.PAdj a b) ∧
      ∀ a b, H.Arrow a b ↔ VS sep G a b ∧ b ∈ done)
    (o.iter () G.nodes) [] G ⟨hG, rfl, fun _ _ => Iff.rfl, fun a b => by simp [hno]⟩
    (by
      rintro done z H hz ⟨i1, i2, i3, i4⟩
      obtain ⟨H', g1, g2, g3, g4, g5⟩ := foldlM_ok_inv
        (f := fun (H : MG α) (xy : α × α) => do
          if ← H.isConnected xy.1 xy.2 then return H
          let S ← sep.get xy.1 xy.2
          if z ∉ S then return (H.orientEdge xy.1 z).orientEdge xy.2 z
          else return H)
        (fun dn H' => H'.PdagWF ∧ H'.nodes = G.nodes ∧ (∀ a b, H'.PAdj a b ↔ G.PAdj a b) ∧
          ∀ a b, H'.Arrow a b ↔ H.Arrow a b ∨ (b = z ∧ ∃ c, ((a, c) ∈ dn ∨ (c, a) ∈ dn) ∧ ¬ G.PAdj a c ∧
            ∃ S, sep.get a c = .ok S ∧ z ∉ S))
        (pairs (o.iter z (G.und z))) [] H ⟨i1, i2, i3, by simp⟩
        (by
          rintro dn ⟨x, y⟩ K hxy ⟨k1, k2, k3, k4⟩
          have hx : G.Und x z := (o.mem _ _ _).mp (mem_pairs_left hxy)
          have hy : G.Und y z := (o.mem _ _ _).mp (mem_pairs_right hxy)
          have hne := mem_pairs_ne (o.nodup _ _) hxy
          obtain ⟨S, hS⟩ := hkey x (hG.mem _ _ _ hx).1 y (hG.mem _ _ _ hy).1 hne
          have hS' : sep.get y x = .ok S := by rw [SepSet.get_comm]; exact hS
          obtain ⟨b, hb, hb'⟩ := MG.isConnected_spec k1 hne
          rw [k3] at hb'
          have hsplit : ∀ a b, (b = z ∧ ∃ c, ((a, c) ∈ dn ++ [(x, y)] ∨ (c, a) ∈ dn ++ [(x, y)]) ∧ ¬ G.PAdj a c ∧
              ∃ S, sep.get a c = .ok S ∧ z ∉ S) ↔
              (b = z ∧ ∃ c, ((a, c) ∈ dn ∨ (c, a) ∈ dn) ∧ ¬ G.PAdj a c ∧ ∃ S, sep.get a c = .ok S ∧ z ∉ S) ∨
              (b = z ∧ (a = x ∨ a = y) ∧ ¬ G.PAdj x y ∧ z ∉ S) := by
            intro a b
            constructor
            · rintro ⟨rfl, c, h1, h2, S', h3, h4⟩
              simp only [List.mem_append, List.mem_singleton, Prod.mk.injEq] at h1
              rcases h1 with (h1 | ⟨rfl, rfl⟩) | (h1 | ⟨rfl, rfl⟩)
              · exact Or.inl ⟨rfl, c, Or.inl h1, h2, S', h3, h4⟩
              · rw [hS] at h3; cases h3; exact Or.inr ⟨rfl, Or.inl rfl, h2, h4⟩
              · exact Or.inl ⟨rfl, c, Or.inr h1, h2, S', h3, h4⟩
              · rw [hS'] at h3; cases h3; exact Or.inr ⟨rfl, Or.inr rfl, fun h => h2 h.symm, h4⟩
            · rintro (⟨rfl, c, h1, h2⟩ | ⟨rfl, rfl | rfl, h2, h3⟩)
              · exact ⟨rfl, c, h1.imp (List.mem_append_left _) (List.mem_append_left _), h2⟩
              · exact ⟨rfl, y, Or.inl (by simp), h2, S, hS, h3⟩
              · exact ⟨rfl, x, Or.inr (by simp), fun h => h2 h.symm, S, hS', h3⟩
          cases b with
          | true =>
            refine ⟨K, by simp only [hb]; rfl, k1, k2, k3, fun a b => ?_⟩
            rw [k4, hsplit]
            have : ¬ (b = z ∧ (a = x ∨ a = y) ∧ ¬ G.PAdj x y ∧ z ∉ S) := fun h => h.2.2.1 (hb'.mp rfl)
            simp only [this, or_false]
          | false =>
            have hn : ¬ G.PAdj x y := by rw [← hb']; simp
            by_cases hzS : z ∈ S
            · refine ⟨K, by simp [hb, hS, bind, Except.bind, hzS]; rfl, k1, k2, k3, fun a b => ?_⟩
              rw [k4, hsplit]
              have : ¬ (b = z ∧ (a = x ∨ a = y) ∧ ¬ G.PAdj x y ∧ z ∉ S) := fun h => h.2.2.2 hzS
              simp only [this, or_false]
            · have hxz : x ≠ z := by rintro rfl; exact hG.irrefl _ _ hx
              have hyz : y ≠ z := by rintro rfl; exact hG.irrefl _ _ hy
              have hmx := hG.mem _ _ _ hx
              have hmy := hG.mem _ _ _ hy
              have kx : K.PAdj x z := (k3 _ _).mpr (Or.inr (Or.inr (Or.inl hx)))
              have ky : (K.orientEdge x z).PAdj y z :=
                (MG.orientEdge_padj kx _ _).mpr ((k3 _ _).mpr (Or.inr (Or.inr (Or.inl hy))))
              refine ⟨(K.orientEdge x z).orientEdge y z, by simp [hb, hS, bind, Except.bind, hzS]; rfl, ?_, k2, ?_, ?_⟩
              · refine MG.orientEdge_wf (MG.orientEdge_wf k1 hxz ?_ ?_) hyz ?_ ?_
                · rw [k2]; exact hmx.1
                · rw [k2]; exact hmx.2
                · show y ∈ K.nodes; rw [k2]; exact hmy.1
                · show z ∈ K.nodes; rw [k2]; exact hmy.2
              · intro a b
                rw [MG.orientEdge_padj ky, MG.orientEdge_padj kx, k3]
              · intro a b
                rw [MG.orientEdge_arrow, MG.orientEdge_arrow, k4, hsplit]
                constructor
                · rintro (((h | h) | ⟨rfl, rfl⟩) | ⟨rfl, rfl⟩)
                  · exact Or.inl h
                  · exact Or.inr (Or.inl h)
                  · exact Or.inr (Or.inr ⟨rfl, Or.inl rfl, hn, hzS⟩)
                  · exact Or.inr (Or.inr ⟨rfl, Or.inr rfl, hn, hzS⟩)
                · rintro (h | h | ⟨rfl, rfl | rfl, _⟩)
                  · exact Or.inl (Or.inl (Or.inl h))
                  · exact Or.inl (Or.inl (Or.inr h))
                  · exact Or.inl (Or.inr ⟨rfl, rfl⟩)
                  · exact Or.inr ⟨rfl, rfl⟩)
      refine ⟨H', g1, g2, g3, g4, fun a b => ?_⟩
      rw [g5, i4]
      simp only [List.nil_append, List.mem_append, List.mem_singleton]
      constructor
      · rintro (h | ⟨rfl, c, h1, h2, h3⟩)
        · exact ⟨h.1, Or.inl h.2⟩
        · refine ⟨?_, Or.inr rfl⟩
          rcases h1 with h1 | h1
          · exact ⟨c, mem_pairs_ne (o.nodup _ _) h1, (o.mem _ _ _).mp (mem_pairs_left h1),
              (o.mem _ _ _).mp (mem_pairs_right h1), h2, h3⟩
          · exact ⟨c, (mem_pairs_ne (o.nodup _ _) h1).symm, (o.mem _ _ _).mp (mem_pairs_right h1),
              (o.mem _ _ _).mp (mem_pairs_left h1), h2, h3⟩
      · rintro ⟨h, hd | rfl⟩
        · exact Or.inl ⟨h, hd⟩
        · obtain ⟨c, c1, c2, c3, c4, c5⟩ := h
          exact Or.inr ⟨rfl, c, mem_pairs_or ((o.mem _ _ _).mpr c2) ((o.mem _ _ _).mpr c3) c1, c4, c5⟩)
  refine ⟨G', h1, h2, h3, h4, fun a b => (h5 a b).trans ⟨fun h => h.1, fun h => ⟨h, ?_⟩⟩⟩
  obtain ⟨c, -, c2, -⟩ := h
  simpa [o.mem] using (hG.mem _ _ _ c2).2

/-- The edges after v-structure orientation and removal of bi-directed conflicts. -/
theorem vs_convert_spec (o : SetOrder α) (sep : SepSet α) {G : MG α} (hG : G.PdagWF)
    (hno : ∀ a b, ¬ G.Arrow a b) (hkey : ∀ i ∈ G.nodes, ∀ j ∈ G.nodes, i ≠ j → ∃ S, sep.get i j = .ok S) :
    ∃ G', orientVStructures o sep G = .ok G' ∧ (G'.convertBidirected o G'.nodes).PdagWF ∧
      (G'.convertBidirected o G'.nodes).nodes = G.nodes ∧
      (∀ a b, (G'.convertBidirected o G'.nodes).PAdj a b ↔ G.PAdj a b) ∧
      ∀ a b, (G'.convertBidirected o G'.nodes).Arrow a b ↔ VS sep G a b ∧ ¬ VS sep G b a := by
  obtain ⟨G', h1, h2, h3, h4, h5⟩ := orientVStructures_spec o sep hG hno hkey
  obtain ⟨c1, c2, c3, c4⟩ := MG.convertBidirected_spec o h2
  refine ⟨G', h1, c1, c2.trans h3, fun a b => ?_, fun a b => by rw [c3, h5, h5]⟩
  rw [← h4]
  simp only [MG.PAdj, c3, c4]
  tauto

/-! ### Perfect oracle -/

theorem Witness.dsep {ci : CITest α} {D : Dag α} (hac : D.Acyclic) (hp : Perfect ci D) {i j : α} {S : Finset α}
    (hi : i ∈ D.nodes) (hj : j ∈ D.nodes) (hij : i ≠ j) (h : Witness ci D.nodes i j S) : D.DSeparated i j S := by
  obtain ⟨l, k, rfl, h1 | h1, h2, h3, h4⟩ := h
  · exact (hp k i j l hi hj hij h2 h3 h4).mp h1
  · exact (Dag.dseparated_symm hac).mp ((hp k j i l hj hi hij.symm h3 h2 h4).mp h1)

theorem learnSkeleton_perfect (o : SetOrder α) {ci : CITest α} (overwrite : Bool) {D : Dag α} (hD : D.WF)
    (hac : D.Acyclic) (hp : Perfect ci D) :
    ∃ st', learnSkeleton o ci overwrite (init o D.nodes) = .ok st' ∧ Inv ci D.nodes st' ∧
      ∀ a b, st'.graph.Und a b ↔ D.Adj a b := by
  have hne : ∀ a b, D.Adj a b → a ≠ b := by
    rintro a b h rfl
    rcases h with h | h <;> exact Dag.irrefl hac _ h
  have hmem : ∀ a b, D.Adj a b → a ∈ D.nodes ∧ b ∈ D.nodes := by
    rintro a b (h | h)
    · exact hD _ _ h
    · exact (hD _ _ h).symm
  obtain ⟨st', h1, h2, h3, h4⟩ := learnSkeleton_spec o ci overwrite D.nodes
    (fun st => ∀ a b, D.Adj a b → st.graph.Und a b)
    (fun a b h => MG.pdagComplete_und.mpr ⟨(hmem a b h).1, (hmem a b h).2, hne a b h⟩)
    (by
      intro st st' _ hR _ _ hw a b h
      by_contra hn
      obtain ⟨S, hS⟩ := hw a b (hR a b h) hn
      exact Dag.not_dseparated_of_adj hac h (hS.dsep hac hp (hmem a b h).1 (hmem a b h).2 (hne a b h)))
  refine ⟨st', h1, h2, fun a b => ⟨fun hu => ?_, h3 a b⟩⟩
  by_contra hn
  have key : ∀ i j, st'.graph.Und i j → ¬ D.Adj i j → D.DPath i j := by
    intro i j hu hn
    by_contra hdp
    have hij : i ≠ j := by rintro rfl; exact h2.wf.irrefl _ _ hu
    have hm := h2.wf.mem _ _ _ hu
    rw [h2.nodes] at hm
    obtain ⟨z, k, hz, -, hf⟩ := h4 i j hu (D.par i) (fun p hp => h3 p i (Or.inl hp)) (fun h => hn (Or.inr h))
    have hzm : ∀ x, x ∈ z ↔ D.Edge x i := fun x => by rw [← List.mem_toFinset, hz]; rfl
    have hs := Dag.dseparated_parents hac hij hn hdp
    rw [← hz] at hs
    have hi : i ∉ z := fun h => Dag.irrefl hac _ ((hzm i).mp h)
    have hj : j ∉ z := fun h => hn (Or.inr ((hzm j).mp h))
    have hzn : ∀ x ∈ z, x ∈ D.nodes := fun x hx => (hD _ _ ((hzm x).mp hx)).1
    rcases hf with hf | hf
    · rw [(hp k i j z hm.1 hm.2 hij hi hj hzn).mpr hs] at hf; cases hf
    · rw [(hp k j i z hm.2 hm.1 hij.symm hj hi hzn).mpr ((Dag.dseparated_symm hac).mp hs)] at hf; cases hf
  have hab : a ≠ b := by rintro rfl; exact h2.wf.irrefl _ _ hu
  rcases reflTransGen_iff_eq_or_transGen.mp (key a b hu hn) with h | h
  · exact hab h.symm
  · exact hac a (h.trans_left (key b a (h2.wf.symm _ _ hu) (fun h => hn h.symm)))

theorem Inv.vs_iff {ci : CITest α} {D : Dag α} (hac : D.Acyclic) (hp : Perfect ci D) {st : PcState α}
    (h : Inv ci D.nodes st) (hu : ∀ a b, st.graph.Und a b ↔ D.Adj a b) (a b : α) :
    VS st.sep st.graph a b ↔ ∃ c, D.UCol a b c := by
  have hpa : ∀ a b, st.graph.PAdj a b ↔ D.Adj a b := by
    intro a b
    simp only [MG.PAdj, h.noArrow, false_or, hu]
    exact ⟨fun h => h.elim id Dag.Adj.symm, Or.inl⟩
  have hw : ∀ a b c, st.graph.Und a b → st.graph.Und c b → a ≠ c → ¬ st.graph.PAdj a c →
      ∃ S, st.sep.get a c = .ok S ∧ D.DSeparated a c S := by
    intro a b c h1 h2 hne hn
    have m1 := h.wf.mem _ _ _ h1
    have m2 := h.wf.mem _ _ _ h2
    rw [h.nodes] at m1 m2
    obtain ⟨S, hS, hS'⟩ := h.witness a m1.1 c m2.1 hne (fun h' => hn (Or.inr (Or.inr (Or.inl h'))))
    exact ⟨S, hS, hS'.dsep hac hp m1.1 m2.1 hne⟩
  constructor
  · rintro ⟨c, h1, h2, h3, h4, S, h5, h6⟩
    obtain ⟨S', hS', hd⟩ := hw a b c h2 h3 h1 h4
    rw [h5] at hS'; cases hS'
    refine ⟨c, ?_⟩
    by_contra hn
    refine h6 (Dag.mem_sepset_of_noncollider hac h1 ((hu _ _).mp h2) ((hu _ _).mp h3).symm (fun hE => hn ?_) hd)
    exact ⟨hE.1, hE.2, h1, fun h => h4 ((hpa _ _).mpr h)⟩
  · rintro ⟨c, h1, h2, h3, h4⟩
    have u1 : st.graph.Und a b := (hu _ _).mpr (Or.inl h1)
    have u2 : st.graph.Und c b := (hu _ _).mpr (Or.inl h2)
    have hn : ¬ st.graph.PAdj a c := fun h => h4 ((hpa _ _).mp h)
    obtain ⟨S, hS, hd⟩ := hw a b c u1 u2 h3 hn
    exact ⟨c, h3, u1, u2, hn, S, hS, Dag.not_mem_sepset_of_collider hac h3 h1 h2 hd⟩

theorem learnStructure_perfect (o : SetOrder α) {ci : CITest α} (overwrite : Bool) {D : Dag α} (hD : D.WF)
    (hac : D.Acyclic) (hp : Perfect ci D) :
    ∃ st', learnStructure o ci overwrite (init o D.nodes) = .ok st' ∧ MG.Pat D st'.graph ∧
      Dag.ClosedPattern D st'.graph.Arrow := by
  obtain ⟨st, h1, h2, h3⟩ := learnSkeleton_perfect o overwrite hD hac hp
  have hpa : ∀ a b, st.graph.PAdj a b ↔ D.Adj a b := by
    intro a b
    simp only [MG.PAdj, h2.noArrow, false_or, h3]
    exact ⟨fun h => h.elim id Dag.Adj.symm, Or.inl⟩
  obtain ⟨G1, g1, g2, g3, g4, g5⟩ := vs_convert_spec o st.sep h2.wf h2.noArrow (by rw [h2.nodes]; exact h2.key)
  simp only [h2.vs_iff hac hp h3] at g5
  have hvs : ∀ a b c, D.UCol a b c → (G1.convertBidirected o G1.nodes).Arrow a b := by
    intro a b c hu
    refine (g5 a b).mpr ⟨⟨c, hu⟩, ?_⟩
    rintro ⟨d, hd⟩
    exact Dag.not_edge_of_edge hac hu.1 hd.1
  have hpat : MG.Pat D (G1.convertBidirected o G1.nodes) := by
    refine ⟨g3.trans h2.nodes, g2, fun a b => by rw [g4, hpa], fun a b h => ?_⟩
    obtain ⟨⟨c, hc⟩, -⟩ := (g5 a b).mp h
    exact Dag.Der.vs hc
  obtain ⟨G2, k1, k2, k3⟩ := hpat.maximallyOrient hac o (rules := [1, 2, 3]) (by simp) hvs
  refine ⟨{ st with graph := G2 }, ?_, k2, k3⟩
  simp only [learnStructure, h1, g1, bind, Except.bind]
  simp only [k1]
  rfl

end Pc
end Verif
