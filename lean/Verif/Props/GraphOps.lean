import Verif.Lemmas.GraphOps
import Verif.Props.Pag
import Verif.Props.Pdag
import Verif.Props.Mixed
import Verif.Model.Dag

/-!
# C105: conversions and local queries of graphs
-/

namespace Verif
open Relation

namespace Dag
variable {α : Type} [DecidableEq α]

/-- C105 (`max_parents`): no exception; the largest number of parents of a node, 0 for the graph without nodes. -/
theorem C105_max_parents (o : SetOrder α) (G : Dag α) :
    ∃ n, G.maxParents o = .ok n ∧ (∀ v ∈ G.nodes, (G.par v).card ≤ n) ∧ (n = 0 ∨ ∃ v ∈ G.nodes, (G.par v).card = n) := by
  have key : ∀ (l : List α) (k : Nat), (∀ v ∈ l, v ∈ G.nodes) →
      ∃ n, l.foldlM (fun m v => do
          let n := (← G.parents v).card
          return if n > m then n else m : Nat → α → Py Nat) k = .ok n ∧ k ≤ n ∧ (∀ v ∈ l, (G.par v).card ≤ n) ∧
        (n = k ∨ ∃ v ∈ l, (G.par v).card = n) := by
    intro l
    induction l with
    | nil => intro k _; exact ⟨k, rfl, le_rfl, by simp, .inl rfl⟩
    | cons v l ih =>
      intro k hl
      obtain ⟨n, h1, h2, h3, h4⟩ := ih (if (G.par v).card > k then (G.par v).card else k) (fun w hw => hl w (by simp [hw]))
      have hv : G.parents v = .ok (G.par v) := if_pos (hl v (by simp))
      refine ⟨n, ?_, ?_, ?_, ?_⟩
      · rw [List.foldlM_cons]
        simp only [hv, bind, Except.bind, pure, Except.pure]
        exact h1
      · split_ifs at h2 <;> omega
      · intro w hw
        rcases List.mem_cons.mp hw with rfl | hw
        · split_ifs at h2 <;> omega
        · exact h3 w hw
      · rcases h4 with h4 | ⟨w, hw, h4⟩
        · split_ifs at h4
          · exact .inr ⟨v, by simp, h4.symm⟩
          · exact .inl h4
        · exact .inr ⟨w, by simp [hw], h4⟩
  obtain ⟨n, h1, -, h3, h4⟩ := key (o.iter () G.nodes) 0 (fun v hv => (o.mem _ _ _).mp hv)
  exact ⟨n, h1, fun v hv => h3 v ((o.mem _ _ _).mpr hv), h4.imp id fun ⟨v, hv, h⟩ => ⟨v, (o.mem _ _ _).mp hv, h⟩⟩

end Dag

namespace MG
variable {α : Type} [DecidableEq α]

/-- C105 (`is_edge_visible`): after `find_visible_edges`, `is_edge_visible` answers whether the edge is visible. -/
theorem C105_visible (o : SetOrder α) {G : MG α} (hG : G.Proper) :
    ∃ E, G.findVisibleEdges o = .ok E ∧ ∀ a b, ∃ v, isEdgeVisible (some E) a b = .ok v ∧ (v = true ↔ G.Visible a b) := by
  obtain ⟨E, h1, h2⟩ := C58_visible_edges o hG
  exact ⟨E, h1, fun a b => ⟨_, rfl, by rw [decide_eq_true_iff, h2]⟩⟩

/-- C105 (`is_edge_visible`, disagreement with its documentation): the documentation says that `find_visible_edges` is called first if the
visibility was not established previously; in fact the call fails. -/
theorem C105_visible_not_computed (a b : α) : isEdgeVisible none a b = .error .assertionError := rfl

/-- C105 (`fan_in` of a PAG): the number of neighbours with an arrowhead or a circle at the node; tails are not counted. -/
theorem C105_fan_in {G : MG α} (hG : G.Proper) (v : α) :
    G.pagFanIn v = (G.nodes.filter (fun a => G.At a v .arrow ∨ G.At a v .circle)).card := by
  rw [pagFanIn, ← Finset.card_union_of_disjoint]
  · congr 1
    ext a
    rw [Finset.mem_union, Finset.mem_filter]
    exact ⟨fun h => ⟨h.elim (fun h => (hG.mem _ _ _ h).1) (fun h => (hG.mem _ _ _ h).1), h⟩, fun h => h.2⟩
  · rw [Finset.disjoint_left]
    intro a h h'
    exact absurd (hG.one a v _ _ h h') (by decide)

/-- C105 (`fan_in` of a PDAG): the number of neighbours that are parents or joined by an undirected edge. -/
theorem C105_pdag_fan_in {G : MG α} (hG : G.PdagWF) (v : α) :
    G.fanIn v = (G.nodes.filter (fun a => G.Arrow a v ∨ G.Und a v)).card := by
  have h : G.fanIn v = (G.g v .arrow).card + (G.g v .tail).card := rfl
  rw [h, ← Finset.card_union_of_disjoint]
  · congr 1
    ext a
    rw [Finset.mem_union, Finset.mem_filter]
    exact ⟨fun h => ⟨h.elim (fun h => (hG.mem _ _ _ h).1) (fun h => (hG.mem _ _ _ h).1), h⟩, fun h => h.2⟩
  · rw [Finset.disjoint_left]
    exact fun a h h' => hG.excl a v h h'

/-- C105 (`is_any_edge_mark`): whether there is an edge, also if asked about the other end. -/
theorem C105_any_mark {G : MG α} (hG : G.Proper) (a b : α) : G.isAnyEdgeMark a b = true ↔ G.MAdj a b := by
  have h1 : ∀ a b, G.isAnyEdgeMark a b = true ↔ ∃ m, G.At a b m := by
    intro a b
    simp only [isAnyEdgeMark, List.any_eq_true, decide_eq_true_eq]
    exact ⟨fun ⟨m, _, h⟩ => ⟨m, h⟩, fun ⟨m, h⟩ => ⟨m, hG.type _ _ _ h, h⟩⟩
  rw [h1]
  exact ⟨.inl, fun h => h.elim id fun ⟨m, h⟩ => hG.both _ _ _ h⟩

/-- C105 (`which_reachable_any_edgemark`): the sources, other than the target, that are connected with the target by a path inside the given
nodes. -/
theorem C105_which_reachable (o : SetOrder α) {G : MG α} (hG : G.Proper) (S : Finset α) (t : α) (en : Finset α) :
    ∃ R, G.whichReachableAny o S t en = .ok R ∧
      ∀ s, s ∈ R ↔ s ∈ S ∧ s ≠ t ∧ TransGen (fun a b => G.MAdj a b ∧ b ∈ en) s t := by
  obtain ⟨R, h1, h2⟩ := setComp_spec (p := fun s => G.isReachableAny o s t en)
    (P := fun s => s ≠ t ∧ TransGen (fun a b => G.MAdj a b ∧ b ∈ en) s t) (o.iter () S) (fun s _ => isReachableAny_spec o hG s t en)
  exact ⟨R, h1, fun s => by rw [h2, o.mem]⟩

/-- C105 (`convert_to_undirected`): directed (and bi-directed) edges between the given nodes become undirected, and nothing else changes. -/
theorem C105_undirected (o : SetOrder α) {G : MG α} (hG : G.PdagWF) (N : Finset α) :
    (G.convertToUndirected o N).PdagWF ∧ (G.convertToUndirected o N).nodes = G.nodes ∧
      (∀ a b, (G.convertToUndirected o N).Arrow a b ↔ G.Arrow a b ∧ ¬ (a ∈ N ∧ b ∈ N)) ∧
      ∀ a b, (G.convertToUndirected o N).Und a b ↔ G.Und a b ∨ (G.PAdj a b ∧ a ∈ N ∧ b ∈ N) := by
  obtain ⟨h1, h2, h3, h4, h5⟩ := convertToUndirected_fold o G N
  have hA : ∀ a b, (G.convertToUndirected o N).Arrow a b ↔ G.Arrow a b ∧ ¬ (a ∈ N ∧ b ∈ N) := by
    intro a b
    rw [h4]
    refine and_congr_right fun h => ?_
    rw [pairs_cover o N (by rintro rfl; exact hG.irrefl _ _ h)]
  have hU : ∀ a b, (G.convertToUndirected o N).Und a b ↔ G.Und a b ∨ ((G.Arrow a b ∨ G.Arrow b a) ∧ a ∈ N ∧ b ∈ N) := by
    intro a b
    rw [h5]
    refine or_congr_right (and_congr_right fun h => ?_)
    rw [pairs_cover o N (by rintro rfl; exact h.elim (hG.irrefl _ _) (hG.irrefl _ _))]
  refine ⟨⟨fun m => by rw [h2]; exact hG.types m, ?_, ?_, ?_, ?_⟩, h1, hA, fun a b => ?_⟩
  · intro a b m h
    rw [h1]
    cases m with
    | tail =>
      rcases (hU a b).mp h with h | ⟨h | h, -⟩
      · exact hG.mem _ _ _ h
      · exact hG.mem _ _ _ h
      · exact (hG.mem _ _ _ h).symm
    | arrow => exact hG.mem _ _ _ ((hA a b).mp h).1
    | circle => rw [h3] at h; exact hG.mem _ _ _ h
  · intro a m h
    cases m with
    | tail =>
      rcases (hU a a).mp h with h | ⟨h | h, -⟩
      · exact hG.irrefl _ _ h
      · exact hG.irrefl _ _ h
      · exact hG.irrefl _ _ h
    | arrow => exact hG.irrefl _ _ ((hA a a).mp h).1
    | circle => rw [h3] at h; exact hG.irrefl _ _ h
  · intro a b h
    refine (hU b a).mpr (((hU a b).mp h).imp (hG.symm _ _) fun h => ⟨h.1.symm, h.2.symm⟩)
  · intro a b h h'
    obtain ⟨k1, k2⟩ := (hA a b).mp h
    exact ((hU a b).mp h').elim (hG.excl _ _ k1) fun h => k2 h.2
  · rw [hU, PAdj]
    have := hG.symm b a
    simp only [Und]
    tauto

/-- C105 (`convert_to_undirected` on all nodes): the skeleton, all edges undirected. -/
theorem C105_undirected_all (o : SetOrder α) {G : MG α} (hG : G.PdagWF) :
    (∀ a b, ¬ (G.convertToUndirected o G.nodes).Arrow a b) ∧ ∀ a b, (G.convertToUndirected o G.nodes).Und a b ↔ G.PAdj a b := by
  obtain ⟨-, -, h3, h4⟩ := C105_undirected o hG G.nodes
  refine ⟨fun a b h => ((h3 a b).mp h).2 (hG.mem _ _ _ ((h3 a b).mp h).1), fun a b => ?_⟩
  rw [h4]
  refine ⟨fun h => h.elim (fun h => .inr (.inr (.inl h))) fun h => h.1, fun h => .inr ⟨h, ?_⟩⟩
  rcases h with h | h | h | h
  · exact hG.mem _ _ _ h
  · exact (hG.mem _ _ _ h).symm
  · exact hG.mem _ _ _ h
  · exact (hG.mem _ _ _ h).symm

/-- C105 (`delete_edges_not_present_in`): no exception; an edge is removed exactly if both ends are among the given nodes and are not adjacent
in the other graph; the other edges keep their direction. -/
theorem C105_delete_absent (o : SetOrder α) {G src : MG α} (hG : G.PdagWF) (hs : src.PdagWF) (N : Finset α) :
    ∃ H, G.deleteEdgesNotPresentIn o src N = .ok H ∧ H.PdagWF ∧ H.nodes = G.nodes ∧
      (∀ a b, H.Arrow a b ↔ G.Arrow a b ∧ (a ∈ N → b ∈ N → src.PAdj a b)) ∧
      ∀ a b, H.Und a b ↔ G.Und a b ∧ (a ∈ N → b ∈ N → src.PAdj a b) := by
  obtain ⟨H, h1, h2, h3, h4, h5⟩ := deleteAbsent_fold hs (pairs (o.iter () N)) G (fun p hp => mem_pairs_ne (o.nodup _ _) (a := p.1) (b := p.2) hp)
  refine ⟨H, h1, h3 hG, h2, fun a b => ?_, fun a b => ?_⟩
  · rw [h4]
    refine and_congr_right fun h => ?_
    rw [pairs_cover o N (by rintro rfl; exact hG.irrefl _ _ h), and_imp]
  · rw [h5]
    refine and_congr_right fun h => ?_
    rw [pairs_cover o N (by rintro rfl; exact hG.irrefl _ _ h), and_imp]

end MG

/-! ## The hypotheses are met -/

example : exD2.maxParents ascending = .ok 2 ∧ (Dag.empty ∅ : Dag Nat).maxParents ascending = .ok 0 := by decide +kernel

example : exPag.Proper ∧ exMag.Proper ∧ exM.Proper ∧ exP.PdagWF := ⟨exPag_proper, exMag_proper, exM_proper, exP_wf⟩

/-- A chain with a directed, a bi-directed and an undirected edge, of which the last is outside the given nodes. -/
example : (MG.ofEdges {0, 1, 2, 3} [(0, 1), (1, 2), (2, 1), (2, 3)] []).PdagWF ∧
    MG.show (.ok ((MG.ofEdges {0, 1, 2, 3} [(0, 1), (1, 2), (2, 1), (2, 3)] []).convertToUndirected descending {0, 1, 2}))
      = .ok ([(2, 3)], [(0, 1), (1, 2)]) :=
  ⟨MG.ofEdges_wf (by decide), by decide +kernel⟩

example : (MG.ofEdges {0, 1, 2} [(0, 1)] [(1, 2), (0, 2)]).PdagWF ∧ (MG.ofEdges {0, 1, 2} [(1, 2)] []).PdagWF ∧
    MG.show ((MG.ofEdges {0, 1, 2} [(0, 1)] [(1, 2), (0, 2)]).deleteEdgesNotPresentIn ascending (MG.ofEdges {0, 1, 2} [(1, 2)] []) {0, 1, 2})
      = .ok ([], [(1, 2)]) :=
  ⟨MG.ofEdges_wf (by decide), MG.ofEdges_wf (by decide), by decide +kernel⟩

end Verif
