import Verif.Lemmas.MixedEdit
import Verif.Props.Pdag

/-!
# Properties C24–C27 (mixed graphs)
-/

namespace Verif
open Relation
variable {α : Type} [DecidableEq α]

/-- A mixed graph given by a list of (node `u`, node `v`, mark at `v` on the edge between them). -/
def MG.ofMarks (nodes : Finset α) (types : List Mark) (marks : List (α × α × Mark)) : MG α :=
  ⟨nodes, types, fun v m => nodes.filter (fun u => (u, v, m) ∈ marks)⟩

theorem MG.ofMarks_proper {nodes : Finset α} {types : List Mark} {marks : List (α × α × Mark)}
    (h : ∀ e ∈ marks, e.1 ≠ e.2.1 ∧ e.2.1 ∈ nodes ∧ e.2.2 ∈ types ∧ (∃ f ∈ marks, f.1 = e.2.1 ∧ f.2.1 = e.1) ∧
      ∀ f ∈ marks, f.1 = e.1 → f.2.1 = e.2.1 → f.2.2 = e.2.2) :
    (MG.ofMarks nodes types marks).Proper := by
  have hat : ∀ a b m, (MG.ofMarks nodes types marks).At a b m ↔ a ∈ nodes ∧ (a, b, m) ∈ marks := by
    intro a b m; simp [MG.At, ofMarks]
  constructor
  · intro a b m hm; exact (h _ ((hat _ _ _).mp hm).2).2.2.1
  · intro a b m hm; exact ⟨((hat _ _ _).mp hm).1, (h _ ((hat _ _ _).mp hm).2).2.1⟩
  · intro a m hm; exact (h _ ((hat _ _ _).mp hm).2).1 rfl
  · intro a b m m' hm hm'
    exact ((h _ ((hat _ _ _).mp hm).2).2.2.2.2 _ ((hat _ _ _).mp hm').2 rfl rfl).symm
  · intro a b m hm
    obtain ⟨f, hf, e1, e2⟩ := (h _ ((hat _ _ _).mp hm).2).2.2.2.1
    obtain ⟨f1, f2, f3⟩ := f
    simp only at e1 e2
    subst e1; subst e2
    refine ⟨f3, (hat _ _ _).mpr ⟨?_, hf⟩⟩
    exact (h _ ((hat _ _ _).mp hm).2).2.1

/-- `0 o-> 1 <-> 2`, `2 --- 3`, and `4` alone. -/
def exM : MG Nat := .ofMarks {0, 1, 2, 3, 4} [.tail, .arrow, .circle]
  [(0, 1, .arrow), (1, 0, .circle), (1, 2, .arrow), (2, 1, .arrow), (2, 3, .tail), (3, 2, .tail)]

theorem exM_proper : exM.Proper := MG.ofMarks_proper (by decide)

/-- All marks `(u, v, mark at v)` of a result (for examples). -/
def MG.marks (r : Py (MG Nat)) : Py (List (Nat × Nat × Mark)) :=
  r.map fun G => (ascending.iter () G.nodes).flatMap fun v =>
    [Mark.tail, .arrow, .circle].flatMap fun m => (ascending.iter () (G.g v m)).map fun u => (u, v, m)

/-! ## C24 -/

/-- The graphs obtained by a finite sequence of successful editing calls, starting from an empty or complete graph. -/
inductive MG.Built (o : SetOrder α) : MG α → Prop
  | empty (nodes types) : Built o (MG.empty nodes types)
  | complete (nodes types mark) : mark ∈ types → Built o (MG.complete nodes types mark)
  | add {G H i j mi mj} : Built o G → i ∈ G.nodes → j ∈ G.nodes → G.addEdge i j mi mj = .ok H → Built o H
  | delete {G i j} : Built o G → i ∈ G.nodes → j ∈ G.nodes → Built o (G.deleteEdge i j)
  | replace {G H s t m} : Built o G → G.isConnected s t = .ok true → G.replaceEdgeMark s t m = .ok H → Built o H
  | reset {G H m S} : Built o G → S ⊆ G.nodes → G.resetOrientations o m S = .ok H → Built o H

/-- Every sequence of edits gives a well-formed graph: no self-edges, at most one mark per edge end, a mark at one end
iff a mark at the other; and then `get_edge_mark` returns that mark and `is_connected` is symmetric. -/
theorem C24_invariant (o : SetOrder α) {G : MG α} (h : MG.Built o G) :
    G.Proper ∧ (∀ a b m, G.getEdgeMark a b = some m ↔ G.At a b m) ∧
      ∀ a b, a ≠ b → ∃ c, G.isConnected a b = .ok c ∧ G.isConnected b a = .ok c ∧ (c = true ↔ ∃ m, G.At a b m) := by
  have hp : G.Proper := by
    induction h with
    | empty => exact MG.empty_proper _ _
    | complete _ _ _ hm => exact MG.complete_proper hm
    | add _ hi hj h ih => exact ih.addEdge hi hj h
    | delete _ _ _ ih => exact ih.deleteEdge _ _
    | @replace G H s t m _ hc h ih =>
      have hne : s ≠ t := by
        rintro rfl
        simp [MG.isConnected] at hc
      obtain ⟨c, h1, h2⟩ := MG.proper_isConnected ih.type hne
      rw [hc] at h1
      cases h1
      exact ih.replaceEdgeMark (h2.mp rfl) h
    | reset _ _ h ih => exact ih.resetOrientations o h
  refine ⟨hp, fun a b m => MG.getEdgeMark_spec hp, fun a b hab => ?_⟩
  obtain ⟨c, h1, h2⟩ := MG.proper_isConnected hp.type hab
  obtain ⟨c', h1', h2'⟩ := MG.proper_isConnected hp.type hab.symm
  have : c = c' := by
    have : c = true ↔ c' = true := by rw [h2, h2']; exact ⟨MG.MAdj.symm, MG.MAdj.symm⟩
    cases c <;> cases c' <;> simp_all
  subst this
  exact ⟨c, h1, h1', by rw [h2, hp.adj_iff]⟩

/-- A history: complete circle graph on 3 nodes, one edge deleted, a mark replaced, the edge added again, and the marks
among {1, 2} reset. -/
example : ∃ G, MG.Built ascending G ∧ MG.marks (.ok G) =
    .ok [(2, 0, .tail), (1, 0, .circle), (2, 1, .tail), (0, 1, .arrow), (1, 2, .tail), (0, 2, .arrow)] := by
  obtain ⟨G1, h1⟩ : ∃ G, ((MG.complete {0, 1, 2} [.tail, .arrow, .circle] .circle : MG Nat).deleteEdge 0 2).replaceEdgeMark
    0 1 .arrow = .ok G := ⟨_, rfl⟩
  obtain ⟨G2, h2⟩ : ∃ G, G1.addEdge 0 2 .tail .arrow = .ok G := by cases h1; exact ⟨_, rfl⟩
  obtain ⟨G3, h3⟩ : ∃ G, G2.resetOrientations ascending .tail {1, 2} = .ok G := by cases h1; cases h2; exact ⟨_, rfl⟩
  refine ⟨G3, .reset (.add (.replace (.delete (.complete {0, 1, 2} [.tail, .arrow, .circle] .circle (by decide))
    (by decide) (by decide)) (by decide +kernel) h1) ?_ ?_ h2) ?_ h3, ?_⟩
  all_goals cases h1; cases h2; cases h3; decide +kernel

open Classical in
/-- `add_edge` fails exactly for equal or adjacent nodes or unknown marks; otherwise it adds the two marks and nothing
else. -/
theorem C24_addEdge {G : MG α} (hG : G.Proper) (i j : α) (mi mj : Mark) :
    if i ≠ j ∧ ¬ G.MAdj i j ∧ mi ∈ G.types ∧ mj ∈ G.types then
      ∃ H, G.addEdge i j mi mj = .ok H ∧ H.nodes = G.nodes ∧ H.types = G.types ∧
        ∀ a b m, H.At a b m ↔ G.At a b m ∨ (a = j ∧ b = i ∧ m = mi) ∨ (a = i ∧ b = j ∧ m = mj)
    else G.addEdge i j mi mj = .error .assertionError := by
  split_ifs with h
  · exact MG.addEdge_spec hG.type h.1 h.2.1 h.2.2.1 h.2.2.2
  · exact MG.addEdge_err hG.type (by tauto)

example : exM.Proper ∧ (exM.addEdge 0 4 .tail .arrow).isOk ∧
    exM.addEdge 0 1 .tail .arrow = .error .assertionError := ⟨exM_proper, rfl, rfl⟩

/-- `delete_edge` removes the two marks of the pair and nothing else. -/
theorem C24_deleteEdge {G : MG α} (hG : G.Proper) (i j : α) :
    (G.deleteEdge i j).nodes = G.nodes ∧ (G.deleteEdge i j).types = G.types ∧
      ∀ a b m, (G.deleteEdge i j).At a b m ↔ G.At a b m ∧ ¬ (a = i ∧ b = j) ∧ ¬ (a = j ∧ b = i) :=
  MG.deleteEdge_spec hG.type

example : MG.marks (.ok (exM.deleteEdge 1 2)) =
    .ok [(1, 0, .circle), (0, 1, .arrow), (3, 2, .tail), (2, 3, .tail)] := by decide +kernel

/-- `replace_edge_mark` sets the mark at the target for this source, and nothing else. -/
theorem C24_replaceEdgeMark {G : MG α} (hG : G.Proper) (s t : α) (m : Mark) :
    if m ∈ G.types then
      ∃ H, G.replaceEdgeMark s t m = .ok H ∧ H.nodes = G.nodes ∧ H.types = G.types ∧
        ∀ a b m', H.At a b m' ↔ if a = s ∧ b = t then m' = m else G.At a b m'
    else G.replaceEdgeMark s t m = .error .assertionError := by
  split_ifs with h
  · exact MG.replaceEdgeMark_spec hG.type h
  · exact MG.replaceEdgeMark_err h

example : MG.marks (exM.replaceEdgeMark 1 0 .tail) =
    .ok [(1, 0, .tail), (0, 1, .arrow), (2, 1, .arrow), (3, 2, .tail), (1, 2, .arrow), (2, 3, .tail)] := by decide +kernel

/-- `replace_edge_mark` on nodes that are not adjacent leaves a graph that is not well-formed. -/
theorem C24_replace_nonadjacent : ∃ (G H : MG Nat), G.Proper ∧ G.replaceEdgeMark 0 4 .arrow = .ok H ∧ ¬ H.Proper := by
  refine ⟨exM, _, exM_proper, rfl, fun h => ?_⟩
  obtain ⟨m, hm⟩ := h.both 0 4 .arrow (by decide +kernel)
  cases m <;> revert hm <;> decide +kernel

open Classical in
/-- `reset_orientations` sets both marks of every edge inside the given node set, and changes nothing else. -/
theorem C24_resetOrientations (o : SetOrder α) {G : MG α} (hG : G.Proper) (m : Mark) (S : Finset α) :
    if m ∈ G.types then
      ∃ H, G.resetOrientations o m S = .ok H ∧ H.nodes = G.nodes ∧ H.types = G.types ∧
        ∀ a b m', H.At a b m' ↔ if a ∈ S ∧ b ∈ S ∧ a ≠ b ∧ G.MAdj a b then m' = m else G.At a b m'
    else G.resetOrientations o m S = .error .assertionError := by
  split_ifs with h
  · exact MG.resetOrientations_spec o hG.type h
  · exact if_neg h

example : MG.marks (exM.resetOrientations ascending .circle {0, 1, 4}) =
    .ok [(1, 0, .circle), (2, 1, .arrow), (0, 1, .circle), (3, 2, .tail), (1, 2, .arrow), (2, 3, .tail)] := by decide +kernel

/-! ## C25 -/

/-- Both searches terminate and return exactly the nodes reachable from the anchor through allowed edges by a path of
at least one edge whose nodes after the anchor are in the pool; so they agree. -/
theorem C25_reachable (o o' : SetOrder α) (G : MG α) (anchor : α) (pool : Finset α)
    (types : Option (List (Mark × Mark))) :
    ∃ r, G.findReachableSet o anchor pool types = .ok r ∧
      G.findReachableSetRec o' types (pool.card + 1) anchor pool = .ok r ∧
      ∀ y, y ∈ r ↔ G.ReachIn types pool anchor y := by
  obtain ⟨r, h1, h2⟩ := MG.findReachableSet_spec o G anchor pool types
  obtain ⟨r', h1', h2'⟩ := MG.findReachableSetRec_spec o' G types (pool.card + 1) anchor pool (by omega)
  have : r' = r := by ext y; rw [h2, h2']
  subst this
  exact ⟨r', h1, h1', h2⟩

example : (exM.findReachableSet ascending 0 {0, 1, 2, 3, 4} none).map (ascending.iter ()) = .ok [0, 1, 2, 3] ∧
    (exM.findReachableSet ascending 0 {1, 2, 3, 4} none).map (ascending.iter ()) = .ok [1, 2, 3] ∧
    (exM.findReachableSet ascending 0 {1, 2, 3} (some [(.circle, .arrow), (.arrow, .arrow)])).map (ascending.iter ())
      = .ok [1, 2] ∧
    (exM.findReachableSetRec descending none 5 0 {1, 2, 3, 4}).map (ascending.iter ()) = .ok [1, 2, 3] := by
  decide +kernel

/-! ## C26 -/

/-- The edge types that `find_unconnected_subgraphs` follows. -/
def MG.symTypes (sym : Option Mark) : Option (List (Mark × Mark)) := sym.map fun m => [(m, m)]

/-- On a well-formed graph, `find_unconnected_subgraphs` returns pairwise disjoint sets covering exactly the given nodes;
two nodes are in the same set iff they are joined by a path inside the given nodes (of any edges, or of edges with the
given mark at both ends). -/
theorem C26_components (o : SetOrder α) {G : MG α} (hG : G.Proper) (en : Finset α) (sym : Option Mark)
    (hsym : ∀ m ∈ sym, m ∈ G.types) :
    ∃ L, G.findUnconnectedSubgraphs o en sym = .ok L ∧ (∀ x, (∃ S ∈ L, x ∈ S) ↔ x ∈ en) ∧ L.Pairwise Disjoint ∧
      ∀ S ∈ L, ∀ x ∈ S, ∀ y, y ∈ S ↔ G.Joined (MG.symTypes sym) en x y := by
  have hs : ∀ x y, G.Nbr (MG.symTypes sym) x y → G.Nbr (MG.symTypes sym) y x := by
    intro x y
    cases sym with
    | none =>
      rintro ⟨m, _, h⟩
      obtain ⟨m', h'⟩ := hG.both _ _ _ h
      exact ⟨m', hG.type _ _ _ h', h'⟩
    | some m =>
      rintro ⟨t, ht, h1, h2⟩
      simp only [List.mem_singleton] at ht
      subst ht
      exact ⟨_, List.mem_singleton.mpr rfl, h2, h1⟩
  have := MG.subgraphsLoop_spec o G (MG.symTypes sym) hs (en.card + 1) en (by omega)
  cases sym with
  | none => exact this
  | some m =>
    have hm := hsym m rfl
    simp only [MG.findUnconnectedSubgraphs, if_pos hm]
    exact this

/-- For a given mark the components are right on every graph, also on PDAGs with directed edges (this is the use in
RAI, with the undirected mark). -/
theorem C26_components_mark (o : SetOrder α) (G : MG α) (en : Finset α) (m : Mark) (hm : m ∈ G.types) :
    ∃ L, G.findUnconnectedSubgraphs o en (some m) = .ok L ∧ (∀ x, (∃ S ∈ L, x ∈ S) ↔ x ∈ en) ∧ L.Pairwise Disjoint ∧
      ∀ S ∈ L, ∀ x ∈ S, ∀ y, y ∈ S ↔ G.Joined (some [(m, m)]) en x y := by
  have hs : ∀ x y, G.Nbr (some [(m, m)]) x y → G.Nbr (some [(m, m)]) y x := by
    rintro x y ⟨t, ht, h1, h2⟩
    simp only [List.mem_singleton] at ht
    subst ht
    exact ⟨_, List.mem_singleton.mpr rfl, h2, h1⟩
  have := MG.subgraphsLoop_spec o G (some [(m, m)]) hs (en.card + 1) en (by omega)
  simp only [MG.findUnconnectedSubgraphs, if_pos hm]
  exact this

example : (exM.findUnconnectedSubgraphs ascending {0, 1, 2, 3, 4} none).map (List.map (ascending.iter ())) =
      .ok [[0, 1, 2, 3], [4]] ∧
    (exM.findUnconnectedSubgraphs descending {0, 1, 2, 3, 4} (some .tail)).map (List.map (ascending.iter ())) =
      .ok [[4], [2, 3], [1], [0]] ∧
    (exM.findUnconnectedSubgraphs ascending {0, 1, 3, 4} none).map (List.map (ascending.iter ())) =
      .ok [[0, 1], [3], [4]] := by decide +kernel

/-- On a well-formed graph, `is_graph_connected` on at least two nodes is True iff all of them are joined inside the
given node set; on at most one node it raises AssertionError. -/
theorem C26_connected (o : SetOrder α) {G : MG α} (hG : G.Proper) (S : Finset α) :
    if S.card > 1 then
      ∃ b, G.isGraphConnected o S = .ok b ∧ (b = true ↔ ∀ x ∈ S, ∀ y ∈ S, G.Joined none S x y)
    else G.isGraphConnected o S = .error .assertionError := by
  have hs : ∀ x y, G.Nbr none x y → G.Nbr none y x := by
    rintro x y ⟨m, _, h⟩
    obtain ⟨m', h'⟩ := hG.both _ _ _ h
    exact ⟨m', hG.type _ _ _ h', h'⟩
  split_ifs with h
  · simp only [MG.isGraphConnected, if_pos h]
    cases hpop : popSet o () S with
    | none => rw [Dag.popSet_none hpop] at h; simp at h
    | some p =>
      obtain ⟨v, R⟩ := p
      obtain ⟨hv, rfl⟩ := popSet_eq_some hpop
      have hc := Finset.card_erase_of_mem hv
      obtain ⟨b, h1, h2⟩ := MG.connectedLoop_spec o G (v := v) (nodes := S) (S.card + 1) (S.erase v) {v}
        (by simp; omega) (by omega) (Finset.erase_subset _ _)
        (by intro x hx; rw [Finset.mem_singleton.mp hx]; exact ⟨hv, by simp, ReflTransGen.refl⟩)
        (by
          intro x hx hxe
          have : x = v := by by_contra hne; exact hxe (Finset.mem_erase.mpr ⟨hne, hx⟩)
          rw [this]; exact ReflTransGen.refl)
        (by
          intro x hx hxe hxv
          have : x = v := by by_contra hne; exact hxe (Finset.mem_erase.mpr ⟨hne, hx⟩)
          exact absurd (Finset.mem_singleton.mpr this) hxv)
        hv (by simp)
      refine ⟨b, h1, ?_⟩
      rw [h2]
      constructor
      · intro hall x hx y hy
        exact (MG.joined_symm hs (hall x hx)).trans (hall y hy)
      · intro hall x hx; exact hall v hv x hx
  · exact if_neg h

example : exM.isGraphConnected ascending {0, 1, 2, 3} = .ok true ∧ exM.isGraphConnected descending {0, 1, 3} = .ok false ∧
    exM.isGraphConnected descending {0} = .error .assertionError := by decide +kernel

/-- On a PDAG with a directed edge (`0 --> 1`) the components and the connectivity answer depend on which node is popped
first, and are wrong for one of the orders. -/
theorem C26_pdag_order_dependent : ∃ G : MG Nat, G.PdagWF ∧ G.PAdj 0 1 ∧ G.nodes = {0, 1} ∧
    G.isGraphConnected ascending {0, 1} = .ok false ∧ G.isGraphConnected descending {0, 1} = .ok true ∧
    (G.findUnconnectedSubgraphs ascending {0, 1} none).map (List.map (ascending.iter ())) = .ok [[0], [1]] ∧
    (G.findUnconnectedSubgraphs descending {0, 1} none).map (List.map (ascending.iter ())) = .ok [[0, 1]] :=
  ⟨.ofEdges {0, 1} [(0, 1)] [], MG.ofEdges_wf (by decide), by decide +kernel, rfl, by decide +kernel, by decide +kernel,
    by decide +kernel, by decide +kernel⟩

/-! ## C27 -/

/-- `number_of_edges` of an undirected graph: twice the first number is the number of ordered adjacent pairs of the given
nodes, and the two numbers add up to n(n-1)/2. -/
theorem C27_undirected (o : SetOrder α) {G : UGraph α} (hG : G.WF) {S : Finset α} (hS : S ⊆ G.nodes) :
    ∃ e m, G.numberOfEdges o S = .ok (e, m) ∧
      2 * e = {p : α × α | p.1 ∈ S ∧ p.2 ∈ S ∧ p.1 ≠ p.2 ∧ p.2 ∈ G.adj p.1}.ncard ∧
      2 * (e + m) = S.card * (S.card - 1) := by
  rw [UGraph.numberOfEdges, UGraph.countLoop_eq]
  refine countPairs_edges o (Q := fun a b => b ∈ G.adj a) ?_ (fun a b h => hG.symm _ _ h)
  intro i hi j hj _
  simp only [UGraph.isConnected, UGraph.get_ok (hS hi), UGraph.get_ok (hS hj), bind, Except.bind, pure, Except.pure]
  by_cases h : i ∈ G.adj j
  · exact ⟨true, if_pos h, by simp [hG.symm _ _ h]⟩
  · exact ⟨_, if_neg h, by simp⟩

/-- `number_of_edges` of a DAG. -/
theorem C27_dag (o : SetOrder α) {G : Dag α} {S : Finset α} (hS : S ⊆ G.nodes) :
    ∃ e m, G.numberOfEdges o S = .ok (e, m) ∧
      2 * e = {p : α × α | p.1 ∈ S ∧ p.2 ∈ S ∧ p.1 ≠ p.2 ∧ G.Adj p.1 p.2}.ncard ∧
      2 * (e + m) = S.card * (S.card - 1) := by
  rw [Dag.numberOfEdges, Dag.countLoop_eq]
  refine countPairs_edges o (Q := G.Adj) ?_ (fun a b h => Or.symm h)
  intro i hi j hj _
  refine ⟨_, Dag.isConnected_ok (hS hi) (hS hj), ?_⟩
  simp only [decide_eq_true_eq]
  exact Iff.rfl

/-- `number_of_edges` of a mixed graph (any class; only edge ends of a known type are assumed). -/
theorem C27_mixed (o : SetOrder α) {G : MG α} (hT : ∀ a b m, G.At a b m → m ∈ G.types) :
    ∃ e m, G.numberOfEdges o = .ok (e, m) ∧
      2 * e = {p : α × α | p.1 ∈ G.nodes ∧ p.2 ∈ G.nodes ∧ p.1 ≠ p.2 ∧ G.MAdj p.1 p.2}.ncard ∧
      2 * (e + m) = G.nodes.card * (G.nodes.card - 1) := by
  rw [MG.numberOfEdges, MG.countLoop_eq]
  exact countPairs_edges o (fun i _ j _ hij => MG.proper_isConnected hT hij) (fun a b h => h.symm)

example : exM.numberOfEdges ascending = .ok (3, 7) ∧ exM.numberOfEdges descending = .ok (3, 7) ∧
    exD2.numberOfEdges descending {0, 2, 4} = .ok (2, 1) ∧
    (⟨{0, 1, 2}, fun v => if v = 0 then {1} else if v = 1 then {0} else ∅⟩ : UGraph Nat).numberOfEdges ascending {0, 1, 2}
      = .ok (1, 2) := by decide +kernel

/-- `PDAG.get_num_edges` equals `number_of_edges` on PDAGs without bi-directed edges. -/
theorem C27_getNumEdges (o : SetOrder α) {G : MG α} (hG : G.PdagWF) (hnb : ∀ a b, G.Arrow a b → ¬ G.Arrow b a) :
    ∃ m, G.numberOfEdges o = .ok (G.getNumEdges, m) := by
  have hT : ∀ a b m, G.At a b m → m ∈ G.types ∨ m = .circle := by
    intro a b m _; rw [hG.types]; cases m <;> simp
  have hconn : ∀ i j, i ≠ j → ∃ b, G.isConnected i j = .ok b ∧ (b = true ↔ G.PAdj i j) :=
    fun i j hij => MG.isConnected_spec hG hij
  obtain ⟨e, m, h1, h2, -⟩ := countPairs_edges o (S := G.nodes) (conn := G.isConnected) (Q := G.PAdj)
    (fun i _ j _ hij => hconn i j hij) (by simp only [MG.PAdj]; tauto)
  refine ⟨m, ?_⟩
  rw [MG.numberOfEdges, MG.countLoop_eq, h1]
  have := MG.getNumEdges_spec hG hnb
  have : e = G.getNumEdges := by omega
  rw [this]

/-- With a bi-directed edge `get_num_edges` counts one edge twice. -/
theorem C27_getNumEdges_bidirected : ∃ G : MG Nat, G.PdagWF ∧ G.numberOfEdges ascending = .ok (1, 0) ∧
    G.getNumEdges = 2 :=
  ⟨.ofEdges {0, 1} [(0, 1), (1, 0)] [], MG.ofEdges_wf (by decide), by decide +kernel, by decide +kernel⟩

example : exP.PdagWF ∧ (∀ a ∈ exP.nodes, ∀ b ∈ exP.nodes, exP.Arrow a b → ¬ exP.Arrow b a) ∧
    exP.getNumEdges = 4 ∧ exP.numberOfEdges descending = .ok (4, 2) := ⟨exP_wf, by decide +kernel⟩

/-- Full statement: `get_skeleton_mat` is the 0/1 adjacency matrix of `is_connected`. Proved here for graphs that store a
mark at both ends of every edge (`Proper`: PAGs, mixed graphs); it is false for PDAGs with directed edges, see
`C27_skeleton_mat_pdag`. -/
theorem C27_skeleton_mat_partial (o : SetOrder α) {G : MG α} (hG : G.Proper) {l : List α} (hnd : l.Nodup)
    (hl : ∀ x, x ∈ l ↔ x ∈ G.nodes) :
    ∃ A, G.getSkeletonMat o l = .ok A ∧ ∀ r c a b, l[r]? = some a → l[c]? = some b →
      (A r c = 1 ∧ G.MAdj a b ∨ A r c = 0 ∧ ¬ G.MAdj a b) ∧ A r c = A c r := by
  obtain ⟨A, h1, h2⟩ := MG.getSkeletonMat_spec o hnd hl hG.mem
  have key : ∀ r c a b, l[r]? = some a → l[c]? = some b →
      (G.MAdj a b → A r c = 1) ∧ (¬ G.MAdj a b → A r c = 0) := by
    intro r c a b hr hc
    have := h2 r c
    have heq : (∃ a b, l[r]? = some a ∧ l[c]? = some b ∧ ∃ m ∈ G.types, G.At a b m) ↔ G.MAdj a b := by
      rw [hG.adj_iff, hr, hc]
      constructor
      · rintro ⟨a', b', e1, e2, m, _, h⟩
        cases e1; cases e2; exact ⟨m, h⟩
      · rintro ⟨m, h⟩; exact ⟨a, b, rfl, rfl, m, hG.type _ _ _ h, h⟩
    rw [← heq]
    exact this
  refine ⟨A, h1, fun r c a b hr hc => ?_⟩
  have k1 := key r c a b hr hc
  have k2 := key c r b a hc hr
  by_cases h : G.MAdj a b
  · exact ⟨Or.inl ⟨k1.1 h, h⟩, by rw [k1.1 h, k2.1 h.symm]⟩
  · exact ⟨Or.inr ⟨k1.2 h, h⟩, by rw [k1.2 h, k2.2 (fun h' => h h'.symm)]⟩

/-- The disagreement: on the PDAG `0 --> 1` the nodes are connected, but the matrix has only the entry for the child; it
is not symmetric. -/
theorem C27_skeleton_mat_pdag : ∃ G : MG Nat, G.PdagWF ∧ G.isConnected 0 1 = .ok true ∧ G.isConnected 1 0 = .ok true ∧
    ∀ A, G.getSkeletonMat ascending [0, 1] = .ok A → A 0 1 = 1 ∧ A 1 0 = 0 := by
  refine ⟨.ofEdges {0, 1} [(0, 1)] [], MG.ofEdges_wf (by decide), by decide +kernel, by decide +kernel, ?_⟩
  intro A hA
  have : ((MG.ofEdges {0, 1} [(0, 1)] [] : MG Nat).getSkeletonMat ascending [0, 1]).map (fun A => (A 0 1, A 1 0)) =
    .ok (1, 0) := by decide +kernel
  rw [hA] at this
  simp only [Except.map, Except.ok.injEq, Prod.mk.injEq] at this
  exact this

example : (exM.getSkeletonMat ascending [0, 1, 2, 3, 4]).map (fun A => (List.range 5).map fun r => (List.range 5).map (A r)) =
    .ok [[0, 1, 0, 0, 0], [1, 0, 1, 0, 0], [0, 1, 0, 1, 0], [0, 0, 1, 0, 0], [0, 0, 0, 0, 0]] := by decide +kernel

/-- `get_skeleton_graph` has exactly the adjacencies of `is_connected` inside the given node set (also for PDAGs). -/
theorem C27_skeleton_graph (o : SetOrder α) {G : MG α} (hT : ∀ a b m, G.At a b m → m ∈ G.types) (en : Finset α) :
    ∃ U, G.getSkeletonGraph o en = .ok U ∧ U.nodes = en ∧
      ∀ a b, b ∈ U.adj a ↔ a ∈ en ∧ b ∈ en ∧ a ≠ b ∧ G.MAdj a b :=
  MG.getSkeletonGraph_spec o hT en

example : (exM.getSkeletonGraph ascending {0, 1, 3}).map (fun U => [0, 1, 3].map fun v => ascending.iter () (U.adj v)) =
    .ok [[1], [0], []] := by decide +kernel

end Verif
