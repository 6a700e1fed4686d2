import Verif.Lemmas.AdjMat

/-!
# Properties C01–C12: undirected graphs and DAGs

Property theorems only; vocabulary in `Spec/Graph.lean`, code models in `Model/`, proofs' lemmas in `Lemmas/`.
-/

namespace Verif
open Relation
variable {α : Type} [DecidableEq α]

/-! ## Graphs obtained through the public API are well-formed -/

namespace Dag

/-- Graphs obtained from the constructor by successful `add_edges` calls. -/
inductive Built : Dag α → Prop
  | empty (nodes : Finset α) : Built (Dag.empty nodes)
  | addEdges {G G' : Dag α} {ps : Finset α} {t : α} : Built G → G.addEdges ps t = .ok G' → Built G'

theorem Built.wf {G : Dag α} (h : Built G) : G.WF := by
  induction h with
  | empty nodes => intro a b hab; simp [Dag.empty] at hab
  | @addEdges G G' ps t _ he ih =>
    simp only [Dag.addEdges] at he
    split at he
    · cases he
    · split at he
      · cases he
      · rename_i h1 h2
        cases he
        simp only [ne_eq, not_not, Finset.card_eq_zero, Finset.sdiff_eq_empty_iff_subset] at h1 h2
        intro a b hab
        simp only [modify] at hab
        split at hab
        · rename_i hb; subst hb
          rcases Finset.mem_union.mp hab with h | h
          · exact ih _ _ h
          · exact ⟨h1 h, h2⟩
        · exact ih _ _ hab

end Dag

namespace UGraph

/-- Graphs obtained from the constructor by successful `add_edge` and `remove_edge` calls. -/
inductive Built : UGraph α → Prop
  | empty (nodes : Finset α) : Built (UGraph.empty nodes)
  | addEdge {G G' : UGraph α} {i j : α} : Built G → G.addEdge i j = .ok G' → Built G'
  | removeEdge {G G' : UGraph α} {i j : α} : Built G → G.removeEdge i j = .ok G' → Built G'

theorem Built.wf {G : UGraph α} (h : Built G) : G.WF := by
  induction h with
  | empty nodes => exact ⟨by simp [UGraph.empty], by simp [UGraph.empty]⟩
  | @addEdge G G' i j _ he ih =>
    simp only [UGraph.addEdge] at he
    split at he
    · cases he
    · rename_i h1
      cases he
      simp only [not_or, not_not] at h1
      obtain ⟨G2, h2, h3, h4⟩ := Dag.addEdge_spec h1.1 h1.2
      have h2' : G2 = { G with adj := modify (modify G.adj i (insert j)) j (insert i) } := by
        simp [UGraph.addEdge, h1.1, h1.2] at h2; exact h2.symm
      subst h2'
      refine ⟨fun a b hab => ?_, fun a b hab => ?_⟩
      · rcases (h4 a b).mp hab with h | ⟨rfl, rfl⟩ | ⟨rfl, rfl⟩
        · exact ih.mem _ _ h
        · exact h1
        · exact h1.symm
      · rw [h4]
        rcases (h4 a b).mp hab with h | ⟨rfl, rfl⟩ | ⟨rfl, rfl⟩
        · exact Or.inl (ih.symm _ _ h)
        · exact Or.inr (Or.inr ⟨rfl, rfl⟩)
        · exact Or.inr (Or.inl ⟨rfl, rfl⟩)
  | @removeEdge G G' i j _ he ih =>
    simp only [UGraph.removeEdge] at he
    split at he
    · cases he
    · cases he
      have key : ∀ a b, b ∈ modify (modify G.adj i fun s => s.erase j) j (fun s => s.erase i) a ↔
          b ∈ G.adj a ∧ ¬ (a = i ∧ b = j) ∧ ¬ (a = j ∧ b = i) := by
        intro a b
        simp only [modify]
        split_ifs <;> (try simp only [Finset.mem_erase]) <;> subst_vars <;> tauto
      refine ⟨fun a b hab => ih.mem _ _ ((key a b).mp hab).1, fun a b hab => ?_⟩
      obtain ⟨h1, h2, h3⟩ := (key a b).mp hab
      exact (key b a).mpr ⟨ih.symm _ _ h1, fun h => h3 h.symm, fun h => h2 h.symm⟩

end UGraph

/-! ## C01 -/

/-- C01: `UndirectedGraph.is_reachable` terminates and is exact. -/
theorem C01_is_reachable_exact (o : SetOrder α) {G : UGraph α} (hG : G.WF) {s : α} (hs : s ∈ G.nodes)
    (e : α) (forbidden : Finset α) :
    ∃ b, G.isReachable o s e forbidden = .ok b ∧ (b = true ↔ G.PathAvoiding forbidden s e) :=
  UGraph.isReachable_spec o (fun a b h => (hG.mem a b h).2) hs forbidden

/-- The undirected graph 0 - 1 - 2, 3 isolated (example). -/
def exU : UGraph Nat := ⟨{0, 1, 2, 3}, fun v => if v = 0 then {1} else if v = 1 then {0, 2} else if v = 2 then {1} else ∅⟩

theorem exU_built : exU.Built := by
  have h1 : UGraph.addEdge (UGraph.empty {0, 1, 2, 3}) 0 1 = .ok
    (⟨{0, 1, 2, 3}, modify (modify (fun _ => ∅) 0 (insert 1)) 1 (insert 0)⟩ : UGraph Nat) := rfl
  have h2 := UGraph.Built.addEdge (.empty _) h1
  refine UGraph.Built.addEdge (i := 1) (j := 2) h2 ?_
  simp only [UGraph.addEdge, exU]
  rw [if_neg (by decide)]
  congr 2
  funext v
  simp only [modify]
  by_cases h0 : v = 0
  · subst h0; rfl
  · by_cases h1 : v = 1
    · subst h1; decide
    · by_cases h2 : v = 2
      · subst h2; rfl
      · simp [h0, h1, h2]

example : exU.WF ∧ 0 ∈ exU.nodes ∧ exU.isReachable ascending 0 2 {3} = .ok true ∧
    exU.isReachable ascending 0 2 {1} = .ok false := ⟨exU_built.wf, by decide, by decide +kernel, by decide +kernel⟩

/-! ## C02–C05 -/

/-- C02: `DAG.is_ancestor` terminates on every directed graph, cyclic or not, and is exact. -/
theorem C02_is_ancestor_exact (o : SetOrder α) {G : Dag α} (hG : G.WF) {d : α} (hd : d ∈ G.nodes) (t : α) :
    ∃ b, G.isAncestor o d t = .ok b ∧ (b = true ↔ G.DPath t d) :=
  Dag.isAncestor_spec o hG hd

/-- Unknown descendant: KeyError, unless it is compared with itself. -/
theorem C02_is_ancestor_keyError (o : SetOrder α) {G : Dag α} {d t : α} (hd : d ∉ G.nodes) (hdt : d ≠ t)
    (hne : G.nodes.Nonempty) : G.isAncestor o d t = .error .keyError := by
  obtain ⟨n, hn⟩ := Nat.exists_eq_succ_of_ne_zero (Finset.card_pos.mpr hne).ne'
  simp [Dag.isAncestor, hdt, hn, Dag.isAncestorLoop, Dag.parents, hd, bind, Except.bind]

/-- The graph 0 → 1 → 2 ← 3, with 4 isolated (example). -/
def exD : Dag Nat := ⟨{0, 1, 2, 3, 4}, fun v => if v = 1 then {0} else if v = 2 then {1, 3} else ∅⟩

/-- The 2-cycle 0 ⇄ 1 and an isolated node 2 (example). -/
def exCyc : Dag Nat := ⟨{0, 1, 2}, fun v => if v = 0 then {1} else if v = 1 then {0} else ∅⟩

theorem exD_wf : exD.WF := by
  intro a b h
  simp only [exD] at *
  by_cases h1 : b = 1
  · subst h1; simp at h; subst h; decide
  · by_cases h2 : b = 2
    · subst h2; simp at h; rcases h with rfl | rfl <;> decide
    · simp [h1, h2] at h

theorem exCyc_wf : exCyc.WF := by
  intro a b h
  simp only [exCyc] at *
  by_cases h1 : b = 0
  · subst h1; simp at h; subst h; decide
  · by_cases h2 : b = 1
    · subst h2; simp at h; subst h; decide
    · simp [h1, h2] at h

theorem exD_acyclic : exD.Acyclic := by
  obtain ⟨b, h1, h2⟩ := Dag.isAcyclic_spec ascending exD_wf
  have : Dag.isAcyclic ascending exD = .ok true := by decide +kernel
  rw [this] at h1
  cases h1
  exact h2.mp rfl

example : exD.WF ∧ exD.isAncestor ascending 2 0 = .ok true ∧ exD.isAncestor ascending 2 4 = .ok false ∧
    exCyc.WF ∧ exCyc.isAncestor ascending 0 2 = .ok false :=
  ⟨exD_wf, by decide +kernel, by decide +kernel, exCyc_wf, by decide +kernel⟩

/-- C03: on acyclic graphs the recursive version terminates (recursion depth at most the number of nodes plus
one; more budget does not change the answer) and agrees with the iterative one. -/
theorem C03_recursive_agrees (o : SetOrder α) {G : Dag α} (hG : G.WF) (hac : G.Acyclic) {d : α} (hd : d ∈ G.nodes)
    (t : α) {fuel : Nat} (hf : G.nodes.card < fuel) :
    ∃ b, G.isAncestorRec o fuel d t = .ok b ∧ G.isAncestor o d t = .ok b ∧ (b = true ↔ G.DPath t d) := by
  obtain ⟨b, h1, h2⟩ := Dag.isAncestorRec_spec o hG hac t fuel d ∅ hd (by simp) (by simp) (by simpa using hf)
  obtain ⟨b', h3, h4⟩ := Dag.isAncestor_spec o hG (t := t) hd
  have : b = b' := by rw [Bool.eq_iff_iff, h2, h4]
  subst this
  exact ⟨b, h1, h3, h2⟩

example : exD.WF ∧ exD.Acyclic ∧ 2 ∈ exD.nodes ∧ exD.nodes.card < 6 ∧
    exD.isAncestorRec ascending 6 2 0 = .ok true := ⟨exD_wf, exD_acyclic, by decide, by decide, by decide +kernel⟩

/-- C03 (failure on cyclic graphs): on 0 ⇄ 1 the recursive query for node 2 exhausts every recursion budget, for
every iteration order, while the iterative version returns False. -/
theorem C03_recursive_diverges_on_cycle (o : SetOrder Nat) :
    (∀ fuel, exCyc.isAncestorRec o fuel 0 2 = .error .outOfFuel) ∧ exCyc.isAncestor o 0 2 = .ok false := by
  constructor
  · have key : ∀ fuel, exCyc.isAncestorRec o fuel 0 2 = .error .outOfFuel ∧
        exCyc.isAncestorRec o fuel 1 2 = .error .outOfFuel := by
      intro fuel
      induction fuel with
      | zero => exact ⟨rfl, rfl⟩
      | succ n ih =>
        have hs : ∀ (x : Nat) {τ : Type} (t : τ), o.iter t ({x} : Finset Nat) = [x] := by
          intro x τ t
          have h1 := o.nodup t ({x} : Finset Nat)
          have h2 := o.mem t ({x} : Finset Nat)
          have hx : x ∈ o.iter t ({x} : Finset Nat) := by rw [h2]; simp
          cases hl : o.iter t ({x} : Finset Nat) with
          | nil => rw [hl] at hx; simp at hx
          | cons a l =>
            rw [hl] at h1 h2
            have ha : a = x := by simpa using (h2 a).mp (by simp)
            subst ha
            cases l with
            | nil => rfl
            | cons b l =>
              have hb : b = a := by simpa using (h2 b).mp (by simp)
              subst hb; simp at h1
        have p0 : exCyc.parents 0 = .ok {1} := by decide
        have p1 : exCyc.parents 1 = .ok {0} := by decide
        constructor
        · simp [Dag.isAncestorRec, p0, bind, Except.bind, hs, forAny, ih.2]
        · simp [Dag.isAncestorRec, p1, bind, Except.bind, hs, forAny, ih.1]
    exact fun fuel => (key fuel).1
  · obtain ⟨b, h1, h2⟩ := Dag.isAncestor_spec o exCyc_wf (d := 0) (t := 2) (by decide)
    obtain ⟨b', h3, h4⟩ := Dag.isAncestor_spec ascending exCyc_wf (d := 0) (t := 2) (by decide)
    have h5 : exCyc.isAncestor ascending 0 2 = .ok false := by decide +kernel
    rw [h5] at h3
    cases h3
    rw [h1, Bool.eq_iff_iff.mpr (h2.trans h4.symm)]

/-- C04: `DAG.is_acyclic` is exact. -/
theorem C04_is_acyclic_exact (o : SetOrder α) {G : Dag α} (hG : G.WF) :
    ∃ b, G.isAcyclic o = .ok b ∧ (b = true ↔ G.Acyclic) :=
  Dag.isAcyclic_spec o hG

example : exD.WF ∧ exD.isAcyclic ascending = .ok true ∧ exCyc.WF ∧ exCyc.isAcyclic ascending = .ok false :=
  ⟨exD_wf, by decide +kernel, exCyc_wf, by decide +kernel⟩

/-- C05: `DAG.get_ancestors` terminates and is exact (also on cyclic graphs). -/
theorem C05_get_ancestors_exact (o : SetOrder α) {G : Dag α} (hG : G.WF) {v : α} (hv : v ∈ G.nodes) :
    ∃ S, G.getAncestors o v = .ok S ∧ ∀ x, x ∈ S ↔ G.DPath x v :=
  Dag.getAncestors_spec o hG hv

example : exD.WF ∧ 2 ∈ exD.nodes ∧ (exD.getAncestors ascending 2).map (ascending.iter ()) = .ok [0, 1, 2, 3] :=
  ⟨exD_wf, by decide, by decide +kernel⟩

/-! ## C06–C08: d-separation -/

/-- C06: `DAG.dsep` returns True exactly if every path between the two nodes is blocked. -/
theorem C06_dsep_exact (o : SetOrder α) {G : Dag α} (hG : G.WF) (hac : G.Acyclic) {i j : α}
    (hi : i ∈ G.nodes) (hj : j ∈ G.nodes) {Z : Finset α} (hZ : Z ⊆ G.nodes) (hiZ : i ∉ Z) (hjZ : j ∉ Z) :
    ∃ b, G.dsep o i j Z = .ok b ∧ (b = true ↔ G.DSeparated i j Z) :=
  Dag.dsep_spec o hG hac hi hj hZ hiZ hjZ

example : exD.WF ∧ exD.Acyclic ∧ exD.dsep ascending 0 3 ∅ = .ok true ∧ exD.dsep ascending 0 3 {2} = .ok false ∧
    exD.dsep ascending 0 3 {1, 2} = .ok true :=
  ⟨exD_wf, exD_acyclic, by decide +kernel, by decide +kernel, by decide +kernel⟩

/-- C07: the query is symmetric when the end points are not conditioned on (whatever the iteration orders). -/
theorem C07_dsep_symmetric (o o' : SetOrder α) {G : Dag α} (hG : G.WF) (hac : G.Acyclic) {i j : α}
    (hi : i ∈ G.nodes) (hj : j ∈ G.nodes) {Z : Finset α} (hZ : Z ⊆ G.nodes) (hiZ : i ∉ Z) (hjZ : j ∉ Z) :
    ∃ b, G.dsep o i j Z = .ok b ∧ G.dsep o' j i Z = .ok b := by
  obtain ⟨b, h1, h2⟩ := Dag.dsep_spec o hG hac hi hj hZ hiZ hjZ
  obtain ⟨b', h3, h4⟩ := Dag.dsep_spec o' hG hac hj hi hZ hjZ hiZ
  have : b = b' := by rw [Bool.eq_iff_iff, h2, h4, Dag.dseparated_symm hac]
  subst this
  exact ⟨b, h1, h3⟩

/-- C07 (failure if an end point is conditioned on): conditioning on `j` always gives True... -/
theorem C07_dsep_true_of_second_conditioned (o : SetOrder α) {G : Dag α} (hG : G.WF) (hac : G.Acyclic) {i j : α}
    (hi : i ∈ G.nodes) (hj : j ∈ G.nodes) {Z : Finset α} (hZ : Z ⊆ G.nodes) (hij : i ≠ j) (hjZ : j ∈ Z) :
    G.dsep o i j Z = .ok true :=
  Dag.dsep_of_mem o hG hac hi hj hZ hij hjZ

/-- ... while conditioning on `i` does not: the answer depends on the argument order. -/
theorem C07_dsep_asymmetric_witness :
    exD.dsep ascending 0 1 {0} = .ok false ∧ exD.dsep ascending 1 0 {0} = .ok true :=
  ⟨by decide +kernel, by decide +kernel⟩

example : exD.WF ∧ exD.Acyclic ∧ 0 ∈ exD.nodes ∧ 3 ∈ exD.nodes ∧ ({1} : Finset Nat) ⊆ exD.nodes :=
  ⟨exD_wf, exD_acyclic, by decide, by decide, by decide⟩

/-- C08 (pairwise): adjacent nodes are never reported separated. -/
theorem C08_adjacent_never_separated (o : SetOrder α) {G : Dag α} (hG : G.WF) (hac : G.Acyclic) {i j : α}
    (h : G.Adj i j) {Z : Finset α} (hZ : Z ⊆ G.nodes) (hiZ : i ∉ Z) (hjZ : j ∉ Z) :
    G.dsep o i j Z = .ok false := by
  have hn : i ∈ G.nodes ∧ j ∈ G.nodes := by
    rcases h with h | h
    · exact hG _ _ h
    · exact (hG _ _ h).symm
  obtain ⟨b, h1, h2⟩ := Dag.dsep_spec o hG hac hn.1 hn.2 hZ hiZ hjZ
  cases b with
  | false => exact h1
  | true => exact absurd (h2.mp rfl) (Dag.not_dseparated_of_adj hac h)

/-- C08 (local Markov): a node is reported separated from every non-adjacent non-descendant by its parents. -/
theorem C08_parents_separate (o : SetOrder α) {G : Dag α} (hG : G.WF) (hac : G.Acyclic) {i j : α}
    (hi : i ∈ G.nodes) (hj : j ∈ G.nodes) (hij : i ≠ j) (hadj : ¬ G.Adj i j) (hdesc : ¬ G.DPath i j) :
    G.dsep o i j (G.par i) = .ok true := by
  obtain ⟨b, h1, h2⟩ := Dag.dsep_spec o hG hac hi hj (Z := G.par i) (fun x hx => (hG _ _ hx).1)
    (fun h => hac i (TransGen.single h)) (fun h => hadj (Or.inr h))
  rw [h1, h2.mpr (Dag.dseparated_parents hac hij hadj hdesc)]

/-- C08 (faithful converse): some set separates a pair exactly if the pair is not adjacent. -/
theorem C08_separable_iff_nonadjacent (o : SetOrder α) {G : Dag α} (hG : G.WF) (hac : G.Acyclic) {i j : α}
    (hi : i ∈ G.nodes) (hj : j ∈ G.nodes) (hij : i ≠ j) :
    (∃ Z ⊆ G.nodes, i ∉ Z ∧ j ∉ Z ∧ G.dsep o i j Z = .ok true) ↔ ¬ G.Adj i j := by
  constructor
  · rintro ⟨Z, h1, h2, h3, h4⟩ h
    rw [C08_adjacent_never_separated o hG hac h h1 h2 h3] at h4
    cases h4
  · intro h
    by_cases hd : G.DPath i j
    · have hd' : ¬ G.DPath j i := by
        intro h'
        rcases ReflTransGen.cases_head hd with rfl | ⟨c, hc, hcj⟩
        · exact hij rfl
        · exact hac i (TransGen.head' hc (hcj.trans h'))
      refine ⟨G.par j, fun x hx => (hG _ _ hx).1, fun h' => h (Or.inl h'), fun h' => hac j (TransGen.single h'), ?_⟩
      obtain ⟨b, h1, h2⟩ := C07_dsep_symmetric o o hG hac hj hi (Z := G.par j) (fun x hx => (hG _ _ hx).1)
        (fun h' => hac j (TransGen.single h')) (fun h' => h (Or.inl h'))
      rw [C08_parents_separate o hG hac hj hi (Ne.symm hij) (fun h' => h h'.symm) hd'] at h1
      rw [h2, ← h1]
    · exact ⟨G.par i, fun x hx => (hG _ _ hx).1, fun h' => hac i (TransGen.single h'), fun h' => h (Or.inr h'),
        C08_parents_separate o hG hac hi hj hij h hd⟩

example : exD.WF ∧ exD.Acyclic ∧ exD.Adj 0 1 ∧ 2 ∈ exD.nodes ∧ 0 ∈ exD.nodes ∧ ¬ exD.Adj 2 0 ∧ ¬ exD.DPath 2 0 := by
  refine ⟨exD_wf, exD_acyclic, Or.inl (by simp only [Dag.Edge]; decide), by decide, by decide, ?_, ?_⟩
  · rintro (h | h) <;> revert h <;> simp only [Dag.Edge] <;> decide
  · obtain ⟨b, h1, h2⟩ := Dag.isAncestor_spec ascending exD_wf (d := 0) (t := 2) (by decide)
    have : exD.isAncestor ascending 0 2 = .ok false := by decide +kernel
    rw [this] at h1
    cases h1
    intro h; simpa using h2.mpr h

/-! ## C09: topological groups -/

/-- C09: on every node set without internal cycle the groups are a correct layering. -/
theorem C09_topological_groups (o : SetOrder α) {G : Dag α} {S : Finset α} (hS : S ⊆ G.nodes)
    (hac : G.AcyclicIn S) : ∃ gs, G.topoGroups o S = .ok gs ∧ G.TopoGroups S gs :=
  (Dag.topoGroupsFuel_spec o (S.card + 1) S hS (Nat.lt_succ_self _)).1 hac

/-- C09: on a node set with an internal cycle AssertionError is raised. -/
theorem C09_assertion_on_cycle (o : SetOrder α) {G : Dag α} {S : Finset α} (hS : S ⊆ G.nodes)
    (hcyc : ¬ G.AcyclicIn S) : G.topoGroups o S = .error .assertionError :=
  (Dag.topoGroupsFuel_spec o (S.card + 1) S hS (Nat.lt_succ_self _)).2 hcyc

omit [DecidableEq α] in
/-- For the whole node set, "no cycle inside the set" is acyclicity of the graph. -/
theorem C09_acyclicIn_nodes {G : Dag α} (hG : G.WF) : G.AcyclicIn G.nodes ↔ G.Acyclic := by
  constructor
  · intro h v hv; exact h v (tg_mono (fun a b hab => ⟨(hG _ _ hab).1, (hG _ _ hab).2, hab⟩) hv)
  · intro h v hv; exact h v (tg_mono (fun a b hab => hab.2.2) hv)

/-- C09: the flattened order lists every node of the set exactly once, sources before targets. -/
theorem C09_topological_order (o : SetOrder α) {G : Dag α} {S : Finset α} (hS : S ⊆ G.nodes)
    (hac : G.AcyclicIn S) :
    ∃ l, G.topoOrder o S = .ok l ∧ l.Nodup ∧ (∀ x, x ∈ l ↔ x ∈ S) ∧ l.Pairwise (fun x y => ¬ G.Edge y x) := by
  obtain ⟨gs, h1, h2⟩ := C09_topological_groups o hS hac
  refine ⟨gs.flatMap (fun g => o.iter () g), by simp [Dag.topoOrder, h1, bind, Except.bind, pure, Except.pure], ?_, ?_, ?_⟩
  · rw [List.nodup_flatMap]
    refine ⟨fun g _ => o.nodup () g, ?_⟩
    refine h2.disjoint.imp ?_
    intro g g' hd x hx hx'
    rw [o.mem] at hx hx'
    exact Finset.disjoint_left.mp hd hx hx'
  · intro x
    rw [h2.cover, List.mem_flatMap]
    simp only [o.mem]
  · rw [List.pairwise_flatMap]
    constructor
    · intro g hg
      obtain ⟨p, hp⟩ := List.getElem?_of_mem hg
      have : ∀ x ∈ o.iter () g, ∀ y ∈ o.iter () g, ¬ G.Edge y x := by
        intro x hx y hy h
        rw [o.mem] at hx hy
        exact lt_irrefl _ (h2.ordered p p g g y x hp hp hy hx h)
      exact List.pairwise_of_forall_mem_list (fun a ha b hb => this a ha b hb)
    · rw [List.pairwise_iff_getElem]
      intro p q hp hq hpq x hx y hy h
      rw [o.mem] at hx hy
      have := h2.ordered q p gs[q] gs[p] y x (List.getElem?_eq_getElem hq) (List.getElem?_eq_getElem hp) hy hx h
      omega

example : exD.AcyclicIn exD.nodes ∧ exD.topoGroups ascending exD.nodes = .ok [{0}, {1, 3}, {2, 4}] ∧
    ¬ exCyc.AcyclicIn exCyc.nodes := by
  refine ⟨(C09_acyclicIn_nodes exD_wf).mpr exD_acyclic, by decide +kernel, ?_⟩
  intro h
  refine h 0 (TransGen.head (b := 1) ⟨by decide, by decide, ?_⟩ (TransGen.single ⟨by decide, by decide, ?_⟩)) <;>
    simp only [Dag.Edge] <;> decide

/-! ## C10: connectivity -/

/-- C10: `DAG.is_graph_connected` is exact on sets with at least two nodes. -/
theorem C10_is_graph_connected_exact (o : SetOrder α) {G : Dag α} {S : Finset α} (hS : S ⊆ G.nodes)
    (hc : 1 < S.card) :
    ∃ b, G.isGraphConnected o S = .ok b ∧ (b = true ↔ ∀ x ∈ S, ∀ y ∈ S, G.JoinedIn S x y) :=
  Dag.isGraphConnected_spec o hS hc

/-- C10: smaller sets raise AssertionError. -/
theorem C10_assertion_on_small (o : SetOrder α) {G : Dag α} {S : Finset α} (hc : S.card ≤ 1) :
    G.isGraphConnected o S = .error .assertionError := by
  simp [Dag.isGraphConnected, Nat.not_lt.mpr hc]

example : exD.isGraphConnected ascending {0, 1, 2, 3} = .ok true ∧
    exD.isGraphConnected ascending {0, 1, 2, 4} = .ok false ∧ ({0, 1, 2, 4} : Finset Nat) ⊆ exD.nodes :=
  ⟨by decide +kernel, by decide +kernel, by decide⟩

/-! ## C11: adjacency matrix -/

/-- C11: with a duplicate-free node list closed under parents, entry (r, c) is 1 exactly if the r-th node is a
parent of the c-th, else 0. -/
theorem C11_adj_mat_entries (o : SetOrder α) {G : Dag α} {l : List α} (hl : ∀ v ∈ l, v ∈ G.nodes) (hnd : l.Nodup)
    (hcl : ∀ v ∈ l, ∀ p ∈ G.par v, p ∈ l) :
    ∃ A, G.getAdjMat o l = .ok A ∧ ∀ r c,
      (A r c = 1 ↔ ∃ a b, l[r]? = some a ∧ l[c]? = some b ∧ G.Edge a b) ∧ (A r c = 0 ∨ A r c = 1) := by
  obtain ⟨A, h1, h2⟩ := Dag.getAdjMat_spec o hl hnd hcl
  refine ⟨A, h1, fun r c => ?_⟩
  rw [h2]
  split
  · rename_i h; exact ⟨iff_of_true rfl h, Or.inr rfl⟩
  · rename_i h; exact ⟨iff_of_false (by decide) h, Or.inl rfl⟩

/-- C11: round trip. `get_adj_mat` for a list of all nodes, then `init_from_adj_mat` with the same list on any
graph object over the same nodes, gives back the graph. -/
theorem C11_round_trip (o : SetOrder α) {G H : Dag α} (hG : G.WF) {l : List α} (hl : ∀ v, v ∈ l ↔ v ∈ G.nodes)
    (hnd : l.Nodup) (hH : H.nodes = G.nodes) :
    ∃ A, G.getAdjMat o l = .ok A ∧ H.initFromAdjMat l.length A l = .ok G := by
  obtain ⟨A, h1, h2⟩ := Dag.getAdjMat_spec o (fun v hv => (hl v).mp hv) hnd
    (fun v hv p hp => (hl p).mpr (hG _ _ hp).1)
  refine ⟨A, h1, ?_⟩
  obtain ⟨G', h3, h4, h5⟩ := Dag.initFromAdjMat_spec (G := H) (A := A) (l := l) (by
    intro v hv; rw [hH]; exact (hl v).mp hv)
  rw [h3]
  have : G' = G := by
    obtain ⟨n, p⟩ := G
    obtain ⟨n', p'⟩ := G'
    simp only at h4 h5 hH
    simp only [Dag.mk.injEq]
    refine ⟨h4.trans hH, ?_⟩
    funext b
    ext a
    rw [h5]
    constructor
    · rintro ⟨r, c, k1, k2, k3⟩
      rw [h2] at k3
      split at k3
      · rename_i h
        obtain ⟨a', b', e1, e2, e3⟩ := h
        rw [k1] at e1; rw [k2] at e2
        cases e1; cases e2; exact e3
      · exact absurd rfl k3
    · intro hab
      have hn := hG _ _ hab
      obtain ⟨r, hr⟩ := List.getElem?_of_mem ((hl a).mpr hn.1)
      obtain ⟨c, hc⟩ := List.getElem?_of_mem ((hl b).mpr hn.2)
      refine ⟨r, c, hr, hc, ?_⟩
      rw [h2, if_pos ⟨a, b, hr, hc, hab⟩]; decide
  rw [this]

/-- C11: reverse round trip for a 0/1 matrix. -/
theorem C11_round_trip_matrix (o : SetOrder α) {G : Dag α} {l : List α} (hl : ∀ v ∈ l, v ∈ G.nodes) (hnd : l.Nodup)
    {A : Nat → Nat → Nat} (hA : ∀ r c, A r c = 0 ∨ A r c = 1) :
    ∃ G' B, G.initFromAdjMat l.length A l = .ok G' ∧ G'.getAdjMat o l = .ok B ∧
      ∀ r < l.length, ∀ c < l.length, B r c = A r c := by
  obtain ⟨G', h3, h4, h5⟩ := Dag.initFromAdjMat_spec (G := G) (A := A) hl
  obtain ⟨B, h1, h2⟩ := Dag.getAdjMat_spec o (G := G') (l := l) (by rw [h4]; exact hl) hnd (by
    intro v _ p hp
    obtain ⟨r, c, k1, _, _⟩ := (h5 p v).mp hp
    exact List.mem_of_getElem? k1)
  refine ⟨G', B, h3, h1, ?_⟩
  intro r hr c hc
  rw [h2]
  have er : l[r]? = some l[r] := List.getElem?_eq_getElem hr
  have ec : l[c]? = some l[c] := List.getElem?_eq_getElem hc
  split
  · rename_i h
    obtain ⟨a, b, k1, k2, k3⟩ := h
    obtain ⟨r', c', m1, m2, m3⟩ := (h5 a b).mp k3
    have e1 : r' = r := by
      have hr' := (List.getElem?_eq_some_iff.mp m1)
      rw [er] at k1; obtain ⟨h', h''⟩ := hr'
      exact (List.Nodup.getElem_inj_iff hnd).mp (h''.trans (Option.some.inj k1).symm)
    have e2 : c' = c := by
      have hr' := (List.getElem?_eq_some_iff.mp m2)
      rw [ec] at k2; obtain ⟨h', h''⟩ := hr'
      exact (List.Nodup.getElem_inj_iff hnd).mp (h''.trans (Option.some.inj k2).symm)
    subst e1; subst e2
    rcases hA r' c' with h0 | h0
    · exact absurd h0 m3
    · exact h0.symm
  · rename_i h
    rcases hA r c with h0 | h0
    · exact h0.symm
    · exfalso
      exact h ⟨l[r], l[c], er, ec, (h5 _ _).mpr ⟨r, c, er, ec, by omega⟩⟩

/-- C11 (failure of the documented partial list): a listed node with an unlisted parent raises KeyError. -/
theorem C11_partial_list_keyError (o : SetOrder α) {G : Dag α} {l : List α} (hl : ∀ v ∈ l, v ∈ G.nodes)
    {v p : α} (hv : v ∈ l) (hp : G.Edge p v) (hpl : p ∉ l) :
    G.getAdjMat o l = .error .keyError :=
  Dag.getAdjMat_keyError o hl hv hp hpl

example : (∀ v ∈ [4, 3, 2, 1, 0], v ∈ exD.nodes) ∧ [4, 3, 2, 1, 0].Nodup ∧
    (∀ v ∈ [4, 3, 2, 1, 0], ∀ p ∈ exD.par v, p ∈ [4, 3, 2, 1, 0]) ∧
    (∀ v ∈ [2, 3], v ∈ exD.nodes) ∧ exD.par 2 = {1, 3} ∧ 1 ∉ [2, 3] := by decide

/-! ## C12: disconnect_node -/

/-- C12: on an isolated node nothing happens. -/
theorem C12_isolated_ok (o : SetOrder α) {G : UGraph α} {v : α} (hv : v ∈ G.nodes) (h : G.adj v = ∅) :
    G.disconnectNode o v = (G, .ok ()) :=
  UGraph.disconnectNode_isolated o hv h

/-- C12 (defect): for every node with a neighbour the call raises RuntimeError after removing exactly one edge. -/
theorem C12_disconnect_raises (o : SetOrder α) {G : UGraph α} (hG : G.WF) {v : α} (hv : v ∈ G.nodes)
    (h : (G.adj v).Nonempty) :
    ∃ x ∈ G.adj v, ∃ G', G.removeEdge x v = .ok G' ∧ G.disconnectNode o v = (G', .error .runtimeError) :=
  UGraph.disconnectNode_raises o hG hv h

example : exU.WF ∧ 1 ∈ exU.nodes ∧ (exU.adj 1).Nonempty ∧ 3 ∈ exU.nodes ∧ exU.adj 3 = ∅ :=
  ⟨exU_built.wf, by decide, ⟨0, by decide⟩, by decide, by decide⟩

end Verif
