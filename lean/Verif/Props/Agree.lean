import Verif.Props.DataObject
import Verif.Props.VermaPearl

/-!
# C104: the learners agree with each other
-/

namespace Verif
section
variable {m : Nat}

/-- PC with a `DSep` object: the skeleton of the DAG, and an arrow exactly where every Markov equivalent DAG has one. -/
theorem pc_dsep_arrows (o o' : SetOrder Int) (overwrite : Bool) {D : Dag Int} (hD : D.WF) (hac : D.Acyclic)
    (hn : ∀ x, x ∈ D.nodes ↔ 0 ≤ x ∧ x < m) (countTests useCache : Bool) :
    ∃ st s, Pc.learnStructureObj o (critCondIndep (fun x y zz => D.dsep o' x y zz.toFinset)) overwrite (Pc.init o D.nodes)
        (CiState.init m countTests useCache) = .ok (st, s) ∧ (∀ a b, st.graph.PAdj a b ↔ D.Adj a b) ∧
      ∀ a b, st.graph.Arrow a b ↔ ∀ H : Dag Int, D.Equivalent H → H.Edge a b := by
  obtain ⟨st, s, P, h1, h2, h3⟩ := C98_dsep o o' o overwrite hD hac hn countTests useCache
  obtain ⟨P', k1, k2, -⟩ := C14_essential o (rules := [1, 2, 3]) (by simp) hD hac
  obtain ⟨P'', k3, -, -, k4, -⟩ := C13_cpdag o (rules := [1, 2, 3]) (by simp) hD hac
  cases h2.symm.trans k1
  cases h2.symm.trans k3
  refine ⟨st, s, h1, fun a b => ?_, fun a b => (h3.arrow a b).trans (k2 a b)⟩
  rw [← k4, MG.PAdj, MG.PAdj, h3.arrow, h3.arrow, h3.und, h3.und]

/-- C104 (PC and FCI): with `DSep` objects on a DAG whose nodes are all observed, PC and FCI find the same adjacencies, and FCI places an
arrowhead at `b` on the edge with `a` exactly if PC directs the edge from `a` to `b`; whatever the options of the learners and the objects. -/
theorem C104_pc_fci (o o' o₂ o₂' : SetOrder Int) (overwrite selection tails : Bool) {D : Dag Int} (hD : D.WF) (hac : D.Acyclic)
    (hn : ∀ x, x ∈ D.nodes ↔ 0 ≤ x ∧ x < m) (countTests useCache countTests' useCache' : Bool) :
    ∃ st s st' s', Pc.learnStructureObj o (critCondIndep (fun x y zz => D.dsep o' x y zz.toFinset)) overwrite (Pc.init o D.nodes)
        (CiState.init m countTests useCache) = .ok (st, s) ∧
      Fci.learnStructureObj o₂ (critCondIndep (fun x y zz => D.dsep o₂' x y zz.toFinset)) selection tails D.nodes
        (CiState.init m countTests' useCache') = .ok ((st', false), s') ∧
      (∀ a b, st.graph.PAdj a b ↔ st'.graph.MAdj a b) ∧ ∀ a b, st.graph.Arrow a b ↔ st'.graph.At a b .arrow := by
  obtain ⟨st, s, h1, h2, h3⟩ := pc_dsep_arrows o o' overwrite hD hac hn countTests useCache
  obtain ⟨st', s', k1, k2, k3⟩ := C99_dsep o₂ o₂' selection tails hD hac hn countTests' useCache'
  exact ⟨st, s, st', s', h1, k1, fun a b => (h2 a b).trans (k2 a b).symm, fun a b => (h3 a b).trans (k3 a b).symm⟩

/-- C104 (FCI and ICD): if no node has more than two parents, ICD finds the same adjacencies and arrowheads as FCI. -/
theorem C104_fci_icd (o o' o₂ o₂' : SetOrder Int) (selection tails : Bool) (opts : IcdOpts) {D : Dag Int} (hD : D.WF) (hac : D.Acyclic)
    (hn : ∀ x, x ∈ D.nodes ↔ 0 ≤ x ∧ x < m) (hdeg : ∀ v, (D.par v).card ≤ 2) (countTests useCache countTests' useCache' : Bool) :
    ∃ st s st' s', Fci.learnStructureObj o (critCondIndep (fun x y zz => D.dsep o' x y zz.toFinset)) selection tails D.nodes
        (CiState.init m countTests useCache) = .ok ((st, false), s) ∧
      Icd.learnStructureObj o₂ (critCondIndep (fun x y zz => D.dsep o₂' x y zz.toFinset)) opts (Icd.init o₂ D.nodes)
        (CiState.init m countTests' useCache') = .ok (st', s') ∧
      (∀ a b, st.graph.MAdj a b ↔ st'.graph.MAdj a b) ∧ ∀ a b, st.graph.At a b .arrow ↔ st'.graph.At a b .arrow := by
  obtain ⟨st, s, h1, h2, h3⟩ := C99_dsep o o' selection tails hD hac hn countTests useCache
  obtain ⟨st', s', k1, k2, k3⟩ := C100_dsep o₂ o₂' opts hD hac hn hdeg countTests' useCache'
  exact ⟨st, s, st', s', h1, k1, fun a b => (h2 a b).trans (k2 a b).symm, fun a b => (h3 a b).trans (k3 a b).symm⟩

/-- C104 (PC and ordered ICD): given a causal order, and at most three parents (local variant) or two (global variant) and at most
`max_cond_size`, ordered ICD finds the same adjacencies as PC, keeps every arrow of PC, and places an arrowhead on every edge that PC leaves
undirected, at exactly one end. -/
theorem C104_pc_ordered (o o' o₂ o₂' : SetOrder Int) (overwrite : Bool) {opts : OIcdOpts Int} {D : Dag Int} (hD : D.WF) (hac : D.Acyclic)
    (ho : D.CausalOrder D.nodes opts.order) (isLocal : Bool) (hn : ∀ x, x ∈ D.nodes ↔ 0 ≤ x ∧ x < m)
    (hdeg : ∀ v, (D.par v).card ≤ if isLocal then 3 else 2) (hm : ∀ m, opts.maxCond = some m → ∀ v, (D.par v).card ≤ m)
    (countTests useCache countTests' useCache' : Bool) :
    ∃ st s st' s', Pc.learnStructureObj o (critCondIndep (fun x y zz => D.dsep o' x y zz.toFinset)) overwrite (Pc.init o D.nodes)
        (CiState.init m countTests useCache) = .ok (st, s) ∧
      OIcd.learnStructureObj o₂ (critCondIndep (fun x y zz => D.dsep o₂' x y zz.toFinset)) opts isLocal (OIcd.first o₂ D.nodes)
        (CiState.init m countTests' useCache') = .ok (st', s') ∧
      (∀ a b, st.graph.PAdj a b ↔ st'.graph.MAdj a b) ∧ (∀ a b, st.graph.Arrow a b → st'.graph.At a b .arrow) ∧
      ∀ a b, st.graph.PAdj a b → (st'.graph.At a b .arrow ↔ ¬ st'.graph.At b a .arrow) := by
  obtain ⟨st, s, h1, h2, h3⟩ := pc_dsep_arrows o o' overwrite hD hac hn countTests useCache
  obtain ⟨st', s', k1, k2, k3, -⟩ := C102_dsep o₂ o₂' hD hac ho isLocal hn hdeg hm countTests' useCache'
  refine ⟨st, s, st', s', h1, k1, fun a b => (h2 a b).trans (k2 a b).symm,
    fun a b h => (k3 a b).mpr ((h3 a b).mp h D (Dag.Equivalent.rfl' hD hac)), fun a b h => ?_⟩
  rw [k3, k3]
  have hor : D.Edge a b ∨ D.Edge b a := (h2 a b).mp h
  exact ⟨fun e e' => hac a (.tail (.single e) e'), fun e => hor.resolve_right e⟩

/-- C104 (PC and RAI): RAI keeps every adjacency of PC; and if parents of a common child are always adjacent, the results are the same. -/
theorem C104_pc_rai (o o' o₂ o₂' : SetOrder Int) (overwrite overwrite' : Bool) {D : Dag Int} (hD : D.WF) (hac : D.Acyclic)
    (hn : ∀ x, x ∈ D.nodes ↔ 0 ≤ x ∧ x < m) (countTests useCache countTests' useCache' : Bool) :
    ∃ st s st' s', Pc.learnStructureObj o (critCondIndep (fun x y zz => D.dsep o' x y zz.toFinset)) overwrite (Pc.init o D.nodes)
        (CiState.init m countTests useCache) = .ok (st, s) ∧
      Rai.learnStructureObj o₂ (critCondIndep (fun x y zz => D.dsep o₂' x y zz.toFinset)) overwrite' (Rai.init o₂ D.nodes)
        (CiState.init m countTests' useCache') = .ok (st', s') ∧
      (∀ a b, st.graph.PAdj a b → st'.graph.PAdj a b) ∧
      ((∀ a b c, D.Edge a b → D.Edge c b → a ≠ c → D.Adj a c) → st.graph.Same st'.graph) := by
  obtain ⟨st, s, P, h1, h2, h3⟩ := C98_dsep o o' o overwrite hD hac hn countTests useCache
  obtain ⟨st0, s0, g1, g2, -⟩ := pc_dsep_arrows o o' overwrite hD hac hn countTests useCache
  cases h1.symm.trans g1
  obtain ⟨st', s', k1, k2, -, k3⟩ := C101_all o₂ o₂' o overwrite' hD hac hn countTests' useCache'
  refine ⟨st, s, st', s', h1, k1, fun a b h => k2 a b ((g2 a b).mp h), fun hm => ?_⟩
  obtain ⟨Q, q1, q2⟩ := k3 hm
  cases h2.symm.trans q1
  exact ⟨h3.nodes.trans q2.nodes.symm, fun a b => (h3.arrow a b).trans (q2.arrow a b).symm,
    fun a b => (h3.und a b).trans (q2.und a b).symm⟩

/-- Skeleton and compelled edges determine the Markov equivalence class. -/
theorem equivalent_of_compelled {α : Type} {D H : Dag α} (hD : D.WF) (hac : D.Acyclic) (hH : H.WF) (hacH : H.Acyclic)
    (hn : H.nodes = D.nodes) (ha : ∀ a b, D.Adj a b ↔ H.Adj a b)
    (hc : ∀ a b, (∀ K : Dag α, D.Equivalent K → K.Edge a b) ↔ ∀ K : Dag α, H.Equivalent K → K.Edge a b) : D.Equivalent H := by
  have key : ∀ {D : Dag α} (hD : D.WF) (hac : D.Acyclic) (a b c : α), D.UCol a b c ↔
      (∀ K : Dag α, D.Equivalent K → K.Edge a b) ∧ (∀ K : Dag α, D.Equivalent K → K.Edge c b) ∧ a ≠ c ∧ ¬ D.Adj a c := by
    intro D hD hac a b c
    constructor
    · intro h
      refine ⟨fun K hK => ((hK.ucol a b c).mpr h).1, fun K hK => ((hK.ucol a b c).mpr h).2.1, h.2.2.1, h.2.2.2⟩
    · rintro ⟨h1, h2, h3, h4⟩
      exact ⟨h1 D (Dag.Equivalent.rfl' hD hac), h2 D (Dag.Equivalent.rfl' hD hac), h3, h4⟩
  refine ⟨hn, hH, hacH, fun a b => (ha a b).symm, fun a b c => ?_⟩
  rw [key hH hacH, key hD hac, hc, hc, ha]

/-- C104 (equivalent DAGs): FCI, with `DSep` objects on two DAGs with the same, all observed, nodes, finds the same adjacencies and arrowheads
exactly if the DAGs are Markov equivalent. -/
theorem C104_fci_apart (o o' o₂ o₂' : SetOrder Int) (selection tails selection' tails' : Bool) {D H : Dag Int} (hD : D.WF) (hac : D.Acyclic)
    (hH : H.WF) (hacH : H.Acyclic) (hDH : H.nodes = D.nodes) (hn : ∀ x, x ∈ D.nodes ↔ 0 ≤ x ∧ x < m)
    (countTests useCache countTests' useCache' : Bool) :
    ∃ st s st' s', Fci.learnStructureObj o (critCondIndep (fun x y zz => D.dsep o' x y zz.toFinset)) selection tails D.nodes
        (CiState.init m countTests useCache) = .ok ((st, false), s) ∧
      Fci.learnStructureObj o₂ (critCondIndep (fun x y zz => H.dsep o₂' x y zz.toFinset)) selection' tails' H.nodes
        (CiState.init m countTests' useCache') = .ok ((st', false), s') ∧
      (((∀ a b, st.graph.MAdj a b ↔ st'.graph.MAdj a b) ∧ ∀ a b, st.graph.At a b .arrow ↔ st'.graph.At a b .arrow) ↔ D.Equivalent H) := by
  obtain ⟨st, s, h1, h2, h3⟩ := C99_dsep o o' selection tails hD hac hn countTests useCache
  obtain ⟨st', s', k1, k2, k3⟩ := C99_dsep o₂ o₂' selection' tails' hH hacH (fun x => by rw [hDH]; exact hn x) countTests' useCache'
  refine ⟨st, s, st', s', h1, k1, fun h => ?_, fun h => ⟨fun a b => ?_, fun a b => ?_⟩⟩
  · exact equivalent_of_compelled hD hac hH hacH hDH (fun a b => (h2 a b).symm.trans ((h.1 a b).trans (k2 a b)))
      fun a b => (h3 a b).symm.trans ((h.2 a b).trans (k3 a b))
  · rw [h2, k2, h.adj]
  · rw [h3, k3]
    have tr : ∀ K : Dag Int, D.Equivalent K ↔ H.Equivalent K := fun K =>
      ⟨fun e => ⟨e.nodes.trans h.nodes.symm, e.wf, e.acyclic, fun a b => (e.adj a b).trans (h.adj a b).symm,
          fun a b c => (e.ucol a b c).trans (h.ucol a b c).symm⟩,
        fun e => ⟨e.nodes.trans h.nodes, e.wf, e.acyclic, fun a b => (e.adj a b).trans (h.adj a b),
          fun a b c => (e.ucol a b c).trans (h.ucol a b c)⟩⟩
    simp only [tr]

end

/-! ## The hypotheses are met -/

example (o o' o₂ o₂' : SetOrder Int) := C104_pc_fci o o' o₂ o₂' true false true exFork_wf exFork_acyclic exFork_nodes true false false true

example (o o' o₂ o₂' : SetOrder Int) :=
  C104_fci_icd o o' o₂ o₂' true true ⟨true, false, true⟩ exFork_wf exFork_acyclic exFork_nodes exFork_parents true false false true

example (o o' o₂ o₂' : SetOrder Int) :=
  C104_pc_ordered o o' o₂ o₂' true (opts := ⟨[0, 2, 1], true, true, none⟩) exFork_wf exFork_acyclic exFork_order false exFork_nodes
    (fun v => exFork_parents v) (by simp) true false false true

/-- The fork has no two parents of a common child. -/
example (o o' o₂ o₂' : SetOrder Int) := C104_pc_rai o o' o₂ o₂' true false exFork_wf exFork_acyclic exFork_nodes true false false true

example : ∀ a b c, exFork.Edge a b → exFork.Edge c b → a ≠ c → exFork.Adj a c := by
  intro a b c h h' hne
  exact absurd ((exFork_edge h).1.trans (exFork_edge h').1.symm) hne

/-- A DAG with the nodes of the fork and its only edge `0 → 1`: not equivalent to the fork. -/
def exOneEdge : Dag Int := ⟨{0, 1, 2}, fun v => if v = 1 then {0} else ∅⟩

theorem exOneEdge_edge {a b : Int} (h : exOneEdge.Edge a b) : a = 0 ∧ b = 1 := by
  change a ∈ (if b = 1 then ({0} : Finset Int) else ∅) at h
  split_ifs at h with hb
  · exact ⟨Finset.mem_singleton.mp h, hb⟩
  · simp at h

theorem exOneEdge_wf : exOneEdge.WF := by
  intro a b h
  obtain ⟨rfl, rfl⟩ := exOneEdge_edge h
  decide

theorem exOneEdge_acyclic : exOneEdge.Acyclic := by
  intro v h
  have key : ∀ a b : Int, Relation.TransGen exOneEdge.Edge a b → a < b := by
    intro a b h
    induction h with
    | single h => obtain ⟨rfl, rfl⟩ := exOneEdge_edge h; decide
    | tail _ h ih => refine lt_trans ih ?_; obtain ⟨rfl, rfl⟩ := exOneEdge_edge h; decide
  exact lt_irrefl _ (key v v h)

example (o o' o₂ o₂' : SetOrder Int) :=
  C104_fci_apart o o' o₂ o₂' true true false false exFork_wf exFork_acyclic exOneEdge_wf exOneEdge_acyclic rfl exFork_nodes true false false true

end Verif
