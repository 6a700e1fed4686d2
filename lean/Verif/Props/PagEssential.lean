import Verif.Props.IcdDeg

/-!
# Property C90: without latent variables FCI and ICD orient exactly the compelled edges
-/

namespace Verif
open Relation MG
variable {α : Type} [LinearOrder α]

/-- C90 (FCI). With a test that answers d-separation in a DAG over the same nodes, whatever the iteration order and the options:
there is an arrowhead at `b` on the edge between `a` and `b` if and only if `a --> b` is in every DAG that is Markov equivalent to the
true one. -/
theorem C90_fci (o : SetOrder α) {ci : CITest α} (selection tails : Bool) {D : Dag α} (hD : D.WF) (hac : D.Acyclic)
    (hp : Pc.Perfect ci D) :
    ∃ st, Fci.learnStructure o ci selection tails D.nodes = .ok (st, false) ∧ (∀ a b, st.graph.MAdj a b ↔ D.Adj a b) ∧
      ∀ a b, st.graph.At a b .arrow ↔ ∀ H : Dag α, D.Equivalent H → H.Edge a b := by
  obtain ⟨st0, h0, hadj, -⟩ := C49_fci_dag o selection tails hD hac hp
  refine ⟨st0, h0, hadj, ?_⟩
  have hp' : MPerfect ci D.toMg := by
    intro k i j l hi hj hij h1 h2 h3
    rw [Dag.toMg_msep hD]
    exact hp k i j l hi hj hij h1 h2 h3
  obtain ⟨pc, st, p1, p2, p3, p4, p5⟩ := Fci.pcSkeleton_spec o ci D.nodes
  obtain ⟨G1, g1, g2, -⟩ := pagVStructures_spec o st.sep p3.proper p3.all_types p3.keyG
  obtain ⟨st', found, r1, r2, r3, r4, r5⟩ := Fci.refine_spec o (st := { st with graph := G1 }) (p3.same g2.same)
  obtain ⟨H, k1, k2, -⟩ := Fci.reorient_spec o st'.sep r2.proper r2.types r2.keyG
  obtain ⟨K, l1, l2, l3, l4⟩ := Fci.finalRules_spec o st'.sep selection tails k2.proper (k2.types.trans r2.types)
  have hrun : Fci.learnStructure o ci selection tails D.nodes = .ok ({ st' with graph := K }, found) := by
    rw [Fci.learnStructure, py_bind p2, py_bind g1, py_bind r1]
    simp only
    rw [py_bind k1, py_bind l1]
    rfl
  rw [h0] at hrun
  obtain ⟨rfl, -⟩ : st0 = { st' with graph := K } ∧ false = found := by simpa using hrun
  have hadj' : ∀ a b, st'.graph.MAdj a b ↔ D.Adj a b := fun a b => ((k2.trans l2).adj a b).symm.trans (hadj a b)
  intro a b
  rw [l3]
  exact Fci.reorient_essential o st'.sep hD hac r2.proper r2.types r2.keyG r2.nodes.symm hadj'
    (Fci.SkInv.sepIn (M := D.toMg) hp' r2 (fun a b => (hadj' a b).trans (Dag.toMg_adj hD).symm)) k1 a b

/-- C90. FCI and PC agree: same adjacencies, and the arrowheads of FCI are the directed edges of PC; with any two tests that answer
d-separation in the same DAG, and any two iteration orders. -/
theorem C90_fci_pc (o o' : SetOrder α) {ci ci' : CITest α} (selection tails overwrite : Bool) {D : Dag α} (hD : D.WF)
    (hac : D.Acyclic) (hp : Pc.Perfect ci D) (hp' : Pc.Perfect ci' D) :
    ∃ st pc, Fci.learnStructure o ci selection tails D.nodes = .ok (st, false) ∧
      Pc.learnStructure o' ci' overwrite (Pc.init o' D.nodes) = .ok pc ∧
      (∀ a b, st.graph.MAdj a b ↔ pc.graph.PAdj a b) ∧ ∀ a b, st.graph.At a b .arrow ↔ pc.graph.Arrow a b := by
  obtain ⟨st, h1, h2, h3⟩ := C90_fci o selection tails hD hac hp
  obtain ⟨pc, k1, -, k2, k3⟩ := C23_essential o' overwrite hD hac hp'
  exact ⟨st, pc, h1, k1, fun a b => (h2 a b).trans (k2 a b).symm, fun a b => (h3 a b).trans (k3 a b).symm⟩

/-- C90. Consequently the adjacencies and arrowheads found by FCI depend only on the Markov equivalence class of the DAG, not on the DAG,
the options or the iteration order. -/
theorem C90_fci_class (o o' : SetOrder α) {ci ci' : CITest α} (selection tails selection' tails' : Bool) {D D' : Dag α} (hD : D.WF)
    (hac : D.Acyclic) (he : D.Equivalent D') (hp : Pc.Perfect ci D) (hp' : Pc.Perfect ci' D') :
    ∃ st st', Fci.learnStructure o ci selection tails D.nodes = .ok (st, false) ∧
      Fci.learnStructure o' ci' selection' tails' D.nodes = .ok (st', false) ∧
      (∀ a b, st.graph.MAdj a b ↔ st'.graph.MAdj a b) ∧ ∀ a b, st.graph.At a b .arrow ↔ st'.graph.At a b .arrow := by
  obtain ⟨st, h1, h2, h3⟩ := C90_fci o selection tails hD hac hp
  obtain ⟨st', k1, k2, k3⟩ := C90_fci o' selection' tails' he.wf he.acyclic hp'
  have hes : D'.Equivalent D := ⟨he.nodes.symm, hD, hac, fun a b => (he.adj a b).symm, fun a b c => (he.ucol a b c).symm⟩
  have htr : ∀ {A B C : Dag α}, A.Equivalent B → B.Equivalent C → A.Equivalent C := fun h h' =>
    ⟨h'.nodes.trans h.nodes, h'.wf, h'.acyclic, fun a b => (h'.adj a b).trans (h.adj a b),
      fun a b c => (h'.ucol a b c).trans (h.ucol a b c)⟩
  refine ⟨st, st', h1, by rw [← he.nodes]; exact k1, fun a b => ?_, fun a b => ?_⟩
  · rw [h2, k2, he.adj]
  · rw [h3, k3]
    exact ⟨fun h H hH => h H (htr he hH), fun h H hH => h H (htr hes hH)⟩

/-- C90 (ICD), from every reachable state: if `learn_structure` ends with the adjacencies of the DAG, its arrowheads are exactly the
compelled edges. -/
theorem C90_icd {o : SetOrder α} {ci : CITest α} {opts : IcdOpts} {D : Dag α} (hD : D.WF) (hac : D.Acyclic)
    (hp : Pc.Perfect ci D) {st : IcdState α} (h : Icd.Reachable o ci opts D.nodes st) :
    ∃ st', Icd.learnStructure o ci opts st = .ok st' ∧
      ((∀ a b, st'.graph.MAdj a b ↔ D.Adj a b) →
        ∀ a b, st'.graph.At a b .arrow ↔ ∀ H : Dag α, D.Equivalent H → H.Edge a b) := by
  have hp' : MPerfect ci D.toMg := by
    intro k i j l hi hj hij h1 h2 h3
    rw [Dag.toMg_msep hD]
    exact hp k i j l hi hj hij h1 h2 h3
  obtain ⟨st', h1, -, -, h2, -, h3⟩ := Icd.learnStructure_spec o opts h.inv
  exact ⟨st', h1, fun hadj => h3.2 D hD hac rfl hadj
    (Fci.SkInv.sepIn (M := D.toMg) hp' h2 (fun a b => (hadj a b).trans (Dag.toMg_adj hD).symm))⟩

/-- C90 (ICD): adjacencies and arrowheads are exact if no node has more than two parents. -/
theorem C90_icd_degree (o : SetOrder α) {ci : CITest α} (opts : IcdOpts) {D : Dag α} (hD : D.WF) (hac : D.Acyclic)
    (hp : Pc.Perfect ci D) (hdeg : ∀ v, (D.par v).card ≤ 2) :
    ∃ st', Icd.learnStructure o ci opts (Icd.init o D.nodes) = .ok st' ∧ (∀ a b, st'.graph.MAdj a b ↔ D.Adj a b) ∧
      ∀ a b, st'.graph.At a b .arrow ↔ ∀ H : Dag α, D.Equivalent H → H.Edge a b := by
  obtain ⟨st, h1, -, -, h2, -⟩ := C74_icd_degree_partial o opts hD hac hp hdeg
  obtain ⟨st', k1, k2⟩ := C90_icd (opts := opts) hD hac hp (.refl : Icd.Reachable o ci opts D.nodes (Icd.init o D.nodes))
  rw [h1] at k1
  obtain rfl : st = st' := by simpa using k1
  exact ⟨st, h1, h2, k2 h2⟩

/-- C90 for `find_true_pag` with all nodes observed and at most two parents per node. -/
theorem C90_true_pag (o : SetOrder α) {D : Dag α} (hD : D.WF) (hac : D.Acyclic) (hdeg : ∀ v, (D.par v).card ≤ 2) :
    ∃ G, findTruePag o D D.nodes = .ok G ∧ (∀ a b, G.MAdj a b ↔ D.Adj a b) ∧
      ∀ a b, G.At a b .arrow ↔ ∀ H : Dag α, D.Equivalent H → H.Edge a b := by
  obtain ⟨st, h1, h2⟩ := C90_icd_degree o ⟨false, true, true⟩ hD hac (Pc.dsepTest_perfectOn o hD hac (Finset.Subset.refl _)) hdeg
  exact ⟨st.graph, by rw [findTruePag, h1]; rfl, h2⟩

/-! The hypotheses are met, with the d-separation test of the library. -/
example := C90_fci_pc ascending descending true false true exDeg2_wf exDeg2_acyclic
  (Pc.dsepTest_perfectOn ascending exDeg2_wf exDeg2_acyclic (Finset.Subset.refl _))
  (Pc.dsepTest_perfectOn descending exDeg2_wf exDeg2_acyclic (Finset.Subset.refl _))
example := C90_icd_degree ascending ⟨true, false, true⟩ exDeg2_wf exDeg2_acyclic
  (Pc.dsepTest_perfectOn ascending exDeg2_wf exDeg2_acyclic (Finset.Subset.refl _)) exDeg2_par
example := C90_true_pag ascending exDeg2_wf exDeg2_acyclic exDeg2_par

end Verif
