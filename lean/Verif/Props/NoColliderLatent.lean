import Verif.Lemmas.NoColliderMarginal
import Verif.Props.IcdNoCollider
import Verif.Props.VermaPearl

/-!
# Property C92: without unshielded colliders no learner reports a direction, whatever variables are hidden
-/

namespace Verif
open Relation MG
variable {α : Type} [LinearOrder α]

theorem Pc.Perfect.equivalent {ci : CITest α} {D H : Dag α} (hD : D.WF) (hac : D.Acyclic) (hp : Pc.Perfect ci D) (he : D.Equivalent H) :
    Pc.Perfect ci H := by
  intro k i j l hi hj hij h1 h2 h3
  rw [he.nodes] at hi hj h3
  rw [hp k i j l hi hj hij h1 h2 h3]
  exact he.dseparated hD hac (by simpa using h1) (by simpa using h2)

/-- C90 (FCI): without latent variables every tail is opposite to an arrowhead, so that no edge is undirected or has a tail and a circle. -/
theorem C90_fci_tails (o : SetOrder α) {ci : CITest α} (selection tails : Bool) {D : Dag α} (hD : D.WF) (hac : D.Acyclic)
    (hp : Pc.Perfect ci D) :
    ∃ st, Fci.learnStructure o ci selection tails D.nodes = .ok (st, false) ∧
      ∀ a b, st.graph.At a b .tail → st.graph.At b a .arrow := by
  obtain ⟨st, h1, h2, h3⟩ := C90_fci o selection tails hD hac hp
  refine ⟨st, h1, fun a b hab => (h3 b a).mpr fun H he => ?_⟩
  obtain ⟨st', k1, -, -, k2, -⟩ := C49_fci_dag o selection tails he.wf he.acyclic (hp.equivalent hD hac he)
  rw [he.nodes, h1] at k1
  obtain rfl : st = st' := by simpa using k1
  exact k2 a b hab

namespace Dag

/-- The observed part of a DAG without unshielded colliders. -/
theorem NoUCol.observed {D : Dag α} (hm : D.NoUCol) (hD : D.WF) (hac : D.Acyclic) {O : Finset α} (hO : O ⊆ D.nodes) {ci : CITest α}
    (hp : Pc.PerfectOn ci D O) :
    ∃ H : Dag α, H.nodes = O ∧ H.WF ∧ H.Acyclic ∧ (∀ a b c, H.Edge a b → H.Edge c b → a ≠ c → H.Adj a c) ∧ Pc.PerfectOn ci H H.nodes ∧
      ∀ a b, H.Adj a b ↔ a ∈ O ∧ b ∈ O ∧ a ≠ b ∧ D.Insep O a b := by
  obtain ⟨H, h1, h2, h3, h4, h5⟩ := hm.marginal hD hac hO
  refine ⟨H, h1, h2, h3, fun a b c k1 k2 k3 => (h4.adj k1 k2).resolve_left k3, ?_, fun a b => ⟨fun h => ?_, fun ⟨ha, hb, hab, h⟩ => ?_⟩⟩
  · intro k i j l hi hj hij k1 k2 k3
    rw [h1] at hi hj k3
    rw [hp k i j l hi hj hij k1 k2 k3]
    exact (h5 i hi j hj l.toFinset (fun x hx => k3 x (by simpa using hx)) (by simpa using k1) (by simpa using k2)).symm
  · have ha : a ∈ O := h1 ▸ h.elim (fun h => (h2 _ _ h).1) (fun h => (h2 _ _ h).2)
    have hb : b ∈ O := h1 ▸ h.elim (fun h => (h2 _ _ h).2) (fun h => (h2 _ _ h).1)
    refine ⟨ha, hb, ?_, fun S hS haS hbS hs => ?_⟩
    · rintro rfl
      rcases h with h | h <;> exact h3 _ (.single h)
    · exact (Insep.of_adj (O := O) h3 h) S hS haS hbS ((h5 a ha b hb S hS haS hbS).mpr hs)
  · refine H.insep_adj h2 h3 hab fun S hS haS hbS hs => ?_
    rw [h1] at hS
    exact h S hS haS hbS ((h5 a ha b hb S hS haS hbS).mp hs)

end Dag

/-- C92 (PC and RAI). If in the true DAG two parents of a common child are always adjacent, then for every set of observed variables and every
test that answers d-separation among them, PC and RAI return the same undirected graph, whose edges are the inseparable pairs. -/
theorem C92_pc_rai (o o' : SetOrder α) {ci : CITest α} (overwrite overwrite' : Bool) {D : Dag α} (hD : D.WF) (hac : D.Acyclic)
    {O : Finset α} (hO : O ⊆ D.nodes) (hp : Pc.PerfectOn ci D O) (hm : ∀ a b c, D.Edge a b → D.Edge c b → a ≠ c → D.Adj a c) :
    ∃ st st', Rai.learnStructure o ci overwrite (Rai.init o O) = .ok st ∧ Pc.learnStructure o' ci overwrite' (Pc.init o' O) = .ok st' ∧
      (∀ a b, st.graph.PAdj a b ↔ a ∈ O ∧ b ∈ O ∧ a ≠ b ∧ D.Insep O a b) ∧ (∀ a b, ¬ st.graph.Arrow a b) ∧ st.graph.Same st'.graph := by
  obtain ⟨H, rfl, h2, h3, h4, h5, h6⟩ := Dag.NoUCol.observed (fun a b c h => h.2.2.2 (hm a b c h.1 h.2.1 h.2.2.1)) hD hac hO hp
  obtain ⟨st, P, k1, -, -, k2, k3⟩ := C66_no_collider_partial o o overwrite h2 h3 h5 h4
  obtain ⟨st1, st', l1, l2, l3⟩ := C66_no_collider_pc_partial o o' overwrite overwrite' h2 h3 h5 h4
  rw [k1] at l1
  obtain rfl : st = st1 := by simpa using l1
  exact ⟨st, st', k1, l2, fun a b => (k2 a b).trans (h6 a b), k3, l3⟩

/-- C92 (FCI). In the same situation FCI returns the inseparable pairs with circles at both ends. -/
theorem C92_fci (o : SetOrder α) {ci : CITest α} (selection tails : Bool) {D : Dag α} (hD : D.WF) (hac : D.Acyclic)
    {O : Finset α} (hO : O ⊆ D.nodes) (hp : Pc.PerfectOn ci D O) (hm : ∀ a b c, D.Edge a b → D.Edge c b → a ≠ c → D.Adj a c) :
    ∃ st, Fci.learnStructure o ci selection tails O = .ok (st, false) ∧
      (∀ a b, st.graph.MAdj a b ↔ a ∈ O ∧ b ∈ O ∧ a ≠ b ∧ D.Insep O a b) ∧ ∀ a b m, st.graph.At a b m → m = .circle := by
  obtain ⟨H, rfl, h2, h3, h4, h5, h6⟩ := Dag.NoUCol.observed (fun a b c h => h.2.2.2 (hm a b c h.1 h.2.1 h.2.2.1)) hD hac hO hp
  obtain ⟨st, pc, k1, k2, k3, k4⟩ := C90_fci_pc o o selection tails true h2 h3 h5 h5
  obtain ⟨ra, pc', l1, l2, l3⟩ := C66_no_collider_pc_partial o o true true h2 h3 h5 h4
  obtain ⟨ra', P, l4, -, -, l5, l6⟩ := C66_no_collider_partial o o true h2 h3 h5 h4
  obtain ⟨st', n1, n2⟩ := C90_fci_tails o selection tails h2 h3 h5
  obtain ⟨st'', q1, q2, -⟩ := C90_fci o selection tails h2 h3 h5
  rw [k1] at n1 q1
  obtain rfl : st = st' := by simpa using n1
  obtain rfl : st = st'' := by simpa using q1
  rw [l1] at l4
  obtain rfl : ra = ra' := by simpa using l4
  rw [k2] at l2
  obtain rfl : pc = pc' := by simpa using l2
  have harr : ∀ a b, ¬ st.graph.At a b .arrow := fun a b h => l6 a b ((l3.arrow a b).mpr ((k4 a b).mp h))
  refine ⟨st, k1, fun a b => (q2 a b).trans (h6 a b), fun a b m h => ?_⟩
  cases m with
  | circle => rfl
  | arrow => exact absurd h (harr a b)
  | tail => exact absurd (n2 a b h) (harr b a)

/-- C92 (ICD). In the same situation ICD returns, with all options, the inseparable pairs with circles at both ends. -/
theorem C92_icd (o : SetOrder α) {ci : CITest α} (opts : IcdOpts) {D : Dag α} (hD : D.WF) (hac : D.Acyclic)
    {O : Finset α} (hO : O ⊆ D.nodes) (hp : Pc.PerfectOn ci D O) (hm : ∀ a b c, D.Edge a b → D.Edge c b → a ≠ c → D.Adj a c) :
    ∃ st, Icd.learnStructure o ci opts (Icd.init o O) = .ok st ∧
      (∀ a b, st.graph.MAdj a b ↔ a ∈ O ∧ b ∈ O ∧ a ≠ b ∧ D.Insep O a b) ∧ ∀ a b m, st.graph.At a b m → m = .circle := by
  obtain ⟨H, rfl, h2, h3, h4, h5, h6⟩ := Dag.NoUCol.observed (fun a b c h => h.2.2.2 (hm a b c h.1 h.2.1 h.2.2.1)) hD hac hO hp
  obtain ⟨st, k1, -, -, k2, k3⟩ := C74_icd_no_collider_partial o opts h2 h3 h5 h4
  exact ⟨st, k1, fun a b => (k2 a b).trans (h6 a b), k3⟩

/-- C92 (`find_true_pag`). The PAG returned for any observed nodes of such a DAG has the inseparable pairs as edges and only circles. -/
theorem C92_true_pag (o : SetOrder α) {D : Dag α} (hD : D.WF) (hac : D.Acyclic) {O : Finset α} (hO : O ⊆ D.nodes)
    (hm : ∀ a b c, D.Edge a b → D.Edge c b → a ≠ c → D.Adj a c) :
    ∃ G, findTruePag o D O = .ok G ∧ (∀ a b, G.MAdj a b ↔ a ∈ O ∧ b ∈ O ∧ a ≠ b ∧ D.Insep O a b) ∧
      ∀ a b m, G.At a b m → m = .circle := by
  obtain ⟨st, h1, h2⟩ := C92_icd o ⟨false, true, true⟩ hD hac hO (Pc.dsepTest_perfectOn o hD hac hO) hm
  exact ⟨st.graph, by rw [findTruePag, h1]; rfl, h2⟩

/-- The hypotheses are met with a hidden node: 1 is not observed, its neighbours 0, 2 and 3 are inseparable. -/
example : (∃ G, findTruePag ascending exTriangles {0, 2, 3, 4} = .ok G ∧ G.MAdj 0 3 ∧ ¬ G.MAdj 0 4 ∧ ∀ a b m, G.At a b m → m = .circle) ∧
    ¬ exTriangles.Adj 0 3 := by
  have key : ∀ b < 5, ∀ a ∈ exTriangles.par b, ∀ c ∈ exTriangles.par b, a ≠ c → a ∈ exTriangles.par c ∨ c ∈ exTriangles.par a := by decide
  have hm : ∀ a b c, exTriangles.Edge a b → exTriangles.Edge c b → a ≠ c → exTriangles.Adj a c :=
    fun a b c h1 h2 => key b (exTriangles_lt h1) a h1 c h2
  have ho := C22_dsep_oracle ascending exTriangles_wf exTriangles_acyclic
  obtain ⟨G, h1, h2, h3⟩ := C92_true_pag ascending exTriangles_wf exTriangles_acyclic (O := {0, 2, 3, 4}) (by decide) hm
  refine ⟨⟨G, h1, (h2 0 3).mpr ⟨by decide, by decide, by decide, fun S hS h0 h3 hs => ?_⟩, fun h => ?_, h3⟩,
    by simp only [Dag.Adj, Dag.Edge]; decide⟩
  · have hm' : exTriangles.NoUCol := fun a b c h => h.2.2.2 (hm a b c h.1 h.2.1 h.2.2.1)
    have e1 : exTriangles.Adj 0 1 := by simp only [Dag.Adj, Dag.Edge]; decide
    have e2 : exTriangles.Adj 1 3 := by simp only [Dag.Adj, Dag.Edge]; decide
    have e3 : 1 ∉ S := fun h => absurd (hS h) (by decide)
    exact (hm'.dseparated exTriangles_acyclic h0 h3).mp hs ((ReflTransGen.single ⟨e1, e3⟩).tail ⟨e2, h3⟩)
  · refine ((h2 0 4).mp h).2.2.2 {3} (by decide) (by decide) (by decide) ?_
    exact (ho 0 0 4 [3] (by decide) (by decide) (by decide) (by decide) (by decide) (by decide)).mp (by decide +kernel)

end Verif
