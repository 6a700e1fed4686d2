import Verif.Props.IcdOne

/-!
# C76: FCI with latent variables, if at most one conditioning node is needed
-/

namespace Verif
open Relation MG
variable {α : Type} [LinearOrder α]

/-- C76 for DAGs and observed sets in which separable pairs are separated by at most one node: FCI finds exactly the right adjacencies,
all arrowheads are true, all unshielded colliders are found, and the tails are true if the tail rules are off or no pair is
confounded. -/
theorem C76_one_partial (o : SetOrder α) {ci : CITest α} (selection tails : Bool) {D : Dag α} (hac : D.Acyclic) {O : Finset α}
    (hp : Pc.PerfectOn ci D O) (hone : D.OneSep O) :
    ∃ st found, Fci.learnStructure o ci selection tails O = .ok (st, found) ∧ st.graph.Proper ∧ st.graph.nodes = O ∧
      (∀ a b, st.graph.MAdj a b ↔ a ∈ O ∧ b ∈ O ∧ a ≠ b ∧ D.Insep O a b) ∧
      D.ArrowsTrue st.graph ∧ D.CollidersFound O st.graph ∧ (tails = false ∨ D.NoConfounded O → D.TailsTrue st.graph) := by
  obtain ⟨st, found, h1, h2, h3⟩ := C76_fci_partial o selection tails hac hp
  obtain ⟨pc, st', found', k0, k1, k2, k3, -, k4, -⟩ := C49_fci o ci selection tails O
  obtain ⟨pc', st'', found'', l0, l1, l2⟩ := C49_fci_tested o ci selection tails O
  rw [h1] at k1 l1
  cases k1
  cases l1
  rw [k0] at l0
  cases l0
  have hins : ∀ a b, st.graph.MAdj a b → D.Insep O a b := by
    intro a b hab
    have hm : a ∈ O ∧ b ∈ O := by rw [← k3]; exact k2.mem_adj hab
    have hne := k2.ne hab
    obtain ⟨P, p1, p2⟩ := l2 a b hab
    have dep : ∀ S ⊆ P \ {b}, S ⊆ O → a ∉ S → ¬ D.DSeparated a b S := fun S hS hSO haS =>
      Dag.dep_of hac hp hm.1 hm.2 hne haS (fun hb => by simpa using hS hb) hSO (Or.inl (p2 S hS))
    by_contra hn
    obtain ⟨S, s1, s2, s3, s4, s5⟩ := hone a hm.1 b hm.2 hne hn
    have h0 : ¬ D.DSeparated a b ∅ := dep ∅ (by simp) (by simp) (by simp)
    have hz : ∃ z ∈ O, a ≠ z ∧ b ≠ z ∧ D.DSeparated a b {z} := by
      rcases Nat.lt_or_ge S.card 1 with hc | hc
      · rw [Finset.card_eq_zero.mp (by omega : S.card = 0)] at s5
        exact absurd s5 h0
      · obtain ⟨z, rfl⟩ := Finset.card_eq_one.mp (by omega : S.card = 1)
        exact ⟨z, s1 (by simp), fun e => s3 (by simp [e]), fun e => s4 (by simp [e]), s5⟩
    obtain ⟨z, z1, z2, z3, z4, z5, z6⟩ := Dag.DSeparated.closest hac h0 hz
    -- the pair `a`, `z` cannot be separated, so `z` stays a neighbour of `a`
    have haz : D.Insep O a z := by
      by_contra hn'
      obtain ⟨T, t1, t2, t3, t4, t5⟩ := hone a hm.1 z z1 z2 hn'
      rcases Nat.lt_or_ge T.card 1 with hc | hc
      · rw [Finset.card_eq_zero.mp (by omega : T.card = 0)] at t5
        exact z5 t5
      · obtain ⟨w, rfl⟩ := Finset.card_eq_one.mp (by omega : T.card = 1)
        exact z6 w (t1 (by simp)) (fun e => t3 (by simp [e])) (fun e => t4 (by simp [e])) t5
    refine dep {z} ?_ (by simpa using z1) (by simpa using z2) z4
    simp only [Finset.singleton_subset_iff, Finset.mem_sdiff, Finset.mem_singleton]
    exact ⟨p1 z (k4 a z (h2 a hm.1 z z1 z2 haz)), fun e => z3 e.symm⟩
  refine ⟨st, found, h1, k2, k3, fun a b => ⟨fun h => ?_, fun h => h2 a h.1 b h.2.1 h.2.2.1 h.2.2.2⟩, h3 hins⟩
  have := k2.mem_adj h
  rw [k3] at this
  exact ⟨this.1, this.2, k2.ne h, hins a b h⟩

/-- C76 for polytrees with any set of latent nodes. -/
theorem C76_polytree_partial (o : SetOrder α) {ci : CITest α} (selection tails : Bool) {D : Dag α} (hac : D.Acyclic) (ht : D.Polytree)
    {O : Finset α} (hp : Pc.PerfectOn ci D O) :
    ∃ st found, Fci.learnStructure o ci selection tails O = .ok (st, found) ∧ st.graph.Proper ∧ st.graph.nodes = O ∧
      (∀ a b, st.graph.MAdj a b ↔ a ∈ O ∧ b ∈ O ∧ a ≠ b ∧ D.Insep O a b) ∧
      D.ArrowsTrue st.graph ∧ D.CollidersFound O st.graph ∧ (tails = false ∨ D.NoConfounded O → D.TailsTrue st.graph) :=
  C76_one_partial o selection tails hac hp (ht.oneSep O)

/-- Hypotheses are met: node 2 of the polytree `0 → 1 ← 2 → 3 ← 4` is latent. -/
example := C76_polytree_partial ascending true true exPoly_acyclic exPoly_polytree
  (Pc.dsepTest_perfectOn ascending exPoly_wf exPoly_acyclic (O := {0, 1, 3, 4}) (by decide))

end Verif
