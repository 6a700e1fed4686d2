import Verif.Lemmas.RaiMinimal
import Verif.Props.Minimal

/-!
# C95 for RAI
-/

namespace Verif

section
variable {α : Type} [LinearOrder α]

/-- C95 (RAI, with both values of `overwrite_starting_graph`), for every test: the set recorded for a pair that is not adjacent was found
to make the pair independent, and every part of it was found not to, although the groups of nodes are refined one after the other and
partial orientations decide which sets are tried. -/
theorem C95_rai (o : SetOrder α) (overwrite : Bool) (ci : CITest α) (N : Finset α) :
    ∃ st, Rai.learnStructure o ci overwrite (Rai.init o N) = .ok st ∧ ∀ i ∈ N, ∀ j ∈ N, i ≠ j → ¬ st.graph.PAdj i j →
      ∃ S, st.sep.get i j = .ok S ∧ Pc.Witness ci N i j S ∧ Pc.MinimalFor ci i j S := by
  obtain ⟨st, P, h1, h2, -⟩ := Rai.learnStructure_spec o ci N overwrite
  refine ⟨st, h1, fun i hi j hj hij hn => ?_⟩
  obtain ⟨S, s1, s2⟩ := h2.witness i hi j hj hij hn
  exact ⟨S, s1, s2, Rai.learnStructure_minimal o ci N overwrite h1 i hi j hj hij hn S s1⟩

/-- C95 (RAI) with perfect independence information on the observed nodes of a DAG (any number of latent nodes): the recorded sets separate,
no part of them does, and all their members are ancestors, in the true DAG, of one of the two nodes. -/
theorem C95_rai_ancestors (o : SetOrder α) (overwrite : Bool) {ci : CITest α} {D : Dag α} (hac : D.Acyclic) {O : Finset α} (hp : Pc.PerfectOn ci D O) :
    ∃ st, Rai.learnStructure o ci overwrite (Rai.init o O) = .ok st ∧ ∀ i ∈ O, ∀ j ∈ O, i ≠ j → ¬ st.graph.PAdj i j →
      ∃ S, st.sep.get i j = .ok S ∧ S ⊆ O ∧ i ∉ S ∧ j ∉ S ∧ D.DSeparated i j S ∧ (∀ T ⊂ S, ¬ D.DSeparated i j T) ∧
        ∀ z ∈ S, D.DPath z i ∨ D.DPath z j := by
  obtain ⟨f, hf, hfd⟩ := hp.answers hac
  obtain ⟨st, h1, h2⟩ := C95_rai o overwrite ci O
  refine ⟨st, h1, fun i hi j hj hij hn => ?_⟩
  obtain ⟨S, r1, r2, r3⟩ := h2 i hi j hj hij hn
  obtain ⟨k1, k2, k3, k4, k5⟩ := r3.answers hf hi hj hij r2
  have h6 : ∀ T ⊂ S, ¬ D.DSeparated i j T := fun T hT h => by
    rw [← hfd, k5 T hT] at h
    cases h
  refine ⟨S, r1, k1, k2, k3, (hfd _ _ _).mp k4, h6, Dag.anc_of_smallest hac k2 k3 ((hfd _ _ _).mp k4) fun T hT hc => h6 T ?_⟩
  exact ⟨hT, fun h => absurd (Finset.card_le_card h) (by omega)⟩

end

/-- Hypotheses are met: a diamond with all nodes observed, and a graph with a latent common cause. -/
example := C95_rai_ancestors ascending true exDiamond_acyclic (Pc.dsepTest_perfectOn ascending exDiamond_wf exDiamond_acyclic
  (O := {0, 1, 2, 3}) (by decide))
example := C95_rai_ancestors descending false exLatD_acyclic (Pc.dsepTest_perfectOn descending exLatD_wf exLatD_acyclic (O := {0, 1, 2, 3})
  (by decide))

/-- The sets recorded for the two pairs of the diamond that are not adjacent: the second has two members. -/
example : (Rai.learnStructure ascending (Pc.dsepTest ascending exDiamond) true (Rai.init ascending {0, 1, 2, 3})).map
    (fun st => (st.sep.get 1 2, st.sep.get 0 3)) = .ok (.ok {0}, .ok {1, 2}) := by
  decide +kernel

end Verif
