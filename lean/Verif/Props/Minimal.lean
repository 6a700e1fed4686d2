import Verif.Lemmas.Minimal
import Verif.Lemmas.OIcdMarks
import Verif.Props.PcSequence
import Verif.Props.PcCount
import Verif.Props.TruePag

/-!
# C95: recorded separating sets are minimal
-/

namespace Verif
open Relation
variable {α : Type} [LinearOrder α]

/-- C95 (PC, with the default `overwrite_starting_graph = True`), for every test: the set recorded for a pair that is not adjacent was found to
make the pair independent, and every part of it was found not to. -/
theorem C95_pc (o : SetOrder α) (ci : CITest α) (N : Finset α) :
    ∃ st, Pc.learnStructure o ci true (Pc.init o N) = .ok st ∧ ∀ i ∈ N, ∀ j ∈ N, i ≠ j → ¬ st.graph.PAdj i j →
      ∃ S, st.sep.get i j = .ok S ∧ Pc.Witness ci N i j S ∧ Pc.MinimalFor ci i j S := by
  obtain ⟨t1, t2, k1, k2, -, -, k4, -⟩ := C21_structure o ci true N
  obtain ⟨t, q1, q2, -⟩ := Pc.learnSkeleton_spec o ci true N (fun _ => True) trivial (fun _ _ _ _ _ _ _ => trivial)
  rw [k1] at q1
  cases q1
  have hsep : t2.sep = t1.sep := by
    rw [Pc.learnStructure, py_bind k1] at k2
    obtain ⟨G, -, k2⟩ := py_bind_ok k2
    obtain ⟨G', -, k2⟩ := py_bind_ok k2
    cases k2
    rfl
  refine ⟨t2, k2, fun i hi j hj hij hn => ?_⟩
  have hu : ¬ t1.graph.Und i j := fun h => hn ((k4 i j).mpr h)
  obtain ⟨S, s1, s2⟩ := q2.witness i hi j hj hij hu
  exact ⟨S, by rw [hsep]; exact s1, s2, Pc.learnSkeleton_minimal o k1 i hi j hj hij hu S s1⟩

/-- C95 (FCI), for every test. -/
theorem C95_fci (o : SetOrder α) (ci : CITest α) (selection tails : Bool) (N : Finset α) :
    ∃ st found, Fci.learnStructure o ci selection tails N = .ok (st, found) ∧ ∀ i ∈ N, ∀ j ∈ N, i ≠ j → ¬ st.graph.MAdj i j →
      ∃ S, st.sep.get i j = .ok S ∧ Pc.Witness ci N i j S ∧ Pc.MinimalFor ci i j S := by
  obtain ⟨pc, st, p1, p2, p3, p4, p5⟩ := Fci.pcSkeleton_spec o ci N
  obtain ⟨G1, g1, g2, -⟩ := MG.pagVStructures_spec o st.sep p3.proper p3.all_types p3.keyG
  have hi1 := p3.same g2.same
  obtain ⟨st', found, r1, r2, -⟩ := Fci.refine_spec o (st := { st with graph := G1 }) hi1
  obtain ⟨H, k1, k2, -⟩ := Fci.reorient_spec o st'.sep r2.proper r2.types r2.keyG
  obtain ⟨K, l1, l2, -⟩ := Fci.finalRules_spec o st'.sep selection tails k2.proper (k2.types.trans r2.types)
  have hs := k2.trans l2
  have hm0 : Pc.AllMinimal ci N G1.MAdj st.sep := fun i hi j hj hij hn =>
    Fci.pcSkeleton_minimal o p2 i hi j hj hij (fun h => hn ((g2.adj i j).mpr h))
  have hm := Fci.refine_minimal o hi1 hm0 r1
  refine ⟨{ st' with graph := K }, found, ?_, fun i hi j hj hij hn => ?_⟩
  · rw [Fci.learnStructure, py_bind p2, py_bind g1, py_bind r1]
    simp only
    rw [py_bind k1, py_bind l1]
    rfl
  · have hn' : ¬ st'.graph.MAdj i j := fun h => hn ((hs.adj i j).mpr h)
    obtain ⟨S, s1, s2⟩ := r2.witness i hi j hj hij hn'
    exact ⟨S, s1, s2, hm i hi j hj hij hn' S s1⟩

/-- A recorded set of a test whose answers depend only on the pair and on the conditioning set. -/
theorem Pc.MinimalFor.answers {ci : CITest α} {N : Finset α} {f : α → α → Finset α → Bool} (hf : Pc.AnswersOn ci N f) {i j : α} (hi : i ∈ N)
    (hj : j ∈ N) (hij : i ≠ j) {S : Finset α} (hw : Pc.Witness ci N i j S) (hm : Pc.MinimalFor ci i j S) :
    S ⊆ N ∧ i ∉ S ∧ j ∉ S ∧ f i j S = true ∧ ∀ T ⊂ S, f i j T = false := by
  obtain ⟨l, k, rfl, h1, h2, h3, h4⟩ := hw
  have hl : l.toFinset ⊆ N := fun x hx => h4 x (by simpa using hx)
  have hil : i ∉ l.toFinset := by simpa using h2
  have hjl : j ∉ l.toFinset := by simpa using h3
  refine ⟨hl, hil, hjl, ?_, fun T hT => ?_⟩
  · rcases h1 with h1 | h1
    · rw [← h1, hf.1 k i j l hi hj hij h2 h3 h4]
    · rw [← h1, hf.1 k j i l hj hi hij.symm h3 h2 h4]
      exact hf.2 i hi j hj hij _ hl hil hjl
  · obtain ⟨w, k', rfl, -, h5⟩ := hm T hT
    have hi' : i ∉ w := fun h => hil (hT.1 (by simpa using h))
    have hj' : j ∉ w := fun h => hjl (hT.1 (by simpa using h))
    have hw' : ∀ x ∈ w, x ∈ N := fun x hx => hl (hT.1 (by simpa using hx))
    rcases h5 with h5 | h5
    · rw [← h5, hf.1 k' i j w hi hj hij hi' hj' hw']
    · rw [← h5, hf.1 k' j i w hj hi hij.symm hj' hi' hw']
      exact hf.2 i hi j hj hij _ (hT.1.trans hl) (by simpa using hi') (by simpa using hj')

/-- C95 for tests whose answers depend only on the pair and on the set of conditioning nodes: what PC and FCI record for a pair that is not
adjacent makes the pair independent, and no part of it does. -/
theorem C95_minimal (o : SetOrder α) {ci : CITest α} {N : Finset α} {f : α → α → Finset α → Bool} (hf : Pc.AnswersOn ci N f)
    (selection tails : Bool) :
    (∃ st, Pc.learnStructure o ci true (Pc.init o N) = .ok st ∧ ∀ i ∈ N, ∀ j ∈ N, i ≠ j → ¬ st.graph.PAdj i j →
      ∃ S, st.sep.get i j = .ok S ∧ S ⊆ N ∧ i ∉ S ∧ j ∉ S ∧ f i j S = true ∧ ∀ T ⊂ S, f i j T = false) ∧
    ∃ st found, Fci.learnStructure o ci selection tails N = .ok (st, found) ∧ ∀ i ∈ N, ∀ j ∈ N, i ≠ j → ¬ st.graph.MAdj i j →
      ∃ S, st.sep.get i j = .ok S ∧ S ⊆ N ∧ i ∉ S ∧ j ∉ S ∧ f i j S = true ∧ ∀ T ⊂ S, f i j T = false := by
  obtain ⟨s1, h1, h2⟩ := C95_pc o ci N
  obtain ⟨s2, found, k1, k2⟩ := C95_fci o ci selection tails N
  refine ⟨⟨s1, h1, fun i hi j hj hij hn => ?_⟩, s2, found, k1, fun i hi j hj hij hn => ?_⟩
  · obtain ⟨S, r1, r2, r3⟩ := h2 i hi j hj hij hn
    exact ⟨S, r1, r3.answers hf hi hj hij r2⟩
  · obtain ⟨S, r1, r2, r3⟩ := k2 i hi j hj hij hn
    exact ⟨S, r1, r3.answers hf hi hj hij r2⟩

/-- A perfect test answers by pair and set. -/
theorem Pc.PerfectOn.answers {D : Dag α} (hac : D.Acyclic) {ci : CITest α} {O : Finset α} (hp : Pc.PerfectOn ci D O) :
    ∃ f, Pc.AnswersOn ci O f ∧ ∀ i j S, f i j S = true ↔ D.DSeparated i j S := by
  classical
  refine ⟨fun i j S => decide (D.DSeparated i j S), ⟨fun k i j l hi hj hij h1 h2 h3 => ?_, fun i hi j hj hij S _ _ _ => ?_⟩, by simp⟩
  · exact Bool.eq_iff_iff.mpr ((hp k i j l hi hj hij h1 h2 h3).trans (by simp))
  · exact decide_eq_decide.mpr (Dag.dseparated_symm hac)

/-- C95 with perfect independence information on the observed nodes of a DAG (any number of latent nodes): the recorded sets of PC and FCI
separate, no part of them does, and all their members are ancestors, in the true DAG, of one of the two nodes. -/
theorem C95_ancestors (o : SetOrder α) {ci : CITest α} {D : Dag α} (hac : D.Acyclic) {O : Finset α} (hp : Pc.PerfectOn ci D O)
    (selection tails : Bool) :
    (∃ st, Pc.learnStructure o ci true (Pc.init o O) = .ok st ∧ ∀ i ∈ O, ∀ j ∈ O, i ≠ j → ¬ st.graph.PAdj i j →
      ∃ S, st.sep.get i j = .ok S ∧ S ⊆ O ∧ i ∉ S ∧ j ∉ S ∧ D.DSeparated i j S ∧ (∀ T ⊂ S, ¬ D.DSeparated i j T) ∧
        ∀ z ∈ S, D.DPath z i ∨ D.DPath z j) ∧
    ∃ st found, Fci.learnStructure o ci selection tails O = .ok (st, found) ∧ ∀ i ∈ O, ∀ j ∈ O, i ≠ j → ¬ st.graph.MAdj i j →
      ∃ S, st.sep.get i j = .ok S ∧ S ⊆ O ∧ i ∉ S ∧ j ∉ S ∧ D.DSeparated i j S ∧ (∀ T ⊂ S, ¬ D.DSeparated i j T) ∧
        ∀ z ∈ S, D.DPath z i ∨ D.DPath z j := by
  obtain ⟨f, hf, hfd⟩ := hp.answers hac
  have key : ∀ {i j : α} {S : Finset α}, S ⊆ O ∧ i ∉ S ∧ j ∉ S ∧ f i j S = true ∧ (∀ T ⊂ S, f i j T = false) →
      S ⊆ O ∧ i ∉ S ∧ j ∉ S ∧ D.DSeparated i j S ∧ (∀ T ⊂ S, ¬ D.DSeparated i j T) ∧ ∀ z ∈ S, D.DPath z i ∨ D.DPath z j := by
    rintro i j S ⟨h1, h2, h3, h4, h5⟩
    have h6 : ∀ T ⊂ S, ¬ D.DSeparated i j T := fun T hT h => by
      rw [← hfd, h5 T hT] at h
      cases h
    refine ⟨h1, h2, h3, (hfd _ _ _).mp h4, h6, Dag.anc_of_smallest hac h2 h3 ((hfd _ _ _).mp h4) fun T hT hc => h6 T ?_⟩
    exact ⟨hT, fun h => absurd (Finset.card_le_card h) (by omega)⟩
  obtain ⟨⟨s1, h1, h2⟩, s2, found, k1, k2⟩ := C95_minimal o hf selection tails
  refine ⟨⟨s1, h1, fun i hi j hj hij hn => ?_⟩, s2, found, k1, fun i hi j hj hij hn => ?_⟩
  · obtain ⟨S, r1, r2⟩ := h2 i hi j hj hij hn
    exact ⟨S, r1, key r2⟩
  · obtain ⟨S, r1, r2⟩ := k2 i hi j hj hij hn
    exact ⟨S, r1, key r2⟩

/-! ### Examples -/

/-- Hypotheses are met: all nodes of a diamond observed; a graph with a latent common cause. -/
example := (C95_ancestors ascending exDiamond_acyclic (Pc.dsepTest_perfectOn ascending exDiamond_wf exDiamond_acyclic (O := {0, 1, 2, 3})
  (by decide)) true true).2

example := C95_ancestors descending exLatD_acyclic (Pc.dsepTest_perfectOn descending exLatD_wf exLatD_acyclic (O := {0, 1, 2, 3})
  (by decide)) true false

/-- The set recorded for the ends of the diamond is not empty. -/
example : (Pc.learnStructure ascending (Pc.dsepTest ascending exDiamond) true (Pc.init ascending {0, 1, 2, 3})).map
    (fun st => (decide (st.graph.PAdj 0 3), decide (st.sep.get 0 3 = .ok {1, 2}))) = .ok (false, true) := by decide +kernel

/-- The node 0 is not connected with the triangle 1 → 2 → 3, 1 → 3. -/
def exApart : Dag Nat := ⟨{0, 1, 2, 3}, fun v => [∅, ∅, {1}, {1, 2}].getD v ∅⟩

theorem exApart_edge {a b : Nat} (h : exApart.Edge a b) : a < b ∧ b < 4 := by
  have hb : b < 4 := by
    by_contra hn
    have : exApart.par b = ∅ := by
      rcases b with _ | _ | _ | _ | b <;> first | omega | rfl
    replace h : a ∈ exApart.par b := h
    rw [this] at h
    simp at h
  exact ⟨(by decide : ∀ b < 4, ∀ a ∈ exApart.par b, a < b) b hb a h, hb⟩

theorem exApart_wf : exApart.WF := fun a b h => by
  obtain ⟨h1, h2⟩ := exApart_edge h
  have : ∀ a < 4, a ∈ exApart.nodes := by decide
  exact ⟨this a (by omega), this b h2⟩

theorem exApart_acyclic : exApart.Acyclic := by
  have key : ∀ a b, TransGen exApart.Edge a b → a < b := by
    intro a b h
    induction h with
    | single h => exact (exApart_edge h).1
    | tail _ h ih => exact ih.trans (exApart_edge h).1
  exact fun a h => absurd (key a a h) (lt_irrefl _)

/-- C95 is false for PC with `overwrite_starting_graph = False`, even with perfect independence information: removed pairs are tested again in
later rounds, and the recorded set is replaced by a larger one. Here 0 and 1 are independent, but {2} is recorded, a child of 1. -/
theorem C95_not_overwriting_fails : exApart.WF ∧ exApart.Acyclic ∧ exApart.DSeparated 0 1 ∅ ∧ ¬ exApart.DPath 2 0 ∧ ¬ exApart.DPath 2 1 ∧
    (Pc.learnStructure ascending (Pc.dsepTest ascending exApart) false (Pc.init ascending exApart.nodes)).map
      (fun st => (decide (st.graph.PAdj 0 1), decide (st.sep.get 0 1 = .ok {2}))) = .ok (false, true) := by
  have hlt : ∀ a b, exApart.DPath a b → a ≤ b := by
    intro a b h
    induction h with
    | refl => exact le_refl _
    | tail _ h ih => exact ih.trans (exApart_edge h).1.le
  refine ⟨exApart_wf, exApart_acyclic, ?_, fun h => absurd (hlt _ _ h) (by decide), fun h => absurd (hlt _ _ h) (by decide), by decide +kernel⟩
  have := (Pc.dsepTest_perfectOn ascending exApart_wf exApart_acyclic (O := {0, 1, 2, 3}) (by decide)) 0 0 1 [] (by decide) (by decide)
    (by decide) (by simp) (by simp) (by simp)
  exact this.mp (by decide +kernel)

end Verif
