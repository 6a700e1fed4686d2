import Verif.Props.Fci

/-!
# C49: the tail rules spoil the result of a whole run
-/

namespace Verif
open MG

/-- The run of the algorithm (an evaluation, used below). -/
theorem icd_exMag : (Icd.learnStructure ascending (msepTest ascending exMag) ⟨false, false, true⟩ (Icd.init ascending exMag.nodes)).map
    (fun st => (decide (2 ∈ st.graph.g 0 .tail), decide (∀ a ∈ exMag.nodes, ∀ b ∈ exMag.nodes,
      (a ∈ st.graph.g b .tail ∨ a ∈ st.graph.g b .arrow ∨ a ∈ st.graph.g b .circle) →
      (a ∈ exMag.g b .tail ∨ a ∈ exMag.g b .arrow ∨ a ∈ exMag.g b .circle)))) = .ok (true, true) := by decide +kernel

/-- The disagreement: with a test that answers m-separation in the ancestral graph `exMag` and the tail rules on, ICD returns
`0 --> 2`, whereas the edge is `0 <-> 2` in `exMag` (because of rule 10 as coded, see `C35_rule10_unsound`). So `TailsOk`
cannot be dropped from `C49_icd_oracle`. -/
theorem C49_icd_tails_unsound : Ancestral exMag ∧ MPerfect (msepTest ascending exMag) exMag ∧
    ∃ st, Icd.learnStructure ascending (msepTest ascending exMag) ⟨false, false, true⟩ (Icd.init ascending exMag.nodes) = .ok st ∧
      (∀ a b, st.graph.MAdj a b ↔ exMag.MAdj a b) ∧ st.graph.At 2 0 .tail ∧ exMag.At 2 0 .arrow := by
  refine ⟨exMag_ancestral, msepTest_perfect ascending exMag_proper (by decide) exMag_directed, ?_⟩
  have hp := msepTest_perfect ascending exMag_proper (by decide) exMag_directed
  have e := icd_exMag
  obtain ⟨h0, st, h1, h2, -⟩ := C49_icd_oracle (o := ascending) (opts := ⟨false, false, true⟩) exMag_ancestral hp
    (st := Icd.init ascending exMag.nodes) .refl
  obtain ⟨st', h3, -, -, h4, -⟩ := Icd.learnStructure_spec ascending (ci := msepTest ascending exMag) ⟨false, false, true⟩
    (Icd.init_inv ascending (msepTest ascending exMag) exMag.nodes)
  rw [h1] at h3
  cases h3
  rw [h1] at e
  simp only [Except.map, Except.ok.injEq, Prod.mk.injEq, decide_eq_true_eq] at e
  refine ⟨st, h1, fun a b => ⟨fun h => ?_, h2 a b⟩, e.1, by decide⟩
  obtain ⟨k1, k2, k3⟩ := h4.proper.madj_iff.mp h
  rw [h4.nodes] at k1 k2
  exact exMag_proper.madj_iff.mpr ⟨k1, k2, e.2 a k1 b k2 k3⟩

end Verif
