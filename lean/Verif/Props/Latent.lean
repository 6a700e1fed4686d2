import Verif.Props.TruePag

/-!
# C76: FCI with latent variables may return a wrong graph although the test is perfect
-/

namespace Verif
open MG

/-- A DAG with eleven nodes (given as map from nodes to parents); the nodes 7 to 10 will be latent. Over the observed nodes:
`0 → 1 → 3`, `0 → 2 → 4`, `5 → 3`, `6 → 4`, and the confounded pairs `1, 6`, `2, 5`, `3, 6` and `4, 5`. -/
def exF : Dag Nat := ⟨{0, 1, 2, 3, 4, 5, 6, 7, 8, 9, 10}, fun v =>
  [∅, {0, 7}, {0, 8}, {1, 5, 9}, {2, 6, 10}, {8, 10}, {7, 9}, ∅, ∅, ∅, ∅].getD v ∅⟩

/-- The observed nodes. -/
def exFObs : Finset Nat := {0, 1, 2, 3, 4, 5, 6}

theorem exF_wf : exF.WF := by
  intro a b h
  have hb : b < 11 := by
    by_contra hn
    have : exF.par b = ∅ := by
      rcases b with _ | _ | _ | _ | _ | _ | _ | _ | _ | _ | _ | b <;> first | omega | rfl
    rw [this] at h
    simp at h
  have key : ∀ b < 11, ∀ a ∈ exF.par b, a ∈ exF.nodes ∧ b ∈ exF.nodes := by decide
  exact key b hb a h

theorem exF_acyclic : exF.Acyclic := by
  obtain ⟨b, h1, h2⟩ := Dag.isAcyclic_spec ascending exF_wf
  have : Dag.isAcyclic ascending exF = .ok true := by decide +kernel
  rw [this] at h1
  cases h1
  exact h2.mp rfl

theorem exF_sep : exF.DSeparated 3 4 {0, 1, 2, 5, 6} :=
  (C22_dsep_oracle ascending exF_wf exF_acyclic 0 3 4 [0, 1, 2, 5, 6] (by decide) (by decide) (by decide) (by decide) (by decide)
    (by decide)).mp (by decide +kernel)

theorem exF_run : (Fci.learnStructure ascending (Pc.dsepTest ascending exF) true true exFObs).okWith
    (fun r : PcState Nat × Bool => decide (3 ∈ r.1.graph.g 4 .arrow)) = true := by decide +kernel

/-- C76 is false: FCI with the d-separation oracle on the observed nodes of `exF` returns a graph in which `3` and `4` are adjacent although
the observed set `{0, 1, 2, 5, 6}` d-separates them (the possible-d-sep sets are incomplete, see `C48_incomplete`). -/
theorem C76_fails : exF.WF ∧ exF.Acyclic ∧ exFObs ⊆ exF.nodes ∧ Pc.PerfectOn (Pc.dsepTest ascending exF) exF exFObs ∧
    ∃ st found, Fci.learnStructure ascending (Pc.dsepTest ascending exF) true true exFObs = .ok (st, found) ∧
      st.graph.MAdj 3 4 ∧ exF.DSeparated 3 4 {0, 1, 2, 5, 6} := by
  refine ⟨exF_wf, exF_acyclic, by decide, Pc.dsepTest_perfectOn ascending exF_wf exF_acyclic (by decide), ?_⟩
  obtain ⟨-, st, found, -, k1, -⟩ := C49_fci ascending (Pc.dsepTest ascending exF) true true exFObs
  obtain ⟨r, h1, h2⟩ := Py.okWith_iff exF_run
  rw [k1] at h1
  cases h1
  exact ⟨st, found, k1, Or.inl ⟨.arrow, of_decide_eq_true h2⟩, exF_sep⟩

/-! ## Tails in the presence of a confounded pair -/

/-- A DAG with nine nodes; the node 8 will be latent. -/
def exTl : Dag Nat := ⟨{0, 1, 2, 3, 4, 5, 6, 7, 8}, fun v =>
  [{8}, {6, 7}, {1, 3, 8}, {6, 7}, {0, 1}, {0, 3}, ∅, ∅, ∅].getD v ∅⟩

/-- The observed nodes. -/
def exTlObs : Finset Nat := {0, 1, 2, 3, 4, 5, 6, 7}

theorem exTl_wf : exTl.WF := by
  intro a b h
  have hb : b < 9 := by
    by_contra hn
    have : exTl.par b = ∅ := by
      rcases b with _ | _ | _ | _ | _ | _ | _ | _ | _ | b <;> first | omega | rfl
    rw [this] at h
    simp at h
  have key : ∀ b < 9, ∀ a ∈ exTl.par b, a ∈ exTl.nodes ∧ b ∈ exTl.nodes := by decide
  exact key b hb a h

theorem exTl_acyclic : exTl.Acyclic := by
  obtain ⟨b, h1, h2⟩ := Dag.isAcyclic_spec ascending exTl_wf
  have : Dag.isAcyclic ascending exTl = .ok true := by decide +kernel
  rw [this] at h1
  cases h1
  exact h2.mp rfl

theorem exTl_insep : exTl.Insep exTlObs 0 2 := by
  intro S hS _ _ hs
  have h8 : 8 ∉ S := fun h => absurd (hS h) (by decide)
  refine hs ⟨[0, 8, 2], (Dag.activePath_iff exTl_acyclic).mpr ⟨by decide, rfl, rfl, Or.inr ?_, ⟨fun h => ?_, fun _ => h8⟩, Or.inl ?_⟩⟩
  · show 8 ∈ exTl.par 0
    decide
  · have : 0 ∈ exTl.par 8 := h.1
    exact absurd this (by decide)
  · show 8 ∈ exTl.par 2
    decide

theorem exTl_not_anc : ¬ exTl.DPath 0 2 := by
  obtain ⟨b, h1, h2⟩ := Dag.isAncestor_spec ascending exTl_wf (d := 2) (t := 0) (by decide)
  have : Dag.isAncestor ascending exTl 2 0 = .ok false := by decide +kernel
  rw [this] at h1
  cases h1
  exact fun h => by simpa using h2.mpr h

/-- C76, tails: FCI with the d-separation oracle on the observed nodes of `exTl` finds exactly the right adjacencies, but it returns a tail at `0` on
the edge with `2` although `0` is not an ancestor of `2` (rule 10 as coded, see `C35_rule10_unsound`). So the condition
`NoConfounded` cannot be dropped from `C76_fci_partial`. -/
theorem C76_tails_fail : exTl.WF ∧ exTl.Acyclic ∧ exTlObs ⊆ exTl.nodes ∧ Pc.PerfectOn (Pc.dsepTest ascending exTl) exTl exTlObs ∧
    ∃ st found, Fci.learnStructure ascending (Pc.dsepTest ascending exTl) true true exTlObs = .ok (st, found) ∧
      (∀ a b, st.graph.MAdj a b → exTl.Insep exTlObs a b) ∧ st.graph.At 2 0 .tail ∧ ¬ exTl.DPath 0 2 := by
  refine ⟨exTl_wf, exTl_acyclic, by decide, Pc.dsepTest_perfectOn ascending exTl_wf exTl_acyclic (by decide), ?_⟩
  obtain ⟨-, st, found, -, k1, k2, k3, -⟩ := C49_fci ascending (Pc.dsepTest ascending exTl) true true exTlObs
  obtain ⟨r, h1, h2⟩ := Py.okWith_iff (x := Fci.learnStructure ascending (Pc.dsepTest ascending exTl) true true exTlObs)
    (p := fun r : PcState Nat × Bool => decide ((∀ a ∈ List.range 8, ∀ b ∈ List.range 8, ∀ m ∈ [Mark.tail, .arrow, .circle],
      a ∈ r.1.graph.g b m → a ∈ exTl.par b ∨ b ∈ exTl.par a ∨ (a, b) = (0, 2) ∨ (a, b) = (2, 0)) ∧ 2 ∈ r.1.graph.g 0 .tail))
    (by decide +kernel)
  rw [k1] at h1
  cases h1
  obtain ⟨i1, i2⟩ := of_decide_eq_true h2
  refine ⟨st, found, k1, ?_, i2, exTl_not_anc⟩
  have hmem : ∀ x ∈ st.graph.nodes, x ∈ List.range 8 := by rw [k3]; decide
  have key : ∀ a b m, st.graph.At a b m → exTl.Insep exTlObs a b := by
    intro a b m h
    have hab := i1 a (hmem a (k2.mem a b m h).1) b (hmem b (k2.mem a b m h).2) m (by cases m <;> simp) h
    simp only [Prod.mk.injEq] at hab
    rcases hab with h | h | ⟨rfl, rfl⟩ | ⟨rfl, rfl⟩
    · exact .of_adj exTl_acyclic (Or.inl h)
    · exact .of_adj exTl_acyclic (Or.inr h)
    · exact exTl_insep
    · exact exTl_insep.symm exTl_acyclic
  rintro a b (⟨m, h⟩ | ⟨m, h⟩)
  · exact key a b m h
  · exact (key b a m h).symm exTl_acyclic

end Verif
