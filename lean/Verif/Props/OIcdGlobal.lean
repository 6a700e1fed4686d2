import Verif.Lemmas.OIcdWitness

/-!
# C81: the global variant of ordered ICD without latent nodes
-/

namespace Verif
open Relation MG

theorem exG_wf : exG.WF := by
  intro a b h
  have hb : b < 9 := by
    by_contra hn
    have : exG.par b = ∅ := by
      rcases b with _ | _ | _ | _ | _ | _ | _ | _ | _ | b <;> first | omega | rfl
    rw [this] at h
    simp at h
  have key : ∀ b < 9, ∀ a ∈ exG.par b, a ∈ exG.nodes ∧ b ∈ exG.nodes := by decide
  exact key b hb a h

theorem exG_lt {a b : Nat} (h : exG.Edge a b) : a < b := by
  have key : ∀ b ∈ exG.nodes, ∀ a ∈ exG.par b, a < b := by decide
  exact key b (exG_wf a b h).2 a h

theorem exG_acyclic : exG.Acyclic := by
  have key : ∀ a b, TransGen exG.Edge a b → a < b := by
    intro a b h
    induction h with
    | single h => exact exG_lt h
    | tail _ h ih => exact ih.trans (exG_lt h)
  exact fun a h => lt_irrefl a (key a a h)

theorem exG_order : exG.CausalOrder exG.nodes exGOpts.order := by
  refine ⟨exG_isOrder, fun a ha b hb hab h => ?_⟩
  have hle : a ≤ b := by
    induction h with
    | refl => exact le_rfl
    | @tail c d hc h ih =>
      have := exG_lt h
      by_cases e : a = c
      · omega
      · have := ih (exG_wf c d h).1 e
        omega
  have key : ∀ a ∈ exG.nodes, ∀ b ∈ exG.nodes, a < b → Before (List.range 9) a b := by decide
  exact key a ha b hb (by omega)

theorem exG_sep : exG.DSeparated 3 8 {0, 1, 2, 7} :=
  (C22_dsep_oracle ascending exG_wf exG_acyclic 0 3 8 [0, 1, 2, 7] (by decide) (by decide) (by decide) (by decide) (by decide)
    (by decide)).mp (by decide +kernel)

/-- C81, the disagreement without latent nodes: with a causal order of all nodes of a DAG in which no node has more than four parents,
and a test that answers d-separation in the DAG, the global variant of ordered ICD on a new object with default options returns a graph
with the edge `3 → 8`, although these nodes are not adjacent in the DAG and the parents of 8 separate them. -/
theorem C81_global_fails : exG.WF ∧ exG.Acyclic ∧ exG.CausalOrder exG.nodes exGOpts.order ∧ Pc.PerfectOn exGTest exG exG.nodes ∧
    (∀ v, (exG.par v).card ≤ 4) ∧ ¬ exG.Adj 3 8 ∧ exG.DSeparated 3 8 (exG.par 8) ∧
    ∃ st', OIcd.learnStructure ascending exGTest exGOpts false
      ⟨MG.complete exG.nodes pagTypes .circle, SepSet.init ascending exG.nodes, 0, ∅⟩ = .ok st' ∧
      st'.graph.At 3 8 .arrow ∧ st'.graph.At 8 3 .tail := by
  refine ⟨exG_wf, exG_acyclic, exG_order, Pc.dsepTest_perfectOn ascending exG_wf exG_acyclic (fun _ h => h), fun v => ?_, ?_, exG_sep,
    _, exG_global, by decide, by decide⟩
  · by_cases hv : v < 9
    · have key : ∀ v < 9, (exG.par v).card ≤ 4 := by decide
      exact key v hv
    · have : exG.par v = ∅ := Finset.eq_empty_of_forall_notMem fun x hx => hv (by simpa [exG] using (exG_wf x v hx).2)
      simp [this]
  · rintro (h | h)
    · have : ¬ 3 ∈ exG.par 8 := by decide
      exact this h
    · have := exG_lt h
      omega

end Verif
