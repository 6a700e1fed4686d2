import Verif.Props.IcdOne
import Verif.Props.FciTails -- used by no proof here: keeps two large evaluations from being compiled side by side

/-!
# C74: the graph after the iteration that reports 2 need not be 2-representing
-/

namespace Verif
open MG

/-- A DAG with eight nodes: `0` and `7` have the child `6`, `0` and `2` the child `5`; `1` has the parents `3`, `6`, `7`, and `4` has the
parents `2`, `3`, `5`. -/
def exV : Dag Nat := ⟨{0, 1, 2, 3, 4, 5, 6, 7}, fun v => [∅, {3, 6, 7}, ∅, ∅, {2, 3, 5}, {0, 2}, {0, 7}, ∅].getD v ∅⟩

theorem exV_wf : exV.WF := by
  intro a b h
  have hb : b < 8 := by
    by_contra hn
    have : exV.par b = ∅ := by
      rcases b with _ | _ | _ | _ | _ | _ | _ | _ | b <;> first | omega | rfl
    rw [this] at h
    simp at h
  have key : ∀ b < 8, ∀ a ∈ exV.par b, a ∈ exV.nodes ∧ b ∈ exV.nodes := by decide
  exact key b hb a h

theorem exV_acyclic : exV.Acyclic := by
  obtain ⟨b, h1, h2⟩ := Dag.isAcyclic_spec ascending exV_wf
  have : Dag.isAcyclic ascending exV = .ok true := by decide +kernel
  rw [this] at h1
  cases h1
  exact h2.mp rfl

/-- The d-separation oracle for `exV`. -/
abbrev exVTest : CITest Nat := Pc.dsepTest ascending exV

theorem exV_sep : exV.DSeparated 1 4 {0, 3} :=
  (C22_dsep_oracle ascending exV_wf exV_acyclic 0 1 4 [0, 3] (by decide) (by decide) (by decide) (by decide) (by decide)
    (by decide)).mp (by decide +kernel)

/-- One iteration leads to a state that agrees with the lists. -/
def exVNext (a : IcdState Nat) (s : ExSnap) : Bool :=
  (Icd.iteration ascending exVTest ⟨false, true, true⟩ a).okWith (fun r => ExSnap.agree r.1 s && (r.2.1 == s.done) && (r.2.2 + 1 == s.size))

theorem exVNext_eq {a : IcdState Nat} {s : ExSnap} (h : exVNext a s = true) (ha : Fci.SkInv exVTest exW.nodes a.graph a.sep)
    (hd : a.done = false) :
    Icd.iteration ascending exVTest ⟨false, true, true⟩ a = .ok (s.state, s.done, s.size - 1) ∧
      Fci.SkInv exVTest exW.nodes s.state.graph s.state.sep := by
  obtain ⟨⟨b, d, r⟩, h1, h2⟩ := Py.okWith_iff h
  simp only [Bool.and_eq_true, beq_iff_eq] at h2
  obtain ⟨st', d', k1, -, -, k2, -⟩ := Icd.iteration_spec ascending ⟨false, true, true⟩ ha hd
  rw [h1] at k1
  cases k1
  have e := ExSnap.agree_eq h2.1.1 k2
  refine ⟨?_, e ▸ k2⟩
  rw [h1, e, h2.1.2, ← h2.2]
  rfl

/-- After the iteration with r = 0. -/
def exV0 : ExSnap := ⟨[[], [], [], [], [], [], [], []],
  [[], [0, 3, 4, 5, 6, 7], [], [], [0, 1, 2, 3, 5, 6], [0, 1, 2, 6], [0, 4, 5, 7], []],
  [[1, 4, 5, 6], [], [4, 5], [1, 4], [], [4], [1], [1, 6]],
  [],
  28, false, 1⟩

/-- After the iteration with r = 1. -/
def exV1 : ExSnap := ⟨[[], [], [], [], [], [], [], []],
  [[], [0, 3, 4, 6, 7], [], [], [0, 1, 2, 3, 5], [0, 2], [0, 7], []],
  [[1, 4, 5, 6], [], [4, 5], [1, 4], [], [4], [1], [1, 6]],
  [((1, 5), [0]), ((4, 6), [0]), ((5, 6), [0])],
  89, false, 2⟩

/-- After the iteration with r = 2. -/
def exV2 : ExSnap := ⟨[[], [], [4], [], [], [4], [1], [1]],
  [[], [3, 4, 6, 7], [], [], [1, 2, 3, 5], [0, 2], [0, 7], []],
  [[5, 6], [], [5], [1, 4], [], [], [], [6]],
  [((0, 1), [6, 7]), ((0, 4), [2, 5]), ((1, 5), [0]), ((4, 6), [0]), ((5, 6), [0])],
  110, false, 3⟩

theorem exV_next0 : exVNext (Icd.init ascending exV.nodes) exV0 = true := by decide +kernel

theorem exV_next1 : exVNext exV0.state exV1 = true := by decide +kernel

theorem exV_next2 : exVNext exV1.state exV2 = true := by decide +kernel

/-- C74, the documented claim about iterations fails for the value 2, the first one that `C74_representing_partial` does not cover: the
pair `1`, `4` is separated by `{0, 3}`, but the edges of `0` with `1` and `4` are deleted in the same pass before the pair is tested. -/
theorem C74_representing_two_fails : ∃ st st', exV.WF ∧ exV.Acyclic ∧
    Icd.Reachable ascending exVTest ⟨false, true, true⟩ exV.nodes st ∧
    Icd.iteration ascending exVTest ⟨false, true, true⟩ st = .ok (st', false, 2) ∧ st'.graph.MAdj 1 4 ∧ exV.DSeparated 1 4 {0, 3} ∧
    ¬ exV.Representing exV.nodes 2 st'.graph := by
  have h0 := exVNext_eq exV_next0 (Icd.init_inv ascending exVTest exV.nodes) rfl
  have h1 := exVNext_eq exV_next1 h0.2 rfl
  have h2 := exVNext_eq exV_next2 h1.2 rfl
  have hadj : exV2.state.graph.MAdj 1 4 := Or.inl ⟨.arrow, by decide⟩
  have r0 : Icd.Reachable ascending exVTest ⟨false, true, true⟩ exV.nodes (Icd.init ascending exV.nodes) := .refl
  refine ⟨_, _, exV_wf, exV_acyclic, (r0.tail (Or.inl ⟨_, _, h0.1⟩)).tail (Or.inl ⟨_, _, h1.1⟩), h2.1, hadj, exV_sep, fun h => ?_⟩
  exact (h 1 (by decide) 4 (by decide) (by decide)).mp hadj {0, 3} (by decide) (by decide) (by decide) (by decide) exV_sep

end Verif
