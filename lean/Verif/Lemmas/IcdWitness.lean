import Verif.Props.TsIcd
import Verif.Model.TruePag

/-!
# Evaluation of a run of ICD on a DAG with eight nodes

The states after the iterations are given as lists; every iteration is evaluated by the kernel from the list form of the previous state.
-/

namespace Verif
open MG

/-- A DAG with eight nodes (given as map from nodes to parents). -/
def exW : Dag Nat := ⟨{0, 1, 2, 3, 4, 5, 6, 7}, fun v =>
  [∅, {0, 2, 6, 7}, {3, 5}, {5, 7}, {0, 6}, {4}, ∅, ∅].getD v ∅⟩

/-- A state of ICD over the nodes of `exW` (`icd.py:7-23`) as lists: for every node the nodes with a tail, an arrowhead and a circle at
it; the recorded separating sets that are not empty; number of tests; `done`; size. -/
structure ExSnap where
  tail : List (List Nat)
  arrow : List (List Nat)
  circle : List (List Nat)
  sep : List ((Nat × Nat) × List Nat)
  calls : Nat
  done : Bool
  size : Nat

namespace ExSnap

/-- The state given by the lists. -/
def state (s : ExSnap) : IcdState Nat :=
  ⟨⟨exW.nodes, pagTypes, fun v m => match m with
      | .tail => (s.tail.getD v []).toFinset
      | .arrow => (s.arrow.getD v []).toFinset
      | .circle => (s.circle.getD v []).toFinset⟩,
    ⟨exW.nodes, (pairs (List.range 8)).map (fun p => (p, (s.sep.lookup p).elim ∅ List.toFinset))⟩, s.calls,
    (pairs (List.range 8)).map (fun p => (p, [])), s.done, s.size⟩

/-- The state agrees with the one given by the lists on the nodes. -/
def agree (a : IcdState Nat) (s : ExSnap) : Bool :=
  decide ((∀ v ∈ List.range 8, ∀ m ∈ [Mark.tail, .arrow, .circle], a.graph.g v m = s.state.graph.g v m) ∧
    a.sep.nodes = exW.nodes ∧ a.sep.d = s.state.sep.d ∧ a.calls = s.calls ∧ a.cond = s.state.cond ∧ a.done = s.done ∧
    a.size = s.size ∧ s.tail.length ≤ 8 ∧ s.arrow.length ≤ 8 ∧ s.circle.length ≤ 8)

theorem agree_eq {ci : CITest Nat} {a : IcdState Nat} {s : ExSnap} (h : agree a s = true)
    (ha : Fci.SkInv ci exW.nodes a.graph a.sep) : a = s.state := by
  obtain ⟨h1, h2, h3, h4, h5, h6, h7, h8, h9, h10⟩ := of_decide_eq_true h
  rcases a with ⟨⟨n, t, g⟩, ⟨sn, sd⟩, c, cd, dn, sz⟩
  obtain rfl : n = exW.nodes := ha.nodes
  obtain rfl : t = pagTypes := ha.types
  simp only at h2 h3 h4 h5 h6 h7
  subst h2 h3 h4 h5 h6 h7
  have hg : g = s.state.graph.g := by
    funext v m
    by_cases hv : v < 8
    · exact h1 v (List.mem_range.mpr hv) m (by cases m <;> simp)
    · have hv' : v ∉ exW.nodes := by
        intro hm
        revert hm
        simp only [exW, Finset.mem_insert, Finset.mem_singleton]
        omega
      rw [Finset.eq_empty_of_forall_notMem (s := g v m) fun x hx => hv' (ha.proper.mem x v m hx).2]
      cases m
      · simp [state, List.getElem?_eq_none (show s.tail.length ≤ v by omega)]
      · simp [state, List.getElem?_eq_none (show s.arrow.length ≤ v by omega)]
      · simp [state, List.getElem?_eq_none (show s.circle.length ≤ v by omega)]
  subst hg
  rfl

end ExSnap

/-- The d-separation oracle for `exW`. -/
abbrev exWTest : CITest Nat := Pc.dsepTest ascending exW

/-- One iteration leads to a state that agrees with the lists. -/
def exWNext (a : IcdState Nat) (s : ExSnap) : Bool :=
  (Icd.iteration ascending exWTest ⟨false, true, true⟩ a).okWith (fun r => ExSnap.agree r.1 s && (r.2.1 == s.done) && (r.2.2 + 1 == s.size))

theorem exWNext_eq {a : IcdState Nat} {s : ExSnap} (h : exWNext a s = true) (ha : Fci.SkInv exWTest exW.nodes a.graph a.sep)
    (hd : a.done = false) :
    Icd.iteration ascending exWTest ⟨false, true, true⟩ a = .ok (s.state, s.done, s.size - 1) ∧
      Fci.SkInv exWTest exW.nodes s.state.graph s.state.sep := by
  obtain ⟨⟨b, d, r⟩, h1, h2⟩ := Py.okWith_iff h
  simp only [Bool.and_eq_true, beq_iff_eq] at h2
  obtain ⟨st', d', k1, -, -, k2, -⟩ := Icd.iteration_spec ascending ⟨false, true, true⟩ ha hd
  rw [h1] at k1
  cases k1
  have e := ExSnap.agree_eq h2.1.1 k2
  refine ⟨?_, e ▸ k2⟩
  rw [h1, e, h2.1.2, ← h2.2]
  rfl

/-- After the iteration with r = 0. -/
def exW0 : ExSnap := ⟨[[], [], [], [], [], [], [], []],
  [[], [0, 4, 5, 6, 7], [0, 4, 5, 6, 7], [0, 4, 5, 6, 7], [0, 6], [0, 6], [], []],
  [[1, 2, 3, 4, 5], [2, 3], [1, 3], [1, 2], [1, 2, 3, 5], [1, 2, 3, 4], [1, 2, 3, 4, 5], [1, 2, 3]],
  [],
  28, false, 1⟩

/-- After the iteration with r = 1. -/
def exW1 : ExSnap := ⟨[[], [], [], [], [5], [2, 3], [], []],
  [[], [0, 2, 3, 4, 5, 6, 7], [5, 7], [5, 7], [0, 6], [4], [], []],
  [[1, 4], [], [1, 3], [1, 2], [1], [1], [1, 4], [1, 2, 3]],
  [((0, 2), [4]), ((0, 3), [4]), ((0, 5), [4]), ((2, 4), [5]), ((2, 6), [5]), ((3, 4), [5]), ((3, 6), [5]), ((5, 6), [4])],
  127, false, 2⟩

/-- After the iteration with r = 2. -/
def exW2 : ExSnap := ⟨[[], [], [], [2], [5], [2, 3], [], []],
  [[], [0, 2, 3, 4, 5, 6, 7], [3, 5], [5, 7], [0, 6], [4], [], []],
  [[1, 4], [], [1], [1], [1], [1], [1, 4], [1, 3]],
  [((0, 2), [4]), ((0, 3), [4]), ((0, 5), [4]), ((2, 4), [5]), ((2, 6), [5]), ((2, 7), [3, 5]), ((3, 4), [5]), ((3, 6), [5]), ((5, 6), [4])],
  261, false, 3⟩

/-- After the iteration with r = 3. -/
def exW3 : ExSnap := ⟨[[], [], [], [2], [5], [2], [], []],
  [[], [0, 2, 5, 6, 7], [1, 3, 5], [5, 7], [0, 6], [1, 3, 4], [], []],
  [[1, 4], [], [], [], [], [], [1, 4], [1, 3]],
  [((0, 2), [4]), ((0, 3), [4]), ((0, 5), [4]), ((1, 3), [2, 4, 7]), ((1, 4), [0, 5, 6]), ((2, 4), [5]), ((2, 6), [5]), ((2, 7), [3, 5]), ((3, 4), [5]), ((3, 6), [5]), ((5, 6), [4])],
  336, false, 4⟩

/-- After the iteration with r = 4. -/
def exW4 : ExSnap := ⟨[[], [], [], [2], [5], [2], [], []],
  [[], [0, 2, 5, 6, 7], [1, 3, 5], [5, 7], [0, 6], [1, 3, 4], [], []],
  [[1, 4], [], [], [], [], [], [1, 4], [1, 3]],
  [((0, 2), [4]), ((0, 3), [4]), ((0, 5), [4]), ((1, 3), [2, 4, 7]), ((1, 4), [0, 5, 6]), ((2, 4), [5]), ((2, 6), [5]), ((2, 7), [3, 5]), ((3, 4), [5]), ((3, 6), [5]), ((5, 6), [4])],
  346, false, 5⟩

/-- After the iteration with r = 5. -/
def exW5 : ExSnap := ⟨[[], [], [], [2], [5], [2], [], []],
  [[], [0, 2, 5, 6, 7], [1, 3, 5], [5, 7], [0, 6], [1, 3, 4], [], []],
  [[1, 4], [], [], [], [], [], [1, 4], [1, 3]],
  [((0, 2), [4]), ((0, 3), [4]), ((0, 5), [4]), ((1, 3), [2, 4, 7]), ((1, 4), [0, 5, 6]), ((2, 4), [5]), ((2, 6), [5]), ((2, 7), [3, 5]), ((3, 4), [5]), ((3, 6), [5]), ((5, 6), [4])],
  351, false, 6⟩

/-- After the iteration with r = 6. -/
def exW6 : ExSnap := ⟨[[], [], [], [2], [5], [2], [], []],
  [[], [0, 2, 5, 6, 7], [1, 3, 5], [5, 7], [0, 6], [1, 3, 4], [], []],
  [[1, 4], [], [], [], [], [], [1, 4], [1, 3]],
  [((0, 2), [4]), ((0, 3), [4]), ((0, 5), [4]), ((1, 3), [2, 4, 7]), ((1, 4), [0, 5, 6]), ((2, 4), [5]), ((2, 6), [5]), ((2, 7), [3, 5]), ((3, 4), [5]), ((3, 6), [5]), ((5, 6), [4])],
  352, false, 7⟩

/-- After the iteration with r = 7. -/
def exW7 : ExSnap := ⟨[[], [], [], [2], [5], [2], [], []],
  [[], [0, 2, 5, 6, 7], [1, 3, 5], [5, 7], [0, 6], [1, 3, 4], [], []],
  [[1, 4], [], [], [], [], [], [1, 4], [1, 3]],
  [((0, 2), [4]), ((0, 3), [4]), ((0, 5), [4]), ((1, 3), [2, 4, 7]), ((1, 4), [0, 5, 6]), ((2, 4), [5]), ((2, 6), [5]), ((2, 7), [3, 5]), ((3, 4), [5]), ((3, 6), [5]), ((5, 6), [4])],
  352, true, 8⟩

theorem exW_next0 : exWNext (Icd.init ascending exW.nodes) exW0 = true := by decide +kernel

theorem exW_next1 : exWNext exW0.state exW1 = true := by decide +kernel

theorem exW_next2 : exWNext exW1.state exW2 = true := by decide +kernel

theorem exW_next3 : exWNext exW2.state exW3 = true := by decide +kernel

theorem exW_next4 : exWNext exW3.state exW4 = true := by decide +kernel

theorem exW_next5 : exWNext exW4.state exW5 = true := by decide +kernel

theorem exW_next6 : exWNext exW5.state exW6 = true := by decide +kernel

theorem exW_next7 : exWNext exW6.state exW7 = true := by decide +kernel

end Verif
