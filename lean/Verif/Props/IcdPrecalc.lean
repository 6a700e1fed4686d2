import Verif.Props.IcdTwo

/-!
# C74: iterations with conditioning sets calculated in advance

Evaluation of a run of ICD with `is_pre_calc_cond_set=True` on a DAG with nine nodes.
-/

namespace Verif
open MG

/-- A DAG with nine nodes (given as map from nodes to parents). -/
def exK : Dag Nat := ⟨{0, 1, 2, 3, 4, 5, 6, 7, 8}, fun v =>
  [{8}, ∅, {1, 5}, {2, 5, 7, 8}, {0, 1, 6, 7}, ∅, {8}, ∅, ∅].getD v ∅⟩

theorem exK_wf : exK.WF := by
  intro a b h
  have hb : b < 9 := by
    by_contra hn
    have : exK.par b = ∅ := by
      rcases b with _ | _ | _ | _ | _ | _ | _ | _ | _ | b <;> first | omega | rfl
    rw [this] at h
    simp at h
  have key : ∀ b < 9, ∀ a ∈ exK.par b, a ∈ exK.nodes ∧ b ∈ exK.nodes := by decide
  exact key b hb a h

theorem exK_acyclic : exK.Acyclic := by
  obtain ⟨b, h1, h2⟩ := Dag.isAcyclic_spec ascending exK_wf
  have : Dag.isAcyclic ascending exK = .ok true := by decide +kernel
  rw [this] at h1
  cases h1
  exact h2.mp rfl

/-- The d-separation oracle for `exK`. -/
abbrev exKTest : CITest Nat := Pc.dsepTest ascending exK

theorem exK_sep : exK.DSeparated 3 4 {1, 7, 8} :=
  (C22_dsep_oracle ascending exK_wf exK_acyclic 0 3 4 [1, 7, 8] (by decide) (by decide) (by decide) (by decide) (by decide)
    (by decide)).mp (by decide +kernel)

/-- A state of ICD over the nodes of `exK` (`icd.py:7-23`) as lists: for every node the nodes with a tail, an arrowhead and a circle at
it; the recorded separating sets that are not empty; number of tests; conditioning sets; `done`; size. -/
structure ExSnap9 where
  tail : List (List Nat)
  arrow : List (List Nat)
  circle : List (List Nat)
  sep : List ((Nat × Nat) × List Nat)
  calls : Nat
  cond : List ((Nat × Nat) × List (List Nat × Nat))
  done : Bool
  size : Nat

namespace ExSnap9

/-- The state given by the lists. -/
def state (s : ExSnap9) : IcdState Nat :=
  ⟨⟨exK.nodes, pagTypes, fun v m => match m with
      | .tail => (s.tail.getD v []).toFinset
      | .arrow => (s.arrow.getD v []).toFinset
      | .circle => (s.circle.getD v []).toFinset⟩,
    ⟨exK.nodes, (pairs (List.range 9)).map (fun p => (p, (s.sep.lookup p).elim ∅ List.toFinset))⟩, s.calls,
    (pairs (List.range 9)).map (fun p => (p, ((s.cond.lookup p).getD []).map (fun c => (c.1.toFinset, WithTop.some c.2)))), s.done,
    s.size⟩

/-- The state agrees with the one given by the lists on the nodes. -/
def agree (a : IcdState Nat) (s : ExSnap9) : Bool :=
  decide ((∀ v ∈ List.range 9, ∀ m ∈ [Mark.tail, .arrow, .circle], a.graph.g v m = s.state.graph.g v m) ∧
    a.sep.nodes = exK.nodes ∧ a.sep.d = s.state.sep.d ∧ a.calls = s.calls ∧ a.cond = s.state.cond ∧ a.done = s.done ∧
    a.size = s.size ∧ s.tail.length ≤ 9 ∧ s.arrow.length ≤ 9 ∧ s.circle.length ≤ 9)

theorem agree_eq {ci : CITest Nat} {a : IcdState Nat} {s : ExSnap9} (h : agree a s = true)
    (ha : Fci.SkInv ci exK.nodes a.graph a.sep) : a = s.state := by
  obtain ⟨h1, h2, h3, h4, h5, h6, h7, h8, h9, h10⟩ := of_decide_eq_true h
  rcases a with ⟨⟨n, t, g⟩, ⟨sn, sd⟩, c, cd, dn, sz⟩
  obtain rfl : n = exK.nodes := ha.nodes
  obtain rfl : t = pagTypes := ha.types
  simp only at h2 h3 h4 h5 h6 h7
  subst h2 h3 h4 h5 h6 h7
  have hg : g = s.state.graph.g := by
    funext v m
    by_cases hv : v < 9
    · exact h1 v (List.mem_range.mpr hv) m (by cases m <;> simp)
    · have hv' : v ∉ exK.nodes := by
        intro hm
        revert hm
        simp only [exK, Finset.mem_insert, Finset.mem_singleton]
        omega
      rw [Finset.eq_empty_of_forall_notMem (s := g v m) fun x hx => hv' (ha.proper.mem x v m hx).2]
      cases m
      · simp [state, List.getElem?_eq_none (show s.tail.length ≤ v by omega)]
      · simp [state, List.getElem?_eq_none (show s.arrow.length ≤ v by omega)]
      · simp [state, List.getElem?_eq_none (show s.circle.length ≤ v by omega)]
  subst hg
  rfl

end ExSnap9

/-- One iteration leads to a state that agrees with the lists. -/
def exKNext (a : IcdState Nat) (s : ExSnap9) : Bool :=
  (Icd.iteration ascending exKTest ⟨true, true, true⟩ a).okWith (fun r => ExSnap9.agree r.1 s && (r.2.1 == s.done) && (r.2.2 + 1 == s.size))

theorem exKNext_eq {a : IcdState Nat} {s : ExSnap9} (h : exKNext a s = true) (ha : Fci.SkInv exKTest exK.nodes a.graph a.sep)
    (hd : a.done = false) :
    Icd.iteration ascending exKTest ⟨true, true, true⟩ a = .ok (s.state, s.done, s.size - 1) ∧
      Fci.SkInv exKTest exK.nodes s.state.graph s.state.sep := by
  obtain ⟨⟨b, d, r⟩, h1, h2⟩ := Py.okWith_iff h
  simp only [Bool.and_eq_true, beq_iff_eq] at h2
  obtain ⟨st', d', k1, -, -, k2, -⟩ := Icd.iteration_spec ascending ⟨true, true, true⟩ ha hd
  rw [h1] at k1
  cases k1
  have e := ExSnap9.agree_eq h2.1.1 k2
  refine ⟨?_, e ▸ k2⟩
  rw [h1, e, h2.1.2, ← h2.2]
  rfl

/-- After the iteration with r = 0. -/
def exK0 : ExSnap9 := ⟨[[], [], [], [], [], [], [], [], []],
  [[], [], [1, 4, 5], [0, 1, 2, 4, 5, 6, 7, 8], [0, 1, 2, 6, 7, 8], [], [], [], []],
  [[3, 4, 6, 8], [2, 3, 4], [3], [], [3], [2, 3], [0, 3, 4, 8], [3, 4], [0, 3, 4, 6]],
  [],
  36, [], false, 1⟩

/-- After the iteration with r = 1. -/
def exK1 : ExSnap9 := ⟨[[], [], [], [], [], [], [], [], []],
  [[], [], [1, 5], [1, 2, 4, 5, 7, 8], [0, 1, 3, 6, 7, 8], [], [], [], []],
  [[4, 8], [2, 3, 4], [3], [], [], [2, 3], [4, 8], [3, 4], [0, 3, 4, 6]],
  [((0, 3), [8]), ((0, 6), [8]), ((2, 4), [1]), ((3, 6), [8])],
  123, [], false, 2⟩

/-- After the iteration with r = 2. -/
def exK2 : ExSnap9 := ⟨[[], [], [3], [], [], [3], [], [], []],
  [[], [], [1, 5], [2, 4, 5, 7, 8], [0, 1, 3, 6, 7], [], [], [], []],
  [[4, 8], [2, 4], [], [], [], [2], [4, 8], [3, 4], [0, 3, 6]],
  [((0, 3), [8]), ((0, 6), [8]), ((1, 3), [2, 5]), ((2, 4), [1]), ((3, 6), [8]), ((4, 8), [0, 6])],
  197, [((0, 4), [([1, 6], 2), ([1, 7], 2), ([1, 8], 2), ([6, 7], 2), ([6, 8], 2), ([7, 8], 2)]), ((1, 3), [([2, 5], 2), ([2, 7],
    2), ([2, 8], 2), ([5, 7], 2), ([5, 8], 2), ([7, 8], 2), ([2, 5], 3)]), ((1, 4), [([0, 6], 2), ([0, 7], 2), ([0, 8], 2), ([6, 7],
    2), ([6, 8], 2), ([7, 8], 2)]), ((2, 3), [([1, 5], 2), ([1, 5], 2), ([1, 7], 2), ([1, 8], 2), ([5, 7], 2), ([5, 8], 2), ([7, 8],
    2)]), ((3, 4), [([1, 2], 2), ([1, 5], 2), ([1, 7], 2), ([1, 8], 2), ([2, 5], 2), ([2, 7], 2), ([2, 8], 2), ([5, 7], 2), ([5, 8],
    2), ([7, 8], 2), ([0, 1], 2), ([0, 6], 2), ([0, 7], 2), ([0, 8], 2), ([1, 6], 2), ([1, 7], 2), ([1, 8], 2), ([6, 7], 2), ([6, 8],
    2), ([7, 8], 2)]), ((3, 5), [([1, 2], 2), ([1, 7], 2), ([1, 8], 2), ([2, 7], 2), ([2, 8], 2), ([7, 8], 2), ([1, 2], 3)]), ((3, 7),
    [([1, 2], 2), ([1, 5], 2), ([1, 8], 2), ([2, 5], 2), ([2, 8], 2), ([5, 8], 2)]), ((3, 8), [([1, 2], 2), ([1, 5], 2), ([1, 7], 2),
    ([2, 5], 2), ([2, 7], 2), ([5, 7], 2), ([0, 6], 2)]), ((4, 6), [([0, 1], 2), ([0, 7], 2), ([0, 8], 2), ([1, 7], 2), ([1, 8], 2),
    ([7, 8], 2)]), ((4, 7), [([0, 1], 2), ([0, 6], 2), ([0, 8], 2), ([1, 6], 2), ([1, 8], 2), ([6, 8], 2)]), ((4, 8), [([0, 1], 2),
    ([0, 6], 2), ([0, 7], 2), ([1, 6], 2), ([1, 7], 2), ([6, 7], 2), ([0, 6], 2)])], false, 3⟩

/-- After the iteration with r = 3. -/
def exK3 : ExSnap9 := ⟨[[], [], [3], [], [], [3], [], [], []],
  [[], [], [1, 5], [2, 4, 5, 7, 8], [0, 1, 3, 6, 7], [], [], [], []],
  [[4, 8], [2, 4], [], [], [], [2], [4, 8], [3, 4], [0, 3, 6]],
  [((0, 3), [8]), ((0, 6), [8]), ((1, 3), [2, 5]), ((2, 4), [1]), ((3, 6), [8]), ((4, 8), [0, 6])],
  213, [((0, 4), [([1, 6, 7], 3)]), ((1, 3), [([2, 5], 2), ([2, 7], 2), ([2, 8], 2), ([5, 7], 2), ([5, 8], 2), ([7, 8], 2), ([2,
    5], 3)]), ((1, 4), [([0, 6, 7], 3)]), ((2, 3), [([5, 7, 8], 3)]), ((3, 4), [([2, 5, 7], 3), ([2, 5, 8], 3), ([2, 7, 8], 3), ([5,
    7, 8], 3), ([0, 1, 6], 3), ([0, 1, 7], 3), ([0, 6, 7], 3), ([1, 6, 7], 3)]), ((3, 5), [([2, 7, 8], 3)]), ((3, 7), [([2, 5, 8],
    3)]), ((3, 8), [([2, 5, 7], 3)]), ((4, 6), [([0, 1, 7], 3)]), ((4, 7), [([0, 1, 6], 3)]), ((4, 8), [([0, 1], 2), ([0, 6], 2), ([0,
    7], 2), ([1, 6], 2), ([1, 7], 2), ([6, 7], 2), ([0, 6], 2)])], false, 4⟩

theorem exK_next0 : exKNext (Icd.init ascending exK.nodes) exK0 = true := by decide +kernel

theorem exK_next1 : exKNext exK0.state exK1 = true := by decide +kernel

theorem exK_next2 : exKNext exK1.state exK2 = true := by decide +kernel

theorem exK_next3 : exKNext exK2.state exK3 = true := by decide +kernel

/-- C74, the documented claim about iterations fails also with `is_pre_calc_cond_set=True`, for the value 3: the pair `3`, `4` is separated
by `{1, 7, 8}`, but `1` and `3` as well as `4` and `8` were separated by two nodes, so this set is not among the conditioning sets. -/
theorem C74_representing_precalc_fails : ∃ st st', exK.WF ∧ exK.Acyclic ∧
    Icd.Reachable ascending exKTest ⟨true, true, true⟩ exK.nodes st ∧
    Icd.iteration ascending exKTest ⟨true, true, true⟩ st = .ok (st', false, 3) ∧ st'.graph.MAdj 3 4 ∧ exK.DSeparated 3 4 {1, 7, 8} ∧
    ¬ exK.Representing exK.nodes 3 st'.graph := by
  have h0 := exKNext_eq exK_next0 (Icd.init_inv ascending exKTest exK.nodes) rfl
  have h1 := exKNext_eq exK_next1 h0.2 rfl
  have h2 := exKNext_eq exK_next2 h1.2 rfl
  have h3 := exKNext_eq exK_next3 h2.2 rfl
  have hadj : exK3.state.graph.MAdj 3 4 := Or.inl ⟨.arrow, by decide⟩
  have r0 : Icd.Reachable ascending exKTest ⟨true, true, true⟩ exK.nodes (Icd.init ascending exK.nodes) := .refl
  refine ⟨_, _, exK_wf, exK_acyclic, ((r0.tail (Or.inl ⟨_, _, h0.1⟩)).tail (Or.inl ⟨_, _, h1.1⟩)).tail (Or.inl ⟨_, _, h2.1⟩), h3.1, hadj,
    exK_sep, fun h => ?_⟩
  exact (h 3 (by decide) 4 (by decide) (by decide)).mp hadj {1, 7, 8} (by decide) (by decide) (by decide) (by decide) exK_sep

end Verif
