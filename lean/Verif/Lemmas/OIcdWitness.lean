import Verif.Props.OIcdDeg
import Verif.Props.FciTails -- used by no proof here: keeps two large evaluations from being compiled side by side

/-!
# Evaluation of a run of the global variant of ordered ICD on a DAG with nine nodes

The states after the passes are given as lists; every pass is evaluated by the kernel from the list form of the previous state.
-/

namespace Verif
open Relation MG

/-- A state of ordered ICD (`ordered_icd.py:7-39`) over the nodes 0, …, `n` - 1 as lists: for every node the nodes with a tail, an
arrowhead and a circle at the edge; the recorded separating sets that are not empty; number of tests; `edge_done`. -/
structure OSnap where
  tail : List (List Nat)
  arrow : List (List Nat)
  circle : List (List Nat)
  sep : List ((Nat × Nat) × List Nat)
  calls : Nat
  done : List (Nat × Nat)

namespace OSnap

/-- The state given by the lists. -/
def state (n : Nat) (s : OSnap) : OIcdState Nat :=
  ⟨⟨Finset.range n, pagTypes, fun v m => match m with
      | .tail => (s.tail.getD v []).toFinset
      | .arrow => (s.arrow.getD v []).toFinset
      | .circle => (s.circle.getD v []).toFinset⟩,
    ⟨Finset.range n, (pairs (List.range n)).map (fun p => (p, (s.sep.lookup p).elim ∅ List.toFinset))⟩, s.calls, s.done.toFinset⟩

/-- The state agrees with the one given by the lists on the nodes. -/
def agree (n : Nat) (a : OIcdState Nat) (s : OSnap) : Bool :=
  decide ((∀ v ∈ List.range n, ∀ m ∈ [Mark.tail, .arrow, .circle], a.graph.g v m = (s.state n).graph.g v m) ∧
    a.sep.nodes = Finset.range n ∧ a.sep.d = (s.state n).sep.d ∧ a.calls = s.calls ∧ a.done = s.done.toFinset ∧
    s.tail.length ≤ n ∧ s.arrow.length ≤ n ∧ s.circle.length ≤ n)

theorem agree_eq {ci : CITest Nat} {n : Nat} {a : OIcdState Nat} {s : OSnap} (h : agree n a s = true)
    (ha : Fci.SkInv ci (Finset.range n) a.graph a.sep) : a = s.state n := by
  obtain ⟨h1, h2, h3, h4, h5, h8, h9, h10⟩ := of_decide_eq_true h
  rcases a with ⟨⟨nd, t, g⟩, ⟨sn, sd⟩, c, dn⟩
  obtain rfl : nd = Finset.range n := ha.nodes
  obtain rfl : t = pagTypes := ha.types
  simp only at h2 h3 h4 h5
  subst h2 h3 h4 h5
  have hg : g = (s.state n).graph.g := by
    funext v m
    by_cases hv : v < n
    · exact h1 v (List.mem_range.mpr hv) m (by cases m <;> simp)
    · have hv' : v ∉ Finset.range n := by simpa using hv
      rw [Finset.eq_empty_of_forall_notMem (s := g v m) fun x hx => hv' (ha.proper.mem x v m hx).2]
      cases m
      · simp [state, List.getElem?_eq_none (show s.tail.length ≤ v by omega)]
      · simp [state, List.getElem?_eq_none (show s.arrow.length ≤ v by omega)]
      · simp [state, List.getElem?_eq_none (show s.circle.length ≤ v by omega)]
  subst hg
  rfl

end OSnap

/-- A DAG with nine nodes (given as map from nodes to parents). -/
def exG : Dag Nat := ⟨Finset.range 9, fun v => [∅, {0}, ∅, {0, 2}, ∅, ∅, {2, 4, 5}, {1, 3, 4, 5}, {0, 1, 2, 7}].getD v ∅⟩

/-- The d-separation oracle for `exG`. -/
abbrev exGTest : CITest Nat := Pc.dsepTest ascending exG

/-- Default options with the order 0, …, 8. -/
abbrev exGOpts : OIcdOpts Nat := ⟨List.range 9, true, true, none⟩

/-- The invariant of the run; the nodes in `T0` have been tested without conditioning, those in `T1` with one node. -/
def ExGInv (T0 T1 : List Nat) (st : OIcdState Nat) : Prop :=
  OIcd.Inv exGTest (Finset.range 9) (List.range 9) 7 (· ∈ T0) (· ∈ T1) st

theorem exG_isOrder : OIcd.IsOrder (List.range 9) (Finset.range 9) := ⟨List.nodup_range, fun v => by simp⟩

theorem exG_nth {i : Nat} (h : i < 9) : (List.range 9)[i]? = some i := by simp [h]

variable {T0 T1 : List Nat} {s t : OSnap}

theorem exG_phase0 {i : Nat} (hi : i < 9) (h : ExGInv T0 T1 (s.state 9))
    (hs : (OIcd.phase0 exGTest (List.range 9) i (s.state 9)).okWith (fun r => t.agree 9 r) = true) :
    OIcd.phase0 exGTest (List.range 9) i (s.state 9) = .ok (t.state 9) ∧ ExGInv (i :: T0) T1 (t.state 9) := by
  obtain ⟨r, h1, h2⟩ := Py.okWith_iff hs
  obtain ⟨r', k1, k2, -⟩ := OIcd.phase0_spec h List.nodup_range (exG_nth hi)
  rw [h1] at k1
  cases k1
  have e := OSnap.agree_eq h2 k2.inv
  subst e
  exact ⟨h1, k2.congr (fun x => by simp) (fun _ => Iff.rfl)⟩

theorem exG_phase1 {i : Nat} (hi : i < 9) (h : ExGInv T0 T1 (s.state 9))
    (hs : (OIcd.phase1 ascending exGTest (List.range 9) i (s.state 9)).okWith (fun r => t.agree 9 r) = true) :
    OIcd.phase1 ascending exGTest (List.range 9) i (s.state 9) = .ok (t.state 9) ∧ ExGInv T0 (i :: T1) (t.state 9) := by
  obtain ⟨r, h1, h2⟩ := Py.okWith_iff hs
  obtain ⟨r', k1, k2, -⟩ := OIcd.phase1_spec ascending h List.nodup_range (fun v hv => (exG_isOrder.mem v).mp hv) (exG_nth hi) (by omega)
  rw [h1] at k1
  cases k1
  have e := OSnap.agree_eq h2 k2.inv
  subst e
  exact ⟨h1, k2.congr (fun _ => Iff.rfl) (fun x => by simp)⟩

theorem exG_orient (b : Bool) (h : ExGInv T0 T1 (s.state 9))
    (hs : (OIcd.orient ascending exGOpts b (s.state 9)).okWith (fun r => t.agree 9 r) = true) :
    OIcd.orient ascending exGOpts b (s.state 9) = .ok (t.state 9) ∧ ExGInv T0 T1 (t.state 9) := by
  obtain ⟨r, h1, h2⟩ := Py.okWith_iff hs
  obtain ⟨r', k1, k2, -⟩ := OIcd.orient_inv (opts := exGOpts) ascending List.nodup_range exG_isOrder.mem b h
  rw [h1] at k1
  cases k1
  have e := OSnap.agree_eq h2 k2.inv
  subst e
  exact ⟨h1, k2⟩

theorem exG_phaseR {r i : Nat} {d : Bool} (hr : r ≤ 7) (hi : i < 9) (h : ExGInv T0 T1 (s.state 9)) (h0 : i ∈ T0) (h1 : i ∈ T1)
    (hs : (OIcd.phaseR ascending exGTest (List.range 9) r i (s.state 9)).okWith (fun r => t.agree 9 r.1 && (r.2 == d)) = true) :
    OIcd.phaseR ascending exGTest (List.range 9) r i (s.state 9) = .ok (t.state 9, d) ∧ ExGInv T0 T1 (t.state 9) := by
  obtain ⟨⟨r, d'⟩, g1, h2⟩ := Py.okWith_iff hs
  simp only [Bool.and_eq_true, beq_iff_eq] at h2
  obtain ⟨r', _, k1, k2, -⟩ := OIcd.phaseR_spec ascending h List.nodup_range exG_isOrder.mem (exG_nth hi) hr ⟨h0, h1⟩
  rw [g1] at k1
  cases k1
  have e := OSnap.agree_eq h2.1 k2.inv
  subst e
  exact ⟨g1.trans (by rw [h2.2]), k2⟩

/-- The state of a new object. -/
def exG0 : OSnap := ⟨[[], [], [], [], [], [], [], [], []],
  [[], [], [], [], [], [], [], [], []],
  [[1, 2, 3, 4, 5, 6, 7, 8], [0, 2, 3, 4, 5, 6, 7, 8], [0, 1, 3, 4, 5, 6, 7, 8], [0, 1, 2, 4, 5, 6, 7, 8], [0, 1, 2, 3, 5, 6, 7, 8], [0, 1, 2, 3, 4, 6, 7, 8], [0, 1, 2, 3, 4, 5, 7, 8], [0, 1, 2, 3, 4, 5, 6, 8], [0, 1, 2, 3, 4, 5, 6, 7]],
  [],
  0, []⟩

/-- After the tests of node 1 without conditioning. -/
def exG1 : OSnap := ⟨[[], [], [], [], [], [], [], [], []],
  [[], [], [], [], [], [], [], [], []],
  [[1, 2, 3, 4, 5, 6, 7, 8], [0, 2, 3, 4, 5, 6, 7, 8], [0, 1, 3, 4, 5, 6, 7, 8], [0, 1, 2, 4, 5, 6, 7, 8], [0, 1, 2, 3, 5, 6, 7, 8], [0, 1, 2, 3, 4, 6, 7, 8], [0, 1, 2, 3, 4, 5, 7, 8], [0, 1, 2, 3, 4, 5, 6, 8], [0, 1, 2, 3, 4, 5, 6, 7]],
  [],
  1, []⟩

/-- After the tests of node 2 without conditioning. -/
def exG2 : OSnap := ⟨[[], [], [], [], [], [], [], [], []],
  [[], [], [], [], [], [], [], [], []],
  [[1, 3, 4, 5, 6, 7, 8], [0, 3, 4, 5, 6, 7, 8], [3, 4, 5, 6, 7, 8], [0, 1, 2, 4, 5, 6, 7, 8], [0, 1, 2, 3, 5, 6, 7, 8], [0, 1, 2, 3, 4, 6, 7, 8], [0, 1, 2, 3, 4, 5, 7, 8], [0, 1, 2, 3, 4, 5, 6, 8], [0, 1, 2, 3, 4, 5, 6, 7]],
  [],
  3, [(2, 0), (2, 1)]⟩

/-- After the tests of node 3 without conditioning. -/
def exG3 : OSnap := ⟨[[], [], [], [], [], [], [], [], []],
  [[], [], [], [], [], [], [], [], []],
  [[1, 3, 4, 5, 6, 7, 8], [0, 3, 4, 5, 6, 7, 8], [3, 4, 5, 6, 7, 8], [0, 1, 2, 4, 5, 6, 7, 8], [0, 1, 2, 3, 5, 6, 7, 8], [0, 1, 2, 3, 4, 6, 7, 8], [0, 1, 2, 3, 4, 5, 7, 8], [0, 1, 2, 3, 4, 5, 6, 8], [0, 1, 2, 3, 4, 5, 6, 7]],
  [],
  6, [(2, 0), (2, 1)]⟩

/-- After the tests of node 4 without conditioning. -/
def exG4 : OSnap := ⟨[[], [], [], [], [], [], [], [], []],
  [[], [], [], [], [], [], [], [], []],
  [[1, 3, 5, 6, 7, 8], [0, 3, 5, 6, 7, 8], [3, 5, 6, 7, 8], [0, 1, 2, 5, 6, 7, 8], [5, 6, 7, 8], [0, 1, 2, 3, 4, 6, 7, 8], [0, 1, 2, 3, 4, 5, 7, 8], [0, 1, 2, 3, 4, 5, 6, 8], [0, 1, 2, 3, 4, 5, 6, 7]],
  [],
  10, [(2, 0), (2, 1), (4, 0), (4, 1), (4, 2), (4, 3)]⟩

/-- After the tests of node 5 without conditioning. -/
def exG5 : OSnap := ⟨[[], [], [], [], [], [], [], [], []],
  [[], [], [], [], [], [], [], [], []],
  [[1, 3, 6, 7, 8], [0, 3, 6, 7, 8], [3, 6, 7, 8], [0, 1, 2, 6, 7, 8], [6, 7, 8], [6, 7, 8], [0, 1, 2, 3, 4, 5, 7, 8], [0, 1, 2, 3, 4, 5, 6, 8], [0, 1, 2, 3, 4, 5, 6, 7]],
  [],
  15, [(2, 0), (2, 1), (4, 0), (4, 1), (4, 2), (4, 3), (5, 0), (5, 1), (5, 2), (5, 3), (5, 4)]⟩

/-- After the tests of node 6 without conditioning. -/
def exG6 : OSnap := ⟨[[], [], [], [], [], [], [], [], []],
  [[], [], [], [], [], [], [], [], []],
  [[1, 3, 7, 8], [0, 3, 7, 8], [3, 6, 7, 8], [0, 1, 2, 6, 7, 8], [6, 7, 8], [6, 7, 8], [2, 3, 4, 5, 7, 8], [0, 1, 2, 3, 4, 5, 6, 8], [0, 1, 2, 3, 4, 5, 6, 7]],
  [],
  21, [(2, 0), (2, 1), (4, 0), (4, 1), (4, 2), (4, 3), (5, 0), (5, 1), (5, 2), (5, 3), (5, 4), (6, 0), (6, 1)]⟩

/-- After the tests of node 7 without conditioning. -/
def exG7 : OSnap := ⟨[[], [], [], [], [], [], [], [], []],
  [[], [], [], [], [], [], [], [], []],
  [[1, 3, 7, 8], [0, 3, 7, 8], [3, 6, 7, 8], [0, 1, 2, 6, 7, 8], [6, 7, 8], [6, 7, 8], [2, 3, 4, 5, 7, 8], [0, 1, 2, 3, 4, 5, 6, 8], [0, 1, 2, 3, 4, 5, 6, 7]],
  [],
  28, [(2, 0), (2, 1), (4, 0), (4, 1), (4, 2), (4, 3), (5, 0), (5, 1), (5, 2), (5, 3), (5, 4), (6, 0), (6, 1)]⟩

/-- After the tests of node 8 without conditioning. -/
def exG8 : OSnap := ⟨[[], [], [], [], [], [], [], [], []],
  [[], [], [], [], [], [], [], [], []],
  [[1, 3, 7, 8], [0, 3, 7, 8], [3, 6, 7, 8], [0, 1, 2, 6, 7, 8], [6, 7, 8], [6, 7, 8], [2, 3, 4, 5, 7, 8], [0, 1, 2, 3, 4, 5, 6, 8], [0, 1, 2, 3, 4, 5, 6, 7]],
  [],
  36, [(2, 0), (2, 1), (4, 0), (4, 1), (4, 2), (4, 3), (5, 0), (5, 1), (5, 2), (5, 3), (5, 4), (6, 0), (6, 1)]⟩

/-- After `orient_graph`. -/
def exG9 : OSnap := ⟨[[], [], [], [], [], [], [], [], []],
  [[], [0], [], [0, 1, 2, 6], [], [], [2, 3, 4, 5], [0, 1, 2, 3, 4, 5, 6], [0, 1, 2, 3, 4, 5, 6, 7]],
  [[1, 3, 7, 8], [3, 7, 8], [3, 6, 7, 8], [7, 8], [6, 7, 8], [6, 7, 8], [7, 8], [8], []],
  [],
  36, [(2, 0), (2, 1), (4, 0), (4, 1), (4, 2), (4, 3), (5, 0), (5, 1), (5, 2), (5, 3), (5, 4), (6, 0), (6, 1)]⟩

/-- After the tests of node 2 with one conditioning node. -/
def exG10 : OSnap := ⟨[[], [], [], [], [], [], [], [], []],
  [[], [0], [], [0, 1, 2, 6], [], [], [2, 3, 4, 5], [0, 1, 2, 3, 4, 5, 6], [0, 1, 2, 3, 4, 5, 6, 7]],
  [[1, 3, 7, 8], [3, 7, 8], [3, 6, 7, 8], [7, 8], [6, 7, 8], [6, 7, 8], [7, 8], [8], []],
  [],
  36, [(2, 0), (2, 1), (4, 0), (4, 1), (4, 2), (4, 3), (5, 0), (5, 1), (5, 2), (5, 3), (5, 4), (6, 0), (6, 1)]⟩

/-- After the tests of node 3 with one conditioning node. -/
def exG11 : OSnap := ⟨[[], [], [], [], [], [], [], [], []],
  [[], [0], [], [0, 2, 6], [], [], [2, 3, 4, 5], [0, 1, 2, 3, 4, 5, 6], [0, 1, 2, 3, 4, 5, 6, 7]],
  [[1, 3, 7, 8], [7, 8], [3, 6, 7, 8], [7, 8], [6, 7, 8], [6, 7, 8], [7, 8], [8], []],
  [((1, 3), [0])],
  40, [(2, 0), (2, 1), (3, 1), (4, 0), (4, 1), (4, 2), (4, 3), (5, 0), (5, 1), (5, 2), (5, 3), (5, 4), (6, 0), (6, 1)]⟩

/-- After the tests of node 4 with one conditioning node. -/
def exG12 : OSnap := ⟨[[], [], [], [], [], [], [], [], []],
  [[], [0], [], [0, 2, 6], [], [], [2, 3, 4, 5], [0, 1, 2, 3, 4, 5, 6], [0, 1, 2, 3, 4, 5, 6, 7]],
  [[1, 3, 7, 8], [7, 8], [3, 6, 7, 8], [7, 8], [6, 7, 8], [6, 7, 8], [7, 8], [8], []],
  [((1, 3), [0])],
  40, [(2, 0), (2, 1), (3, 1), (4, 0), (4, 1), (4, 2), (4, 3), (5, 0), (5, 1), (5, 2), (5, 3), (5, 4), (6, 0), (6, 1)]⟩

/-- After the tests of node 5 with one conditioning node. -/
def exG13 : OSnap := ⟨[[], [], [], [], [], [], [], [], []],
  [[], [0], [], [0, 2, 6], [], [], [2, 3, 4, 5], [0, 1, 2, 3, 4, 5, 6], [0, 1, 2, 3, 4, 5, 6, 7]],
  [[1, 3, 7, 8], [7, 8], [3, 6, 7, 8], [7, 8], [6, 7, 8], [6, 7, 8], [7, 8], [8], []],
  [((1, 3), [0])],
  40, [(2, 0), (2, 1), (3, 1), (4, 0), (4, 1), (4, 2), (4, 3), (5, 0), (5, 1), (5, 2), (5, 3), (5, 4), (6, 0), (6, 1)]⟩

/-- After the tests of node 6 with one conditioning node. -/
def exG14 : OSnap := ⟨[[], [], [], [], [], [], [], [], []],
  [[], [0], [], [0, 2], [], [], [2, 4, 5], [0, 1, 2, 3, 4, 5, 6], [0, 1, 2, 3, 4, 5, 6, 7]],
  [[1, 3, 7, 8], [7, 8], [3, 6, 7, 8], [7, 8], [6, 7, 8], [6, 7, 8], [7, 8], [8], []],
  [((1, 3), [0]), ((3, 6), [2])],
  48, [(2, 0), (2, 1), (3, 1), (4, 0), (4, 1), (4, 2), (4, 3), (5, 0), (5, 1), (5, 2), (5, 3), (5, 4), (6, 0), (6, 1), (6, 3)]⟩

/-- After the tests of node 7 with one conditioning node. -/
def exG15 : OSnap := ⟨[[], [], [], [], [], [], [], [], []],
  [[], [0], [], [0, 2], [], [], [2, 4, 5], [0, 1, 2, 3, 4, 5, 6], [0, 1, 2, 3, 4, 5, 6, 7]],
  [[1, 3, 7, 8], [7, 8], [3, 6, 7, 8], [7, 8], [6, 7, 8], [6, 7, 8], [7, 8], [8], []],
  [((1, 3), [0]), ((3, 6), [2])],
  90, [(2, 0), (2, 1), (3, 1), (4, 0), (4, 1), (4, 2), (4, 3), (5, 0), (5, 1), (5, 2), (5, 3), (5, 4), (6, 0), (6, 1), (6, 3)]⟩

/-- After the tests of node 8 with one conditioning node. -/
def exG16 : OSnap := ⟨[[], [], [], [], [], [], [], [], []],
  [[], [0], [], [0, 2], [], [], [2, 4, 5], [0, 1, 2, 3, 4, 5, 6], [0, 1, 2, 3, 4, 5, 6, 7]],
  [[1, 3, 7, 8], [7, 8], [3, 6, 7, 8], [7, 8], [6, 7, 8], [6, 7, 8], [7, 8], [8], []],
  [((1, 3), [0]), ((3, 6), [2])],
  146, [(2, 0), (2, 1), (3, 1), (4, 0), (4, 1), (4, 2), (4, 3), (5, 0), (5, 1), (5, 2), (5, 3), (5, 4), (6, 0), (6, 1), (6, 3)]⟩

/-- After `orient_graph`. -/
def exG17 : OSnap := ⟨[[], [], [], [], [], [], [], [], []],
  [[], [0], [], [0, 2], [], [], [2, 4, 5], [0, 1, 2, 3, 4, 5, 6], [0, 1, 2, 3, 4, 5, 6, 7]],
  [[1, 3, 7, 8], [7, 8], [3, 6, 7, 8], [7, 8], [6, 7, 8], [6, 7, 8], [7, 8], [8], []],
  [((1, 3), [0]), ((3, 6), [2])],
  146, [(2, 0), (2, 1), (3, 1), (4, 0), (4, 1), (4, 2), (4, 3), (5, 0), (5, 1), (5, 2), (5, 3), (5, 4), (6, 0), (6, 1), (6, 3)]⟩

/-- After the tests of node 3 with 2 conditioning nodes. -/
def exG18 : OSnap := ⟨[[], [], [], [], [], [], [], [], []],
  [[], [0], [], [0, 2], [], [], [2, 4, 5], [0, 1, 2, 3, 4, 5, 6], [0, 1, 2, 3, 4, 5, 6, 7]],
  [[1, 3, 7, 8], [7, 8], [3, 6, 7, 8], [7, 8], [6, 7, 8], [6, 7, 8], [7, 8], [8], []],
  [((1, 3), [0]), ((3, 6), [2])],
  146, [(2, 0), (2, 1), (3, 0), (3, 1), (3, 2), (4, 0), (4, 1), (4, 2), (4, 3), (5, 0), (5, 1), (5, 2), (5, 3), (5, 4), (6, 0), (6, 1), (6, 3)]⟩

/-- After the tests of node 4 with 2 conditioning nodes. -/
def exG19 : OSnap := ⟨[[], [], [], [], [], [], [], [], []],
  [[], [0], [], [0, 2], [], [], [2, 4, 5], [0, 1, 2, 3, 4, 5, 6], [0, 1, 2, 3, 4, 5, 6, 7]],
  [[1, 3, 7, 8], [7, 8], [3, 6, 7, 8], [7, 8], [6, 7, 8], [6, 7, 8], [7, 8], [8], []],
  [((1, 3), [0]), ((3, 6), [2])],
  146, [(2, 0), (2, 1), (3, 0), (3, 1), (3, 2), (4, 0), (4, 1), (4, 2), (4, 3), (5, 0), (5, 1), (5, 2), (5, 3), (5, 4), (6, 0), (6, 1), (6, 3)]⟩

/-- After the tests of node 5 with 2 conditioning nodes. -/
def exG20 : OSnap := ⟨[[], [], [], [], [], [], [], [], []],
  [[], [0], [], [0, 2], [], [], [2, 4, 5], [0, 1, 2, 3, 4, 5, 6], [0, 1, 2, 3, 4, 5, 6, 7]],
  [[1, 3, 7, 8], [7, 8], [3, 6, 7, 8], [7, 8], [6, 7, 8], [6, 7, 8], [7, 8], [8], []],
  [((1, 3), [0]), ((3, 6), [2])],
  146, [(2, 0), (2, 1), (3, 0), (3, 1), (3, 2), (4, 0), (4, 1), (4, 2), (4, 3), (5, 0), (5, 1), (5, 2), (5, 3), (5, 4), (6, 0), (6, 1), (6, 3)]⟩

/-- After the tests of node 6 with 2 conditioning nodes. -/
def exG21 : OSnap := ⟨[[], [], [], [], [], [], [], [], []],
  [[], [0], [], [0, 2], [], [], [2, 4, 5], [0, 1, 2, 3, 4, 5, 6], [0, 1, 2, 3, 4, 5, 6, 7]],
  [[1, 3, 7, 8], [7, 8], [3, 6, 7, 8], [7, 8], [6, 7, 8], [6, 7, 8], [7, 8], [8], []],
  [((1, 3), [0]), ((3, 6), [2])],
  149, [(2, 0), (2, 1), (3, 0), (3, 1), (3, 2), (4, 0), (4, 1), (4, 2), (4, 3), (5, 0), (5, 1), (5, 2), (5, 3), (5, 4), (6, 0), (6, 1), (6, 3)]⟩

/-- After the tests of node 7 with 2 conditioning nodes. -/
def exG22 : OSnap := ⟨[[], [], [], [], [], [], [], [], []],
  [[], [0], [], [0, 2], [], [], [2, 4, 5], [1, 3, 4, 5, 6], [0, 1, 2, 3, 4, 5, 6, 7]],
  [[1, 3, 8], [7, 8], [3, 6, 8], [7, 8], [6, 7, 8], [6, 7, 8], [7, 8], [8], []],
  [((0, 7), [1, 3]), ((1, 3), [0]), ((2, 7), [0, 3]), ((3, 6), [2])],
  228, [(2, 0), (2, 1), (3, 0), (3, 1), (3, 2), (4, 0), (4, 1), (4, 2), (4, 3), (5, 0), (5, 1), (5, 2), (5, 3), (5, 4), (6, 0), (6, 1), (6, 3),
    (7, 0), (7, 2)]⟩

/-- After the tests of node 8 with 2 conditioning nodes. -/
def exG23 : OSnap := ⟨[[], [], [], [], [], [], [], [], []],
  [[], [0], [], [0, 2], [], [], [2, 4, 5], [1, 3, 4, 5, 6], [0, 1, 2, 3, 4, 5, 6, 7]],
  [[1, 3, 8], [7, 8], [3, 6, 8], [7, 8], [6, 7, 8], [6, 7, 8], [7, 8], [8], []],
  [((0, 7), [1, 3]), ((1, 3), [0]), ((2, 7), [0, 3]), ((3, 6), [2])],
  396, [(2, 0), (2, 1), (3, 0), (3, 1), (3, 2), (4, 0), (4, 1), (4, 2), (4, 3), (5, 0), (5, 1), (5, 2), (5, 3), (5, 4), (6, 0), (6, 1), (6, 3),
    (7, 0), (7, 2)]⟩

/-- After `orient_graph`. -/
def exG24 : OSnap := ⟨[[], [7], [], [7], [], [], [], [], []],
  [[], [0], [], [0, 2], [], [], [2, 4, 5, 7], [1, 3, 4, 5, 6], [0, 1, 2, 3, 4, 5, 6, 7]],
  [[1, 3, 8], [8], [3, 6, 8], [8], [6, 7, 8], [6, 7, 8], [8], [8], []],
  [((0, 7), [1, 3]), ((1, 3), [0]), ((2, 7), [0, 3]), ((3, 6), [2])],
  396, [(2, 0), (2, 1), (3, 0), (3, 1), (3, 2), (4, 0), (4, 1), (4, 2), (4, 3), (5, 0), (5, 1), (5, 2), (5, 3), (5, 4), (6, 0), (6, 1), (6, 3),
    (7, 0), (7, 2)]⟩

/-- After the tests of node 4 with 3 conditioning nodes. -/
def exG25 : OSnap := ⟨[[], [7], [], [7], [], [], [], [], []],
  [[], [0], [], [0, 2], [], [], [2, 4, 5, 7], [1, 3, 4, 5, 6], [0, 1, 2, 3, 4, 5, 6, 7]],
  [[1, 3, 8], [8], [3, 6, 8], [8], [6, 7, 8], [6, 7, 8], [8], [8], []],
  [((0, 7), [1, 3]), ((1, 3), [0]), ((2, 7), [0, 3]), ((3, 6), [2])],
  396, [(2, 0), (2, 1), (3, 0), (3, 1), (3, 2), (4, 0), (4, 1), (4, 2), (4, 3), (5, 0), (5, 1), (5, 2), (5, 3), (5, 4), (6, 0), (6, 1), (6, 3),
    (7, 0), (7, 2)]⟩

/-- After the tests of node 5 with 3 conditioning nodes. -/
def exG26 : OSnap := ⟨[[], [7], [], [7], [], [], [], [], []],
  [[], [0], [], [0, 2], [], [], [2, 4, 5, 7], [1, 3, 4, 5, 6], [0, 1, 2, 3, 4, 5, 6, 7]],
  [[1, 3, 8], [8], [3, 6, 8], [8], [6, 7, 8], [6, 7, 8], [8], [8], []],
  [((0, 7), [1, 3]), ((1, 3), [0]), ((2, 7), [0, 3]), ((3, 6), [2])],
  396, [(2, 0), (2, 1), (3, 0), (3, 1), (3, 2), (4, 0), (4, 1), (4, 2), (4, 3), (5, 0), (5, 1), (5, 2), (5, 3), (5, 4), (6, 0), (6, 1), (6, 3),
    (7, 0), (7, 2)]⟩

/-- After the tests of node 6 with 3 conditioning nodes. -/
def exG27 : OSnap := ⟨[[], [7], [], [7], [], [], [], [], []],
  [[], [0], [], [0, 2], [], [], [2, 4, 5, 7], [1, 3, 4, 5, 6], [0, 1, 2, 3, 4, 5, 6, 7]],
  [[1, 3, 8], [8], [3, 6, 8], [8], [6, 7, 8], [6, 7, 8], [8], [8], []],
  [((0, 7), [1, 3]), ((1, 3), [0]), ((2, 7), [0, 3]), ((3, 6), [2])],
  396, [(2, 0), (2, 1), (3, 0), (3, 1), (3, 2), (4, 0), (4, 1), (4, 2), (4, 3), (5, 0), (5, 1), (5, 2), (5, 3), (5, 4), (6, 0), (6, 1), (6, 2), (6, 3), (6, 4), (6, 5),
    (7, 0), (7, 2)]⟩

/-- After the tests of node 7 with 3 conditioning nodes. -/
def exG28 : OSnap := ⟨[[], [7], [], [7], [], [], [], [], []],
  [[], [0], [], [0, 2], [], [], [2, 4, 5, 7], [1, 3, 4, 5, 6], [0, 1, 2, 3, 4, 5, 6, 7]],
  [[1, 3, 8], [8], [3, 6, 8], [8], [6, 7, 8], [6, 7, 8], [8], [8], []],
  [((0, 7), [1, 3]), ((1, 3), [0]), ((2, 7), [0, 3]), ((3, 6), [2])],
  404, [(2, 0), (2, 1), (3, 0), (3, 1), (3, 2), (4, 0), (4, 1), (4, 2), (4, 3), (5, 0), (5, 1), (5, 2), (5, 3), (5, 4), (6, 0), (6, 1), (6, 2), (6, 3), (6, 4), (6, 5),
    (7, 0), (7, 2)]⟩

/-- After the tests of node 8 with 3 conditioning nodes. -/
def exG29 : OSnap := ⟨[[], [7], [], [7], [], [], [], [], []],
  [[], [0], [], [0, 2], [], [], [2, 4, 5, 7], [1, 3, 4, 5, 6], [0, 1, 2, 3, 7]],
  [[1, 3, 8], [8], [3, 6, 8], [8], [6, 7], [6, 7], [], [8], []],
  [((0, 7), [1, 3]), ((1, 3), [0]), ((2, 7), [0, 3]), ((3, 6), [2]), ((4, 8), [1, 3, 7]), ((5, 8), [1, 3, 7]), ((6, 8), [2, 4, 5])],
  637, [(2, 0), (2, 1), (3, 0), (3, 1), (3, 2), (4, 0), (4, 1), (4, 2), (4, 3), (5, 0), (5, 1), (5, 2), (5, 3), (5, 4), (6, 0), (6, 1), (6, 2), (6, 3), (6, 4), (6, 5),
    (7, 0), (7, 2), (8, 4), (8, 5), (8, 6)]⟩

/-- After `orient_graph`. -/
def exG30 : OSnap := ⟨[[], [7], [], [7], [], [], [], [], []],
  [[], [0], [], [0, 2], [], [], [2, 4, 5, 7], [1, 3, 4, 5, 6, 8], [0, 1, 2, 3, 7]],
  [[1, 3, 8], [8], [3, 6, 8], [8], [6, 7], [6, 7], [], [], []],
  [((0, 7), [1, 3]), ((1, 3), [0]), ((2, 7), [0, 3]), ((3, 6), [2]), ((4, 8), [1, 3, 7]), ((5, 8), [1, 3, 7]), ((6, 8), [2, 4, 5])],
  637, [(2, 0), (2, 1), (3, 0), (3, 1), (3, 2), (4, 0), (4, 1), (4, 2), (4, 3), (5, 0), (5, 1), (5, 2), (5, 3), (5, 4), (6, 0), (6, 1), (6, 2), (6, 3), (6, 4), (6, 5),
    (7, 0), (7, 2), (8, 4), (8, 5), (8, 6)]⟩

/-- After the tests of node 5 with 4 conditioning nodes. -/
def exG31 : OSnap := ⟨[[], [7], [], [7], [], [], [], [], []],
  [[], [0], [], [0, 2], [], [], [2, 4, 5, 7], [1, 3, 4, 5, 6, 8], [0, 1, 2, 3, 7]],
  [[1, 3, 8], [8], [3, 6, 8], [8], [6, 7], [6, 7], [], [], []],
  [((0, 7), [1, 3]), ((1, 3), [0]), ((2, 7), [0, 3]), ((3, 6), [2]), ((4, 8), [1, 3, 7]), ((5, 8), [1, 3, 7]), ((6, 8), [2, 4, 5])],
  637, [(2, 0), (2, 1), (3, 0), (3, 1), (3, 2), (4, 0), (4, 1), (4, 2), (4, 3), (5, 0), (5, 1), (5, 2), (5, 3), (5, 4), (6, 0), (6, 1), (6, 2), (6, 3), (6, 4), (6, 5),
    (7, 0), (7, 2), (8, 4), (8, 5), (8, 6)]⟩

/-- After the tests of node 6 with 4 conditioning nodes. -/
def exG32 : OSnap := ⟨[[], [7], [], [7], [], [], [], [], []],
  [[], [0], [], [0, 2], [], [], [2, 4, 5, 7], [1, 3, 4, 5, 6, 8], [0, 1, 2, 3, 7]],
  [[1, 3, 8], [8], [3, 6, 8], [8], [6, 7], [6, 7], [], [], []],
  [((0, 7), [1, 3]), ((1, 3), [0]), ((2, 7), [0, 3]), ((3, 6), [2]), ((4, 8), [1, 3, 7]), ((5, 8), [1, 3, 7]), ((6, 8), [2, 4, 5])],
  637, [(2, 0), (2, 1), (3, 0), (3, 1), (3, 2), (4, 0), (4, 1), (4, 2), (4, 3), (5, 0), (5, 1), (5, 2), (5, 3), (5, 4), (6, 0), (6, 1), (6, 2), (6, 3), (6, 4), (6, 5),
    (7, 0), (7, 2), (8, 4), (8, 5), (8, 6)]⟩

/-- After the tests of node 7 with 4 conditioning nodes. -/
def exG33 : OSnap := ⟨[[], [7], [], [7], [], [], [], [], []],
  [[], [0], [], [0, 2], [], [], [2, 4, 5], [1, 3, 4, 5, 8], [0, 1, 2, 3, 7]],
  [[1, 3, 8], [8], [3, 6, 8], [8], [6, 7], [6, 7], [], [], []],
  [((0, 7), [1, 3]), ((1, 3), [0]), ((2, 7), [0, 3]), ((3, 6), [2]), ((4, 8), [1, 3, 7]), ((5, 8), [1, 3, 7]), ((6, 7), [1, 3, 4, 5]), ((6, 8), [2, 4, 5])],
  638, [(2, 0), (2, 1), (3, 0), (3, 1), (3, 2), (4, 0), (4, 1), (4, 2), (4, 3), (5, 0), (5, 1), (5, 2), (5, 3), (5, 4), (6, 0), (6, 1), (6, 2), (6, 3), (6, 4), (6, 5),
    (7, 0), (7, 1), (7, 2), (7, 3), (7, 4), (7, 5), (7, 6), (8, 4), (8, 5), (8, 6)]⟩

/-- After the tests of node 8 with 4 conditioning nodes. -/
def exG34 : OSnap := ⟨[[], [7], [], [7], [], [], [], [], []],
  [[], [0], [], [0, 2], [], [], [2, 4, 5], [1, 3, 4, 5, 8], [0, 1, 2, 3, 7]],
  [[1, 3, 8], [8], [3, 6, 8], [8], [6, 7], [6, 7], [], [], []],
  [((0, 7), [1, 3]), ((1, 3), [0]), ((2, 7), [0, 3]), ((3, 6), [2]), ((4, 8), [1, 3, 7]), ((5, 8), [1, 3, 7]), ((6, 7), [1, 3, 4, 5]), ((6, 8), [2, 4, 5])],
  639, [(2, 0), (2, 1), (3, 0), (3, 1), (3, 2), (4, 0), (4, 1), (4, 2), (4, 3), (5, 0), (5, 1), (5, 2), (5, 3), (5, 4), (6, 0), (6, 1), (6, 2), (6, 3), (6, 4), (6, 5),
    (7, 0), (7, 1), (7, 2), (7, 3), (7, 4), (7, 5), (7, 6), (8, 0), (8, 1), (8, 2), (8, 3), (8, 4), (8, 5), (8, 6)]⟩

/-- After `orient_graph`. -/
def exG35 : OSnap := ⟨[[], [7, 8], [], [7, 8], [], [], [], [8], []],
  [[], [0], [], [0, 2], [], [], [2, 4, 5], [1, 3, 4, 5], [0, 1, 2, 3, 7]],
  [[1, 3, 8], [], [3, 6, 8], [], [6, 7], [6, 7], [], [], []],
  [((0, 7), [1, 3]), ((1, 3), [0]), ((2, 7), [0, 3]), ((3, 6), [2]), ((4, 8), [1, 3, 7]), ((5, 8), [1, 3, 7]), ((6, 7), [1, 3, 4, 5]), ((6, 8), [2, 4, 5])],
  639, [(2, 0), (2, 1), (3, 0), (3, 1), (3, 2), (4, 0), (4, 1), (4, 2), (4, 3), (5, 0), (5, 1), (5, 2), (5, 3), (5, 4), (6, 0), (6, 1), (6, 2), (6, 3), (6, 4), (6, 5),
    (7, 0), (7, 1), (7, 2), (7, 3), (7, 4), (7, 5), (7, 6), (8, 0), (8, 1), (8, 2), (8, 3), (8, 4), (8, 5), (8, 6)]⟩

/-- After the tests of node 6 with 5 conditioning nodes. -/
def exG36 : OSnap := ⟨[[], [7, 8], [], [7, 8], [], [], [], [8], []],
  [[], [0], [], [0, 2], [], [], [2, 4, 5], [1, 3, 4, 5], [0, 1, 2, 3, 7]],
  [[1, 3, 8], [], [3, 6, 8], [], [6, 7], [6, 7], [], [], []],
  [((0, 7), [1, 3]), ((1, 3), [0]), ((2, 7), [0, 3]), ((3, 6), [2]), ((4, 8), [1, 3, 7]), ((5, 8), [1, 3, 7]), ((6, 7), [1, 3, 4, 5]), ((6, 8), [2, 4, 5])],
  639, [(2, 0), (2, 1), (3, 0), (3, 1), (3, 2), (4, 0), (4, 1), (4, 2), (4, 3), (5, 0), (5, 1), (5, 2), (5, 3), (5, 4), (6, 0), (6, 1), (6, 2), (6, 3), (6, 4), (6, 5),
    (7, 0), (7, 1), (7, 2), (7, 3), (7, 4), (7, 5), (7, 6), (8, 0), (8, 1), (8, 2), (8, 3), (8, 4), (8, 5), (8, 6)]⟩

/-- After the tests of node 7 with 5 conditioning nodes. -/
def exG37 : OSnap := ⟨[[], [7, 8], [], [7, 8], [], [], [], [8], []],
  [[], [0], [], [0, 2], [], [], [2, 4, 5], [1, 3, 4, 5], [0, 1, 2, 3, 7]],
  [[1, 3, 8], [], [3, 6, 8], [], [6, 7], [6, 7], [], [], []],
  [((0, 7), [1, 3]), ((1, 3), [0]), ((2, 7), [0, 3]), ((3, 6), [2]), ((4, 8), [1, 3, 7]), ((5, 8), [1, 3, 7]), ((6, 7), [1, 3, 4, 5]), ((6, 8), [2, 4, 5])],
  639, [(2, 0), (2, 1), (3, 0), (3, 1), (3, 2), (4, 0), (4, 1), (4, 2), (4, 3), (5, 0), (5, 1), (5, 2), (5, 3), (5, 4), (6, 0), (6, 1), (6, 2), (6, 3), (6, 4), (6, 5),
    (7, 0), (7, 1), (7, 2), (7, 3), (7, 4), (7, 5), (7, 6), (8, 0), (8, 1), (8, 2), (8, 3), (8, 4), (8, 5), (8, 6)]⟩

/-- After the tests of node 8 with 5 conditioning nodes. -/
def exG38 : OSnap := ⟨[[], [7, 8], [], [7, 8], [], [], [], [8], []],
  [[], [0], [], [0, 2], [], [], [2, 4, 5], [1, 3, 4, 5], [0, 1, 2, 3, 7]],
  [[1, 3, 8], [], [3, 6, 8], [], [6, 7], [6, 7], [], [], []],
  [((0, 7), [1, 3]), ((1, 3), [0]), ((2, 7), [0, 3]), ((3, 6), [2]), ((4, 8), [1, 3, 7]), ((5, 8), [1, 3, 7]), ((6, 7), [1, 3, 4, 5]), ((6, 8), [2, 4, 5])],
  639, [(2, 0), (2, 1), (3, 0), (3, 1), (3, 2), (4, 0), (4, 1), (4, 2), (4, 3), (5, 0), (5, 1), (5, 2), (5, 3), (5, 4), (6, 0), (6, 1), (6, 2), (6, 3), (6, 4), (6, 5),
    (7, 0), (7, 1), (7, 2), (7, 3), (7, 4), (7, 5), (7, 6), (8, 0), (8, 1), (8, 2), (8, 3), (8, 4), (8, 5), (8, 6), (8, 7)]⟩

/-- After `orient_graph`. -/
def exG39 : OSnap := ⟨[[], [7, 8], [], [7, 8], [], [], [], [8], []],
  [[], [0], [], [0, 2], [], [], [2, 4, 5], [1, 3, 4, 5], [0, 1, 2, 3, 7]],
  [[1, 3, 8], [], [3, 6, 8], [], [6, 7], [6, 7], [], [], []],
  [((0, 7), [1, 3]), ((1, 3), [0]), ((2, 7), [0, 3]), ((3, 6), [2]), ((4, 8), [1, 3, 7]), ((5, 8), [1, 3, 7]), ((6, 7), [1, 3, 4, 5]), ((6, 8), [2, 4, 5])],
  639, [(2, 0), (2, 1), (3, 0), (3, 1), (3, 2), (4, 0), (4, 1), (4, 2), (4, 3), (5, 0), (5, 1), (5, 2), (5, 3), (5, 4), (6, 0), (6, 1), (6, 2), (6, 3), (6, 4), (6, 5),
    (7, 0), (7, 1), (7, 2), (7, 3), (7, 4), (7, 5), (7, 6), (8, 0), (8, 1), (8, 2), (8, 3), (8, 4), (8, 5), (8, 6), (8, 7)]⟩

/-- After the tests of node 7 with 6 conditioning nodes. -/
def exG40 : OSnap := ⟨[[], [7, 8], [], [7, 8], [], [], [], [8], []],
  [[], [0], [], [0, 2], [], [], [2, 4, 5], [1, 3, 4, 5], [0, 1, 2, 3, 7]],
  [[1, 3, 8], [], [3, 6, 8], [], [6, 7], [6, 7], [], [], []],
  [((0, 7), [1, 3]), ((1, 3), [0]), ((2, 7), [0, 3]), ((3, 6), [2]), ((4, 8), [1, 3, 7]), ((5, 8), [1, 3, 7]), ((6, 7), [1, 3, 4, 5]), ((6, 8), [2, 4, 5])],
  639, [(2, 0), (2, 1), (3, 0), (3, 1), (3, 2), (4, 0), (4, 1), (4, 2), (4, 3), (5, 0), (5, 1), (5, 2), (5, 3), (5, 4), (6, 0), (6, 1), (6, 2), (6, 3), (6, 4), (6, 5),
    (7, 0), (7, 1), (7, 2), (7, 3), (7, 4), (7, 5), (7, 6), (8, 0), (8, 1), (8, 2), (8, 3), (8, 4), (8, 5), (8, 6), (8, 7)]⟩

/-- After the tests of node 8 with 6 conditioning nodes. -/
def exG41 : OSnap := ⟨[[], [7, 8], [], [7, 8], [], [], [], [8], []],
  [[], [0], [], [0, 2], [], [], [2, 4, 5], [1, 3, 4, 5], [0, 1, 2, 3, 7]],
  [[1, 3, 8], [], [3, 6, 8], [], [6, 7], [6, 7], [], [], []],
  [((0, 7), [1, 3]), ((1, 3), [0]), ((2, 7), [0, 3]), ((3, 6), [2]), ((4, 8), [1, 3, 7]), ((5, 8), [1, 3, 7]), ((6, 7), [1, 3, 4, 5]), ((6, 8), [2, 4, 5])],
  639, [(2, 0), (2, 1), (3, 0), (3, 1), (3, 2), (4, 0), (4, 1), (4, 2), (4, 3), (5, 0), (5, 1), (5, 2), (5, 3), (5, 4), (6, 0), (6, 1), (6, 2), (6, 3), (6, 4), (6, 5),
    (7, 0), (7, 1), (7, 2), (7, 3), (7, 4), (7, 5), (7, 6), (8, 0), (8, 1), (8, 2), (8, 3), (8, 4), (8, 5), (8, 6), (8, 7)]⟩

/-- After `orient_graph`. -/
def exG42 : OSnap := ⟨[[], [7, 8], [], [7, 8], [], [], [], [8], []],
  [[], [0], [], [0, 2], [], [], [2, 4, 5], [1, 3, 4, 5], [0, 1, 2, 3, 7]],
  [[1, 3, 8], [], [3, 6, 8], [], [6, 7], [6, 7], [], [], []],
  [((0, 7), [1, 3]), ((1, 3), [0]), ((2, 7), [0, 3]), ((3, 6), [2]), ((4, 8), [1, 3, 7]), ((5, 8), [1, 3, 7]), ((6, 7), [1, 3, 4, 5]), ((6, 8), [2, 4, 5])],
  639, [(2, 0), (2, 1), (3, 0), (3, 1), (3, 2), (4, 0), (4, 1), (4, 2), (4, 3), (5, 0), (5, 1), (5, 2), (5, 3), (5, 4), (6, 0), (6, 1), (6, 2), (6, 3), (6, 4), (6, 5),
    (7, 0), (7, 1), (7, 2), (7, 3), (7, 4), (7, 5), (7, 6), (8, 0), (8, 1), (8, 2), (8, 3), (8, 4), (8, 5), (8, 6), (8, 7)]⟩

/-- After the tests of node 8 with 7 conditioning nodes. -/
def exG43 : OSnap := ⟨[[], [7, 8], [], [7, 8], [], [], [], [8], []],
  [[], [0], [], [0, 2], [], [], [2, 4, 5], [1, 3, 4, 5], [0, 1, 2, 3, 7]],
  [[1, 3, 8], [], [3, 6, 8], [], [6, 7], [6, 7], [], [], []],
  [((0, 7), [1, 3]), ((1, 3), [0]), ((2, 7), [0, 3]), ((3, 6), [2]), ((4, 8), [1, 3, 7]), ((5, 8), [1, 3, 7]), ((6, 7), [1, 3, 4, 5]), ((6, 8), [2, 4, 5])],
  639, [(2, 0), (2, 1), (3, 0), (3, 1), (3, 2), (4, 0), (4, 1), (4, 2), (4, 3), (5, 0), (5, 1), (5, 2), (5, 3), (5, 4), (6, 0), (6, 1), (6, 2), (6, 3), (6, 4), (6, 5),
    (7, 0), (7, 1), (7, 2), (7, 3), (7, 4), (7, 5), (7, 6), (8, 0), (8, 1), (8, 2), (8, 3), (8, 4), (8, 5), (8, 6), (8, 7)]⟩

/-- After `orient_graph`. -/
def exG44 : OSnap := ⟨[[], [7, 8], [], [7, 8], [], [], [], [8], []],
  [[], [0], [], [0, 2], [], [], [2, 4, 5], [1, 3, 4, 5], [0, 1, 2, 3, 7]],
  [[1, 3, 8], [], [3, 6, 8], [], [6, 7], [6, 7], [], [], []],
  [((0, 7), [1, 3]), ((1, 3), [0]), ((2, 7), [0, 3]), ((3, 6), [2]), ((4, 8), [1, 3, 7]), ((5, 8), [1, 3, 7]), ((6, 7), [1, 3, 4, 5]), ((6, 8), [2, 4, 5])],
  639, [(2, 0), (2, 1), (3, 0), (3, 1), (3, 2), (4, 0), (4, 1), (4, 2), (4, 3), (5, 0), (5, 1), (5, 2), (5, 3), (5, 4), (6, 0), (6, 1), (6, 2), (6, 3), (6, 4), (6, 5),
    (7, 0), (7, 1), (7, 2), (7, 3), (7, 4), (7, 5), (7, 6), (8, 0), (8, 1), (8, 2), (8, 3), (8, 4), (8, 5), (8, 6), (8, 7)]⟩

/-- After `orient_graph`. -/
def exG45 : OSnap := ⟨[[8], [7, 8], [8], [7, 8], [], [], [], [8], []],
  [[], [0], [], [0, 2], [], [], [2, 4, 5], [1, 3, 4, 5], [0, 1, 2, 3, 7]],
  [[1, 3], [], [3, 6], [], [6, 7], [6, 7], [], [], []],
  [((0, 7), [1, 3]), ((1, 3), [0]), ((2, 7), [0, 3]), ((3, 6), [2]), ((4, 8), [1, 3, 7]), ((5, 8), [1, 3, 7]), ((6, 7), [1, 3, 4, 5]), ((6, 8), [2, 4, 5])],
  639, [(2, 0), (2, 1), (3, 0), (3, 1), (3, 2), (4, 0), (4, 1), (4, 2), (4, 3), (5, 0), (5, 1), (5, 2), (5, 3), (5, 4), (6, 0), (6, 1), (6, 2), (6, 3), (6, 4), (6, 5),
    (7, 0), (7, 1), (7, 2), (7, 3), (7, 4), (7, 5), (7, 6), (8, 0), (8, 1), (8, 2), (8, 3), (8, 4), (8, 5), (8, 6), (8, 7)]⟩

theorem exG_run1 : (OIcd.phase0 exGTest (List.range 9) 1 (exG0.state 9)).okWith (fun r => exG1.agree 9 r) = true := by decide +kernel

theorem exG_run2 : (OIcd.phase0 exGTest (List.range 9) 2 (exG1.state 9)).okWith (fun r => exG2.agree 9 r) = true := by decide +kernel

theorem exG_run3 : (OIcd.phase0 exGTest (List.range 9) 3 (exG2.state 9)).okWith (fun r => exG3.agree 9 r) = true := by decide +kernel

theorem exG_run4 : (OIcd.phase0 exGTest (List.range 9) 4 (exG3.state 9)).okWith (fun r => exG4.agree 9 r) = true := by decide +kernel

theorem exG_run5 : (OIcd.phase0 exGTest (List.range 9) 5 (exG4.state 9)).okWith (fun r => exG5.agree 9 r) = true := by decide +kernel

theorem exG_run6 : (OIcd.phase0 exGTest (List.range 9) 6 (exG5.state 9)).okWith (fun r => exG6.agree 9 r) = true := by decide +kernel

theorem exG_run7 : (OIcd.phase0 exGTest (List.range 9) 7 (exG6.state 9)).okWith (fun r => exG7.agree 9 r) = true := by decide +kernel

theorem exG_run8 : (OIcd.phase0 exGTest (List.range 9) 8 (exG7.state 9)).okWith (fun r => exG8.agree 9 r) = true := by decide +kernel

theorem exG_run9 : (OIcd.orient ascending exGOpts true (exG8.state 9)).okWith (fun r => exG9.agree 9 r) = true := by decide +kernel

theorem exG_run10 : (OIcd.phase1 ascending exGTest (List.range 9) 2 (exG9.state 9)).okWith (fun r => exG10.agree 9 r) = true := by decide +kernel

theorem exG_run11 : (OIcd.phase1 ascending exGTest (List.range 9) 3 (exG10.state 9)).okWith (fun r => exG11.agree 9 r) = true := by decide +kernel

theorem exG_run12 : (OIcd.phase1 ascending exGTest (List.range 9) 4 (exG11.state 9)).okWith (fun r => exG12.agree 9 r) = true := by decide +kernel

theorem exG_run13 : (OIcd.phase1 ascending exGTest (List.range 9) 5 (exG12.state 9)).okWith (fun r => exG13.agree 9 r) = true := by decide +kernel

theorem exG_run14 : (OIcd.phase1 ascending exGTest (List.range 9) 6 (exG13.state 9)).okWith (fun r => exG14.agree 9 r) = true := by decide +kernel

theorem exG_run15 : (OIcd.phase1 ascending exGTest (List.range 9) 7 (exG14.state 9)).okWith (fun r => exG15.agree 9 r) = true := by decide +kernel

theorem exG_run16 : (OIcd.phase1 ascending exGTest (List.range 9) 8 (exG15.state 9)).okWith (fun r => exG16.agree 9 r) = true := by decide +kernel

theorem exG_run17 : (OIcd.orient ascending exGOpts true (exG16.state 9)).okWith (fun r => exG17.agree 9 r) = true := by decide +kernel

theorem exG_run18 : (OIcd.phaseR ascending exGTest (List.range 9) 2 3 (exG17.state 9)).okWith (fun r => exG18.agree 9 r.1 && (r.2 == true)) = true := by decide +kernel

theorem exG_run19 : (OIcd.phaseR ascending exGTest (List.range 9) 2 4 (exG18.state 9)).okWith (fun r => exG19.agree 9 r.1 && (r.2 == true)) = true := by decide +kernel

theorem exG_run20 : (OIcd.phaseR ascending exGTest (List.range 9) 2 5 (exG19.state 9)).okWith (fun r => exG20.agree 9 r.1 && (r.2 == true)) = true := by decide +kernel

theorem exG_run21 : (OIcd.phaseR ascending exGTest (List.range 9) 2 6 (exG20.state 9)).okWith (fun r => exG21.agree 9 r.1 && (r.2 == false)) = true := by decide +kernel

theorem exG_run22 : (OIcd.phaseR ascending exGTest (List.range 9) 2 7 (exG21.state 9)).okWith (fun r => exG22.agree 9 r.1 && (r.2 == false)) = true := by decide +kernel

theorem exG_run23 : (OIcd.phaseR ascending exGTest (List.range 9) 2 8 (exG22.state 9)).okWith (fun r => exG23.agree 9 r.1 && (r.2 == false)) = true := by decide +kernel

theorem exG_run24 : (OIcd.orient ascending exGOpts true (exG23.state 9)).okWith (fun r => exG24.agree 9 r) = true := by decide +kernel

theorem exG_run25 : (OIcd.phaseR ascending exGTest (List.range 9) 3 4 (exG24.state 9)).okWith (fun r => exG25.agree 9 r.1 && (r.2 == true)) = true := by decide +kernel

theorem exG_run26 : (OIcd.phaseR ascending exGTest (List.range 9) 3 5 (exG25.state 9)).okWith (fun r => exG26.agree 9 r.1 && (r.2 == true)) = true := by decide +kernel

theorem exG_run27 : (OIcd.phaseR ascending exGTest (List.range 9) 3 6 (exG26.state 9)).okWith (fun r => exG27.agree 9 r.1 && (r.2 == true)) = true := by decide +kernel

theorem exG_run28 : (OIcd.phaseR ascending exGTest (List.range 9) 3 7 (exG27.state 9)).okWith (fun r => exG28.agree 9 r.1 && (r.2 == false)) = true := by decide +kernel

theorem exG_run29 : (OIcd.phaseR ascending exGTest (List.range 9) 3 8 (exG28.state 9)).okWith (fun r => exG29.agree 9 r.1 && (r.2 == false)) = true := by decide +kernel

theorem exG_run30 : (OIcd.orient ascending exGOpts true (exG29.state 9)).okWith (fun r => exG30.agree 9 r) = true := by decide +kernel

theorem exG_run31 : (OIcd.phaseR ascending exGTest (List.range 9) 4 5 (exG30.state 9)).okWith (fun r => exG31.agree 9 r.1 && (r.2 == true)) = true := by decide +kernel

theorem exG_run32 : (OIcd.phaseR ascending exGTest (List.range 9) 4 6 (exG31.state 9)).okWith (fun r => exG32.agree 9 r.1 && (r.2 == true)) = true := by decide +kernel

theorem exG_run33 : (OIcd.phaseR ascending exGTest (List.range 9) 4 7 (exG32.state 9)).okWith (fun r => exG33.agree 9 r.1 && (r.2 == true)) = true := by decide +kernel

theorem exG_run34 : (OIcd.phaseR ascending exGTest (List.range 9) 4 8 (exG33.state 9)).okWith (fun r => exG34.agree 9 r.1 && (r.2 == false)) = true := by decide +kernel

theorem exG_run35 : (OIcd.orient ascending exGOpts true (exG34.state 9)).okWith (fun r => exG35.agree 9 r) = true := by decide +kernel

theorem exG_run36 : (OIcd.phaseR ascending exGTest (List.range 9) 5 6 (exG35.state 9)).okWith (fun r => exG36.agree 9 r.1 && (r.2 == true)) = true := by decide +kernel

theorem exG_run37 : (OIcd.phaseR ascending exGTest (List.range 9) 5 7 (exG36.state 9)).okWith (fun r => exG37.agree 9 r.1 && (r.2 == true)) = true := by decide +kernel

theorem exG_run38 : (OIcd.phaseR ascending exGTest (List.range 9) 5 8 (exG37.state 9)).okWith (fun r => exG38.agree 9 r.1 && (r.2 == true)) = true := by decide +kernel

theorem exG_run39 : (OIcd.orient ascending exGOpts true (exG38.state 9)).okWith (fun r => exG39.agree 9 r) = true := by decide +kernel

theorem exG_run40 : (OIcd.phaseR ascending exGTest (List.range 9) 6 7 (exG39.state 9)).okWith (fun r => exG40.agree 9 r.1 && (r.2 == true)) = true := by decide +kernel

theorem exG_run41 : (OIcd.phaseR ascending exGTest (List.range 9) 6 8 (exG40.state 9)).okWith (fun r => exG41.agree 9 r.1 && (r.2 == true)) = true := by decide +kernel

theorem exG_run42 : (OIcd.orient ascending exGOpts true (exG41.state 9)).okWith (fun r => exG42.agree 9 r) = true := by decide +kernel

theorem exG_run43 : (OIcd.phaseR ascending exGTest (List.range 9) 7 8 (exG42.state 9)).okWith (fun r => exG43.agree 9 r.1 && (r.2 == true)) = true := by decide +kernel

theorem exG_run44 : (OIcd.orient ascending exGOpts true (exG43.state 9)).okWith (fun r => exG44.agree 9 r) = true := by decide +kernel

theorem exG_run45 : (OIcd.orient ascending exGOpts false (exG44.state 9)).okWith (fun r => exG45.agree 9 r) = true := by decide +kernel

/-- The first state. -/
abbrev exGStart : OIcdState Nat := ⟨MG.complete exG.nodes pagTypes .circle, SepSet.init ascending exG.nodes, 0, ∅⟩

theorem exG_start : exGStart = exG0.state 9 ∧ ExGInv [] [] (exG0.state 9) := by
  have h := OIcd.init_inv ascending exGTest (Finset.range 9) (List.range 9) exG_isOrder 7
  have e : exGStart = exG0.state 9 := OSnap.agree_eq (by decide +kernel) h.inv
  refine ⟨e, ?_⟩
  rw [← e]
  exact h.congr (fun x => by simp) (fun x => by simp)

/-- The global variant on `exG`. -/
theorem exG_global : OIcd.learnStructure ascending exGTest exGOpts false exGStart = .ok (exG45.state 9) := by
  obtain ⟨e0, i0⟩ := exG_start
  obtain ⟨e1, i1⟩ := exG_phase0 (by omega) i0 exG_run1
  obtain ⟨e2, i2⟩ := exG_phase0 (by omega) i1 exG_run2
  obtain ⟨e3, i3⟩ := exG_phase0 (by omega) i2 exG_run3
  obtain ⟨e4, i4⟩ := exG_phase0 (by omega) i3 exG_run4
  obtain ⟨e5, i5⟩ := exG_phase0 (by omega) i4 exG_run5
  obtain ⟨e6, i6⟩ := exG_phase0 (by omega) i5 exG_run6
  obtain ⟨e7, i7⟩ := exG_phase0 (by omega) i6 exG_run7
  obtain ⟨e8, i8⟩ := exG_phase0 (by omega) i7 exG_run8
  obtain ⟨e9, i9⟩ := exG_orient true i8 exG_run9
  obtain ⟨e10, i10⟩ := exG_phase1 (by omega) i9 exG_run10
  obtain ⟨e11, i11⟩ := exG_phase1 (by omega) i10 exG_run11
  obtain ⟨e12, i12⟩ := exG_phase1 (by omega) i11 exG_run12
  obtain ⟨e13, i13⟩ := exG_phase1 (by omega) i12 exG_run13
  obtain ⟨e14, i14⟩ := exG_phase1 (by omega) i13 exG_run14
  obtain ⟨e15, i15⟩ := exG_phase1 (by omega) i14 exG_run15
  obtain ⟨e16, i16⟩ := exG_phase1 (by omega) i15 exG_run16
  obtain ⟨e17, i17⟩ := exG_orient true i16 exG_run17
  obtain ⟨e18, i18⟩ := exG_phaseR (by omega) (by omega) i17 (by simp) (by simp) exG_run18
  obtain ⟨e19, i19⟩ := exG_phaseR (by omega) (by omega) i18 (by simp) (by simp) exG_run19
  obtain ⟨e20, i20⟩ := exG_phaseR (by omega) (by omega) i19 (by simp) (by simp) exG_run20
  obtain ⟨e21, i21⟩ := exG_phaseR (by omega) (by omega) i20 (by simp) (by simp) exG_run21
  obtain ⟨e22, i22⟩ := exG_phaseR (by omega) (by omega) i21 (by simp) (by simp) exG_run22
  obtain ⟨e23, i23⟩ := exG_phaseR (by omega) (by omega) i22 (by simp) (by simp) exG_run23
  obtain ⟨e24, i24⟩ := exG_orient true i23 exG_run24
  obtain ⟨e25, i25⟩ := exG_phaseR (by omega) (by omega) i24 (by simp) (by simp) exG_run25
  obtain ⟨e26, i26⟩ := exG_phaseR (by omega) (by omega) i25 (by simp) (by simp) exG_run26
  obtain ⟨e27, i27⟩ := exG_phaseR (by omega) (by omega) i26 (by simp) (by simp) exG_run27
  obtain ⟨e28, i28⟩ := exG_phaseR (by omega) (by omega) i27 (by simp) (by simp) exG_run28
  obtain ⟨e29, i29⟩ := exG_phaseR (by omega) (by omega) i28 (by simp) (by simp) exG_run29
  obtain ⟨e30, i30⟩ := exG_orient true i29 exG_run30
  obtain ⟨e31, i31⟩ := exG_phaseR (by omega) (by omega) i30 (by simp) (by simp) exG_run31
  obtain ⟨e32, i32⟩ := exG_phaseR (by omega) (by omega) i31 (by simp) (by simp) exG_run32
  obtain ⟨e33, i33⟩ := exG_phaseR (by omega) (by omega) i32 (by simp) (by simp) exG_run33
  obtain ⟨e34, i34⟩ := exG_phaseR (by omega) (by omega) i33 (by simp) (by simp) exG_run34
  obtain ⟨e35, i35⟩ := exG_orient true i34 exG_run35
  obtain ⟨e36, i36⟩ := exG_phaseR (by omega) (by omega) i35 (by simp) (by simp) exG_run36
  obtain ⟨e37, i37⟩ := exG_phaseR (by omega) (by omega) i36 (by simp) (by simp) exG_run37
  obtain ⟨e38, i38⟩ := exG_phaseR (by omega) (by omega) i37 (by simp) (by simp) exG_run38
  obtain ⟨e39, i39⟩ := exG_orient true i38 exG_run39
  obtain ⟨e40, i40⟩ := exG_phaseR (by omega) (by omega) i39 (by simp) (by simp) exG_run40
  obtain ⟨e41, i41⟩ := exG_phaseR (by omega) (by omega) i40 (by simp) (by simp) exG_run41
  obtain ⟨e42, i42⟩ := exG_orient true i41 exG_run42
  obtain ⟨e43, i43⟩ := exG_phaseR (by omega) (by omega) i42 (by simp) (by simp) exG_run43
  obtain ⟨e44, i44⟩ := exG_orient true i43 exG_run44
  obtain ⟨e45, i45⟩ := exG_orient false i44 exG_run45
  rw [e0]
  have hn : (exG0.state 9).graph.nodes.card = 9 := by decide
  rw [OIcd.learnStructure, if_neg (by decide), OIcd.learnGlobal]
  simp only [hn]
  have f0 : (OIcd.pyRange 1 9).foldlM (fun st idx => OIcd.phase0 exGTest exGOpts.order idx st) (exG0.state 9) = .ok (exG8.state 9) := by
    rw [show OIcd.pyRange 1 9 = [1, 2, 3, 4, 5, 6, 7, 8] by decide]
    rw [foldlM_cons_ok e1, foldlM_cons_ok e2, foldlM_cons_ok e3, foldlM_cons_ok e4, foldlM_cons_ok e5, foldlM_cons_ok e6, foldlM_cons_ok e7, foldlM_cons_ok e8]
    rfl
  have f1 : (OIcd.pyRange 2 9).foldlM (fun st idx => OIcd.phase1 ascending exGTest exGOpts.order idx st) (exG9.state 9) =
      .ok (exG16.state 9) := by
    rw [show OIcd.pyRange 2 9 = [2, 3, 4, 5, 6, 7, 8] by decide]
    rw [foldlM_cons_ok e10, foldlM_cons_ok e11, foldlM_cons_ok e12, foldlM_cons_ok e13, foldlM_cons_ok e14, foldlM_cons_ok e15, foldlM_cons_ok e16]
    rfl
  have g7 : OIcd.globalSizes ascending exGTest exGOpts 1 7 false (exG42.state 9) = .ok (exG44.state 9) := by
    have hn : (exG42.state 9).graph.nodes.card = 9 := by decide
    rw [OIcd.globalSizes]
    simp only [hn]
    have hf : (OIcd.pyRange (7 + 1) 9).foldlM (fun (acc : OIcdState Nat × Bool) idx => do
        let (st, d) ← OIcd.phaseR ascending exGTest exGOpts.order 7 idx acc.1
        return (st, acc.2 && d)) (exG42.state 9, false) = .ok (exG43.state 9, false) := by
      rw [show OIcd.pyRange (7 + 1) 9 = [8] by decide]
      refine Eq.trans (foldlM_cons_ok (s' := (exG43.state 9, false)) ((py_bind e43 _).trans rfl)) ?_
      rfl
    rw [py_bind hf]
    simp only [Bool.false_eq_true, if_false]
    rw [py_bind e44]
    rfl
  have g6 : OIcd.globalSizes ascending exGTest exGOpts 2 6 false (exG39.state 9) = .ok (exG44.state 9) := by
    have hn : (exG39.state 9).graph.nodes.card = 9 := by decide
    rw [OIcd.globalSizes]
    simp only [hn]
    have hf : (OIcd.pyRange (6 + 1) 9).foldlM (fun (acc : OIcdState Nat × Bool) idx => do
        let (st, d) ← OIcd.phaseR ascending exGTest exGOpts.order 6 idx acc.1
        return (st, acc.2 && d)) (exG39.state 9, false) = .ok (exG41.state 9, false) := by
      rw [show OIcd.pyRange (6 + 1) 9 = [7, 8] by decide]
      refine Eq.trans (foldlM_cons_ok (s' := (exG40.state 9, false)) ((py_bind e40 _).trans rfl)) ?_
      refine Eq.trans (foldlM_cons_ok (s' := (exG41.state 9, false)) ((py_bind e41 _).trans rfl)) ?_
      rfl
    rw [py_bind hf]
    simp only [Bool.false_eq_true, if_false]
    rw [py_bind e42]
    exact g7
  have g5 : OIcd.globalSizes ascending exGTest exGOpts 3 5 false (exG35.state 9) = .ok (exG44.state 9) := by
    have hn : (exG35.state 9).graph.nodes.card = 9 := by decide
    rw [OIcd.globalSizes]
    simp only [hn]
    have hf : (OIcd.pyRange (5 + 1) 9).foldlM (fun (acc : OIcdState Nat × Bool) idx => do
        let (st, d) ← OIcd.phaseR ascending exGTest exGOpts.order 5 idx acc.1
        return (st, acc.2 && d)) (exG35.state 9, false) = .ok (exG38.state 9, false) := by
      rw [show OIcd.pyRange (5 + 1) 9 = [6, 7, 8] by decide]
      refine Eq.trans (foldlM_cons_ok (s' := (exG36.state 9, false)) ((py_bind e36 _).trans rfl)) ?_
      refine Eq.trans (foldlM_cons_ok (s' := (exG37.state 9, false)) ((py_bind e37 _).trans rfl)) ?_
      refine Eq.trans (foldlM_cons_ok (s' := (exG38.state 9, false)) ((py_bind e38 _).trans rfl)) ?_
      rfl
    rw [py_bind hf]
    simp only [Bool.false_eq_true, if_false]
    rw [py_bind e39]
    exact g6
  have g4 : OIcd.globalSizes ascending exGTest exGOpts 4 4 false (exG30.state 9) = .ok (exG44.state 9) := by
    have hn : (exG30.state 9).graph.nodes.card = 9 := by decide
    rw [OIcd.globalSizes]
    simp only [hn]
    have hf : (OIcd.pyRange (4 + 1) 9).foldlM (fun (acc : OIcdState Nat × Bool) idx => do
        let (st, d) ← OIcd.phaseR ascending exGTest exGOpts.order 4 idx acc.1
        return (st, acc.2 && d)) (exG30.state 9, false) = .ok (exG34.state 9, false) := by
      rw [show OIcd.pyRange (4 + 1) 9 = [5, 6, 7, 8] by decide]
      refine Eq.trans (foldlM_cons_ok (s' := (exG31.state 9, false)) ((py_bind e31 _).trans rfl)) ?_
      refine Eq.trans (foldlM_cons_ok (s' := (exG32.state 9, false)) ((py_bind e32 _).trans rfl)) ?_
      refine Eq.trans (foldlM_cons_ok (s' := (exG33.state 9, false)) ((py_bind e33 _).trans rfl)) ?_
      refine Eq.trans (foldlM_cons_ok (s' := (exG34.state 9, false)) ((py_bind e34 _).trans rfl)) ?_
      rfl
    rw [py_bind hf]
    simp only [Bool.false_eq_true, if_false]
    rw [py_bind e35]
    exact g5
  have g3 : OIcd.globalSizes ascending exGTest exGOpts 5 3 false (exG24.state 9) = .ok (exG44.state 9) := by
    have hn : (exG24.state 9).graph.nodes.card = 9 := by decide
    rw [OIcd.globalSizes]
    simp only [hn]
    have hf : (OIcd.pyRange (3 + 1) 9).foldlM (fun (acc : OIcdState Nat × Bool) idx => do
        let (st, d) ← OIcd.phaseR ascending exGTest exGOpts.order 3 idx acc.1
        return (st, acc.2 && d)) (exG24.state 9, false) = .ok (exG29.state 9, false) := by
      rw [show OIcd.pyRange (3 + 1) 9 = [4, 5, 6, 7, 8] by decide]
      refine Eq.trans (foldlM_cons_ok (s' := (exG25.state 9, false)) ((py_bind e25 _).trans rfl)) ?_
      refine Eq.trans (foldlM_cons_ok (s' := (exG26.state 9, false)) ((py_bind e26 _).trans rfl)) ?_
      refine Eq.trans (foldlM_cons_ok (s' := (exG27.state 9, false)) ((py_bind e27 _).trans rfl)) ?_
      refine Eq.trans (foldlM_cons_ok (s' := (exG28.state 9, false)) ((py_bind e28 _).trans rfl)) ?_
      refine Eq.trans (foldlM_cons_ok (s' := (exG29.state 9, false)) ((py_bind e29 _).trans rfl)) ?_
      rfl
    rw [py_bind hf]
    simp only [Bool.false_eq_true, if_false]
    rw [py_bind e30]
    exact g4
  have g2 : OIcd.globalSizes ascending exGTest exGOpts 6 2 true (exG17.state 9) = .ok (exG44.state 9) := by
    have hn : (exG17.state 9).graph.nodes.card = 9 := by decide
    rw [OIcd.globalSizes]
    simp only [hn]
    have hf : (OIcd.pyRange (2 + 1) 9).foldlM (fun (acc : OIcdState Nat × Bool) idx => do
        let (st, d) ← OIcd.phaseR ascending exGTest exGOpts.order 2 idx acc.1
        return (st, acc.2 && d)) (exG17.state 9, true) = .ok (exG23.state 9, false) := by
      rw [show OIcd.pyRange (2 + 1) 9 = [3, 4, 5, 6, 7, 8] by decide]
      refine Eq.trans (foldlM_cons_ok (s' := (exG18.state 9, true)) ((py_bind e18 _).trans rfl)) ?_
      refine Eq.trans (foldlM_cons_ok (s' := (exG19.state 9, true)) ((py_bind e19 _).trans rfl)) ?_
      refine Eq.trans (foldlM_cons_ok (s' := (exG20.state 9, true)) ((py_bind e20 _).trans rfl)) ?_
      refine Eq.trans (foldlM_cons_ok (s' := (exG21.state 9, false)) ((py_bind e21 _).trans rfl)) ?_
      refine Eq.trans (foldlM_cons_ok (s' := (exG22.state 9, false)) ((py_bind e22 _).trans rfl)) ?_
      refine Eq.trans (foldlM_cons_ok (s' := (exG23.state 9, false)) ((py_bind e23 _).trans rfl)) ?_
      rfl
    rw [py_bind hf]
    simp only [Bool.false_eq_true, if_false]
    rw [py_bind e24]
    exact g3
  rw [py_bind f0, py_bind e9, py_bind f1, py_bind e17]
  exact (py_bind g2 _).trans e45

end Verif
