import Verif.Lemmas.PcSequence
import Verif.Props.Rai

/-!
# Property C93: `overwrite_starting_graph = False` removes the dependence on the sequence of the CI tests
-/

namespace Verif
open Relation
variable {α : Type} [LinearOrder α]

/-- C93, the skeleton found by PC with `overwrite_starting_graph = False`: it consists of the pairs that no set of fewer than `m` nodes makes
independent, where `m` is the first number for which no node has more than `m` neighbours in that graph. The test may give any answers,
as long as they depend only on the pair and the set. Missing (see `C93_fails`): the orientation. -/
theorem C93_skeleton_partial (o : SetOrder α) {ci : CITest α} {f : α → α → Finset α → Bool} (hf : Pc.Answers ci f) (N : Finset α) :
    ∃ st m, Pc.learnSkeleton o ci false (Pc.init o N) = .ok st ∧ (∀ a b, st.graph.Und a b ↔ Pc.Kept f N m a b) ∧
      (∀ a b, ¬ st.graph.Arrow a b) ∧ Pc.Sparse f N m ∧ ∀ m' < m, ¬ Pc.Sparse f N m' := by
  obtain ⟨st, h1, -, -, h2, -⟩ := C21_skeleton o ci false N
  obtain ⟨st', m, h3, h4, h5⟩ := Pc.skeletonLoop_complete o hf (N.card + 1) 0 (Pc.init o N) (by omega) (Pc.init_inv o ci N)
    (fun a b => by
      rw [Pc.init, MG.pdagComplete_und]
      exact ⟨fun h => ⟨h.1, h.2.1, h.2.2, fun S _ _ _ h => absurd h (Nat.not_lt_zero _)⟩, fun h => ⟨h.1, h.2.1, h.2.2.1⟩⟩)
    (fun m h => absurd h (Nat.not_lt_zero _))
  have h3' : Pc.learnSkeleton o ci false (Pc.init o N) = .ok st' := h3
  rw [h1] at h3'
  obtain rfl : st = st' := by simpa using h3'
  exact ⟨st, m, h1, h4, h2, h5⟩

/-- C93: the edges returned by `learn_structure` do not depend on the order of iteration over sets, that is, on the sequence of the tests. -/
theorem C93_edges_partial (o o' : SetOrder α) {ci : CITest α} {f : α → α → Finset α → Bool} (hf : Pc.Answers ci f) (N : Finset α) :
    ∃ st st', Pc.learnStructure o ci false (Pc.init o N) = .ok st ∧ Pc.learnStructure o' ci false (Pc.init o' N) = .ok st' ∧
      st.graph.nodes = st'.graph.nodes ∧ ∀ a b, st.graph.PAdj a b ↔ st'.graph.PAdj a b := by
  obtain ⟨s1, m, h1, h2, -, h3, h4⟩ := C93_skeleton_partial o hf N
  obtain ⟨s1', m', h1', h2', -, h3', h4'⟩ := C93_skeleton_partial o' hf N
  obtain ⟨t1, t2, k1, k2, k3, -, k4, -⟩ := C21_structure o ci false N
  obtain ⟨t1', t2', k1', k2', k3', -, k4', -⟩ := C21_structure o' ci false N
  rw [h1] at k1
  obtain rfl : s1 = t1 := by simpa using k1
  rw [h1'] at k1'
  obtain rfl : s1' = t1' := by simpa using k1'
  obtain rfl : m = m' := by
    rcases Nat.lt_trichotomy m m' with h | h | h
    · exact absurd h3 (h4' m h)
    · exact h
    · exact absurd h3' (h4 m' h)
  exact ⟨t2, t2', k2, k2', k3.trans k3'.symm, fun a b => by rw [k4, k4', h2, h2']⟩

/-! ## Refutations -/

/-- A test on the nodes 0, 1, 2: 1 and 2 are independent, 0 and 1 given 2, 0 and 2 given 1. -/
def exSeq : Nat → Nat → Finset Nat → Bool := fun i j S =>
  ({i, j} : Finset Nat) = {1, 2} && S = ∅ || ({i, j} : Finset Nat) = {0, 1} && S = {2} || ({i, j} : Finset Nat) = {0, 2} && S = {1}

/-- A test on the nodes 0, 1, 2, 3: 0 and 1 are independent given 2 and given 3. -/
def exSeq2 : Nat → Nat → Finset Nat → Bool := fun i j S => ({i, j} : Finset Nat) = {0, 1} && (S = {2} || S = {3})

/-- A test on the nodes 0, 1, 2: 0 and 1 are independent, and independent given 2. -/
def exSeq3 : Nat → Nat → Finset Nat → Bool := fun i j _ => ({i, j} : Finset Nat) = {0, 1}

theorem exSeq_answers : Pc.Answers (fun _ i j l => exSeq i j l.toFinset) exSeq :=
  ⟨fun _ _ _ _ => rfl, fun i j S => by simp only [exSeq, Finset.pair_comm i j]⟩

theorem exSeq2_answers : Pc.Answers (fun _ i j l => exSeq2 i j l.toFinset) exSeq2 :=
  ⟨fun _ _ _ _ => rfl, fun i j S => by simp only [exSeq2, Finset.pair_comm i j]⟩

theorem exSeq3_answers : Pc.Answers (fun _ i j l => exSeq3 i j l.toFinset) exSeq3 :=
  ⟨fun _ _ _ _ => rfl, fun i j S => by simp only [exSeq3, Finset.pair_comm i j]⟩

/-- C93: with `overwrite_starting_graph = True` (the default) even the edges depend on the sequence, as the comment in the code says: if nodes
are visited in ascending order the edge 0 – 1 is removed and 0 – 2 kept, in descending order the other way round. -/
theorem C93_overwrite :
    (Pc.learnStructure ascending (fun _ i j l => exSeq i j l.toFinset) true (Pc.init ascending {0, 1, 2})).map
        (fun st => (decide (st.graph.PAdj 0 1), decide (st.graph.PAdj 0 2))) = .ok (false, true) ∧
      (Pc.learnStructure descending (fun _ i j l => exSeq i j l.toFinset) true (Pc.init descending {0, 1, 2})).map
        (fun st => (decide (st.graph.PAdj 0 1), decide (st.graph.PAdj 0 2))) = .ok (true, false) := by
  constructor <;> decide +kernel

/-- C93 is false of the code: with `overwrite_starting_graph = False` the directions returned by PC and by RAI still depend on the sequence,
because the recorded separating set is the first one found. Ascending: 0 → 3 ← 1; descending: 0 → 2 ← 1. -/
theorem C93_fails : ∃ ci, Pc.Answers ci exSeq2 ∧
    (Pc.learnStructure ascending ci false (Pc.init ascending {0, 1, 2, 3})).map
        (fun st => (decide (st.graph.Arrow 0 3), decide (st.graph.Arrow 0 2))) = .ok (true, false) ∧
    (Pc.learnStructure descending ci false (Pc.init descending {0, 1, 2, 3})).map
        (fun st => (decide (st.graph.Arrow 0 3), decide (st.graph.Arrow 0 2))) = .ok (false, true) ∧
    (Rai.learnStructure ascending ci false (Rai.init ascending {0, 1, 2, 3})).map
        (fun st => (decide (st.graph.Arrow 0 3), decide (st.graph.Arrow 0 2))) = .ok (true, false) ∧
    (Rai.learnStructure descending ci false (Rai.init descending {0, 1, 2, 3})).map
        (fun st => (decide (st.graph.Arrow 0 3), decide (st.graph.Arrow 0 2))) = .ok (false, true) := by
  refine ⟨_, exSeq2_answers, ?_, ?_, ?_, ?_⟩ <;> decide +kernel

/-- With `overwrite_starting_graph = False` PC goes on testing pairs whose edge has been removed, and replaces the recorded set by a larger
one: 0 and 1 are independent, but the recorded set is `{2}`; as a consequence 0 → 2 ← 1 is not found. -/
theorem C93_replaced : Pc.Answers (fun _ i j l => exSeq3 i j l.toFinset) exSeq3 ∧ exSeq3 0 1 ∅ = true ∧ ∀ overwrite,
    (Pc.learnStructure ascending (fun _ i j l => exSeq3 i j l.toFinset) overwrite (Pc.init ascending {0, 1, 2})).map
        (fun st => (decide (st.sep.get 0 1 = .ok {2}), decide (st.graph.Arrow 0 2))) = .ok (!overwrite, overwrite) := by
  refine ⟨exSeq3_answers, by decide, fun overwrite => ?_⟩
  cases overwrite <;> decide +kernel

/-- Hypotheses of the theorems are met. -/
example := C93_edges_partial ascending descending exSeq2_answers {0, 1, 2, 3}

end Verif
