import Verif.Lemmas.Rai
import Verif.Lemmas.RaiCol
import Verif.Lemmas.Cpdag
import Verif.Props.Pc

/-!
# The RAI learner (C65, C66)
-/

namespace Verif
variable {α : Type} [LinearOrder α]

/-- 0 → 2 ← 1, 2 → 3 (example). -/
def exRai1 : Dag Nat := ⟨{0, 1, 2, 3}, fun v => if v = 2 then {0, 1} else if v = 3 then {2} else ∅⟩

/-- 0 → 2 ← 1, 1 → 3, 2 → 3, 3 → 4 (example). -/
def exRai : Dag Nat :=
  ⟨{0, 1, 2, 3, 4}, fun v => if v = 2 then {0, 1} else if v = 3 then {1, 2} else if v = 4 then {3} else ∅⟩

theorem exRai_wf : exRai.WF := by
  intro a b h
  simp only [exRai] at *
  split_ifs at h with h1 h2 h3 <;> simp at h ⊢ <;> omega

theorem exRai_acyclic : exRai.Acyclic := by
  obtain ⟨b, h1, h2⟩ := Dag.isAcyclic_spec ascending exRai_wf
  have : Dag.isAcyclic ascending exRai = .ok true := by decide +kernel
  rw [this] at h1
  cases h1
  exact h2.mp rfl

/-! ## C65 -/

/-- For every CI test, node set and iteration order, with and without overwriting of the starting graph, learning
terminates without an exception. The result has the given nodes, no self-edges and no bi-directed edges. For each
missing edge the recorded separation set was accepted by a CI test of this pair; each pair with an edge was found
dependent without conditioning. -/
theorem C65_structure (o : SetOrder α) (ci : CITest α) (overwrite : Bool) (N : Finset α) :
    ∃ st, Rai.learnStructure o ci overwrite (Rai.init o N) = .ok st ∧ st.graph.nodes = N ∧ st.graph.PdagWF ∧
      (∀ a b, st.graph.Arrow a b → ¬ st.graph.Arrow b a) ∧
      (∀ i ∈ N, ∀ j ∈ N, i ≠ j → ¬ st.graph.PAdj i j →
        ∃ l k, st.sep.get i j = .ok l.toFinset ∧ i ∉ l ∧ j ∉ l ∧ (∀ x ∈ l, x ∈ N) ∧
          (ci k i j l = true ∨ ci k j i l = true)) ∧
      ∀ i j, st.graph.PAdj i j → ∃ k, ci k i j [] = false ∨ ci k j i [] = false := by
  obtain ⟨st, -, h1, h2, h3, -⟩ := Rai.learnStructure_spec o ci N overwrite
  refine ⟨st, h1, h2.nodes, h2.wf, h2.noBi, fun i hi j hj hij hn => ?_, h3⟩
  obtain ⟨S, hS, l, k, rfl, w1, w2, w3, w4⟩ := h2.witness i hi j hj hij hn
  exact ⟨l, k, hS, w2, w3, w4, w1⟩

/-- Orientation of the result: there is a graph with the same adjacencies in which all directed edges belong to
unshielded colliders, from which the result is obtained by directing further undirected edges, each by an application
of rule 1, 2 or 3; and no such rule applies to the result. -/
theorem C65_orientation (o : SetOrder α) (ci : CITest α) (overwrite : Bool) (N : Finset α) :
    ∃ st P, Rai.learnStructure o ci overwrite (Rai.init o N) = .ok st ∧ P.PdagWF ∧ MG.Refines P st.graph ∧
      (∀ a b, P.Arrow a b → ¬ P.Arrow b a ∧ ∃ c, P.PUCol a b c) ∧
      Relation.ReflTransGen (fun G G' : MG α => ∃ r x y, (r = 1 ∨ r = 2 ∨ r = 3) ∧ G.RulePattern r x y ∧
        G' = G.orientEdge x y) P st.graph ∧
      ∀ r, r = 1 ∨ r = 2 ∨ r = 3 → ∀ x y, ¬ st.graph.RulePattern r x y := by
  obtain ⟨st, P, h1, -, -, h4, h5, h6, h7, h8, h9⟩ := Rai.learnStructure_spec o ci N overwrite
  refine ⟨st, P, h1, h4, h5, fun a b h => ⟨h7 a b h, h6 a b h⟩, ?_, h9⟩
  generalize st.graph = H at h8
  induction h8 with
  | refl => exact .refl
  | tail _ h ih =>
    obtain ⟨r, hr, x, y, hp, rfl⟩ := h
    exact ih.tail ⟨r, x, y, by simpa using hr, hp, rfl⟩

/-- With a test that never finds independence all edges stay, with one that always does none stays. -/
theorem C65_extremes (o : SetOrder α) (ci : CITest α) (overwrite : Bool) (N : Finset α) :
    ∃ st, Rai.learnStructure o ci overwrite (Rai.init o N) = .ok st ∧
      ((∀ k i j l, ci k i j l = false) → ∀ i ∈ N, ∀ j ∈ N, i ≠ j → st.graph.PAdj i j) ∧
      ((∀ k i j l, ci k i j l = true) → ∀ i j, ¬ st.graph.PAdj i j) := by
  obtain ⟨st, h1, -, -, -, h2, h3⟩ := C65_structure o ci overwrite N
  refine ⟨st, h1, fun h i hi j hj hij => ?_, fun h i j hp => ?_⟩
  · by_contra hn
    obtain ⟨l, k, -, -, -, -, h4 | h4⟩ := h2 i hi j hj hij hn <;> simp [h] at h4
  · obtain ⟨k, h4 | h4⟩ := h3 i j hp <;> simp [h] at h4

/-- One level of the recursion (`_refine_and_orient`) for endogenous nodes `en`, exogenous nodes `ex` and conditioning
sets of size `order`: edges are only removed; each edge that remains within `en` or between `en` and `ex` was found
dependent for every set of `order` potential parents (in the resulting graph) of one of its ends. -/
theorem C65_level (o : SetOrder α) (ci : CITest α) (overwrite : Bool) {en ex : Finset α} (hd : Disjoint en ex)
    (order : Nat) {st : PcState α} (hwf : st.graph.PdagWF) (hen : en ⊆ st.graph.nodes) (hex : ex ⊆ st.graph.nodes)
    (hbi : ∀ a b, st.graph.Arrow a b → ¬ st.graph.Arrow b a)
    (hkey : ∀ i ∈ st.graph.nodes, ∀ j ∈ st.graph.nodes, i ≠ j → ∃ S, st.sep.get i j = .ok S)
    (hwit : ∀ i ∈ st.graph.nodes, ∀ j ∈ st.graph.nodes, i ≠ j → ¬ st.graph.PAdj i j →
      ∃ S, st.sep.get i j = .ok S ∧ Pc.Witness ci st.graph.nodes i j S) :
    ∃ st', Rai.refineAndOrient o ci overwrite en ex order st = .ok st' ∧
      (∀ a b, st'.graph.PAdj a b → st.graph.PAdj a b) ∧
      ∀ i ∈ en ∪ ex, ∀ j ∈ en, st'.graph.PAdj i j → ∀ S : Finset α, S.card = order →
        ((∀ s ∈ S, st'.graph.Arrow s i ∨ st'.graph.Und s i) ∧ j ∉ S) ∨
          ((∀ s ∈ S, st'.graph.Arrow s j ∨ st'.graph.Und s j) ∧ i ∉ S) →
        ∃ l k, l.toFinset = S ∧ (ci k i j l = false ∨ ci k j i l = false) := by
  obtain ⟨st', h1, h2, h3⟩ := Rai.refineAndOrient_spec o overwrite hen hex hd order
    (⟨rfl, hwf, hbi, hkey, hwit⟩ : Rai.Inv ci st.graph.nodes st)
  exact ⟨st', h1, Rai.padj_of_pot h2.2, h3⟩

/-- (example) The start of the learner meets the hypotheses. -/
example : ∃ st' : PcState Nat, Rai.refineAndOrient ascending (Pc.dsepTest ascending exRai) true {2, 3} {0, 1} 0
    (Rai.init ascending exRai.nodes) = .ok st' := by
  have hi := Rai.init_inv ascending (Pc.dsepTest ascending exRai) exRai.nodes
  obtain ⟨st', h, -⟩ := C65_level ascending (Pc.dsepTest ascending exRai) true (en := {2, 3}) (ex := {0, 1}) (by decide) 0
    hi.wf (by rw [hi.nodes]; decide) (by rw [hi.nodes]; decide) hi.noBi (by rw [hi.nodes]; exact hi.key)
    (by rw [hi.nodes]; exact hi.witness)
  exact ⟨st', h⟩

/-- The split into descendants `d` and ancestor sets `l`: `d` and the nodes of `l` partition the endogenous nodes, the
ancestor sets are disjoint, no directed edge goes from a descendant to an ancestor; unless all ancestors have a child
among the ancestors (directed cycle), adjacent ancestors are in the same ancestor set. -/
theorem C65_split (o : SetOrder α) {G : MG α} (hG : G.PdagWF) {en : Finset α} (hne : en.Nonempty) :
    ∃ d l, Rai.split o G en = .ok (d, l, en \ d) ∧ d ⊆ en ∧ d.Nonempty ∧ (∀ x, (∃ s ∈ l, x ∈ s) ↔ x ∈ en ∧ x ∉ d) ∧
      l.Pairwise Disjoint ∧ (∀ x ∈ d, ∀ y ∈ en, y ∉ d → ¬ G.Arrow x y) ∧
      ((∃ x ∈ en, x ∉ d ∧ ∀ y ∈ en, y ∉ d → ¬ G.Arrow x y) →
        ∀ s ∈ l, ∀ x ∈ s, ∀ y ∈ en, y ∉ d → G.PAdj x y → y ∈ s) :=
  Rai.split_full o hG hne

/-- The complete graph on 0 … 3 without 0 – 1 and 1 – 3, with edges directed into 2 (example). -/
def exSplit : MG Nat :=
  (((((MG.pdagComplete {0, 1, 2, 3}).deleteEdge 0 1).deleteEdge 1 3).orientEdge 0 2).orientEdge 1 2).orientEdge 3 2

/-- (example) 0 → 2, 1 → 2, 3 → 2, 0 – 3: descendant 2, ancestors 0, 3 together and 1 separately. -/
example : (Rai.split ascending exSplit exSplit.nodes).map
    (fun r => (ascending.iter () r.1, r.2.1.map (ascending.iter ()), ascending.iter () r.2.2)) =
    .ok ([2], [[0, 3], [1]], [0, 1, 3]) := by
  decide +kernel

/-- `orient_v_structures` directs exactly these edges (existing directed edges stay): `a → b` for undirected `a – b – c`
with `a`, `c` not adjacent and `b` outside their recorded set; and `a → b` for `a – b ← c` with the same condition,
unless the first rule directs `b → a`. Adjacencies do not change. -/
theorem C65_colliders (o : SetOrder α) (sep : SepSet α) (en : Finset α) {G : MG α} (hG : G.PdagWF)
    (hkey : ∀ i ∈ G.nodes, ∀ j ∈ G.nodes, i ≠ j → ∃ S, sep.get i j = .ok S) :
    let Out : α → α → α → Prop := fun a b c => a ≠ c ∧ ¬ G.PAdj a c ∧ ∃ S, sep.get a c = .ok S ∧ b ∉ S
    let First : α → α → Prop := fun a b => b ∈ en ∧ G.Und a b ∧ ∃ c, G.Und c b ∧ Out a b c
    ∃ G', Rai.orientVStructures o sep en G = .ok G' ∧ G'.PdagWF ∧ (∀ a b, G'.PAdj a b ↔ G.PAdj a b) ∧
      ∀ a b, G'.Arrow a b ↔ G.Arrow a b ∨ First a b ∨
        (¬ First b a ∧ b ∈ en ∧ G.Und a b ∧ ∃ c, G.Arrow c b ∧ Out a b c) := by
  intro Out First
  obtain ⟨G', h1, h2, h3, h4⟩ := Rai.orientVStructures_exact o sep en hG hkey
  refine ⟨G', h1, h2, h3, fun a b => ?_⟩
  have hF : ∀ a b, (∃ c, G.Und c b ∧ Rai.Calls sep en G a b c) ↔ First a b := by
    intro a b
    simp only [Rai.Calls, First, Out]
    constructor
    · rintro ⟨c, h1, h2, h3, h4⟩; exact ⟨h2, h3, c, h1, h4⟩
    · rintro ⟨h2, h3, c, h1, h4⟩; exact ⟨c, h1, h2, h3, h4⟩
  rw [h4, hF, hF]
  refine or_congr Iff.rfl (or_congr Iff.rfl (and_congr Iff.rfl ?_))
  simp only [Rai.Calls, Out]
  constructor
  · rintro ⟨c, h1, h2, h3, h4⟩; exact ⟨h2, h3, c, h1, h4⟩
  · rintro ⟨h2, h3, c, h1, h4⟩; exact ⟨c, h1, h2, h3, h4⟩

/-- (example) 0 – 2 – 1 with empty recorded set of 0, 1 (3 joined to 0 and 2): 0 → 2 and 1 → 2. -/
example : (Rai.orientVStructures ascending (SepSet.init ascending {0, 1, 2, 3}) {0, 1, 2}
    ((((MG.pdagComplete {0, 1, 2, 3}).deleteEdge 0 1)).deleteEdge 1 3)).map
    (fun G => [0, 1, 2, 3].map fun v => (ascending.iter () (G.parents v), ascending.iter () (G.und v))) =
    .ok [([], [3]), ([], []), ([0, 1, 3], []), ([], [0])] := by
  decide +kernel

/-- (example) the learner on 0 → 2 ← 1, 2 → 3 with the d-separation test: 0 → 2, 1 → 2, 2 → 3, found with at most one
conditioning variable. -/
example : (Rai.learnStructure ascending (Pc.dsepTest ascending exRai1) true (Rai.init ascending exRai1.nodes)).map
    (fun st => [0, 1, 2, 3].map fun v => (ascending.iter () (st.graph.parents v), ascending.iter () (st.graph.und v))) =
    .ok [([], []), ([], []), ([0, 1], []), ([2], [])] := by
  decide +kernel

/-! ## C66 -/

/-- The part of "RAI finds the CPDAG" that holds: with a test that answers d-separation in an acyclic graph, no edge of
the graph is ever removed, the recorded sets of all missing edges are d-separating, and pairs that are d-separated by
the empty set are not adjacent. Missing (see `C66_fails`): that all other edges are removed. -/
theorem C66_partial (o : SetOrder α) {ci : CITest α} (overwrite : Bool) {D : Dag α} (hD : D.WF) (hac : D.Acyclic)
    (hp : ∀ k i j l, i ∈ D.nodes → j ∈ D.nodes → i ≠ j → i ∉ l → j ∉ l → (∀ x ∈ l, x ∈ D.nodes) →
      (ci k i j l = true ↔ D.DSeparated i j l.toFinset)) :
    ∃ st, Rai.learnStructure o ci overwrite (Rai.init o D.nodes) = .ok st ∧
      (∀ a b, D.Adj a b → st.graph.PAdj a b) ∧
      (∀ a ∈ D.nodes, ∀ b ∈ D.nodes, a ≠ b → ¬ st.graph.PAdj a b →
        ∃ S, st.sep.get a b = .ok S ∧ a ∉ S ∧ b ∉ S ∧ S ⊆ D.nodes ∧ D.DSeparated a b S) ∧
      ∀ a b, st.graph.PAdj a b → ¬ D.DSeparated a b ∅ := by
  obtain ⟨st, -, h1, h2, h3, -⟩ := Rai.learnStructure_spec o ci D.nodes overwrite
  have hmem : ∀ a b, st.graph.PAdj a b → a ∈ D.nodes ∧ b ∈ D.nodes ∧ a ≠ b := by
    intro a b h
    rw [← h2.nodes]
    have hne : a ≠ b := by rintro rfl; rcases h with h | h | h | h <;> exact h2.wf.irrefl _ _ h
    rcases h with h | h | h | h <;> have := h2.wf.mem _ _ _ h <;> exact ⟨by tauto, by tauto, hne⟩
  refine ⟨st, h1, fun a b hab => ?_, fun a ha b hb hne hn => ?_, fun a b h hs => ?_⟩
  · by_contra hn
    have hne : a ≠ b := by
      rintro rfl
      exact hab.elim (fun h => hac a (Relation.TransGen.single h)) (fun h => hac a (Relation.TransGen.single h))
    have hm : a ∈ D.nodes ∧ b ∈ D.nodes := by
      rcases hab with h | h
      · exact hD _ _ h
      · exact (hD _ _ h).symm
    obtain ⟨S, -, hw⟩ := h2.witness a hm.1 b hm.2 hne hn
    exact Dag.not_dseparated_of_adj hac hab (hw.dsep hac hp hm.1 hm.2 hne)
  · obtain ⟨S, hS, hw⟩ := h2.witness a ha b hb hne hn
    have hd := hw.dsep hac hp ha hb hne
    obtain ⟨l, k, rfl, -, w2, w3, w4⟩ := hw
    exact ⟨_, hS, by simpa using w2, by simpa using w3, fun x hx => w4 x (by simpa using hx), hd⟩
  · obtain ⟨ha, hb, hne⟩ := hmem a b h
    obtain ⟨k, hk | hk⟩ := h3 a b h
    · have := (hp k a b [] ha hb hne (by simp) (by simp) (by simp)).mpr (by simpa using hs)
      rw [this] at hk; cases hk
    · have := (hp k b a [] hb ha hne.symm (by simp) (by simp) (by simp)).mpr
        (by simpa using (Dag.dseparated_symm hac).mp hs)
      rw [this] at hk; cases hk

/-- (example) The hypotheses are met by the d-separation test on `exRai`. -/
example : ∃ st, Rai.learnStructure ascending (Pc.dsepTest ascending exRai) true (Rai.init ascending exRai.nodes) = .ok st ∧
    ∀ a b, exRai.Adj a b → st.graph.PAdj a b := by
  obtain ⟨st, h1, h2, -⟩ := C66_partial ascending true exRai_wf exRai_acyclic
    (C22_dsep_oracle ascending exRai_wf exRai_acyclic)
  exact ⟨st, h1, h2⟩

/-- The learner does not find the CPDAG in general, even with a test that answers d-separation: for the graph
0 → 2 ← 1, 1 → 3, 2 → 3, 3 → 4 the result has an edge between 0 and 3, although they are d-separated by 1 and 2.
(The edge 2 – 4 that is removed only later leads to a wrong orientation 4 → 2, hence 3 → 2, after which 2 is not tried
as a conditioning variable for 3.) The order of iteration is ascending, as for small Python integers. -/
theorem C66_fails : exRai.WF ∧ exRai.Acyclic ∧ exRai.DSeparated 0 3 {1, 2} ∧ ∀ overwrite,
    (Rai.learnStructure ascending (Pc.dsepTest ascending exRai) overwrite (Rai.init ascending exRai.nodes)).map
      (fun st => decide (st.graph.PAdj 0 3)) = .ok true := by
  refine ⟨exRai_wf, exRai_acyclic, ?_, fun overwrite => ?_⟩
  · have := (C22_dsep_oracle ascending exRai_wf exRai_acyclic 0 0 3 [1, 2] (by decide) (by decide) (by decide)
      (by decide) (by decide) (by decide)).mp (by decide +kernel)
    simpa using this
  · cases overwrite <;> decide +kernel

end Verif
