import Verif.Lemmas.BraiMore
import Verif.Props.Rai
import Verif.Props.Score
import Verif.Props.TsIcd
import Mathlib.Algebra.Order.Monoid.Unbundled.WithTop
import Mathlib.Algebra.Order.Monoid.WithTop
import Mathlib.Algebra.Order.BigOperators.Group.List

/-!
# The B-RAI learner (C53, C70, C71, C72)
-/

namespace Verif
open Brai
variable {α σ K : Type} [LinearOrder α]

/-- A scoring function for examples: minus the number of parents of the endogenous nodes. -/
def exBraiScore (D : Dag Nat) (en : Finset Nat) : Py (Num (WithBot Int)) :=
  .ok (.float ((-(((ascending.iter () en).map (fun v => (D.par v).card)).sum : Int) : Int) : WithBot Int))

/-- Settings for examples: the score `exBraiScore` and the given number of hypotheses. -/
def exBraiCfg (h : Nat) : Cfg Nat (WithBot Int) := ⟨h, true, true, some exBraiScore⟩

/-- Random draws for examples: 0, 1, 2, … modulo the number of possibilities. -/
def exBraiRng : Rng (WithBot Int) := ⟨fun k l => k % l.length, fun k n => k % n⟩

/-- 0 ← 1, 0 ← 3, 1 ← 2, 1 ← 3, 5 ← 0, 5 ← 4 (example). -/
def exBrai : Dag Nat :=
  ⟨{0, 1, 2, 3, 4, 5}, fun v => if v = 0 then {1, 3} else if v = 1 then {2, 3} else if v = 5 then {0, 4} else ∅⟩

theorem exBrai_wf : exBrai.WF := by
  intro a b h
  simp only [exBrai] at *
  split_ifs at h with h1 h2 h3 <;> simp at h ⊢ <;> omega

theorem exBrai_acyclic : exBrai.Acyclic := by
  obtain ⟨b, h1, h2⟩ := Dag.isAcyclic_spec ascending exBrai_wf
  have : Dag.isAcyclic ascending exBrai = .ok true := by decide +kernel
  rw [this] at h1
  cases h1
  exact h2.mp rfl

theorem exBraiScore_float (N : Finset Nat) : FloatScore exBraiScore N := fun _ _ _ _ _ _ _ => ⟨_, rfl⟩

/-! ## C70 -/

/-- C70: with scoring data and a scoring function that returns `float`s, learning terminates without an exception for every CI test (its
answers may change from hypothesis to hypothesis) and every iteration order. The tree that is learned is well-formed: each inner node has
exactly the required number of hypotheses; each hypothesis divides the endogenous nodes into a non-empty descendant set and disjoint
non-empty ancestor sets without an arrow from a descendant to an ancestor; the graphs of all hypotheses and leaves are PDAGs on all nodes
without bi-directed edges; adjacent nodes were found dependent, for each other pair a CI test of this pair was accepted; the
separation sets in the leaves were accepted by tests; the score of a leaf is the score of a consistent extension of its sub-graph,
or `-inf` if there is none. -/
theorem C70_learn [AddCommMonoid K] [LinearOrder K] [IsOrderedAddMonoid K] (o : SetOrder α) (ci : CITest α) {N : Finset α}
    (hN : N.Nonempty) {cfg : Cfg α (WithBot K)} (hn : 0 < cfg.numHyp) (hs : cfg.isScored = true)
    {f : Dag α → Finset α → Py (Num (WithBot K))} (hf : cfg.scoring = some f) (hF : FloatScore f N) (rng : Rng (WithBot K)) :
    ∃ tree st, learnStructure o ci cfg rng (Rai.init o N) = .ok (tree, st) ∧
      tree.Ok (LearnedLeaf ci f N) (LearnedSplit ci N) cfg.numHyp N ∅ ∧
      st.graph.nodes = N ∧ st.graph.PdagWF ∧ (∀ a b, st.graph.Arrow a b → ¬ st.graph.Arrow b a) ∧
      (∀ i ∈ N, ∀ j ∈ N, i ≠ j → ∃ S, st.sep.get i j = .ok S) ∧
      ∃ Ls, Gen tree Ls ∧ (∀ a b, st.graph.PAdj a b ↔ LeafArrow Ls a b ∨ LeafArrow Ls b a ∨ LeafUnd Ls a b ∨ LeafUnd Ls b a) ∧
        ∀ Ls', Gen tree Ls' → total Ls' ≤ total Ls := by
  obtain ⟨tree, st, h1, h2, h3, -⟩ := learn_spec o (ci := ci) hs hf hF (N.card + 1) N ∅ 0 (Rai.init o N) le_rfl (Finset.Subset.refl _)
    (Finset.empty_subset _) (by simp) hN (Rai.init_inv o ci N) rfl (by omega) (Or.inr ⟨rfl, rfl⟩)
  obtain ⟨P, G', sep', k', Ls, s1, s2, s3, s4⟩ := sampleCpdag_scored o (rng := rng) (T := 0) hn (fun L h => h.1) h2
    (rel := fun a b => a ≤ b) le_refl (fun _ _ _ => le_trans) (fun _ _ _ _ => add_le_add) (chooser_map _) h3.1.nodes h3.1.key 0
  refine ⟨tree, ⟨G', sep', st.calls⟩, ?_, h2, s2.nodes, s2.wf, s2.noBi, s3, Ls, s2.gen, s2.adj, s4⟩
  rw [learnStructure]
  have h1' : learnRecursively o ci cfg ((Rai.init o N).graph.nodes.card + 1) (Rai.init o N).graph.nodes ∅ 0 (Rai.init o N) =
    .ok (tree, st) := h1
  rw [py_bind h1', hs]
  exact (py_bind s1 _).trans rfl

/-- The hypotheses of `C70_learn` hold. -/
example : ∃ tree st, learnStructure ascending (Pc.dsepTest ascending exBrai) (exBraiCfg 3) exBraiRng (Rai.init ascending exBrai.nodes) =
    .ok (tree, st) ∧ tree.Ok (LearnedLeaf (Pc.dsepTest ascending exBrai) exBraiScore exBrai.nodes)
      (LearnedSplit (Pc.dsepTest ascending exBrai) exBrai.nodes) 3 exBrai.nodes ∅ := by
  obtain ⟨tree, st, h1, h2, -⟩ := C70_learn ascending (Pc.dsepTest ascending exBrai) (N := exBrai.nodes) ⟨0, by decide⟩
    (cfg := exBraiCfg 3) (by decide) rfl rfl (exBraiScore_float _) exBraiRng
  exact ⟨tree, st, h1, h2⟩

/-- The default scoring function satisfies the condition of `C70_learn` on data whose values are below the sizes. -/
theorem C70_bdeu (o : SetOrder Nat) (L : ℝ → ℝ) {data : List (List Int)} {sizes : List Int} (hd : ∀ r ∈ data, InSizes r sizes)
    (hp : ∀ s ∈ sizes, 0 < s) {N : Finset Nat} (hn : ∀ v ∈ N, v < sizes.length) :
    FloatScore (Brai.bdeu o L data sizes) N := by
  intro D hD hac hDn en hen hne
  have h := C62_formula o L hD hac hd hp (by rw [hDn]; exact hn) (some en) (by rw [hDn]; exact hen)
  exact ⟨_, by rw [Brai.bdeu, if_neg hne.ne_empty, h]; rfl⟩

example : FloatScore (Brai.bdeu ascending id [[0, 1], [1, 1]] [2, 2]) {0, 1} :=
  C70_bdeu ascending id (by
    intro r hr
    simp only [List.mem_cons, List.not_mem_nil, or_false] at hr
    rcases hr with rfl | rfl <;> simp [InSizes]) (by simp) (by simp)

/-- The number of hypotheses must be positive; a scoring function given by the caller is not stored. -/
theorem C70_init (o : SetOrder α) (N : Finset α) (h : Nat) (sd : Bool) (default : Dag α → Finset α → Py (Num σ))
    (custom : Option (Dag α → Finset α → Py (Num σ))) :
    (h = 0 → Brai.init o N h sd default custom = .error .assertionError) ∧
      (0 < h → ∃ cfg, Brai.init o N h sd default custom = .ok (cfg, Rai.init o N) ∧ cfg.numHyp = h ∧ cfg.isScored = sd ∧
        cfg.scoring = if custom.isNone then some default else none) := by
  refine ⟨fun e => by subst e; rfl, fun e => ⟨_, if_pos e, rfl, rfl, rfl⟩⟩

/-- Without scoring data the learner never returns: every run ends with an AssertionError, because the score 0 of a leaf is an `int` and
the leaf demands a `float`. -/
theorem C70_unscored_fails [Add σ] [Zero σ] [LT σ] [DecidableLT σ] [Bot σ] (o : SetOrder α) (ci : CITest α) (N : Finset α) {cfg : Cfg α σ}
    (hn : 0 < cfg.numHyp) (hs : cfg.isScored = false) (rng : Rng σ) :
    learnStructure o ci cfg rng (Rai.init o N) = .error .assertionError := by
  rw [learnStructure]
  exact py_bind_error (learn_unscored o hn hs (N.card + 1) N ∅ 0 (Rai.init o N) le_rfl (Finset.Subset.refl _)
    (Finset.empty_subset _) (by simp) (Rai.init_inv o ci N) rfl (by omega)) _

example : learnStructure ascending (Pc.dsepTest ascending exBrai) ⟨3, true, false, some exBraiScore⟩ exBraiRng
    (Rai.init ascending exBrai.nodes) = .error .assertionError :=
  C70_unscored_fails ascending _ _ (by decide) rfl _

/-- With a scoring function of the caller, learning ends with an AttributeError already for two independent nodes. -/
theorem C70_custom_fails : ∃ cfg, Brai.init ascending {0, 1} 1 true exBraiScore (some exBraiScore) = .ok (cfg, Rai.init ascending {0, 1}) ∧
    learnStructure ascending (fun _ _ _ _ => true) cfg exBraiRng (Rai.init ascending {0, 1}) = .error .attributeError :=
  ⟨_, rfl, Py.errWith_iff (by decide +kernel)⟩

/-! ## C71 -/

/-- C71: a sample of a learned tree. `sample_cpdag` returns for every non-negative temperature and all random draws. One hypothesis is
selected at each inner node that is reached; each node is an endogenous node of exactly one of the selected leaves (`Ordered`), and the
edges of the sample are the edges of the selected leaves that have an endogenous end and no arrow into an exogenous node. The score is the
sum of the scores of the leaves. The sample is a PDAG on all nodes without bi-directed edges, adjacent nodes were found dependent; its
arrows are those of the v-structures of the selected graph, and those added by Meek's rules 1 to 3. -/
theorem C71_sample [Bot σ] [AddMonoid σ] [LinearOrder σ] (o : SetOrder α) {ci : CITest α} {N : Finset α}
    {f : Dag α → Finset α → Py (Num σ)} {m : Nat} (hm : 0 < m) {tree : Hyp α σ} (ht : tree.Ok (LearnedLeaf ci f N) (LearnedSplit ci N) m N ∅)
    {rng : Rng σ} (hr : ∀ k l, l ≠ [] → rng.scored k l < l.length) (hp : ∀ k n, 0 < n → rng.pick k n < n) {T : ℚ} (hT : 0 ≤ T)
    (isScored : Bool) {G : MG α} {sep : SepSet α} (hG : G.nodes = N) (hk : ∀ i ∈ N, ∀ j ∈ N, i ≠ j → ∃ S, sep.get i j = .ok S) (k : Nat) :
    ∃ P G' sep' k' Ls, sampleCpdag o isScored rng T tree G sep k = .ok (P, G', sep', if isScored then some (total Ls) else none, k') ∧
      Gen tree Ls ∧ (∀ x, (∃ L ∈ Ls, x ∈ L.en) ↔ x ∈ N) ∧ Ordered Ls ∧ G'.nodes = N ∧ G'.PdagWF ∧
      (∀ a b, G'.Arrow a b → ¬ G'.Arrow b a) ∧
      (∀ a b, G'.PAdj a b ↔ LeafArrow Ls a b ∨ LeafArrow Ls b a ∨ LeafUnd Ls a b ∨ LeafUnd Ls b a) ∧ FoundDep ci G' ∧
      (∀ a b, P.Arrow a b ↔ LeafArrow Ls a b) ∧ (∀ a b, P.Und a b ↔ LeafUnd Ls a b ∨ LeafUnd Ls b a) ∧
      (∃ V : MG α, V.PdagWF ∧ MG.Refines V G' ∧ (∀ a b, V.Arrow a b ↔ ∃ c, P.PUCol a b c) ∧
        Relation.ReflTransGen (fun G G' : MG α => ∃ r x y, (r = 1 ∨ r = 2 ∨ r = 3) ∧ G.RulePattern r x y ∧ G' = G.orientEdge x y) V G') ∧
      (∀ r, r = 1 ∨ r = 2 ∨ r = 3 → ∀ x y, ¬ G'.RulePattern r x y) ∧ (∀ i ∈ N, ∀ j ∈ N, i ≠ j → ∃ S, sep'.get i j = .ok S) := by
  obtain ⟨P, G', sep', k', Ls, h1, h2, h3⟩ := sampleCpdag_any o hm (fun L h => h.1) ht hr hp hT isScored hG hk k
  obtain ⟨c1, c2⟩ := Gen.scope h2.gen ht
  obtain ⟨V, v1, v2, v3, v4, v5⟩ := h2.orient
  refine ⟨P, G', sep', k', Ls, h1, h2.gen, c1, (Gen.ordered h2.gen ht (by simp)).1, h2.nodes, h2.wf, h2.noBi, h2.adj, ?_, ?_, ?_,
    ⟨V, v1, v2, v3, ?_⟩, v5, h3⟩
  · intro i j hij
    rcases (h2.adj i j).mp hij with ⟨L, hL, -, -, h⟩ | ⟨L, hL, -, -, h⟩ | ⟨L, hL, -, -, h⟩ | ⟨L, hL, -, -, h⟩
    · exact (c2 L hL).1.2.2.1 i j (Or.inl h)
    · exact (c2 L hL).1.2.2.1 i j (Or.inr (Or.inl h))
    · exact (c2 L hL).1.2.2.1 i j (Or.inr (Or.inr (Or.inl h)))
    · exact (c2 L hL).1.2.2.1 i j (Or.inr (Or.inr (Or.inr h)))
  · intro a b; rw [h2.filled.arrow]; simp [MG.Arrow, MG.pdagEmpty, MG.empty]
  · intro a b; rw [h2.filled.und]; simp [MG.Und, MG.pdagEmpty, MG.empty]
  · clear h1 h2 v2 v5
    induction v4 with
    | refl => exact .refl
    | tail _ h ih =>
      obtain ⟨r, hr, x, y, hp, rfl⟩ := h
      exact ih.tail ⟨r, x, y, by simpa using hr, hp, rfl⟩

/-- A learned tree for examples. -/
theorem exBrai_tree : ∃ tree st, learnStructure ascending (Pc.dsepTest ascending exBrai) (exBraiCfg 3) exBraiRng
      (Rai.init ascending exBrai.nodes) = .ok (tree, st) ∧
    tree.Ok (LearnedLeaf (Pc.dsepTest ascending exBrai) exBraiScore exBrai.nodes)
      (LearnedSplit (Pc.dsepTest ascending exBrai) exBrai.nodes) 3 exBrai.nodes ∅ ∧ st.graph.nodes = exBrai.nodes ∧
      ∀ i ∈ exBrai.nodes, ∀ j ∈ exBrai.nodes, i ≠ j → ∃ S, st.sep.get i j = .ok S := by
  obtain ⟨tree, st, h1, h2, h3, -, -, h4, -⟩ := C70_learn ascending (Pc.dsepTest ascending exBrai) (N := exBrai.nodes) ⟨0, by decide⟩
    (cfg := exBraiCfg 3) (by decide) rfl rfl (exBraiScore_float _) exBraiRng
  exact ⟨tree, st, h1, h2, h3, h4⟩

theorem exBraiRng_ok : (∀ k l, l ≠ [] → exBraiRng.scored k l < l.length) ∧ ∀ k n, 0 < n → exBraiRng.pick k n < n :=
  ⟨fun k _ hl => Nat.mod_lt k (List.length_pos_iff.mpr hl), fun k _ hn => Nat.mod_lt k hn⟩

/-- The hypotheses of `C71_sample` hold. -/
example : ∃ tree st r, learnStructure ascending (Pc.dsepTest ascending exBrai) (exBraiCfg 3) exBraiRng (Rai.init ascending exBrai.nodes) =
    .ok (tree, st) ∧ sampleCpdag ascending true exBraiRng 1 tree st.graph st.sep 0 = .ok r := by
  obtain ⟨tree, st, h1, h2, h3, h4⟩ := exBrai_tree
  obtain ⟨P, G', sep', k', Ls, h, -⟩ := C71_sample ascending (by decide) h2 exBraiRng_ok.1 exBraiRng_ok.2 (T := 1) (by decide) true h3 h4 0
  exact ⟨tree, st, _, h1, h⟩

/-- What a missing edge of a sample means, in general: a CI test of the pair was accepted; or a selected leaf has an arrow from an endogenous
to an exogenous node between them, and the edge is lost because neither this leaf nor another one contributes it; or the graph of a
hypothesis has a directed cycle. The full property would be the first case alone: `C71_edge_lost` refutes it. -/
theorem C71_missing_partial [Bot σ] {ci : CITest α} {N : Finset α} {f : Dag α → Finset α → Py (Num σ)} {m : Nat}
    {tree : Hyp α σ} (ht : tree.Ok (LearnedLeaf ci f N) (LearnedSplit ci N) m N ∅) {Ls : List (Leaf α σ)} (hg : Gen tree Ls) {i j : α}
    (hi : i ∈ N) (hj : j ∈ N) (hij : i ≠ j) (h1 : ¬ LeafArrow Ls i j) (h2 : ¬ LeafArrow Ls j i) (h3 : ¬ LeafUnd Ls i j)
    (h4 : ¬ LeafUnd Ls j i) :
    Accepted ci N i j ∨ Accepted ci N j i ∨
      (∃ L ∈ Ls, (i ∈ L.en ∧ j ∈ L.ex ∧ L.graph.Arrow i j) ∨ (j ∈ L.en ∧ i ∈ L.ex ∧ L.graph.Arrow j i)) ∨
      ∃ G ∈ tree.graphs, ∃ x, Relation.TransGen G.Arrow x x := by
  have hQ : ∀ L ∈ Ls, LearnedLeaf ci f N L := fun L hL => ((Gen.scope hg ht).2 L hL).1
  have key : ∀ L ∈ Ls, ∀ a b, a ∈ L.en → b ∈ L.en ∪ L.ex → a ≠ b → ¬ LeafArrow Ls a b → ¬ LeafArrow Ls b a → ¬ LeafUnd Ls a b →
      ¬ LeafUnd Ls b a → Accepted ci N a b ∨ (b ∈ L.ex ∧ L.graph.Arrow a b) := by
    intro L hL a b ha hb hab k1 k2 k3 k4
    have hw := (hQ L hL).1
    by_cases hp : L.graph.PAdj a b
    · rcases hp with hp | hp | hp | hp
      · rcases Finset.mem_union.mp hb with hb' | hb'
        · exact absurd ⟨L, hL, hb', Finset.mem_union_left _ ha, hp⟩ k1
        · exact Or.inr ⟨hb', hp⟩
      · exact absurd ⟨L, hL, ha, hb, hp⟩ k2
      · exact absurd ⟨L, hL, ha, hb, hw.wf.symm _ _ hp⟩ k4
      · exact absurd ⟨L, hL, ha, hb, hp⟩ k4
    · obtain ⟨l, k, -, w1, w2, w3, w4⟩ := hw.witness a (Finset.mem_union_left _ ha) b hb hab hp
      exact Or.inl ⟨l, k, w1, w2, w3, w4⟩
  rcases Gen.cover hg ht i hi j (Finset.mem_union_left _ hj) with ⟨L, hL, h | h⟩ | h | h
  · rcases key L hL i j h.1 h.2 hij h1 h2 h3 h4 with h' | h'
    · exact Or.inl h'
    · exact Or.inr (Or.inr (Or.inl ⟨L, hL, Or.inl ⟨h.1, h'⟩⟩))
  · rcases key L hL j i h.1 h.2 hij.symm h2 h1 h4 h3 with h' | h'
    · exact Or.inr (Or.inl h')
    · exact Or.inr (Or.inr (Or.inl ⟨L, hL, Or.inr ⟨h.1, h'⟩⟩))
  · rcases h.cycle hi hj with h | h
    · exact Or.inl h
    · exact Or.inr (Or.inr (Or.inr h))
  · rcases h.cycle hj hi with h | h
    · exact Or.inr (Or.inl h)
    · exact Or.inr (Or.inr (Or.inr h))

/-- With a test that answers d-separation in an acyclic graph, an edge of this graph is missing in a sample only for one of the two other
reasons. -/
theorem C71_oracle_partial [Bot σ] {ci : CITest α} {D : Dag α} (hD : D.WF) (hac : D.Acyclic)
    (hp : ∀ k i j l, i ∈ D.nodes → j ∈ D.nodes → i ≠ j → i ∉ l → j ∉ l → (∀ x ∈ l, x ∈ D.nodes) →
      (ci k i j l = true ↔ D.DSeparated i j l.toFinset))
    {f : Dag α → Finset α → Py (Num σ)} {m : Nat} {tree : Hyp α σ}
    (ht : tree.Ok (LearnedLeaf ci f D.nodes) (LearnedSplit ci D.nodes) m D.nodes ∅) {Ls : List (Leaf α σ)} (hg : Gen tree Ls) {i j : α}
    (hij : D.Adj i j) (h1 : ¬ LeafArrow Ls i j) (h2 : ¬ LeafArrow Ls j i) (h3 : ¬ LeafUnd Ls i j) (h4 : ¬ LeafUnd Ls j i) :
    (∃ L ∈ Ls, (i ∈ L.en ∧ j ∈ L.ex ∧ L.graph.Arrow i j) ∨ (j ∈ L.en ∧ i ∈ L.ex ∧ L.graph.Arrow j i)) ∨
      ∃ G ∈ tree.graphs, ∃ x, Relation.TransGen G.Arrow x x := by
  have hmem : i ∈ D.nodes ∧ j ∈ D.nodes := by
    rcases hij with h | h
    · exact hD i j h
    · exact (hD j i h).symm
  have hne : i ≠ j := by
    rintro rfl
    rcases hij with h | h <;> exact hac i (.single h)
  have hno : ∀ a b, D.Adj a b → a ∈ D.nodes → b ∈ D.nodes → a ≠ b → ¬ Accepted ci D.nodes a b := by
    rintro a b hab ha hb hne ⟨l, k, l1, l2, l3, h | h⟩
    · exact Dag.not_dseparated_of_adj hac hab ((hp k a b l ha hb hne l1 l2 l3).mp h)
    · exact Dag.not_dseparated_of_adj hac hab.symm ((hp k b a l hb ha hne.symm l2 l1 l3).mp h)
  rcases C71_missing_partial ht hg hmem.1 hmem.2 hne h1 h2 h3 h4 with h | h | h
  · exact absurd h (hno i j hij hmem.1 hmem.2 hne)
  · exact absurd h (hno j i hij.symm hmem.2 hmem.1 hne.symm)
  · exact h

/-- The hypotheses of `C71_missing_partial` and of `C71_oracle_partial` hold. -/
example : ∃ tree : Hyp Nat (WithBot Int), tree.Ok (LearnedLeaf (Pc.dsepTest ascending exBrai) exBraiScore exBrai.nodes)
      (LearnedSplit (Pc.dsepTest ascending exBrai) exBrai.nodes) 3 exBrai.nodes ∅ ∧ (∃ Ls, Gen tree Ls) ∧ exBrai.Adj 0 1 ∧
    ∀ k i j l, i ∈ exBrai.nodes → j ∈ exBrai.nodes → i ≠ j → i ∉ l → j ∉ l → (∀ x ∈ l, x ∈ exBrai.nodes) →
      (Pc.dsepTest ascending exBrai k i j l = true ↔ exBrai.DSeparated i j l.toFinset) := by
  obtain ⟨tree, st, h1, h2, -, -, -, -, Ls, h3, -⟩ := C70_learn ascending (Pc.dsepTest ascending exBrai) (N := exBrai.nodes)
    ⟨0, by decide⟩ (cfg := exBraiCfg 3) (by decide) rfl rfl (exBraiScore_float _) exBraiRng
  exact ⟨tree, h2, ⟨Ls, h3⟩, Or.inr (by simp [Dag.Edge, exBrai]), C22_dsep_oracle ascending exBrai_wf exBrai_acyclic⟩

/-- Samples lose edges: with a test that answers d-separation in the graph `exBrai`, the learned graph has no edge between 0 and 1, although
1 → 0 is an edge of the graph, hence no test of this pair can be accepted. -/
theorem C71_edge_lost : exBrai.WF ∧ exBrai.Acyclic ∧ exBrai.Edge 1 0 ∧
    (∀ k l, 0 ∉ l → 1 ∉ l → (∀ x ∈ l, x ∈ exBrai.nodes) → Pc.dsepTest ascending exBrai k 0 1 l = false) ∧
    ∃ tree st, learnStructure ascending (Pc.dsepTest ascending exBrai) (exBraiCfg 1) exBraiRng (Rai.init ascending exBrai.nodes) =
      .ok (tree, st) ∧ ¬ st.graph.PAdj 0 1 := by
  refine ⟨exBrai_wf, exBrai_acyclic, by simp [Dag.Edge, exBrai], fun k l h0 h1 hl => ?_, ?_⟩
  · have := C22_dsep_oracle ascending exBrai_wf exBrai_acyclic k 0 1 l (by decide) (by decide) (by decide) h0 h1 hl
    rw [Bool.eq_false_iff]
    exact fun h => Dag.not_dseparated_of_adj exBrai_acyclic (Or.inr (by simp [Dag.Edge, exBrai])) (this.mp h)
  · obtain ⟨⟨tree, st⟩, h1, h2⟩ := Py.okWith_iff (x := learnStructure ascending (Pc.dsepTest ascending exBrai) (exBraiCfg 1) exBraiRng
      (Rai.init ascending exBrai.nodes)) (p := fun r => decide (¬ r.2.graph.PAdj 0 1)) (by decide +kernel)
    exact ⟨tree, st, h1, of_decide_eq_true h2⟩

/-- 0 → 1 → 2 → 3 ← 4 (example). -/
def exBraiChain : Dag Nat :=
  ⟨{0, 1, 2, 3, 4}, fun v => if v = 1 then {0} else if v = 2 then {1} else if v = 3 then {2, 4} else ∅⟩

/-- A test that finds the independences of `exBraiChain`, but those with a condition only at every second call (example; the
calls stand for different bootstrap samples). -/
def exBraiCoin : CITest Nat := fun k i j l => Pc.dsepTest ascending exBraiChain k i j l && (l == [] || k % 2 == 1)

/-- The separation sets after learning do not belong to the learned graph: here 0 and 2 are not adjacent, the separation set recorded for
them is empty, but the test of 0 and 2 without conditioning is rejected at every call. -/
theorem C71_sepset_fails : ∃ tree st, learnStructure ascending exBraiCoin (exBraiCfg 2) exBraiRng
      (Rai.init ascending exBraiChain.nodes) = .ok (tree, st) ∧ ¬ st.graph.PAdj 0 2 ∧ st.sep.get 0 2 = .ok ∅ ∧
    ∀ k, exBraiCoin k 0 2 [] = false ∧ exBraiCoin k 2 0 [] = false := by
  obtain ⟨⟨tree, st⟩, h1, h2⟩ := Py.okWith_iff (x := learnStructure ascending exBraiCoin (exBraiCfg 2) exBraiRng
    (Rai.init ascending exBraiChain.nodes)) (p := fun r => decide (¬ r.2.graph.PAdj 0 2 ∧ r.2.sep.get 0 2 = .ok ∅)) (by decide +kernel)
  have h := of_decide_eq_true h2
  refine ⟨tree, st, h1, h.1, h.2, fun k => ?_⟩
  have e1 : Pc.dsepTest ascending exBraiChain k 0 2 [] = Pc.dsepTest ascending exBraiChain 0 0 2 [] := rfl
  have e2 : Pc.dsepTest ascending exBraiChain k 2 0 [] = Pc.dsepTest ascending exBraiChain 0 2 0 [] := rfl
  rw [exBraiCoin, exBraiCoin, e1, e2]
  have e3 : Pc.dsepTest ascending exBraiChain 0 0 2 [] = false := by decide +kernel
  have e4 : Pc.dsepTest ascending exBraiChain 0 2 0 [] = false := by decide +kernel
  rw [e3, e4]
  exact ⟨rfl, rfl⟩

/-! ## C72 -/

/-- C72, temperature zero: the sample has the largest total score among all selections of the tree, whatever the random draws; the score
that is returned is this total. -/
theorem C72_map [AddCommMonoid K] [LinearOrder K] [IsOrderedAddMonoid K] (o : SetOrder α) {ci : CITest α} {N : Finset α}
    {f : Dag α → Finset α → Py (Num (WithBot K))} {m : Nat} (hm : 0 < m) {tree : Hyp α (WithBot K)}
    (ht : tree.Ok (LearnedLeaf ci f N) (LearnedSplit ci N) m N ∅) (rng : Rng (WithBot K)) {G : MG α} {sep : SepSet α} (hG : G.nodes = N)
    (hk : ∀ i ∈ N, ∀ j ∈ N, i ≠ j → ∃ S, sep.get i j = .ok S) (k : Nat) :
    ∃ P G' sep' k' Ls, sampleCpdag o true rng 0 tree G sep k = .ok (P, G', sep', some (total Ls), k') ∧ Gen tree Ls ∧
      (∀ a b, G'.PAdj a b ↔ LeafArrow Ls a b ∨ LeafArrow Ls b a ∨ LeafUnd Ls a b ∨ LeafUnd Ls b a) ∧
      ∀ Ls', Gen tree Ls' → total Ls' ≤ total Ls := by
  obtain ⟨P, G', sep', k', Ls, s1, s2, -, s4⟩ := sampleCpdag_scored o (rng := rng) (T := 0) hm (fun L h => h.1) ht
    (rel := fun a b => a ≤ b) le_refl (fun _ _ _ => le_trans) (fun _ _ _ _ => add_le_add) (chooser_map _) hG hk k
  exact ⟨P, G', sep', k', Ls, s1, s2.gen, s2.adj, s4⟩

/-- The hypotheses of `C72_map` hold. -/
example : ∃ tree st r, learnStructure ascending (Pc.dsepTest ascending exBrai) (exBraiCfg 3) exBraiRng (Rai.init ascending exBrai.nodes) =
    .ok (tree, st) ∧ sampleCpdag ascending true exBraiRng 0 tree st.graph st.sep 0 = .ok r := by
  obtain ⟨tree, st, h1, h2, h3, h4⟩ := exBrai_tree
  obtain ⟨P, G', sep', k', Ls, h, -⟩ := C72_map ascending (by decide) h2 exBraiRng h3 h4 0
  exact ⟨tree, st, _, h1, h⟩

theorem foldr_max_mem (l : List (WithBot ℝ)) : (∀ s ∈ l, s ≤ l.foldr max ⊥) ∧ (l.foldr max ⊥ = ⊥ ∨ l.foldr max ⊥ ∈ l) := by
  induction l with
  | nil => simp
  | cons s l ih =>
    simp only [List.foldr_cons, List.mem_cons, forall_eq_or_imp]
    refine ⟨⟨le_max_left _ _, fun x hx => (ih.1 x hx).trans (le_max_right _ _)⟩, ?_⟩
    rcases max_choice s (l.foldr max ⊥) with h | h
    · exact Or.inr (Or.inl h)
    · rw [h]; exact ih.2.imp id Or.inr

theorem expScore_nonneg (T m : ℝ) (s : WithBot ℝ) : 0 ≤ expScore T m s := by
  cases s with
  | bot => exact le_rfl
  | coe x => exact (Real.exp_pos _).le

/-- C72, positive temperature: the weights of the draw are a probability distribution, one for each hypothesis. Unless all scores are `-inf`,
a hypothesis has weight zero exactly if its score is `-inf`, and the ratio of two weights is the exponential of the difference of the scores
divided by the temperature. If all scores are `-inf`, the draw is uniform. -/
theorem C72_boltzmann {T : ℝ} {l : List (WithBot ℝ)} (hl : l ≠ []) :
    (weights T l).length = l.length ∧ (∀ w ∈ weights T l, 0 ≤ w) ∧ (weights T l).sum = 1 ∧
      ((∀ s ∈ l, s = ⊥) → ∀ w ∈ weights T l, w = 1 / l.length) ∧
      ((∃ s ∈ l, s ≠ ⊥) → (∀ (i : Nat) s w, l[i]? = some s → (weights T l)[i]? = some w → (w = 0 ↔ s = ⊥)) ∧
        ∀ (i j : Nat) (x y w w' : ℝ), l[i]? = some ↑x → l[j]? = some ↑y → (weights T l)[i]? = some w → (weights T l)[j]? = some w' →
          w = w' * Real.exp ((x - y) / T)) := by
  obtain ⟨h1, h2⟩ := foldr_max_mem l
  have hlen : (l.length : ℝ) ≠ 0 := by
    have := List.length_pos_iff.mpr hl
    positivity
  generalize hM : l.foldr max ⊥ = M at h1 h2
  cases M with
  | bot =>
    have e : weights T l = l.map (fun _ => 1 / (l.length : ℝ)) := by rw [weights, hM]
    rw [e]
    refine ⟨by simp, ?_, ?_, ?_, ?_⟩
    · intro w hw
      obtain ⟨s, -, rfl⟩ := List.mem_map.mp hw
      positivity
    · rw [List.map_const', List.sum_replicate, nsmul_eq_mul]
      field_simp
    · intro _ w hw
      obtain ⟨s, -, rfl⟩ := List.mem_map.mp hw
      rfl
    · rintro ⟨s, hs, hs'⟩
      exact absurd (le_bot_iff.mp (h1 s hs)) hs'
  | coe m =>
    have e : weights T l = (l.map (expScore T m)).map (fun w => w / (l.map (expScore T m)).sum) := by rw [weights, hM]
    have hm : (m : WithBot ℝ) ∈ l := h2.resolve_left (by simp)
    have hpos : 0 < (l.map (expScore T m)).sum := by
      refine lt_of_lt_of_le (b := expScore T m m) (Real.exp_pos _) ?_
      refine List.single_le_sum (l := l.map (expScore T m)) ?_ _ (List.mem_map.mpr ⟨_, hm, rfl⟩)
      intro w hw
      obtain ⟨s, -, rfl⟩ := List.mem_map.mp hw
      exact expScore_nonneg T m s
    generalize hS : (l.map (expScore T m)).sum = S at e hpos
    rw [e]
    refine ⟨by simp, ?_, ?_, ?_, fun _ => ⟨?_, ?_⟩⟩
    · intro w hw
      simp only [List.mem_map] at hw
      obtain ⟨_, ⟨s, -, rfl⟩, rfl⟩ := hw
      exact div_nonneg (expScore_nonneg T m s) hpos.le
    · have : (fun w : ℝ => w / S) = fun w => w * S⁻¹ := by funext w; rw [div_eq_mul_inv]
      rw [this, List.sum_map_mul_right, List.map_id', hS, mul_inv_cancel₀ hpos.ne']
    · intro h
      exact absurd (h _ hm) (by simp)
    · intro i s w hs hw
      simp only [List.getElem?_map, hs, Option.map_some, Option.some.injEq] at hw
      subst hw
      cases s with
      | bot => simp [expScore]
      | coe x => simp [expScore, hpos.ne', (Real.exp_pos _).ne']
    · intro i j x y w w' hi hj hw hw'
      simp only [List.getElem?_map, hi, hj, Option.map_some, Option.some.injEq] at hw hw'
      subst hw hw'
      simp only [expScore]
      rw [div_mul_eq_mul_div, ← Real.exp_add]
      congr 2
      ring

/-- The hypothesis of `C72_boltzmann` holds, and there is a score that is not `-inf`. -/
example : ([⊥, (-3 : ℝ), (-5 : ℝ)] : List (WithBot ℝ)) ≠ [] ∧ ∃ s ∈ ([⊥, ((-3 : ℝ) : WithBot ℝ), ((-5 : ℝ) : WithBot ℝ)] : List (WithBot ℝ)), s ≠ ⊥ :=
  ⟨by simp, _, List.mem_cons_of_mem _ List.mem_cons_self, by simp⟩

/-- C72, positive temperature: if only hypotheses of positive weight are drawn, the sample never contains a sub-graph without consistent
extension (score `-inf`) if some selection of the tree avoids this. -/
theorem C72_extendable (o : SetOrder α) {ci : CITest α} {N : Finset α}
    {f : Dag α → Finset α → Py (Num (WithBot ℝ))} {m : Nat} (hm : 0 < m) {tree : Hyp α (WithBot ℝ)}
    (ht : tree.Ok (LearnedLeaf ci f N) (LearnedSplit ci N) m N ∅) {rng : Rng (WithBot ℝ)} {T : ℚ} (hT : 0 < T)
    (hr : ∀ k l, l ≠ [] → ∃ w, (weights T l)[rng.scored k l]? = some w ∧ 0 < w) {G : MG α} {sep : SepSet α} (hG : G.nodes = N)
    (hk : ∀ i ∈ N, ∀ j ∈ N, i ≠ j → ∃ S, sep.get i j = .ok S) (k : Nat) :
    ∃ P G' sep' k' Ls, sampleCpdag o true rng T tree G sep k = .ok (P, G', sep', some (total Ls), k') ∧ Gen tree Ls ∧
      (∀ a b, G'.PAdj a b ↔ LeafArrow Ls a b ∨ LeafArrow Ls b a ∨ LeafUnd Ls a b ∨ LeafUnd Ls b a) ∧
      ((∃ Ls', Gen tree Ls' ∧ ∀ L ∈ Ls', L.score ≠ ⊥) → ∀ L ∈ Ls, L.score ≠ ⊥) := by
  have hadd : ∀ a b : WithBot ℝ, a + b ≠ ⊥ ↔ a ≠ ⊥ ∧ b ≠ ⊥ := fun a b => by rw [ne_eq, WithBot.add_eq_bot, not_or]
  have htot : ∀ Ls : List (Leaf α (WithBot ℝ)), total Ls ≠ ⊥ ↔ ∀ L ∈ Ls, L.score ≠ ⊥ := by
    intro Ls
    induction Ls with
    | nil => simp [total]
    | cons L Ls ih =>
      have e : total (L :: Ls) = L.score + total Ls := by simp [total]
      rw [e, hadd, ih]; simp
  obtain ⟨P, G', sep', k', Ls, s1, s2, -, s4⟩ := sampleCpdag_scored o (rng := rng) (T := T) hm (fun L h => h.1) ht
    (rel := fun a b => a ≠ ⊥ → b ≠ ⊥) (fun _ => id) (fun _ _ _ h h' => h' ∘ h)
    (fun a b c d h h' => by rw [hadd, hadd]; exact fun x => ⟨h x.1, h' x.2⟩) (by
      intro k l hl
      obtain ⟨w, w1, w2⟩ := hr k l hl
      obtain ⟨b1, -, -, -, b2⟩ := C72_boltzmann (T := T) hl
      have hlt : rng.scored k l < l.length := by rw [← b1]; exact (List.getElem?_eq_some_iff.mp w1).1
      refine ⟨rng.scored k l, l[rng.scored k l], by rw [chooser, if_pos hT], by simp, fun s hs hne he => ?_⟩
      exact w2.ne' (((b2 ⟨s, hs, hne⟩).1 (rng.scored k l) _ w (List.getElem?_eq_getElem hlt) w1).mpr he)) hG hk k
  refine ⟨P, G', sep', k', Ls, s1, s2.gen, s2.adj, ?_⟩
  rintro ⟨Ls', g, h⟩
  exact (htot Ls).mp (s4 Ls' g ((htot Ls').mpr h))

/-- Draws as in the hypothesis of `C72_extendable` exist, for every temperature; trees as in the other hypothesis are learned (`C70_learn`,
`C70_bdeu`). -/
theorem C72_draws (T : ℚ) : ∃ rng : Rng (WithBot ℝ), (∀ k n, 0 < n → rng.pick k n < n) ∧
    ∀ k l, l ≠ [] → ∃ w, (weights T l)[rng.scored k l]? = some w ∧ 0 < w := by
  have h : ∀ l : List (WithBot ℝ), ∃ i : Nat, l ≠ [] → ∃ w, (weights T l)[i]? = some w ∧ 0 < w := by
    intro l
    by_cases hl : l = []
    · exact ⟨0, fun h => absurd hl h⟩
    obtain ⟨-, h1, h2, -⟩ := C72_boltzmann (T := T) hl
    have : ∃ w ∈ weights T l, 0 < w := by
      by_contra hc
      push Not at hc
      have : (weights T l).sum = 0 := List.sum_eq_zero (fun w hw => le_antisymm (hc w hw) (h1 w hw))
      rw [h2] at this
      exact one_ne_zero this
    obtain ⟨w, hw, hw'⟩ := this
    obtain ⟨i, hi⟩ := List.mem_iff_getElem?.mp hw
    exact ⟨i, fun _ => ⟨w, hi, hw'⟩⟩
  choose g hg using h
  exact ⟨⟨fun _ l => g l, fun k n => k % n⟩, fun k n hn => Nat.mod_lt k hn, fun _ l hl => hg l hl⟩

example : ∃ rng : Rng (WithBot ℝ), ∃ tree st r, learnStructure ascending (Pc.dsepTest ascending exRai1)
      ⟨3, true, true, some (Brai.bdeu ascending id [[0, 1, 1, 0], [1, 1, 0, 0]] [2, 2, 2, 2])⟩ rng (Rai.init ascending {0, 1, 2, 3}) =
    .ok (tree, st) ∧ sampleCpdag ascending true rng 1 tree st.graph st.sep 0 = .ok r := by
  obtain ⟨rng, -, hr⟩ := C72_draws 1
  obtain ⟨tree, st, h1, h2, h3, -, -, h4, -⟩ := C70_learn ascending (Pc.dsepTest ascending exRai1) (N := {0, 1, 2, 3}) ⟨0, by decide⟩
    (cfg := ⟨3, true, true, some (Brai.bdeu ascending id [[0, 1, 1, 0], [1, 1, 0, 0]] [2, 2, 2, 2])⟩) (by decide) rfl rfl
    (C70_bdeu ascending id (by
      intro r hr
      simp only [List.mem_cons, List.not_mem_nil, or_false] at hr
      rcases hr with rfl | rfl <;> simp [InSizes]) (by simp) (by simp)) rng
  obtain ⟨P, G', sep', k', Ls, h, -⟩ := C72_extendable ascending (by decide) h2 (T := 1) (by norm_num) hr h3 h4 0
  exact ⟨rng, tree, st, _, h1, h⟩

/-! ## C53 -/

/-- The graphs that `calc_graph_uncertainty` counts. `Rs` are the graphs that `n` successive calls of `sample_cpdag` return. The result has
an undirected edge between two nodes iff more than `threshold * n` graphs of the following list have an edge between them: all samples
except the first one, and the last one a second time. -/
theorem C53_counted [Bot σ] [AddMonoid σ] [LinearOrder σ] (o : SetOrder α) {ci : CITest α} {N : Finset α}
    {f : Dag α → Finset α → Py (Num σ)} {m : Nat} (hm : 0 < m) {tree : Hyp α σ} (ht : tree.Ok (LearnedLeaf ci f N) (LearnedSplit ci N) m N ∅)
    {rng : Rng σ} (hr : ∀ k l, l ≠ [] → rng.scored k l < l.length) (hp : ∀ k n, 0 < n → rng.pick k n < n) {T : ℚ} (hT : 0 ≤ T)
    (isScored : Bool) {w : World α} {G : MG α} (hw : w.heap[w.cur]? = some G) (hG : G.nodes = N)
    (hk : ∀ i ∈ N, ∀ j ∈ N, i ≠ j → ∃ S, w.sep.get i j = .ok S) (n : Nat) (threshold : ℚ) :
    ∃ Rs S w', sampleSeq o isScored rng T tree n G w.sep w.draws = .ok Rs ∧ Rs.length = n ∧
      calcGraphUncertainty o isScored rng tree n threshold T w = .ok (S, w') ∧ S.nodes = N ∧ S.PdagWF ∧ (∀ a b, ¬ S.Arrow a b) ∧
      ∀ a b, S.Und a b ↔ a ∈ N ∧ b ∈ N ∧ a ≠ b ∧ threshold * n < edgeCount a b (Rs.tail ++ Rs.getLast?.toList) :=
  calcGraphUncertainty_spec o (samples_of_ok o hm (fun _ h => h.1) ht hr hp hT isScored) n threshold hw hG hk

/-- The hypotheses of `C53_counted` hold. -/
example : ∃ tree st r, learnStructure ascending (Pc.dsepTest ascending exBrai) (exBraiCfg 3) exBraiRng (Rai.init ascending exBrai.nodes) =
    .ok (tree, st) ∧ calcGraphUncertainty ascending true exBraiRng tree 10 (1 / 2) 1 ⟨[st.graph], 0, st.sep, 0⟩ = .ok r := by
  obtain ⟨tree, st, h1, h2, h3, h4⟩ := exBrai_tree
  obtain ⟨Rs, S, w', -, -, h, -⟩ := C53_counted ascending (by decide) h2 exBraiRng_ok.1 exBraiRng_ok.2 (T := 1) (by decide) true
    (w := ⟨[st.graph], 0, st.sep, 0⟩) rfl h3 h4 10 (1 / 2)
  exact ⟨tree, st, _, h1, h⟩

/-- The part of C53 that holds: if there is at most one sample, or if the temperature is zero, or if all samples have the same skeleton, then
the result has an undirected edge between two nodes iff more than `threshold * n` of the `n` samples have an edge between them. Missing (see
`C53_fails`): the same for all numbers of samples and all temperatures. -/
theorem C53_partial [Bot σ] [AddMonoid σ] [LinearOrder σ] (o : SetOrder α) {ci : CITest α} {N : Finset α}
    {f : Dag α → Finset α → Py (Num σ)} {m : Nat} (hm : 0 < m) {tree : Hyp α σ} (ht : tree.Ok (LearnedLeaf ci f N) (LearnedSplit ci N) m N ∅)
    {rng : Rng σ} (hr : ∀ k l, l ≠ [] → rng.scored k l < l.length) (hp : ∀ k n, 0 < n → rng.pick k n < n) {T : ℚ} (hT : 0 ≤ T)
    (isScored : Bool) {w : World α} {G : MG α} (hw : w.heap[w.cur]? = some G) (hG : G.nodes = N)
    (hk : ∀ i ∈ N, ∀ j ∈ N, i ≠ j → ∃ S, w.sep.get i j = .ok S) (n : Nat) (threshold : ℚ) :
    ∃ Rs S w', sampleSeq o isScored rng T tree n G w.sep w.draws = .ok Rs ∧ Rs.length = n ∧
      calcGraphUncertainty o isScored rng tree n threshold T w = .ok (S, w') ∧
      (n ≤ 1 ∨ (isScored = true ∧ T = 0) ∨ (∀ R ∈ Rs, ∀ R' ∈ Rs, ∀ a b, R.PAdj a b ↔ R'.PAdj a b) →
        ∀ a b, S.Und a b ↔ a ∈ N ∧ b ∈ N ∧ a ≠ b ∧ threshold * n < edgeCount a b Rs) := by
  obtain ⟨Rs, S, w', h1, h2, h3, -, -, -, h4⟩ := C53_counted o hm ht hr hp hT isScored hw hG hk n threshold
  refine ⟨Rs, S, w', h1, h2, h3, fun hc a b => ?_⟩
  have hsame : ∀ R ∈ Rs, ∀ R' ∈ Rs, ∀ a b, R.PAdj a b ↔ R'.PAdj a b := by
    rcases hc with hc | ⟨rfl, rfl⟩ | hc
    · intro R hR R' hR'
      match Rs, h2 with
      | [], _ => simp at hR
      | [X], _ =>
        rw [List.mem_singleton.mp hR, List.mem_singleton.mp hR']
        exact fun _ _ => Iff.rfl
      | _ :: _ :: _, h2 => simp only [List.length_cons] at h2; omega
    · have hs := samples_of_ok o hm (fun L h => h.1) ht hr hp hT true
      obtain ⟨P, R0, sep', s, k', g1, -⟩ := hs G w.sep w.draws hG hk
      have := sampleSeq_zero o hs n G G w.sep w.sep w.draws w.draws Rs _ hG hG hk g1 h1
      subst this
      intro R hR R' hR'
      rw [List.eq_of_mem_replicate hR, List.eq_of_mem_replicate hR']
      exact fun _ _ => Iff.rfl
    · exact hc
  have e : edgeCount a b (Rs.tail ++ Rs.getLast?.toList) = edgeCount a b Rs := by
    cases Rs with
    | nil => rfl
    | cons X Ys =>
      have hl : (X :: Ys).getLast? = some ((X :: Ys).getLast (by simp)) := List.getLast?_eq_some_getLast _
      have hx := hsame X List.mem_cons_self _ (List.getLast_mem (l := X :: Ys) (by simp)) a b
      rw [hl, edgeCount, edgeCount, List.tail_cons, Option.toList_some, List.countP_append, List.countP_cons, List.countP_cons]
      simp only [List.countP_nil, zero_add, ← hx]
  rw [h4, e]

/-- A test of two nodes that is rejected at the first call, accepted at the second one, and so on (example). -/
def exBraiFlip : CITest Nat := fun k _ _ _ => k % 2 == 1

/-- C53 fails: two samples of a learned tree, the first one has an edge between 0 and 1, the second one does not; the threshold is zero, so that
each edge of a sample should be in the result, but the edge is not there. -/
theorem C53_fails : ∃ tree st R R' S w', learnStructure ascending exBraiFlip (exBraiCfg 2) exBraiRng (Rai.init ascending {0, 1}) =
      .ok (tree, st) ∧
    sampleSeq ascending true exBraiRng 1 tree 2 st.graph st.sep 0 = .ok [R, R'] ∧ R.PAdj 0 1 ∧
    calcGraphUncertainty ascending true exBraiRng tree 2 0 1 ⟨[st.graph], 0, st.sep, 0⟩ = .ok (S, w') ∧ ¬ S.PAdj 0 1 := by
  obtain ⟨⟨tree, st⟩, h1, h2⟩ := Py.okWith_iff (x := learnStructure ascending exBraiFlip (exBraiCfg 2) exBraiRng (Rai.init ascending {0, 1}))
    (p := fun r => (sampleSeq ascending true exBraiRng 1 r.1 2 r.2.graph r.2.sep 0).okWith (fun l => match l with
        | [R, _] => decide (R.PAdj 0 1)
        | _ => false) &&
      (calcGraphUncertainty ascending true exBraiRng r.1 2 0 1 ⟨[r.2.graph], 0, r.2.sep, 0⟩).okWith (fun r => decide (¬ r.1.PAdj 0 1)))
    (by decide +kernel)
  rw [Bool.and_eq_true] at h2
  obtain ⟨l, h3, h4⟩ := Py.okWith_iff h2.1
  obtain ⟨⟨S, w'⟩, h5, h6⟩ := Py.okWith_iff h2.2
  match l, h3, h4 with
  | [R, R'], h3, h4 => exact ⟨tree, st, R, R', S, w', h1, h3, of_decide_eq_true h4, h5, of_decide_eq_true h6⟩

end Verif
