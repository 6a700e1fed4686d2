import Verif.Model.Brai
import Verif.Spec.Pdag

/-!
# Vocabulary for the properties of B-RAI (graph generating trees)
-/

namespace Verif
namespace Brai
variable {α σ : Type}

/-- The data stored at a leaf of the tree. -/
structure Leaf (α σ : Type) where
  en : Finset α
  ex : Finset α
  graph : MG α
  sep : SepSet α
  score : σ

mutual
/-- `Gen h Ls`: the leaves `Ls` are reached from `h` by selecting one hypothesis at each inner node. -/
inductive Gen : Hyp α σ → List (Leaf α σ) → Prop
  | leaf (en ex : Finset α) (order : Nat) (G : MG α) (S : SepSet α) (s : σ) : Gen (.leaf en ex order G S s) [⟨en, ex, G, S, s⟩]
  | node {en ex : Finset α} {order : Nat} {cs : Cookies α σ} {Ls : List (Leaf α σ)} : GenC cs Ls → Gen (.node en ex order cs) Ls

/-- The same for one of the hypotheses. -/
inductive GenC : Cookies α σ → List (Leaf α σ) → Prop
  | here {G : MG α} {d : Finset α} {l : List (Finset α)} {anc : Hyps α σ} {desc : Hyp α σ} {rest : Cookies α σ}
      {L1 L2 : List (Leaf α σ)} : GenA anc L1 → Gen desc L2 → GenC (.cons G d l anc desc rest) (L1 ++ L2)
  | there {G : MG α} {d : Finset α} {l : List (Finset α)} {anc : Hyps α σ} {desc : Hyp α σ} {rest : Cookies α σ}
      {Ls : List (Leaf α σ)} : GenC rest Ls → GenC (.cons G d l anc desc rest) Ls

/-- The same for the list of all ancestor sub-trees. -/
inductive GenA : Hyps α σ → List (Leaf α σ) → Prop
  | nil : GenA .nil []
  | cons {h : Hyp α σ} {rest : Hyps α σ} {L1 L2 : List (Leaf α σ)} : Gen h L1 → GenA rest L2 → GenA (.cons h rest) (L1 ++ L2)
end

/-- The total score of the selected leaves. -/
def total [Add σ] [Zero σ] (Ls : List (Leaf α σ)) : σ := (Ls.map Leaf.score).sum

/-- An arrow `a → b` into an endogenous node of one of the leaves, in the graph of this leaf. -/
def LeafArrow [DecidableEq α] (Ls : List (Leaf α σ)) (a b : α) : Prop :=
  ∃ L ∈ Ls, b ∈ L.en ∧ a ∈ L.en ∪ L.ex ∧ L.graph.Arrow a b

/-- An undirected edge with an endogenous end `b` in one of the leaves, in the graph of this leaf. -/
def LeafUnd [DecidableEq α] (Ls : List (Leaf α σ)) (a b : α) : Prop :=
  ∃ L ∈ Ls, b ∈ L.en ∧ a ∈ L.en ∪ L.ex ∧ L.graph.Und a b

mutual
/-- A generating tree for endogenous nodes `en` and exogenous nodes `ex`: each inner node has `n` hypotheses; each hypothesis divides
the endogenous nodes into a descendant set and disjoint ancestor sets; the ancestor sub-trees have the same exogenous nodes, the
descendant sub-tree has in addition all ancestors as exogenous nodes. `Q` holds for the leaves, `R` for the graph of each hypothesis
together with its descendant set and ancestor sets. -/
def Hyp.Ok [DecidableEq α] (Q : Leaf α σ → Prop) (R : Finset α → MG α → Finset α → List (Finset α) → Prop) (n : Nat) :
    Finset α → Finset α → Hyp α σ → Prop
  | en, ex, .leaf en' ex' _ G S s => en' = en ∧ ex' = ex ∧ Q ⟨en, ex, G, S, s⟩
  | en, ex, .node en' ex' _ cs => en' = en ∧ ex' = ex ∧ cs.length = n ∧ cs.Ok Q R n en ex

/-- The same for a list of hypotheses. -/
def Cookies.Ok [DecidableEq α] (Q : Leaf α σ → Prop) (R : Finset α → MG α → Finset α → List (Finset α) → Prop) (n : Nat) :
    Finset α → Finset α → Cookies α σ → Prop
  | _, _, .nil => True
  | en, ex, .cons G d l anc desc rest =>
    d ⊆ en ∧ (∀ x, (∃ s ∈ l, x ∈ s) ↔ x ∈ en ∧ x ∉ d) ∧ l.Pairwise Disjoint ∧ R en G d l ∧ anc.Ok Q R n l ex ∧
      desc.Ok Q R n d (en \ d ∪ ex) ∧ rest.Ok Q R n en ex

/-- The same for the sub-trees of the ancestor sets. -/
def Hyps.Ok [DecidableEq α] (Q : Leaf α σ → Prop) (R : Finset α → MG α → Finset α → List (Finset α) → Prop) (n : Nat) :
    List (Finset α) → Finset α → Hyps α σ → Prop
  | [], _, .nil => True
  | s :: l, ex, .cons h r => h.Ok Q R n s ex ∧ r.Ok Q R n l ex
  | [], _, .cons _ _ => False
  | _ :: _, _, .nil => False
end

/-- The leaves of a selection, ancestors first: the endogenous nodes of a later leaf are neither endogenous nor exogenous nodes of an
earlier leaf. -/
def Ordered [DecidableEq α] (Ls : List (Leaf α σ)) : Prop := Ls.Pairwise (fun L L' => Disjoint L'.en (L.en ∪ L.ex))

/-- What a leaf stores, for a learner with CI test `ci` on nodes `N`: a graph on `N` without bi-directed edges, and for each pair of
nodes of the leaf a recorded set; if the pair is not adjacent in the graph, the set was accepted by a test of the pair. -/
structure LeafOk [LinearOrder α] (ci : CITest α) (N : Finset α) (L : Leaf α σ) : Prop where
  en : L.en ⊆ N
  ex : L.ex ⊆ N
  disj : Disjoint L.en L.ex
  nodes : L.graph.nodes = N
  wf : L.graph.PdagWF
  noBi : ∀ a b, L.graph.Arrow a b → ¬ L.graph.Arrow b a
  key : ∀ i ∈ L.en ∪ L.ex, ∀ j ∈ L.en ∪ L.ex, i ≠ j → ∃ S, L.sep.get i j = .ok S
  witness : ∀ i ∈ L.en ∪ L.ex, ∀ j ∈ L.en ∪ L.ex, i ≠ j → ¬ L.graph.PAdj i j →
    ∃ l k, L.sep.get i j = .ok l.toFinset ∧ i ∉ l ∧ j ∉ l ∧ (∀ x ∈ l, x ∈ N) ∧ (ci k i j l = true ∨ ci k j i l = true)

variable [LinearOrder α]

/-- The score of a leaf: `f` of an extension of the sub-graph of the leaf to a DAG; `⊥` if there is none. -/
def LeafScore [Bot σ] (f : Dag α → Finset α → Py (Num σ)) (N : Finset α) (L : Leaf α σ) : Prop :=
  ∃ P : MG α, P.PdagWF ∧ P.nodes = N ∧ (∀ a b, P.Arrow a b ↔ LeafArrow [L] a b) ∧ (∀ a b, P.Und a b ↔ LeafUnd [L] a b ∨ LeafUnd [L] b a) ∧
    ((∃ E, P.Extension E) → ∃ D, P.Extension D ∧ f D L.en = .ok (.float L.score)) ∧ ((¬ ∃ E, P.Extension E) → L.score = ⊥)

/-- Adjacent nodes were found dependent without conditioning. -/
def FoundDep (ci : CITest α) (G : MG α) : Prop := ∀ i j, G.PAdj i j → ∃ k, ci k i j [] = false ∨ ci k j i [] = false

/-- A CI test of the pair with a conditioning set of other nodes reported independence. -/
def Accepted (ci : CITest α) (N : Finset α) (i j : α) : Prop :=
  ∃ l k, i ∉ l ∧ j ∉ l ∧ (∀ x ∈ l, x ∈ N) ∧ (ci k i j l = true ∨ ci k j i l = true)

/-- What is known about the leaves of a learned tree: see `LeafOk`; moreover there are endogenous nodes, adjacent nodes were found dependent
without conditioning, and the score is that of an extension of the sub-graph. -/
def LearnedLeaf [Bot σ] (ci : CITest α) (f : Dag α → Finset α → Py (Num σ)) (N : Finset α) (L : Leaf α σ) : Prop :=
  LeafOk ci N L ∧ L.en.Nonempty ∧ FoundDep ci L.graph ∧ LeafScore f N L

/-- What is known about the hypotheses of a learned tree: a graph on all nodes without bi-directed edges; adjacent nodes were found
dependent, for other pairs a test was accepted; no arrow from a descendant to an ancestor; unless each ancestor has an arrow to an ancestor,
nodes of different ancestor sets are not adjacent. -/
def LearnedSplit (ci : CITest α) (N en : Finset α) (G : MG α) (d : Finset α) (l : List (Finset α)) : Prop :=
  G.nodes = N ∧ G.PdagWF ∧ (∀ a b, G.Arrow a b → ¬ G.Arrow b a) ∧ FoundDep ci G ∧
    (∀ i ∈ N, ∀ j ∈ N, i ≠ j → ¬ G.PAdj i j → Accepted ci N i j) ∧ d.Nonempty ∧ (∀ s ∈ l, s.Nonempty) ∧
    (∀ x ∈ d, ∀ y ∈ en, y ∉ d → ¬ G.Arrow x y) ∧
    ((∃ x ∈ en, x ∉ d ∧ ∀ y ∈ en, y ∉ d → ¬ G.Arrow x y) → ∀ s ∈ l, ∀ x ∈ s, ∀ y ∈ en, y ∉ d → G.PAdj x y → y ∈ s)

/-- A scoring function that returns a `float` for each DAG on `N` and each non-empty set of its nodes. -/
def FloatScore (f : Dag α → Finset α → Py (Num σ)) (N : Finset α) : Prop :=
  ∀ D : Dag α, D.WF → D.Acyclic → D.nodes = N → ∀ en, en ⊆ N → en.Nonempty → ∃ s, f D en = .ok (.float s)

/-- The graphs returned by `n` calls of `sample_cpdag` one after the other, starting with the graph `G`, the separation sets `sep` and `k`
random draws made before. -/
def sampleSeq [Add σ] [Zero σ] [LT σ] [DecidableLT σ] (o : SetOrder α) (isScored : Bool) (rng : Rng σ) (temperature : ℚ) (tree : Hyp α σ) :
    Nat → MG α → SepSet α → Nat → Py (List (MG α))
  | 0, _, _, _ => .ok []
  | n + 1, G, sep, k => do
    let (_, G, sep, _, k) ← sampleCpdag o isScored rng temperature tree G sep k
    let rest ← sampleSeq o isScored rng temperature tree n G sep k
    return G :: rest

/-- The number of graphs in which the two nodes are adjacent. -/
def edgeCount (i j : α) (l : List (MG α)) : Nat := l.countP (fun G => decide (G.PAdj i j))

mutual
/-- The graphs of all hypotheses of a tree. -/
def Hyp.graphs : Hyp α σ → List (MG α)
  | .leaf _ _ _ _ _ _ => []
  | .node _ _ _ cs => cs.graphs

/-- The same for a list of hypotheses. -/
def Cookies.graphs : Cookies α σ → List (MG α)
  | .nil => []
  | .cons G _ _ anc desc rest => G :: (anc.graphs ++ desc.graphs ++ rest.graphs)

/-- The same for a list of sub-trees. -/
def Hyps.graphs : Hyps α σ → List (MG α)
  | .nil => []
  | .cons h r => h.graphs ++ r.graphs
end

end Brai
end Verif
