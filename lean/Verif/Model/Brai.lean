import Verif.Model.Rai
import Verif.Model.Score
import Mathlib.Analysis.SpecialFunctions.Exp
import Mathlib.Order.BoundedOrder.Basic
import Mathlib.Algebra.Group.Defs
import Mathlib.Algebra.Order.Ring.Rat

/-!
# Model of `causal_discovery_algs/brai.py` (`LearnStructBRAI`)

The state of the learner is that of RAI. The bootstrap samples (`brai.py:197-198`) are not modelled as data: the answers of a
`CITest` may depend on the number of tests made before, so that each hypothesis can be tested with different data. Scores are
elements of a type `σ`, `⊥` is `-inf`. `selected_cookie_idx`, `extra_data` and the score stored at inner nodes are written but never
read; they are not modelled. The random draws are parameters.
-/

namespace Verif
namespace Brai

mutual
/-- `brai.py:51-93` (`MultiHypNode`): leaf (data of `brai.py:174-181`) or inner node (data of `brai.py:227-228`). -/
inductive Hyp (α σ : Type) : Type
  | leaf (en ex : Finset α) (order : Nat) (graph : MG α) (sep : SepSet α) (score : σ)
  | node (en ex : Finset α) (order : Nat) (children : Cookies α σ)

/-- A list of `CookieNode`s (`brai.py:11-48`): graph, descendant slice, ancestor slices, sub-trees of the ancestors, sub-tree of the
descendant. -/
inductive Cookies (α σ : Type) : Type
  | nil
  | cons (graph : MG α) (dSlice : Finset α) (aSlices : List (Finset α)) (anc : Hyps α σ) (desc : Hyp α σ) (rest : Cookies α σ)

/-- A list of `MultiHypNode`s (`brai.py:18`, `multi_hyp_ancestors`). -/
inductive Hyps (α σ : Type) : Type
  | nil
  | cons (h : Hyp α σ) (rest : Hyps α σ)
end

/-- `brai.py:36` (`append`). -/
def Hyps.snoc {α σ : Type} : Hyps α σ → Hyp α σ → Hyps α σ
  | .nil, h => .cons h .nil
  | .cons x r, h => .cons x (r.snoc h)

/-- `brai.py:225` (`cookie_nodes_list.append`). -/
def Cookies.snoc {α σ : Type} : Cookies α σ → MG α → Finset α → List (Finset α) → Hyps α σ → Hyp α σ → Cookies α σ
  | .nil, G, d, l, a, x => .cons G d l a x .nil
  | .cons G' d' l' a' x' r, G, d, l, a, x => .cons G' d' l' a' x' (r.snoc G d l a x)

/-- `len(ggt_root.children)` (`brai.py:324`). -/
def Cookies.length {α σ : Type} : Cookies α σ → Nat
  | .nil => 0
  | .cons _ _ _ _ _ r => r.length + 1

/-- A Python number: `float` or `int` (`brai.py:84-85` tells them apart). -/
inductive Num (σ : Type)
  | float (s : σ)
  | int (n : Int)

/-- The settings of the object (`brai.py:97-127`). `scoring` is the attribute `scoring_function` applied to the scoring data; it is
`none` if the attribute does not exist, which is the case if a scoring function was given (`brai.py:112-114`). -/
structure Cfg (α σ : Type) where
  numHyp : Nat
  overwrite : Bool
  isScored : Bool
  scoring : Option (Dag α → Finset α → Py (Num σ))

variable {α σ : Type} [LinearOrder α]

/-- `brai.py:97-127` (`__init__`). `default` is `score_bdeu` with the scoring data, `custom` the argument `scoring_function`. -/
def init (o : SetOrder α) (nodes : Finset α) (numHyp : Nat) (scoringData : Bool) (default : Dag α → Finset α → Py (Num σ))
    (custom : Option (Dag α → Finset α → Py (Num σ))) : Py (Cfg α σ × PcState α) :=
  if numHyp > 0 then
    .ok (⟨numHyp, true, scoringData, if custom.isNone then some default else none⟩, Rai.init o nodes)
  else .error .assertionError

/-- `brai.py:160-172`: the score of a leaf. -/
def leafScore [Bot σ] (o : SetOrder α) (cfg : Cfg α σ) (G : MG α) (en ex : Finset α) : Py (Num σ) :=
  if cfg.isScored then do
    let P ← (MG.pdagEmpty G.nodes).addEdgesFrom o G en ex
    let (D, isDag) ← P.convertToDag o (Dag.empty P.nodes)
    if isDag then
      match cfg.scoring with
      | some f => f D en
      | none => throw .attributeError
    else return .float ⊥
  else .ok (.int 0)

/-- `brai.py:160-183` with `brai.py:79-89` (`set_data`): a leaf; AssertionError if the score is not a `float`. -/
def mkLeaf [Bot σ] (o : SetOrder α) (cfg : Cfg α σ) (en ex : Finset α) (order : Nat) (st : PcState α) : Py (Hyp α σ) := do
  let s ← leafScore o cfg st.graph en ex
  let sep ← st.sep.copy o (some (en ∪ ex)) none
  match s with
  | .float s => return .leaf en ex order st.graph sep s
  | .int _ => throw .assertionError

/-- `brai.py:143-229` (`learn_recursively`), with a recursion budget. The state is handed on through all recursive calls. -/
def learnRecursively [Bot σ] (o : SetOrder α) (ci : CITest α) (cfg : Cfg α σ) :
    Nat → Finset α → Finset α → Nat → PcState α → Py (Hyp α σ × PcState α)
  | 0, _, _, _, _ => .error .outOfFuel
  | n + 1, en, ex, order, st =>
    if Rai.exitCond st.graph en order then do
      let h ← mkLeaf o cfg en ex order st
      return (h, st)
    else do
      let r ← (List.range cfg.numHyp).foldlM (fun (r : Cookies α σ × PcState α) _ => do
        let sep ← st.sep.copy o none none
        let s1 ← Rai.refineAndOrient o ci cfg.overwrite en ex order ⟨st.graph, sep, r.2.calls⟩
        let (d, l, a) ← Rai.split o s1.graph en
        let (anc, s2) ← l.foldlM (fun (q : Hyps α σ × PcState α) s => do
          let (h, s') ← learnRecursively o ci cfg n s ex (order + 1) q.2
          return (q.1.snoc h, s')) (.nil, s1)
        let (desc, s3) ← learnRecursively o ci cfg n d (a ∪ ex) (order + 1) s2
        return (r.1.snoc s1.graph d l anc desc, s3)) (.nil, st)
      return (.node en ex order r.1, r.2)

/-- `score_bdeu` as a scoring function (`brai.py:115,168`, `performance_measures.py:117`): without endogenous nodes the result is the
`int` 0. -/
noncomputable def bdeu (o : SetOrder Nat) (L : ℝ → ℝ) (data : List (List Int)) (nodeSize : List Int) (D : Dag Nat) (en : Finset Nat) :
    Py (Num (WithBot ℝ)) :=
  if en = ∅ then .ok (.int 0)
  else (Score.scoreBdeu o L (some D) data nodeSize (some en)).map .float

/-! ### sampling -/

/-- `brai.py:290-291`: unnormalised weight of a score, for the maximal score `m` and temperature `T`; `exp(-inf)` is 0. -/
noncomputable def expScore (T m : ℝ) : WithBot ℝ → ℝ
  | ⊥ => 0
  | (x : ℝ) => Real.exp ((x - m) / T)

/-- `brai.py:286-295`: the probabilities with which the cookies are drawn for a positive temperature. -/
noncomputable def weights (T : ℝ) (l : List (WithBot ℝ)) : List ℝ :=
  match l.foldr max ⊥ with
  | ⊥ => l.map (fun _ => 1 / (l.length : ℝ))
  | (m : ℝ) => (l.map (expScore T m)).map (fun w => w / (l.map (expScore T m)).sum)

mutual
/-- `brai.py:243-311` (`_sample_cpdag_recursive`): updated graph and separation sets, score, number of draws so far. `choose k l` is
the index selected by the `k`-th draw for the scores `l` (`brai.py:286-300`). -/
def sample [Add σ] [Zero σ] (o : SetOrder α) (choose : Nat → List σ → Py Nat) (N : Finset α) :
    Hyp α σ → MG α → SepSet α → Nat → Py (MG α × SepSet α × σ × Nat)
  | .leaf en ex _ G S s, P, sep, k => do
    let P ← P.addEdgesFrom o G en ex
    let sep ← sep.copyFrom o S (en ∪ ex)
    return (P, sep, s, k)
  | .node en ex _ cs, P, sep, k => do
    let (rs, k) ← sampleCookies o choose N cs k
    let i ← choose k (rs.map (fun r => r.2.2))
    match rs[i]? with
    | none => throw .indexError
    | some (Pi, Si, s) =>
      let P ← P.addEdgesFrom o Pi en ex
      let sep ← sep.copyFrom o Si (en ∪ ex)
      return (P, sep, s, k + 1)

/-- `brai.py:263-283`: a sample of each cookie. -/
def sampleCookies [Add σ] [Zero σ] (o : SetOrder α) (choose : Nat → List σ → Py Nat) (N : Finset α) :
    Cookies α σ → Nat → Py (List (MG α × SepSet α × σ) × Nat)
  | .nil, k => .ok ([], k)
  | .cons _ _ _ anc desc rest, k => do
    let (P, sep, s, k) ← sampleAnc o choose N anc (MG.pdagEmpty N) (SepSet.init o N) 0 k
    let (P, sep, s', k) ← sample o choose N desc P sep k
    let (rs, k) ← sampleCookies o choose N rest k
    return ((P, sep, s + s') :: rs, k)

/-- `brai.py:271-274`: the samples of the ancestor sub-sets. -/
def sampleAnc [Add σ] [Zero σ] (o : SetOrder α) (choose : Nat → List σ → Py Nat) (N : Finset α) :
    Hyps α σ → MG α → SepSet α → σ → Nat → Py (MG α × SepSet α × σ × Nat)
  | .nil, P, sep, s, k => .ok (P, sep, s, k)
  | .cons h rest, P, sep, s, k => do
    let (P, sep, s', k) ← sample o choose N h P sep k
    sampleAnc o choose N rest P sep (s + s') k
end

mutual
/-- `brai.py:313-334` (`_sample_cpdag_recursive_no_score`). `pick k n` is the `k`-th draw of a number below `n`. -/
def sampleNoScore (o : SetOrder α) (pick : Nat → Nat → Nat) :
    Hyp α σ → MG α → SepSet α → Nat → Py (MG α × SepSet α × Nat)
  | .leaf en ex _ G S _, P, sep, k => do
    let P ← P.addEdgesFrom o G en ex
    let sep ← sep.copyFrom o S (en ∪ ex)
    return (P, sep, k)
  | .node _ _ _ cs, P, sep, k =>
    if cs.length = 0 then .error .valueError
    else sampleNth o pick cs (pick k cs.length) P sep (k + 1)

/-- `brai.py:326-334` for the cookie with the given index. -/
def sampleNth (o : SetOrder α) (pick : Nat → Nat → Nat) :
    Cookies α σ → Nat → MG α → SepSet α → Nat → Py (MG α × SepSet α × Nat)
  | .nil, _, _, _, _ => .error .indexError
  | .cons _ _ _ anc desc _, 0, P, sep, k => do
    let (P, sep, k) ← sampleAncNoScore o pick anc P sep k
    sampleNoScore o pick desc P sep k
  | .cons _ _ _ _ _ rest, i + 1, P, sep, k => sampleNth o pick rest i P sep k

/-- `brai.py:329-330`. -/
def sampleAncNoScore (o : SetOrder α) (pick : Nat → Nat → Nat) :
    Hyps α σ → MG α → SepSet α → Nat → Py (MG α × SepSet α × Nat)
  | .nil, P, sep, k => .ok (P, sep, k)
  | .cons h rest, P, sep, k => do
    let (P, sep, k) ← sampleNoScore o pick h P sep k
    sampleAncNoScore o pick rest P sep k
end

/-- `np.argmax` (`brai.py:297`): the first index of the largest element; ValueError for the empty list. -/
def argmax [LT σ] [DecidableLT σ] : List σ → Py Nat
  | [] => .error .valueError
  | s :: l => .ok (go s 0 1 l)
where
  /-- `np.argmax`: best value and its index so far, index of the next element (`brai.py:297`). -/
  go (best : σ) (i k : Nat) : List σ → Nat
    | [] => i
    | s :: l => if best < s then go s k (k + 1) l else go best i (k + 1) l

/-- `brai.py:285-300`: selection of a cookie. `rng k l` is the index drawn for a positive temperature. -/
def chooser [LT σ] [DecidableLT σ] (temperature : ℚ) (rng : Nat → List σ → Nat) (k : Nat) (l : List σ) : Py Nat :=
  if temperature > 0 then .ok (rng k l)
  else if temperature = 0 then argmax l
  else .error .assertionError

/-- The random draws: for scored samples (`brai.py:293,295`) and for samples without score (`brai.py:324`). -/
structure Rng (σ : Type) where
  scored : Nat → List σ → Nat
  pick : Nat → Nat → Nat

/-- `brai.py:231-241` (`sample_cpdag`): the graph as filled before re-orientation, the final graph, the separation sets, the score
and the number of draws so far. -/
def sampleCpdag [Add σ] [Zero σ] [LT σ] [DecidableLT σ] (o : SetOrder α) (isScored : Bool) (rng : Rng σ) (temperature : ℚ)
    (tree : Hyp α σ) (G : MG α) (sep : SepSet α) (k : Nat) : Py (MG α × MG α × SepSet α × Option σ × Nat) := do
  let (P, sep, s, k) ← (if isScored then do
      let (P, sep, s, k) ← sample o (chooser temperature rng.scored) G.nodes tree (MG.pdagEmpty G.nodes) sep.erase k
      return (P, sep, some s, k)
    else do
      let (P, sep, k) ← sampleNoScore o rng.pick tree (MG.pdagEmpty G.nodes) sep.erase k
      return (P, sep, none, k) : Py (MG α × SepSet α × Option σ × Nat))
  let R ← Rai.reOrientSkeleton o P
  return (P, R, sep, s, k)

/-- `brai.py:129-141` (`learn_structure`): the tree and the state afterwards. -/
def learnStructure [Add σ] [Zero σ] [LT σ] [DecidableLT σ] [Bot σ] (o : SetOrder α) (ci : CITest α) (cfg : Cfg α σ) (rng : Rng σ)
    (st : PcState α) : Py (Hyp α σ × PcState α) := do
  let (tree, st) ← learnRecursively o ci cfg (st.graph.nodes.card + 1) st.graph.nodes ∅ 0 st
  let (_, G, sep, _, _) ← sampleCpdag o cfg.isScored rng 0 tree st.graph st.sep 0
  return (tree, ⟨G, sep, st.calls⟩)

/-! ### uncertainty -/

/-- Graph objects: the object with identity `i` is `heap[i]`. `cur` is the identity of `self.graph` (`brai.py:232`, `rai.py:58`). -/
structure World (α : Type) where
  heap : List (MG α)
  cur : Nat
  sep : SepSet α
  draws : Nat

/-- `brai.py:231-241` with object identities: the object `self.graph` is emptied and filled (`brai.py:232-237`), then `self.graph`
becomes a new object (`rai.py:45,58`). -/
def sampleObj [Add σ] [Zero σ] [LT σ] [DecidableLT σ] (o : SetOrder α) (isScored : Bool) (rng : Rng σ) (temperature : ℚ)
    (tree : Hyp α σ) (w : World α) : Py (World α) :=
  match w.heap[w.cur]? with
  | none => .error .attributeError
  | some G => do
    let (P, R, sep, _, k) ← sampleCpdag o isScored rng temperature tree G w.sep w.draws
    return ⟨w.heap.set w.cur P ++ [R], w.heap.length, sep, k⟩

/-- `brai.py:339-342`: identities of the sampled graphs. -/
def sampleLoop [Add σ] [Zero σ] [LT σ] [DecidableLT σ] (o : SetOrder α) (isScored : Bool) (rng : Rng σ) (temperature : ℚ)
    (tree : Hyp α σ) : Nat → List Nat × World α → Py (List Nat × World α)
  | 0, r => .ok r
  | n + 1, r => do
    let w ← sampleObj o isScored rng temperature tree r.2
    sampleLoop o isScored rng temperature tree n (r.1 ++ [w.cur], w)

/-- `brai.py:347-350`: the number of graphs with an edge between two nodes. -/
def countConnected (i j : α) (l : List (MG α)) : Py Nat :=
  l.foldlM (fun c G => do if ← G.isConnected i j then return c + 1 else return c) 0

/-- `brai.py:344-355`: the skeleton of the edges that are frequent enough. -/
def frequentSkeleton (o : SetOrder α) (N : Finset α) (n : Nat) (threshold : ℚ) (l : List (MG α)) : Py (MG α) :=
  (pairs (o.iter () N)).foldlM (fun S ij => do
    let c ← countConnected ij.1 ij.2 l
    if (c : ℚ) > threshold * n then S.pdagAddEdges {ij.1} ij.2 .tail else return S) (MG.pdagEmpty N)

/-- `brai.py:336-355` (`calc_graph_uncertainty`). The graphs are read after all samples were drawn. -/
def calcGraphUncertainty [Add σ] [Zero σ] [LT σ] [DecidableLT σ] (o : SetOrder α) (isScored : Bool) (rng : Rng σ) (tree : Hyp α σ)
    (n : Nat) (threshold temperature : ℚ) (w : World α) : Py (MG α × World α) := do
  let (ids, w) ← sampleLoop o isScored rng temperature tree n ([], w)
  let graphs := ids.filterMap (fun i => w.heap[i]?)
  match w.heap[w.cur]? with
  | none => .error .attributeError
  | some G =>
    let S ← frequentSkeleton o G.nodes n threshold graphs
    return (S, w)

end Brai
end Verif
