import Verif.Model.Dag
import Mathlib.Algebra.Order.Ring.Rat
import Mathlib.Data.Real.Basic

/-!
# Model of `experiment_utils/synthetic_graphs.py`

Random numbers are parameters: any sequence of results the generators of `random` and `numpy.random` may give. Node labels are
natural numbers. The number of nodes is a natural number (the code loops over `range`, empty for negative numbers).
-/

namespace Verif
namespace Synth

/-- `synthetic_graphs.py:6-18` (`create_random_dag`): `rnd k` is the result of the `k`-th call of `random.random()`, `k0` the
number of calls done before. The state of the loops is the graph and the number of calls. -/
def randomDag (rnd : Nat → ℚ) (k0 n : Nat) (e : ℚ) : Py (Dag Nat × Nat) :=
  (List.range (n - 1)).foldlM (fun s p =>
    ((List.range (n - (p + 1))).map (p + 1 + ·)).foldlM (fun (s : Dag Nat × Nat) c =>
      if rnd s.2 < e / ((n : ℚ) - 1) then do
        let G ← s.1.addEdges {p} c
        return (G, s.2 + 1)
      else return (s.1, s.2 + 1)) s) (Dag.empty (Finset.range n), k0)

/-- Results of the generator for `random.randint(0, ·)` and `random.sample(range(v), ·)`, for each node `v`
(`synthetic_graphs.py:31,33`; the code calls each of them at most once per node). -/
structure Rng where
  int : Nat → Nat → Nat
  int_le : ∀ v hi, int v hi ≤ hi
  sample : Nat → Nat → List Nat
  sample_len : ∀ v k, k ≤ v → (sample v k).length = k
  sample_nodup : ∀ v k, k ≤ v → (sample v k).Nodup
  sample_lt : ∀ v k, k ≤ v → ∀ x ∈ sample v k, x < v

/-- `synthetic_graphs.py:21-36` (`create_random_dag_max_fan`). `randint` raises ValueError if the upper bound is negative. -/
def randomDagMaxFan (rng : Rng) (n : Nat) (maxFanIn : Int) : Py (Dag Nat) :=
  ((List.range (n - 1)).map (1 + ·)).foldlM (fun (G : Dag Nat) (v : Nat) => do
    if min (v : Int) maxFanIn < 0 then throw .valueError
    let k := rng.int v (min (v : Int) maxFanIn).toNat
    if k > 0 then G.addEdges (rng.sample v k).toFinset v else return G) (Dag.empty (Finset.range n))

/-- `synthetic_graphs.py:39-50` (`create_random_connected_dag`), first argument: budget of loop rounds. -/
def connectedLoop (o : SetOrder Nat) (rnd : Nat → ℚ) (n : Nat) (e : ℚ) (timeout : Int) : Nat → Nat → Nat → Py (Option (Dag Nat))
  | 0, _, _ => .error .outOfFuel
  | fuel + 1, k, acc =>
    if timeout < acc then .ok none
    else do
      let (G, k) ← randomDag rnd k n e
      if ← G.isGraphConnected o G.nodes then return some G
      connectedLoop o rnd n e timeout fuel k (acc + 1)

/-- `synthetic_graphs.py:39-50` (`create_random_connected_dag`). -/
def randomConnectedDag (o : SetOrder Nat) (rnd : Nat → ℚ) (n : Nat) (e : ℚ) (timeout : Int) : Py (Option (Dag Nat)) :=
  connectedLoop o rnd n e timeout (timeout.toNat + 2) 0 0

/-- `synthetic_graphs.py:53-73` (`select_latent_variables`). -/
def selectLatents (o : SetOrder Nat) (G : Dag Nat) : Py (Finset Nat) := do
  let parentless ← (o.iter () G.nodes).foldlM (fun (acc : Finset Nat) v => do
    if (← G.parents v).card = 0 then return insert v acc else return acc) ∅
  (o.iter () parentless).foldlM (fun (acc : Finset Nat) p => do
    if (← G.findChildren p G.nodes).card ≥ 2 then return insert p acc else return acc) ∅

/-- `random.sample` on a set (`synthetic_graphs.py:84-86`): an error since Python 3.11, before that a selection of the elements of
the set; `pick` is the result of the generator. -/
def sampleSet (py311 : Bool) (pick : Finset Nat → Nat → Finset Nat) (S : Finset Nat) (k : Nat) : Py (Finset Nat) :=
  if py311 then .error .typeError else .ok (pick S k)

/-- `synthetic_graphs.py:76-88` (`create_random_dag_with_latents`); after a timeout the code reads an attribute of `None`. -/
def randomDagWithLatents (o : SetOrder Nat) (py311 : Bool) (rnd : Nat → ℚ) (pick : Finset Nat → Nat → Finset Nat) (n : Nat)
    (e : ℚ) : Py (Dag Nat × Finset Nat × Finset Nat) := do
  match ← randomConnectedDag o rnd n e 1000000 with
  | none => .error .attributeError
  | some G =>
    let pot ← selectLatents o G
    let lat ← sampleSet py311 pick pot (pot.card / 2)
    return (G, G.nodes \ lat, lat)

/-- The weight of one edge (`synthetic_graphs.py:107-109`): `sgn k` and `uni k` are the results of the `k`-th calls of
`random.randint(0, 1)` and of `np.random.uniform(min, max)`. -/
def edgeWeight (sgn : Nat → Bool) (uni : Nat → ℝ) (k : Nat) : ℝ := (2 * (if sgn k then 1 else 0) - 1) * uni k

/-- `synthetic_graphs.py:91-112` (`sample_data_from_dag`): `noise i v` is the entry of the matrix of normal noise (line 101) with
row `i < numSamples` and column `v`. The state is the data matrix and the number of weights drawn. A column outside of the matrix is
an IndexError. -/
def sampleData (o : SetOrder Nat) (G : Dag Nat) (noise : Nat → Nat → ℝ) (sgn : Nat → Bool) (uni : Nat → ℝ) :
    Py (Nat → Nat → ℝ) := do
  let order ← G.topoOrder o G.nodes
  let r ← order.foldlM (fun (s : (Nat → Nat → ℝ) × Nat) v => do
    let ps ← G.parents v
    (o.iter v ps).foldlM (fun (s : (Nat → Nat → ℝ) × Nat) p =>
      if v < G.nodes.card ∧ p < G.nodes.card then
        return ((fun i x => if x = v then s.1 i v + edgeWeight sgn uni s.2 * s.1 i p else s.1 i x), s.2 + 1)
      else throw .indexError) s) (noise, 0)
  return r.1

end Synth
end Verif
