import Verif.Model.Icd

/-!
# Model of `causal_discovery_algs/ts_icd.py` (`LearnStructTSICD`)

The state is that of the ICD learner (`Verif/Model/Icd.lean`). The type assertions of the constructor are not modelled;
`graph.node2time` and `graph.node2idx` (lines 75-76) are copies that no modelled function reads. A KeyError for a node of
`initial_pag` outside the lists of nodes is modelled where the code looks up time and index, not in the graph classes.
-/

namespace Verif

/-- The attributes of the learner that do not change after construction: `nodes_sets_list`, `is_homology`,
`fixed_orientations` (`ts_icd.py:57-66`) and the options of ICD. -/
structure TsCfg (α : Type) where
  sets : List (List α)
  homology : Bool
  fixed : Dict (α × α) Mark
  opts : IcdOpts

namespace TsIcd
variable {α : Type} [LinearOrder α]
open SepSet (hkey)

/-- `ts_icd.py:30`: all nodes. -/
def nodesOf (sets : List (List α)) : Finset α := sets.flatten.toFinset

/-- `ts_icd.py:69` (`node2time`). -/
def timeDict (sets : List (List α)) : Dict α Nat :=
  sets.zipIdx.foldl (fun d lt => lt.1.foldl (fun d v => Dict.set d v lt.2) d) []

/-- `ts_icd.py:72` (`node2idx`). -/
def idxDict (sets : List (List α)) : Dict α Nat :=
  sets.foldl (fun d l => l.zipIdx.foldl (fun d vi => Dict.set d vi.1 vi.2) d) []

/-- `self.node2time[node]`. -/
def time (sets : List (List α)) (v : α) : Py Nat := Dict.get (timeDict sets) v

/-- `self.node2idx[node]`. -/
def idx (sets : List (List α)) (v : α) : Py Nat := Dict.get (idxDict sets) v

/-- `ts_icd.py:137-138` (`_get_node_name`), also the look-up in `ts_icd.py:318-319`. -/
def nodeName (sets : List (List α)) (t i : Nat) : Py α :=
  match sets[t]? with
  | none => .error .indexError
  | some l => match l[i]? with
    | none => .error .indexError
    | some v => .ok v

/-- `ts_icd.py:38-46`: the default initial graph. -/
def defaultPag (sets : List (List α)) : Py (MG α) :=
  (List.range (sets.length - 1)).foldlM (fun G f =>
    (List.range' (f + 1) (sets.length - (f + 1))).foldlM (fun G p =>
      ((sets.getD p []).product (sets.getD f [])).foldlM (fun (G : MG α) pf => G.replaceEdgeMark pf.1 pf.2 .arrow) G) G)
    (MG.complete (nodesOf sets) MG.pagTypes .circle)

/-- `ts_icd.py:50-55`: copy of the initial graph. `add_edge` raises AssertionError for a missing mark (`None`). -/
def copyPag (o : SetOrder α) (N : Finset α) (P : MG α) : Py (MG α) :=
  (pairs (o.iter 0 P.nodes)).foldlM (fun (G : MG α) ij => do
    if ← P.isConnected ij.1 ij.2 then
      match P.getEdgeMark ij.2 ij.1, P.getEdgeMark ij.1 ij.2 with
      | some mi, some mj => G.addEdge ij.1 ij.2 mi mj
      | _, _ => throw .assertionError
    else return G) (MG.empty N MG.pagTypes)

/-- `ts_icd.py:57-61` (`fixed_orientations`). A missing mark has raised an exception before (`copyPag`). -/
def fixedOf (o : SetOrder α) (P : MG α) : Py (Dict (α × α) Mark) :=
  (pairs (o.iter 1 P.nodes)).foldlM (fun (d : Dict (α × α) Mark) ij => do
    if ← P.isConnected ij.1 ij.2 then
      match P.getEdgeMark ij.1 ij.2, P.getEdgeMark ij.2 ij.1 with
      | some m12, some m21 => return Dict.set (Dict.set d (ij.1, ij.2) m12) (ij.2, ij.1) m21
      | _, _ => throw .assertionError
    else return d) []

/-- `ts_icd.py:7-82` (`__init__`). -/
def init (o : SetOrder α) (sets : List (List α)) (homology : Bool) (initial : Option (MG α)) (opts : IcdOpts) :
    Py (TsCfg α × IcdState α) := do
  if ¬ sets.length > 1 then throw .assertionError
  let n := (sets.headD []).length
  if ¬ sets.all (fun l => l.length == n) then throw .assertionError
  let N := nodesOf sets
  if N.card ≠ sets.length * n then throw .assertionError
  let st := Icd.init o N
  let P ← (match initial with
    | none => defaultPag sets
    | some P => pure P)
  let G ← copyPag o N P
  let fixed ← fixedOf o P
  return (⟨sets, homology, fixed, opts⟩, { st with graph := G })

/-- `ts_icd.py:79-81` (`possible_cross_lag_edges`). -/
def crossLag (sets : List (List α)) : List (α × α) := (sets.headD []).product sets.tail.flatten

/-- `ts_icd.py:82` (`possible_contemporaneous_edges`). -/
def contemporaneous (sets : List (List α)) : List (α × α) := pairs (sets.headD [])

/-- `ts_icd.py:84-90` (`set_fixed_orientations`). -/
def setFixed (o : SetOrder α) (fixed : Dict (α × α) Mark) (G : MG α) : Py (MG α) :=
  (pairs (o.iter 2 G.nodes)).foldlM (fun (G : MG α) ij => do
    if ← G.isConnected ij.1 ij.2 then
      let G ← G.replaceEdgeMark ij.1 ij.2 (← Dict.get fixed (ij.1, ij.2))
      G.replaceEdgeMark ij.2 ij.1 (← Dict.get fixed (ij.2, ij.1))
    else return G) G

/-- `ts_icd.py:92-109` (`get_edge_homology`). -/
def edgeHomology (sets : List (List α)) (n0 n1 : α) : Py (List (α × α)) := do
  if (← time sets n0) ≠ 0 then throw .assertionError
  let t1 ← time sets n1
  let i1 ← idx sets n1
  let i0 ← idx sets n0
  ((List.range' 1 (sets.length - t1 - 1)).zip (List.range' (t1 + 1) (sets.length - (t1 + 1)))).mapM (fun ab => do
    return (← nodeName sets ab.1 i0, ← nodeName sets ab.2 i1))

/-- `max` of a list of numbers (`ts_icd.py:127`): ValueError for the empty list. -/
def maxList : List Nat → Py Nat
  | [] => .error .valueError
  | t :: ts => .ok (ts.foldl max t)

/-- `ts_icd.py:111-135` (`get_ci_homology`). -/
def ciHomology (sets : List (List α)) (n0 n1 : α) (z : List α) : Py (List (α × α × List α)) := do
  if (← time sets n0) ≠ 0 then throw .assertionError
  let t1 ← time sets n1
  let ts ← z.mapM (time sets)
  let i0 ← idx sets n0
  let i1 ← idx sets n1
  let is ← z.mapM (idx sets)
  let past := max (← maxList ts) t1
  (List.range (sets.length - (past + 1))).mapM (fun k => do
    let a ← nodeName sets (1 + k) i0
    let b ← nodeName sets (t1 + 1 + k) i1
    let c ← (ts.zip is).mapM (fun ti => nodeName sets (ti.1 + 1 + k) ti.2)
    return (a, b, c))

/-- `ts_icd.py:190-207` (`_test_edge_and_remove_in_homology`); second result: was the edge removed. -/
def testHom (cfg : TsCfg α) (ci : CITest α) (st : IcdState α) (i j : α) (z : List α) : Py (IcdState α × Bool) := do
  if ci st.calls i j z then
    let st := { st with calls := st.calls + 1, graph := st.graph.deleteEdge i j, sep := st.sep.set i j z.toFinset }
    if cfg.homology then
      if z.length = 0 then
        let h ← edgeHomology cfg.sets i j
        return (h.foldl (fun (st : IcdState α) ab =>
          { st with graph := st.graph.deleteEdge ab.1 ab.2, sep := st.sep.set ab.1 ab.2 z.toFinset }) st, true)
      else
        let h ← ciHomology cfg.sets i j z
        return (h.foldl (fun (st : IcdState α) abc =>
          { st with graph := st.graph.deleteEdge abc.1 abc.2.1, sep := st.sep.set abc.1 abc.2.1 abc.2.2.toFinset }) st, true)
    else return (st, true)
  else return ({ st with calls := st.calls + 1 }, false)

/-- The loops over conditioning tuples `ts_icd.py:181-187`, `252-256`, `272-276`. -/
def testList (cfg : TsCfg α) (ci : CITest α) (i j : α) : List (List α) → IcdState α → Py (IcdState α)
  | [], st => .ok st
  | z :: zs, st => do
    let (st, removed) ← testHom cfg ci st i j z
    if removed then return st else testList cfg ci i j zs st

/-- `ts_icd.py:301-311`: the marks other than circles; `None` for a missing mark. -/
def invariantMarks (o : SetOrder α) (G : MG α) : Py (List (α × α × Option Mark)) :=
  (pairs (o.iter 3 G.nodes)).foldlM (fun acc ij => do
    if !(← G.isConnected ij.1 ij.2) then return acc
    let m12 := G.getEdgeMark ij.1 ij.2
    let m21 := G.getEdgeMark ij.2 ij.1
    let acc := if m12 ≠ some .circle then acc ++ [(ij.1, ij.2, m12)] else acc
    return (if m21 ≠ some .circle then acc ++ [(ij.2, ij.1, m21)] else acc)) []

/-- `ts_icd.py:315-327`: the pairs (child, parent) homologous to `parent`, `child`. -/
def markHomology (sets : List (List α)) (parent child : α) : Py (List (α × α)) := do
  let tp ← time sets parent
  let tc ← time sets child
  let t := min tp tc
  let parentBase ← nodeName sets (tp - t) (← idx sets parent)
  let childBase ← nodeName sets (tc - t) (← idx sets child)
  let h ← (do
    if (← time sets childBase) = 0 then edgeHomology sets childBase parentBase
    else if (← time sets parentBase) = 0 then
      return (← edgeHomology sets parentBase childBase).map (fun ab => (ab.2, ab.1))
    else throw .runtimeError)
  return h ++ [(childBase, parentBase)]

/-- `ts_icd.py:294-331` (`_fill_orientation_homology`). A missing mark raises AssertionError in `replace_edge_mark`. -/
def fillHomology (o : SetOrder α) (sets : List (List α)) (G : MG α) : Py (MG α) := do
  let marks ← invariantMarks o G
  marks.foldlM (fun (G : MG α) pcm => do
    let h ← markHomology sets pcm.1 pcm.2.1
    h.foldlM (fun (G : MG α) cp =>
      match pcm.2.2 with
      | some m => G.replaceEdgeMark cp.2 cp.1 m
      | none => .error .assertionError) G) G

/-- `ts_icd.py:281-292` (`orient_graph`). -/
def orientGraph (o : SetOrder α) (cfg : TsCfg α) (sep : SepSet α) (complete : Bool) (G : MG α) : Py (MG α) := do
  let G ← G.resetOrientations o .circle G.nodes
  let G ← setFixed o cfg.fixed G
  let G ← G.pagVStructures o (some sep)
  let G ← fillHomology o cfg.sets G
  let G ← MG.pagMaxOrient o sep [1, 2, 3, 4] G
  let G ← (if complete then Fci.finalRules o sep cfg.opts.selection cfg.opts.tails G else pure G)
  fillHomology o cfg.sets G

/-- `ts_icd.py:209-223` (`_learn_struct_base_step_0`). -/
def baseStep0 (o : SetOrder α) (cfg : TsCfg α) (ci : CITest α) (st : IcdState α) : Py (IcdState α) := do
  let st ← (crossLag cfg.sets).foldlM (fun st ij => return (← testHom cfg ci st ij.1 ij.2 []).1) st
  let st ← (contemporaneous cfg.sets).foldlM (fun st ij => return (← testHom cfg ci st ij.1 ij.2 []).1) st
  let G ← orientGraph o cfg st.sep false st.graph
  return { st with graph := G }

/-- `ts_icd.py:239-256` and `ts_icd.py:259-276`. -/
def step1Edges (o : SetOrder α) (cfg : TsCfg α) (ci : CITest α) (edges : List (α × α)) (acc : IcdState α × Bool) :
    Py (IcdState α × Bool) :=
  edges.foldlM (fun (acc : IcdState α × Bool) ij => do
    if !(← acc.1.graph.isConnected ij.1 ij.2) then return acc
    let zs := Icd.condSets1 o acc.1.graph ij.1 ij.2
    return (← testList cfg ci ij.1 ij.2 zs acc.1, acc.2 && zs.isEmpty)) acc

/-- `ts_icd.py:225-279` (`_learn_struct_base_step_1`); second result: `done`. -/
def baseStep1 (o : SetOrder α) (cfg : TsCfg α) (ci : CITest α) (st : IcdState α) : Py (IcdState α × Bool) := do
  let acc ← step1Edges o cfg ci (crossLag cfg.sets) (st, true)
  let (st, done) ← step1Edges o cfg ci (contemporaneous cfg.sets) acc
  let G ← orientGraph o cfg st.sep done st.graph
  return ({ st with graph := G }, done)

/-- `ts_icd.py:140-148` (`_pre_calc_conditioning`, `_pre_calc_conditioning_for_edges`). -/
def preCalc (o : SetOrder α) (cfg : TsCfg α) (st : IcdState α) : Py (IcdState α) := do
  let cond ← (contemporaneous cfg.sets ++ crossLag cfg.sets).foldlM
    (fun (d : Dict (α × α) (List (Finset α × WithTop Nat))) ij => do
      if ← st.graph.isConnected ij.1 ij.2 then
        let l ← Icd.rangeSets o st.graph ij.1 ij.2 st.size
        return Dict.set d (hkey ij.1 ij.2) l
      else return d) st.cond
  return { st with cond := cond }

/-- `ts_icd.py:170-188` (`_learn_struct_incremental_for_edges`). -/
def incrementalEdges (o : SetOrder α) (cfg : TsCfg α) (ci : CITest α) (edges : List (α × α)) (st : IcdState α) :
    Py (IcdState α × Bool) :=
  edges.foldlM (fun (acc : IcdState α × Bool) ij => do
    if !(← acc.1.graph.isConnected ij.1 ij.2) then return acc
    let conds ← (if cfg.opts.preCalc then Dict.get acc.1.cond (hkey ij.1 ij.2)
      else Icd.rangeSets o acc.1.graph ij.1 ij.2 acc.1.size)
    return (← testList cfg ci ij.1 ij.2 (conds.map (fun c => o.iter (ij.1, ij.2) c.1)) acc.1, acc.2 && conds.isEmpty))
    (st, true)

/-- `ts_icd.py:150-168` (`_learn_struct_incremental_step`); second result: `done`. -/
def incrementalStep (o : SetOrder α) (cfg : TsCfg α) (ci : CITest α) (st : IcdState α) : Py (IcdState α × Bool) := do
  let (st, done1) ← incrementalEdges o cfg ci (crossLag cfg.sets) st
  let (st, done2) ← incrementalEdges o cfg ci (contemporaneous cfg.sets) st
  let G ← orientGraph o cfg st.sep (done1 && done2) st.graph
  return ({ st with graph := G }, done1 && done2)

/-- `icd.py:61-70` with the overridden methods. -/
def step (o : SetOrder α) (cfg : TsCfg α) (ci : CITest α) (st : IcdState α) : Py (IcdState α × Bool) :=
  if st.size = 0 then do
    let st' ← baseStep0 o cfg ci st
    return (st', st.done)
  else if st.size = 1 then baseStep1 o cfg ci st
  else do
    let st ← (if cfg.opts.preCalc then preCalc o cfg st else pure st)
    incrementalStep o cfg ci st

/-- `icd.py:47-77` (`learn_structure_iteration`). -/
def iteration (o : SetOrder α) (cfg : TsCfg α) (ci : CITest α) (st : IcdState α) : Py (IcdState α × Bool × Nat) :=
  if st.done then .error .runtimeError
  else do
    let (st, done) ← step o cfg ci st
    return ({ st with done := done, size := st.size + 1 }, done, st.size)

/-- `icd.py:42-45`: the loop of `learn_structure`, with a budget of iterations. -/
def loop (o : SetOrder α) (cfg : TsCfg α) (ci : CITest α) : Nat → IcdState α → Py (IcdState α)
  | 0, _ => .error .outOfFuel
  | n + 1, st => do
    let (st, done, _) ← iteration o cfg ci st
    if done then return st else loop o cfg ci n st

/-- `icd.py:31-45` (`learn_structure`). -/
def learnStructure (o : SetOrder α) (cfg : TsCfg α) (ci : CITest α) (st : IcdState α) : Py (IcdState α) :=
  loop o cfg ci (max 2 st.graph.nodes.card) { st with done := false, size := 0 }

/-- The constructor followed by `learn_structure`. -/
def run (o : SetOrder α) (sets : List (List α)) (homology : Bool) (initial : Option (MG α)) (opts : IcdOpts)
    (ci : CITest α) : Py (IcdState α) := do
  let (cfg, st) ← init o sets homology initial opts
  learnStructure o cfg ci st

end TsIcd
end Verif
