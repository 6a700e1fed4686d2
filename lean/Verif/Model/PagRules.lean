import Verif.Model.Pag
import Mathlib.Algebra.BigOperators.Group.Finset.Basic

/-!
# Model of `graphical_models/partial_ancestral_graph.py` (`PAG`), methods that modify the graph

The state of a rule is the graph with the flag `graph_modified`. Loops over a set of the graph itself (not a copy) are
`liveFor`: Python raises RuntimeError if the size of the set changes during the iteration. The separation sets of the
object (`self.sepset`) are the argument `sep`.
-/

namespace Verif

/-- `for x in s: …` where `s` is a set of the state that is not copied, CPython semantics: before each step
the size of the set is compared with its size at the start. `l` is what remains of the iteration order at the start
(the proofs show that the set does not change in the loops where this is used). -/
def liveFor {α σ : Type} (live : σ → Finset α) (body : σ → α → Py σ) (size : Nat) : List α → σ → Py σ
  | [], s => if (live s).card = size then .ok s else .error .runtimeError
  | x :: xs, s => if (live s).card = size then do liveFor live body size xs (← body s x) else .error .runtimeError

/-- `[x for x in l if p(x)]`. -/
def filterPy {β : Type} (p : β → Py Bool) : List β → Py (List β)
  | [] => .ok []
  | x :: xs => do
    let b ← p x
    let s ← filterPy p xs
    return if b then x :: s else s

namespace MG
section
variable {α : Type} [DecidableEq α]

/-- `partial_ancestral_graph.py:745-759` (`copy_skeleton_from_pdag`), into `G`; `P` is the other graph. -/
def copySkeleton (o : SetOrder α) (G P : MG α) (nodesSet : Finset α) : Py (MG α) :=
  (pairs (o.iter () nodesSet)).foldlM (fun (G : MG α) ij => do
    if ← P.isConnected ij.1 ij.2 then G.addEdge ij.1 ij.2 .circle .circle else return G) G

/-- `partial_ancestral_graph.py:798-816` (`orient_by_rule_1`). -/
def pagRule1 (o : SetOrder α) (G : MG α) : Py (MG α × Bool) :=
  (o.iter 1 G.nodes).foldlM (fun (st : MG α × Bool) b =>
    let cs := o.iter (b, 0) (st.1.g b .circle)
    liveFor (fun st : MG α × Bool => st.1.g b .arrow)
      (fun st a => cs.foldlM (fun (st : MG α × Bool) c => do
        if ← st.1.isConnected a c then return st
        let G ← st.1.replaceEdgeMark c b .tail
        let G ← G.replaceEdgeMark b c .arrow
        return (G, true)) st)
      (st.1.g b .arrow).card (o.iter (b, 1) (st.1.g b .arrow)) st) (G, false)

/-- `partial_ancestral_graph.py:826-839` (`orient_by_rule_2`, case 1). -/
def pagRule2a (o : SetOrder α) (st : MG α × Bool) : Py (MG α × Bool) :=
  (o.iter 2 st.1.nodes).foldlM (fun (st : MG α × Bool) b =>
    liveFor (fun st : MG α × Bool => st.1.g b .tail)
      (fun st c =>
        if b ∉ st.1.g c .arrow then .ok st
        else
          liveFor (fun st : MG α × Bool => st.1.g b .arrow)
            (fun st a =>
              if a ∈ st.1.g c .circle then do
                let G ← st.1.replaceEdgeMark a c .arrow
                return (G, true)
              else return st)
            (st.1.g b .arrow).card (o.iter (b, c) (st.1.g b .arrow)) st)
      (st.1.g b .tail).card (o.iter b (st.1.g b .tail)) st) st

/-- `partial_ancestral_graph.py:841-853` (`orient_by_rule_2`, case 2). -/
def pagRule2b (o : SetOrder α) (st : MG α × Bool) : Py (MG α × Bool) :=
  (o.iter 3 st.1.nodes).foldlM (fun (st : MG α × Bool) c =>
    (o.iter c (st.1.g c .arrow)).foldlM (fun (st : MG α × Bool) b =>
      liveFor (fun st : MG α × Bool => st.1.g b .arrow)
        (fun st a =>
          if b ∉ st.1.g a .tail then .ok st
          else if a ∈ st.1.g c .circle then do
            let G ← st.1.replaceEdgeMark a c .arrow
            return (G, true)
          else return st)
        (st.1.g b .arrow).card (o.iter (c, b) (st.1.g b .arrow)) st) st) st

/-- `partial_ancestral_graph.py:818-855` (`orient_by_rule_2`). -/
def pagRule2 (o : SetOrder α) (G : MG α) : Py (MG α × Bool) := do
  let st ← pagRule2a o (G, false)
  pagRule2b o st

/-- `partial_ancestral_graph.py:857-875` (`orient_by_rule_3`). -/
def pagRule3 (o : SetOrder α) (G : MG α) : Py (MG α × Bool) :=
  (o.iter 4 G.nodes).foldlM (fun (st : MG α × Bool) b =>
    (o.iter b (st.1.g b .circle)).foldlM (fun (st : MG α × Bool) d =>
      (pairs (o.iter (b, d) (st.1.g b .arrow ∩ st.1.g d .circle))).foldlM (fun (st : MG α × Bool) ac => do
        if ← st.1.isConnected ac.1 ac.2 then return st
        let G ← st.1.replaceEdgeMark d b .arrow
        return (G, true)) st) st) (G, false)

/-- `partial_ancestral_graph.py:953-954`: `reset_orientations` along a path. -/
def resetPath (o : SetOrder α) : MG α → List α → Py (MG α)
  | G, u :: v :: l => do
    let G ← G.resetOrientations o .tail {u, v}
    resetPath o G (v :: l)
  | G, _ => .ok G

/-- `partial_ancestral_graph.py:918-956` (`orient_by_rule_5`). -/
def pagRule5 (o : SetOrder α) (G : MG α) : Py (MG α × Bool) := do
  let cc := fun (G : MG α) a b => G.isEdge a b .circle .circle
  let edges ← filterPy (fun ab => cc G ab.1 ab.2)
    ((o.iter 6 G.nodes).flatMap (fun a => (o.iter 6 G.nodes).map (fun b => (a, b))))
  edges.foldlM (fun (st : MG α × Bool) ab => do
    let a := ab.1
    let b := ab.2
    let as ← setComp (fun v => do
      if !(← cc st.1 a v) then return false
      return !(← st.1.isConnected b v)) (o.iter (a, b, 0) (st.1.nodes \ {a, b}))
    let bs ← setComp (fun v => do
      if !(← cc st.1 b v) then return false
      return !(← st.1.isConnected a v)) (o.iter (a, b, 0) (st.1.nodes \ {a, b}))
    (o.iter (a, b, 1) as).foldlM (fun (st : MG α × Bool) na =>
      (o.iter (a, b, 2) bs).foldlM (fun (st : MG α × Bool) nb => do
        match ← st.1.findUncoveredPath o a b na nb st.1.nodes (cc st.1) with
        | none => return st
        | some path =>
          let G ← st.1.resetOrientations o .tail {a, b}
          let G ← resetPath o G (a :: path ++ [b])
          return (G, true)) st) st) (G, false)

/-- `partial_ancestral_graph.py:958-975` (`orient_by_rule_6`). -/
def pagRule6 (o : SetOrder α) (G : MG α) : Py (MG α × Bool) :=
  (o.iter 7 G.nodes).foldlM (fun (st : MG α × Bool) b =>
    let cs := o.iter (b, 0) (st.1.g b .circle)
    (o.iter (b, 1) ((st.1.g b .tail).filter (fun v => b ∈ st.1.g v .tail))).foldlM (fun (st : MG α × Bool) _ =>
      cs.foldlM (fun (st : MG α × Bool) c => do
        let G ← st.1.replaceEdgeMark c b .tail
        return (G, true)) st) st) (G, false)

/-- `partial_ancestral_graph.py:977-997` (`orient_by_rule_7`). -/
def pagRule7 (o : SetOrder α) (G : MG α) : Py (MG α × Bool) :=
  (o.iter 8 G.nodes).foldlM (fun (st : MG α × Bool) b =>
    let cs := o.iter (b, 0) (st.1.g b .circle)
    (o.iter (b, 1) ((st.1.g b .circle).filter (fun v => b ∈ st.1.g v .tail))).foldlM (fun (st : MG α × Bool) a =>
      cs.foldlM (fun (st : MG α × Bool) c => do
        if a = c then return st
        if ← st.1.isConnected a c then return st
        let G ← st.1.replaceEdgeMark c b .tail
        return (G, true)) st) st) (G, false)

/-- `partial_ancestral_graph.py:1000-1019` (`orient_by_rule_8`). -/
def pagRule8 (o : SetOrder α) (G : MG α) : Py (MG α × Bool) :=
  (o.iter 9 G.nodes).foldlM (fun (st : MG α × Bool) b =>
    let cs := o.iter (b, 0) ((st.1.g b .tail).filter (fun v => b ∈ st.1.g v .arrow))
    (o.iter (b, 1) ((st.1.g b .arrow ∪ st.1.g b .circle).filter (fun v => b ∈ st.1.g v .tail))).foldlM
      (fun (st : MG α × Bool) a =>
        cs.foldlM (fun (st : MG α × Bool) c => do
          if ← st.1.isEdge a c .circle .arrow then
            let G ← st.1.replaceEdgeMark c a .tail
            return (G, true)
          else return st) st) st) (G, false)

/-- `partial_ancestral_graph.py:1029-1044`: the first edge `A o-> C` (as the pair `(A, C)`) for which the condition of
rule 9 is met. -/
def pagRule9Find (o : SetOrder α) (G : MG α) : Py (Option (α × α)) :=
  forFind (fun a =>
    forFind (fun c => do
      let ch ← G.findPossibleChildren o a (G.nodes \ {c, a})
      let bs ← setComp (fun v => do return !(← G.isConnected v c)) (o.iter (a, c, 0) ch)
      forFind (fun b => do
        let ds ← G.findPossibleParents o c (G.nodes \ {a, b, c})
        forFind (fun d => do
          match ← G.findUncoveredPath o a c b d G.nodes (fun x y => G.isPossibleParent x y) with
          | some _ => return some (a, c)
          | none => return none) (o.iter (a, b, c) ds)) (o.iter (a, c, 1) bs))
      (o.iter a ((G.g a .circle).filter (fun v => a ∈ G.g v .arrow))))
    (o.iter 10 G.nodes)

/-- `partial_ancestral_graph.py:1062-1092`: the first edge `A o-> C` (as the pair `(A, C)`) for which the condition
tested by the code of rule 10 is met. -/
def pagRule10Find (o : SetOrder α) (G : MG α) : Py (Option (α × α)) :=
  forFind (fun c => do
    let as ← setComp (fun v => G.isEdge v c .circle .arrow) (o.iter (c, 0) (G.nodes \ {c}))
    if as.card = 0 then return none
    let bds ← setComp (fun v => G.isEdge v c .tail .arrow) (o.iter (c, 1) (G.nodes \ {c}))
    if bds.card < 2 then return none
    forFind (fun a => do
      let ch ← G.findPossibleChildren o a (G.nodes \ {a, c})
      if ch.card < 2 then return none
      forFind (fun bd : α × α =>
        forFind (fun e =>
          forFind (fun f => do
            if e = f then return none
            if ← G.isConnected e f then return none
            match ← G.findUncoveredPath o a c e bd.1 G.nodes (fun x y => G.isConnected x y) with
            | none => return none
            | some _ =>
              match ← G.findUncoveredPath o a c f bd.2 G.nodes (fun x y => G.isConnected x y) with
              | none => return none
              | some _ => return some (a, c)) (o.iter (a, c) ch)) (o.iter (a, c) ch))
        (pairs (o.iter (a, c, 1) bds))) (o.iter (c, 2) as))
    (o.iter 11 G.nodes)

/-- `partial_ancestral_graph.py:1045-1050` and `1093-1098`: orient the tail and return. -/
def orientFound (G : MG α) (r : Py (Option (α × α))) : Py (MG α × Bool) := do
  match ← r with
  | none => return (G, false)
  | some (a, c) =>
    let G ← G.replaceEdgeMark c a .tail
    return (G, true)

/-- `partial_ancestral_graph.py:1021-1050` (`orient_by_rule_9`). -/
def pagRule9 (o : SetOrder α) (G : MG α) : Py (MG α × Bool) := orientFound G (pagRule9Find o G)

/-- `partial_ancestral_graph.py:1052-1098` (`orient_by_rule_10`). -/
def pagRule10 (o : SetOrder α) (G : MG α) : Py (MG α × Bool) := orientFound G (pagRule10Find o G)

/-- The number of circle marks, a budget for `maximally_orient_pattern`. -/
def numCircles (G : MG α) : Nat := G.nodes.sum (fun v => (G.g v .circle).card)

end

section
variable {α : Type} [LinearOrder α]

/-- `partial_ancestral_graph.py:761-779` (`orient_v_structures`); `sep = none` fails the assertion. -/
def pagVStructures (o : SetOrder α) (G : MG α) (sep : Option (SepSet α)) : Py (MG α) :=
  match sep with
  | none => .error .assertionError
  | some sep =>
    (o.iter () G.nodes).foldlM (fun (G : MG α) z =>
      (pairs (o.iter z (G.findAdjacentNodes z none none))).foldlM (fun (G : MG α) xy => do
        if ← G.isConnected xy.1 xy.2 then return G
        if z ∉ (← sep.get xy.1 xy.2) then
          let G ← G.replaceEdgeMark xy.1 z .arrow
          G.replaceEdgeMark xy.2 z .arrow
        else return G) G) G

/-- `partial_ancestral_graph.py:894-913`: the orientation for one triplet with a discriminating path from `d`. -/
def pagRule4Orient (sep : SepSet α) (G : MG α) (a b c d : α) : Py (MG α) := do
  if b ∈ (← sep.get d c) then
    let G ← G.replaceEdgeMark b c .arrow
    G.replaceEdgeMark c b .tail
  else
    let G ← G.replaceEdgeMark b a .arrow
    let G ← G.replaceEdgeMark a b .arrow
    let G ← G.replaceEdgeMark b c .arrow
    G.replaceEdgeMark c b .arrow

/-- `partial_ancestral_graph.py:877-915` (`orient_by_rule_4`). -/
def pagRule4 (o : SetOrder α) (sep : SepSet α) (G : MG α) : Py (MG α × Bool) :=
  (o.iter 5 G.nodes).foldlM (fun (st : MG α × Bool) b =>
    (o.iter b (st.1.g b .circle)).foldlM (fun (st : MG α × Bool) c =>
      (o.iter (b, c) (st.1.findParents c)).foldlM (fun (st : MG α × Bool) a =>
        if b ∈ st.1.g a .arrow then do
          match ← st.1.findDisc o a b c with
          | none => return st
          | some d =>
            let G ← pagRule4Orient sep st.1 a b c d
            return (G, true)
        else return st) st) st) (G, false)

/-- `partial_ancestral_graph.py:17-28`, `794`: the rule with a given index; other indices are a KeyError. -/
def pagRule (o : SetOrder α) (sep : SepSet α) (idx : Nat) (G : MG α) : Py (MG α × Bool) :=
  match idx with
  | 1 => pagRule1 o G
  | 2 => pagRule2 o G
  | 3 => pagRule3 o G
  | 4 => pagRule4 o sep G
  | 5 => pagRule5 o G
  | 6 => pagRule6 o G
  | 7 => pagRule7 o G
  | 8 => pagRule8 o G
  | 9 => pagRule9 o G
  | 10 => pagRule10 o G
  | _ => .error .keyError

/-- `partial_ancestral_graph.py:792-795`: one round of the rules in the list. -/
def pagRound (o : SetOrder α) (sep : SepSet α) (rules : List Nat) (G : MG α) : Py (MG α × Bool) :=
  rules.foldlM (fun (st : MG α × Bool) idx => do
    let r ← pagRule o sep idx st.1
    return (r.1, st.2 || r.2)) (G, false)

/-- `partial_ancestral_graph.py:791-795`: the `while` loop, with a budget of rounds. -/
def pagOrientLoop (o : SetOrder α) (sep : SepSet α) (rules : List Nat) : Nat → MG α → Py (MG α)
  | 0, _ => .error .outOfFuel
  | n + 1, G => do
    let r ← pagRound o sep rules G
    if r.2 then pagOrientLoop o sep rules n r.1 else return r.1

/-- `partial_ancestral_graph.py:787-788`: the default list of rules. -/
def allPagRules : List Nat := [1, 2, 3, 4, 5, 6, 7, 8, 9, 10]

/-- `partial_ancestral_graph.py:781-795` (`maximally_orient_pattern`). -/
def pagMaxOrient (o : SetOrder α) (sep : SepSet α) (rules : List Nat) (G : MG α) : Py (MG α) :=
  pagOrientLoop o sep rules (G.numCircles + 1) G

end

end MG
end Verif
