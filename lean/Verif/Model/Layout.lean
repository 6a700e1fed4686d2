import Verif.Model.Py
import Mathlib.Analysis.SpecialFunctions.Trigonometric.Basic
import Mathlib.Analysis.Real.Sqrt

/-!
# Model of `plot_utils/graph_layout.py`

Floats are real numbers, plus the result NaN of `0/0` where it can arise. A graph is given by its node set and by its method
`find_adjacent_nodes`. Window borders are Python numbers (as in `draw_graph.py:219,480`), so dividing them by zero raises.
-/

namespace Verif
namespace Draw

/-- A `numpy` vector `[x, y]`. -/
abbrev Vec := ℝ × ℝ

/-- `graph_layout.py:11-14`: the borders `(left, right)` and `(top, bottom)`. -/
structure Win where
  left : ℝ
  right : ℝ
  top : ℝ
  bottom : ℝ

/-- The global generator of `numpy.random`: `next` is one draw from `[0, 1)`, `seed` is `np.random.seed`. -/
structure NpRandom (S : Type) where
  next : S → ℝ × S
  seed : Nat → S
  range : ∀ s, 0 ≤ (next s).1 ∧ (next s).1 < 1

/-- `np.random.uniform(l, r, n)` (`graph_layout.py:25-26`): `n` numbers and the new state of the generator. -/
noncomputable def uniforms {S : Type} (g : NpRandom S) (l r : ℝ) : Nat → S → List ℝ × S
  | 0, s => ([], s)
  | n + 1, s => ((l + (r - l) * (g.next s).1) :: (uniforms g l r n (g.next s).2).1, (uniforms g l r n (g.next s).2).2)

/-- `np.linspace(a, b, n)` (`graph_layout.py:21-22,120`). -/
noncomputable def linspace (a b : ℝ) (n : Nat) : List ℝ :=
  (List.range n).map (fun (i : Nat) => a + (i : ℝ) * ((b - a) / ((n : ℝ) - 1)))

section
variable {α : Type} [DecidableEq α]

/-- The attributes of a layout object (`graph_layout.py:10-31`); `pos` is a dictionary. -/
structure Layout (α : Type) where
  nodes : Finset α
  win : Win
  groups : Option (List (List α))
  pos : α → Option Vec

/-- `pos[node]`. -/
def getPos (pos : α → Option Vec) (v : α) : Py Vec :=
  match pos v with
  | some p => .ok p
  | none => .error .keyError

/-- `pos[node] = p`. -/
def setPos (pos : α → Option Vec) (v : α) (p : Vec) : α → Option Vec := fun x => if x = v then some p else pos x

/-- `graph_layout.py:20,24,111-113`: the nodes in the order of the groups, or in the order of the set. -/
def nodesOrder (o : SetOrder α) (N : Finset α) : Option (List (List α)) → List α
  | some gs => gs.flatten
  | none => o.iter () N

/-- `graph_layout.py:18-26`: initial coordinates and the new state of the generator. -/
noncomputable def initCoords {S : Type} (g : NpRandom S) (w : Win) (n : Nat) (groups : Option (List (List α))) (s : S) :
    List ℝ × List ℝ × S :=
  match groups with
  | some _ => (linspace w.left w.right n, linspace w.top w.bottom n, s)
  | none =>
    let xs := uniforms g w.left w.right n s
    let ys := uniforms g w.top w.bottom n xs.2
    (xs.1.map (· * 0.2), ys.1.map (· * 0.2), ys.2)

/-- `graph_layout.py:9-31` (`BaseLayout.__init__`). Both lists of coordinates have one entry per node, the default is not used. -/
noncomputable def baseInit {S : Type} (g : NpRandom S) (o : SetOrder α) (N : Finset α) (w : Win)
    (groups : Option (List (List α))) (s : S) : Py (Layout α × S) := do
  let c := initCoords g w N.card groups s
  let pos ← (List.range N.card).foldlM (fun (pos : α → Option Vec) idx =>
    match (nodesOrder o N groups)[idx]? with
    | none => .error .indexError
    | some v => .ok (setPos pos v (c.1.getD idx 0, c.2.1.getD idx 0))) (fun _ => none)
  return (⟨N, w, groups, pos⟩, c.2.2)

/-- `graph_layout.py:109-126` (`CircleLayout.calc_layout`). -/
noncomputable def circleCalc (o : SetOrder α) (L : Layout α) : Py (α → Option Vec) :=
  let w := L.win
  (List.range L.nodes.card).foldlM (fun (pos : α → Option Vec) idx =>
    match (nodesOrder o L.nodes L.groups)[idx]? with
    | none => .error .indexError
    | some v => do
      let _ ← getPos pos v
      let angle := (linspace 0 (2 * Real.pi) (L.nodes.card + 1)).getD idx 0
      return setPos pos v ((w.right + w.left) / 2 + (w.right - w.left) / 2 * Real.cos angle,
        (w.bottom + w.top) / 2 + (w.bottom - w.top) / 2 * Real.sin angle)) L.pos

/-- `graph_layout.py:134-138`: the groups of a column layout. -/
def columnGroups (o : SetOrder α) (L : Layout α) : List (List α) :=
  match L.groups with
  | none => [o.iter () L.nodes]
  | some gs => gs

/-- `graph_layout.py:141-144`: the size of the largest group. -/
def maxGroup (gs : List (List α)) : Nat := gs.foldl (fun m g => if g.length > m then g.length else m) 0

/-- `graph_layout.py:133-161` (`ColumnLayout.calc_layout`). -/
noncomputable def columnCalc (o : SetOrder α) (L : Layout α) : Py (α → Option Vec) := do
  let w := L.win
  let gs := columnGroups o L
  let mx := maxGroup gs
  let xStep := if gs.length > 1 then (w.right - w.left) / ((gs.length : ℝ) - 1) else 0
  let xOff := if gs.length > 1 then w.left else (w.right + w.left) / 2
  if mx = 1 then throw .zeroDivision
  let yStep := (w.top - w.bottom) / ((mx : ℝ) - 1)
  gs.zipIdx.foldlM (fun pos gi =>
    gi.1.zipIdx.foldlM (fun (pos : α → Option Vec) vi => do
      let _ ← getPos pos vi.1
      return setPos pos vi.1 (xStep * (gi.2 : ℝ) + xOff, yStep * (vi.2 : ℝ) + w.bottom)) pos) L.pos

/-- `graph_layout.py:52-54`: the default of `k_const`. -/
noncomputable def defaultK (w : Win) (n : Nat) : Py ℝ :=
  if n = 0 then .error .zeroDivision
  else if (w.right - w.left) * (w.bottom - w.top) / (n : ℝ) < 0 then .error .valueError
  else .ok (Real.sqrt ((w.right - w.left) * (w.bottom - w.top) / (n : ℝ)))

/-- `graph_layout.py:35-60` (`ForceDirectedLayout.__init__`): the object, its `k_const`, and the state of the global generator. The
circular layout computed in lines 59-60 is dropped. -/
noncomputable def forceInit {S : Type} (g : NpRandom S) (o : SetOrder α) (N : Finset α) (w : Win)
    (groups : Option (List (List α))) (k : Option ℝ) (s : S) : Py (Layout α × ℝ × S) := do
  let (L, _) ← baseInit g o N w groups s
  let s := g.seed 123
  let k ← match k with
    | some k => pure k
    | none => defaultK w N.card
  let (C, s) ← baseInit g o N w groups s
  let _ ← circleCalc o C
  return (L, k, s)

/-- `graph_layout.py:67-69,77-79`: `dv` and the distance, at least one. -/
noncomputable def diff (p q : Vec) : Vec × ℝ :=
  let dv := (p.1 - q.1, p.2 - q.2)
  (dv, max (Real.sqrt (dv.1 * dv.1 + dv.2 * dv.2)) 1)

/-- `graph_layout.py:62-71` (`_calc_repulsive_forces`) for one node. -/
noncomputable def repulse (o : SetOrder α) (N : Finset α) (k : ℝ) (pos : α → Option Vec) (i : α) : Py Vec :=
  (o.iter i (N \ {i})).foldlM (fun (f : Vec) j => do
    let p ← getPos pos i
    let q ← getPos pos j
    let d := diff p q
    return (f.1 + d.1.1 / d.2 * (k * k / d.2), f.2 + d.1.2 / d.2 * (k * k / d.2))) (0, 0)

/-- `graph_layout.py:73-81` (`_calc_attracting_forces`) for one node. -/
noncomputable def attract (o : SetOrder α) (adj : α → Py (Finset α)) (k : ℝ) (pos : α → Option Vec) (i : α) : Py Vec := do
  let A ← adj i
  (o.iter i A).foldlM (fun (f : Vec) j => do
    let p ← getPos pos i
    let q ← getPos pos j
    let d := diff p q
    return (f.1 - d.1.1 / d.2 * (d.2 * d.2 / k), f.2 - d.1.2 / d.2 * (d.2 * d.2 / k))) (0, 0)

/-- `disp/disp_norm` for one coordinate (`graph_layout.py:99`); `none` is NaN: if the norm is 0, so is the coordinate. -/
noncomputable def nanDiv (x y : ℝ) : Option ℝ := if y = 0 then none else some (x / y)

/-- Python's `max(a, b)`: the second argument only if it is greater; a comparison with NaN is false. -/
noncomputable def pyMax (a : ℝ) (b : Option ℝ) : ℝ :=
  match b with
  | none => a
  | some b => if b > a then b else a

/-- Python's `min(a, b)` for numbers. -/
noncomputable def pyMin (a b : ℝ) : ℝ := if b < a then b else a

/-- `graph_layout.py:97-101`: the new position of a node. -/
noncomputable def move (w : Win) (maxDisp : ℝ) (p disp : Vec) : Vec :=
  let n := Real.sqrt (disp.1 * disp.1 + disp.2 * disp.2)
  let step := fun x d => (nanDiv d n).map (fun q => x + q * pyMin n maxDisp)
  (pyMin w.right (pyMax w.left (step p.1 disp.1)), pyMin w.bottom (pyMax w.top (step p.2 disp.2)))

/-- A dictionary with a force for each node (`graph_layout.py:63-71,74-81`). -/
def forces (f : α → Py Vec) (l : List α) : Py (List (α × Vec)) := l.mapM (fun v => do return (v, ← f v))

/-- `graph_layout.py:92-101`: round number `i` (from 0). All forces are computed before the first node is moved. -/
noncomputable def forceRound (o : SetOrder α) (adj : α → Py (Finset α)) (N : Finset α) (w : Win) (k : ℝ) (i : Nat)
    (pos : α → Option Vec) : Py (α → Option Vec) := do
  let rep ← forces (repulse o N k pos) (o.iter () N)
  let att ← forces (attract o adj k pos) (o.iter () N)
  (rep.zip att).foldlM (fun (pos : α → Option Vec) ra => do
    let p ← getPos pos ra.1.1
    return setPos pos ra.1.1 (move w (k / ((i : ℝ) + 1)) p (ra.1.2.1 + ra.2.2.1, ra.1.2.2 + ra.2.2.2))) pos

/-- `graph_layout.py:83-102` (`ForceDirectedLayout.calc_layout`). -/
noncomputable def forceCalc (o : SetOrder α) (adj : α → Py (Finset α)) (L : Layout α) (k : ℝ) (rounds : Nat) :
    Py (α → Option Vec) :=
  (List.range rounds).foldlM (fun pos i => forceRound o adj L.nodes L.win k i pos) L.pos

end
end Draw
end Verif
