import Verif.Model.Layout
import Verif.Model.Pag
import Verif.Model.PdsTree

/-!
# Model of `plot_utils/draw_graph.py`

The result of a function is the list of the shapes it adds to the axes, each with the nodes it was drawn for. Not modelled: fonts,
the images of nodes, the decorations (grid of `draw_pds_tree`, box and labels of `draw_temporal_graph`), and `plt.show()`.
Colours are strings.
-/

namespace Verif
namespace Draw

/-- The `arrowstyle` of `FancyArrowPatch` (`draw_graph.py:55,61-68`): `'-'`, `'-|>'`, `'<|-'`, `'<|-|>'`. -/
inductive Style
  | line | right | left | both
  deriving DecidableEq, Repr

/-- What `draw_edge` adds to the axes: an arrow between two points, small circles at its ends, and a text. `ends` is `none` if the
coordinates are NaN. -/
structure EdgeShape where
  ends : Option (Vec × Vec)
  style : Style
  color : String
  rad : ℝ
  circ0 : Bool
  circ1 : Bool
  circRadius : ℝ
  text : Option String

/-- `draw_graph.py:32,38-39`: distance between the centre of a node and the end of the arrow. -/
noncomputable def offset (r : ℝ) (m : Option Mark) : ℝ := if m = some .circle then r / 4 + r else r

/-- `draw_graph.py:33-43`: the ends of the arrow. With distance zero, `numpy` numbers (`np`) give NaN and Python floats raise. -/
noncomputable def edgeEnds (np : Bool) (p0 p1 : Vec) (r : ℝ) (m0 m1 : Option Mark) : Py (Option (Vec × Vec)) :=
  let dx := p1.1 - p0.1
  let dy := p1.2 - p0.2
  let d := Real.sqrt (dx ^ 2 + dy ^ 2)
  if d = 0 then (if np then .ok none else .error .zeroDivision)
  else .ok (some ((p0.1 + offset r m0 * (dx / d), p0.2 + offset r m0 * (dy / d)),
    (p1.1 - offset r m1 * (dx / d), p1.2 - offset r m1 * (dy / d))))

/-- `draw_graph.py:45-49`: `connectionstyle`, only the curvature. The distance is a Python float (`math.sqrt`). -/
noncomputable def edgeRad (p0 p1 : Vec) (r : ℝ) (curved : Bool) : Py ℝ :=
  let d := Real.sqrt ((p1.1 - p0.1) ^ 2 + (p1.2 - p0.2) ^ 2)
  if curved then (if d = 0 then .error .zeroDivision else .ok (4 * r / d)) else .ok 0

/-- `draw_graph.py:51-68`: the arrow style. -/
def edgeStyle (m0 m1 : Option Mark) : Style :=
  if m0 = none ∧ m1 = none then .right
  else if m0 = some .arrow ∧ m1 = some .arrow then .both
  else if m0 = some .arrow ∧ m1 ≠ some .arrow then .left
  else if m0 ≠ some .arrow ∧ m1 = some .arrow then .right
  else .line

/-- `draw_graph.py:70-81`: the colour of the line. -/
def edgeColor (m0 m1 : Option Mark) (color : String) : String :=
  if m0 = none ∧ m1 = none then color
  else if color.toLower = "auto" then
    if m0 = some .circle ∧ m1 = some .circle then "red"
    else if (m0 = some .arrow ∧ m1 = some .tail) ∨ (m0 = some .tail ∧ m1 = some .arrow) then "black"
    else if m0 = some .arrow ∧ m1 = some .arrow then "blue"
    else if m0 = some .tail ∧ m1 = some .tail then "blueviolet"
    else "limegreen"
  else color

/-- `draw_graph.py:14-114` (`draw_edge`). -/
noncomputable def drawEdge (np : Bool) (p0 p1 : Vec) (r : ℝ) (m0 m1 : Option Mark) (color : String) (text : Option String)
    (curved : Bool) : Py EdgeShape := do
  let ends ← edgeEnds np p0 p1 r m0 m1
  let rad ← edgeRad p0 p1 r curved
  return ⟨ends, edgeStyle m0 m1, edgeColor m0 m1 color, rad, decide (m0 = some .circle), decide (m1 = some .circle), r / 4, text⟩

/-- The contour of a node (`draw_graph.py:145-153`). -/
inductive Contour
  | circle | rectangle
  deriving DecidableEq, Repr

/-- A label of a node (`draw_graph.py:157-169`): a string or number, an image, or something else. -/
inductive Label
  | text (s : String) | image | other
  deriving DecidableEq, Repr

/-- What `draw_node` adds to the axes. -/
structure NodeShape where
  center : Vec
  radius : ℝ
  contour : Contour
  line : String
  fill : String
  textColor : String
  label : Label

/-- `draw_graph.py:117-169` (`draw_node`). -/
def drawNode (pos : Vec) (r : ℝ) (line fill textColor : String) (label : Label) (contour : Contour) : Py NodeShape :=
  if label = .other then .error .typeError else .ok ⟨pos, r, contour, line, fill, textColor, label⟩

section
variable {α : Type} [DecidableEq α]

/-- `draw_graph.py:190`: the graphs that can be drawn; a PAG with its `visible_edges`. -/
inductive Drawable (α : Type) where
  | dag (D : Dag α)
  | pag (G : MG α) (visible : Option (Finset (α × α)))

/-- `graph.nodes_set`. -/
def Drawable.nodes : Drawable α → Finset α
  | .dag D => D.nodes
  | .pag G _ => G.nodes

/-- `graph.find_adjacent_nodes(node)` (`graph_layout.py:76`). -/
def Drawable.adj : Drawable α → α → Py (Finset α)
  | .dag D, v => D.findAdjacentNodes v
  | .pag G _, v => .ok (G.findAdjacentNodes v none none)

/-- `draw_graph.py:252-255,542-545`: the text on an edge of a PAG. -/
def visibleText (visible : Option (Finset (α × α))) (i j : α) : Option String :=
  match visible with
  | none => none
  | some V => if (i, j) ∈ V ∨ (j, i) ∈ V then some "v" else none

/-- `draw_graph.py:249-262,537-557`: the edges of a PAG. `skip` are pairs left out, `curved` pairs drawn with a curve. -/
noncomputable def drawPagEdges (o : SetOrder α) (G : MG α) (visible : Option (Finset (α × α))) (pos : α → Option Vec) (r : ℝ)
    (color : String) (skip : α → α → Bool) (curved : α → α → Py Bool) : Py (List ((α × α) × EdgeShape)) :=
  (pairs (o.iter () G.nodes)).foldlM (fun acc ij => do
    if skip ij.1 ij.2 then return acc
    if ← G.isConnected ij.1 ij.2 then
      let c ← curved ij.1 ij.2
      let p0 ← getPos pos ij.1
      let p1 ← getPos pos ij.2
      let e ← drawEdge true p0 p1 r (G.getEdgeMark ij.2 ij.1) (G.getEdgeMark ij.1 ij.2) color (visibleText visible ij.1 ij.2) c
      return acc ++ [(ij, e)]
    else return acc) []

/-- `draw_graph.py:263-270,558-567`: the edges of a DAG. -/
noncomputable def drawDagEdges (o : SetOrder α) (D : Dag α) (pos : α → Option Vec) (r : ℝ) (color : String) (skip : α → α → Bool)
    (curved : Bool) : Py (List ((α × α) × EdgeShape)) :=
  (o.iter () D.nodes).foldlM (fun acc c => do
    (o.iter c (← D.parents c)).foldlM (fun acc p => do
      if skip p c then return acc
      let p0 ← getPos pos p
      let p1 ← getPos pos c
      let e ← drawEdge true p0 p1 r none none (if color = "auto" then "black" else color) none curved
      return acc ++ [((p, c), e)]) acc) []

/-- `draw_graph.py:233-247,519-533`: contour and colours of the nodes. -/
noncomputable def drawNodes (o : SetOrder α) (N latent selection : Finset α) (pos : α → Option Vec) (r : ℝ) (bk fg : String)
    (labels : α → Option Label) : Py (List (α × NodeShape)) :=
  (o.iter () N).foldlM (fun acc v => do
    let p ← getPos pos v
    let lab ← match labels v with
      | some l => pure l
      | none => throw .keyError
    let s ← if v ∈ latent then drawNode p r fg fg bk lab .rectangle
      else if v ∈ selection then drawNode p r fg bk fg lab .rectangle
      else drawNode p r fg bk fg lab .circle
    return acc ++ [(v, s)]) []

/-- What a drawing shows, and the dictionary of labels afterwards (`draw_graph.py:197-199` adds to the dictionary of the caller). -/
structure Figure (α : Type) where
  nodes : List (α × NodeShape)
  edges : List ((α × α) × EdgeShape)
  labels : α → Option Label

/-- `draw_graph.py:195-199`: add the node itself as label where there is none. -/
def fillLabels (own : α → Label) (N : Finset α) (labels : Option (α → Option Label)) : α → Option Label :=
  fun v => match (labels.getD (fun _ => none)) v with
    | some l => some l
    | none => if v ∈ N then some (own v) else none

/-- `draw_graph.py:228-231`: positions in the window of size `2 * factor` are moved to the unit square, leaving a margin. -/
noncomputable def normalize (factor r : ℝ) (p : Vec) : Vec :=
  ((p.1 / factor * (1 - 4 * r) + 1) / 2, (p.2 / factor * (1 - 4 * r) + 1) / 2)

/-- A loop that replaces the positions of all nodes (`draw_graph.py:228-231,483-485`). -/
noncomputable def mapPos (o : SetOrder α) (N : Finset α) (f : Vec → Vec) (pos : α → Option Vec) : Py (α → Option Vec) :=
  (o.iter () N).foldlM (fun (pos : α → Option Vec) v => do
    let p ← getPos pos v
    return setPos pos v (f p)) pos

/-- `layout_type` (`draw_graph.py:214-224`). -/
inductive LayoutType
  | default | circular | force | other

/-- The window of `draw_graph` (`draw_graph.py:212-213`). -/
def bigWin : Win := ⟨-1000, 1000, -1000, 1000⟩

/-- `draw_graph.py:212-226`: the positions from the layout, and the state of the global generator. The force-directed layout is
created in any case. -/
noncomputable def layoutPos {S : Type} (g : NpRandom S) (o : SetOrder α) (G : Drawable α) (lt : LayoutType) (s : S) :
    Py ((α → Option Vec) × S) := do
  let (L, k, s) ← forceInit g o G.nodes bigWin none none s
  match lt with
  | .circular =>
    let (C, s) ← baseInit g o G.nodes bigWin none s
    return (← circleCalc o C, s)
  | .other => throw .valueError
  | _ => return (← forceCalc o G.adj L k 100, s)

/-- Parameters of `draw_graph` (`draw_graph.py:172-173`) that are handed on. `own v` is the node `v` as a label,
`str v` is `str(v)`. -/
structure DrawOpts (α : Type) where
  latent : Finset α
  selection : Finset α
  bkcolor : String
  fgcolor : String
  lineColor : String
  labels : Option (α → Option Label)
  own : α → Label
  str : α → String
  sizeFactor : ℝ

/-- `draw_graph.py:172-273` (`draw_graph`): the figure and the state of the global generator. -/
noncomputable def drawGraph {S : Type} (g : NpRandom S) (o : SetOrder α) (opts : DrawOpts α) (lt : LayoutType) (G : Drawable α) (s : S) :
    Py (Figure α × S) := do
  let labels := fillLabels opts.own G.nodes opts.labels
  let r := 0.04 * opts.sizeFactor
  let (pos, s) ← layoutPos g o G lt s
  let pos ← mapPos o G.nodes (normalize 1000 r) pos
  let nodes ← drawNodes o G.nodes opts.latent opts.selection pos r opts.bkcolor opts.fgcolor labels
  let edges ← match G with
    | .pag P visible => drawPagEdges o P visible pos r opts.lineColor (fun _ _ => false) (fun _ _ => .ok false)
    | .dag D => drawDagEdges o D pos r opts.lineColor (fun _ _ => false) false
  return (⟨nodes, edges, labels⟩, s)

/-! ## Trees -/

/-- The drawing of a tree: nodes with their positions, and edges from a node to its child. -/
structure TreeFigure (α : Type) where
  nodes : List (α × NodeShape)
  edges : List ((α × α) × EdgeShape)

/-- `draw_graph.py:385-387`: the angle of child number `i` of `n`. -/
noncomputable def childAngle (a b : ℝ) (n i : Nat) : ℝ := a + (b - a) * (1 / (2 * (n : ℝ)) + (i : ℝ) / n)

/-- `draw_graph.py:394-395`: the border number `i` between the sectors of `n` children. -/
noncomputable def sectorBorder (a b : ℝ) (n i : Nat) : ℝ := a + (i : ℝ) * (b - a) / n

/-- `draw_graph.py:389-392`: the point at an angle (degrees) and a distance from the root. -/
noncomputable def polar (angle : ℝ) (depth : Nat) : Vec :=
  (Real.cos (angle * Real.pi / 180) * depth, Real.sin (angle * Real.pi / 180) * depth)

/-- Options of `draw_pds_tree` (`draw_graph.py:276-279`) that are used: the PAG, labels (`own v` is the node itself), radius of the
nodes and colours. -/
structure TreeOpts (α : Type) where
  pag : Option (MG α)
  label : α → Option Label
  own : α → Label
  radius : ℝ
  fgcolor : String
  lineColor : String

/-- `draw_graph.py:368-380`: the node of a branch. The colours swapped in line 371 for nodes in `marked` are not handed on, `draw_node`
uses its defaults. -/
def drawTreeNode (opts : TreeOpts α) (marked : Finset α) (bkcolor : String) (v : α) (pos : Vec) : Py NodeShape :=
  let _colors := if v ∈ marked then (opts.fgcolor, bkcolor) else (bkcolor, opts.fgcolor)
  let lab := (opts.label v).getD (opts.own v)
  let contour := if lab = .image then "white" else opts.fgcolor
  drawNode pos opts.radius contour "white" "black" lab .circle

mutual
/-- `draw_graph.py:357-415` (`_draw_root_children`): the branch at `pos` with the sector from `a` to `b`, its children at distance
`depth` from the root. -/
noncomputable def drawBranch (opts : TreeOpts α) (marked : Finset α) (bkcolor : String) :
    PdsTree α → Vec → ℝ → ℝ → Nat → Py (TreeFigure α)
  | .node v _ cs, pos, a, b, depth => do
    let n ← drawTreeNode opts marked bkcolor v pos
    let rest ← drawChildren opts marked bkcolor cs v pos a b depth cs.length 0
    return ⟨(v, n) :: rest.nodes, rest.edges⟩

/-- `draw_graph.py:397-415`: the loop over the children, from number `i` on. -/
noncomputable def drawChildren (opts : TreeOpts α) (marked : Finset α) (bkcolor : String) :
    List (PdsTree α) → α → Vec → ℝ → ℝ → Nat → Nat → Nat → Py (TreeFigure α)
  | [], _, _, _, _, _, _, _ => .ok ⟨[], []⟩
  | c :: cs, v, pos, a, b, depth, n, i => do
    let cpos := polar (childAngle a b n i) depth
    let G ← match opts.pag with
      | some G => pure G
      | none => throw .attributeError
    let e ← drawEdge false pos cpos opts.radius (G.getEdgeMark v c.origin) (G.getEdgeMark c.origin v) opts.lineColor none false
    let sub ← drawBranch opts marked bkcolor c cpos (sectorBorder a b n i) (sectorBorder a b n (i + 1)) (depth + 1)
    let rest ← drawChildren opts marked bkcolor cs v pos a b depth n (i + 1)
    return ⟨sub.nodes ++ rest.nodes, ((v, c.origin), e) :: sub.edges ++ rest.edges⟩
end

/-- `draw_graph.py:276-424` (`draw_pds_tree`), without the grid. -/
noncomputable def drawPdsTree (opts : TreeOpts α) (marked : Finset α) (bkcolor : String) (circ : Bool) (t : PdsTree α) :
    Py (TreeFigure α) :=
  drawBranch opts marked bkcolor t (0, 0) 0 (if circ then 360 else 180) 1

/-- `draw_graph.py:285,292-293,301-314`: half of the width of the canvas. -/
noncomputable def canvasRadius (opts : TreeOpts α) (t : PdsTree α) : ℝ := ((t.maxDepth : ℝ) - 1) + opts.radius

/-! ## Time series -/

/-- `draw_graph.py:461-467`: `node_time` (up to a shift) and `node_y_id`; later entries overwrite earlier ones. -/
def timeIndex (gs : List (List α)) : α → Option (Nat × Nat) :=
  (gs.zipIdx.flatMap (fun gi => gi.1.zipIdx.map (fun vi => (vi.1, gi.2, vi.2)))).foldl
    (fun d x => fun v => if v = x.1 then some x.2 else d v) (fun _ => none)

/-- `draw_graph.py:546-551`: edges over more than one column or row are curved. -/
def isCurved (idx : α → Option (Nat × Nat)) (i j : α) : Py Bool :=
  match idx i, idx j with
  | some (t, y), some (t', y') => .ok (decide (((t : Int) - t').natAbs > 1) || decide (((y : Int) - y').natAbs > 1))
  | _, _ => .error .keyError

/-- Python's `l[-1]`, `l[0]` (`draw_graph.py:496-497`). -/
def pyLast {β : Type} (l : List β) : Py β :=
  match l.getLast? with
  | some x => .ok x
  | none => .error .indexError

/-- `draw_graph.py:427-569` (`draw_temporal_graph`) without row and column labels. `nodes_set_list` may be `None`. -/
noncomputable def drawTemporal {S : Type} (g : NpRandom S) (o : SetOrder α) (opts : DrawOpts α) (ignoreHomology : Bool)
    (groups : Option (List (List α))) (G : Drawable α) (s : S) : Py (Figure α × S) := do
  let gs := (groups.getD [o.iter () G.nodes]).reverse
  let r : ℝ := 0.04
  let (L, s) ← baseInit g o G.nodes ⟨-1, 1, -1, 1⟩ (some gs) s
  let pos ← columnCalc o L
  let pos ← mapPos o G.nodes (fun p => ((p.1 * (1 - 6 * r) + 1) / 2, (p.2 * (1 - 6 * r) + 1) / 2)) pos
  let groups ← match groups with
    | some l => pure l
    | none => throw .typeError
  let present ← match groups with
    | p :: _ => pure p
    | [] => throw .indexError
  let bot ← pyLast present
  let _ ← getPos pos bot
  let top ← pyLast present.reverse
  let _ ← getPos pos top
  let nodes ← drawNodes o G.nodes opts.latent opts.selection pos r opts.bkcolor opts.fgcolor (fun v => some (.text (opts.str v)))
  let skip : α → α → Bool := fun i j => ignoreHomology && decide (i ∉ present) && decide (j ∉ present)
  let edges ← match G with
    | .pag P visible => drawPagEdges o P visible pos r opts.lineColor skip (isCurved (timeIndex gs))
    | .dag D => drawDagEdges o D pos r opts.lineColor skip true
  return (⟨nodes, edges, fun _ => none⟩, s)

end
end Draw
end Verif
