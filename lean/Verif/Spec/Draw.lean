import Verif.Model.Draw
import Verif.Spec.Layout
import Verif.Spec.Mixed

/-!
# Specification: what a drawing shows

An arrow between two points is drawn for a pair of nodes. The mark that a reader sees at an end of an edge is an arrowhead, a small
circle, or nothing.
-/

namespace Verif
namespace Draw

/-- There is an arrowhead at the first end. -/
def Style.headStart : Style → Bool
  | .left | .both => true
  | _ => false

/-- There is an arrowhead at the second end. -/
def Style.headEnd : Style → Bool
  | .right | .both => true
  | _ => false

/-- What is seen at the first end. -/
def EdgeShape.markStart (e : EdgeShape) : Mark := if e.style.headStart then .arrow else if e.circ0 then .circle else .tail

/-- What is seen at the second end. -/
def EdgeShape.markEnd (e : EdgeShape) : Mark := if e.style.headEnd then .arrow else if e.circ1 then .circle else .tail

/-- An arrowhead and a circle are not drawn on top of each other. -/
def EdgeShape.Clear (e : EdgeShape) : Prop := ¬ (e.style.headStart ∧ e.circ0) ∧ ¬ (e.style.headEnd ∧ e.circ1)

/-- The point `x` is on the segment from `p` to `q` or on its continuation, at distance `d` from `p` (in the direction of `q`). -/
def Toward (p q : Vec) (d : ℝ) (x : Vec) : Prop :=
  sqDist p x = d ^ 2 ∧ ∃ t : ℝ, (0 < d → 0 ≤ t) ∧ x = (p.1 + t * (q.1 - p.1), p.2 + t * (q.2 - p.2))

/-- The arrow joins the borders of two discs of radius `r`, with space for the small circles (of radius `r / 4`, touching the discs). -/
def EdgeShape.Joins (e : EdgeShape) (r : ℝ) (p q : Vec) : Prop :=
  e.circRadius = r / 4 ∧ (p = q → e.ends = none) ∧ (p ≠ q → ∃ a b, e.ends = some (a, b) ∧
    Toward p q (if e.circ0 then r + e.circRadius else r) a ∧ Toward q p (if e.circ1 then r + e.circRadius else r) b)

/-- Each unordered pair is drawn at most once, and exactly the pairs in `R` are drawn. -/
def DrawnOnce {α : Type} (ps : List (α × α)) (R : α → α → Prop) : Prop :=
  ps.Nodup ∧ (∀ a b, (a, b) ∈ ps → (b, a) ∉ ps) ∧ ∀ a b, ((a, b) ∈ ps ∨ (b, a) ∈ ps) ↔ R a b

/-- The colour code of edges. -/
def colorOf : Mark → Mark → String
  | .circle, .circle => "red"
  | .arrow, .tail => "black"
  | .tail, .arrow => "black"
  | .arrow, .arrow => "blue"
  | .tail, .tail => "blueviolet"
  | _, _ => "limegreen"

/-- A disc inside of the unit square. -/
def InUnit (p : Vec) (r : ℝ) : Prop := r ≤ p.1 ∧ p.1 ≤ 1 - r ∧ r ≤ p.2 ∧ p.2 ≤ 1 - r

/-- Every node of `N` is drawn once, at least `m` away from the border of the unit square: with its label, a circle or (latent and
selection variables) a square, in the colours `fg` on `bk`, inverted for latent variables. -/
def NodesShown {α : Type} (N latent selection : Finset α) (labels : α → Option Label) (r m : ℝ) (bk fg : String)
    (ns : List (α × NodeShape)) : Prop :=
  (ns.map Prod.fst).Nodup ∧ (∀ v, v ∈ ns.map Prod.fst ↔ v ∈ N) ∧ ∀ x ∈ ns, InUnit x.2.center m ∧ x.2.radius = r ∧
    labels x.1 = some x.2.label ∧ (x.2.contour = .rectangle ↔ x.1 ∈ latent ∨ x.1 ∈ selection) ∧ x.2.line = fg ∧
    (x.1 ∈ latent → x.2.fill = fg ∧ x.2.textColor = bk) ∧ (x.1 ∉ latent → x.2.fill = bk ∧ x.2.textColor = fg)

/-- The edge joins the discs of the two nodes. -/
def JoinsNodes {α : Type} (ns : List (α × NodeShape)) (r : ℝ) (i j : α) (e : EdgeShape) : Prop :=
  ∃ a b, (i, a) ∈ ns ∧ (j, b) ∈ ns ∧ e.Joins r a.center b.center

/-- Exactly the edges of the PAG in `R` are drawn, each once: with both marks at the right nodes, the colour of its type or the given
colour, and the text "v" if it is visible. -/
def PagShown {α : Type} (G : MG α) (visible : Option (Finset (α × α))) (R : α → α → Prop) (r : ℝ) (color : String)
    (ns : List (α × NodeShape)) (es : List ((α × α) × EdgeShape)) : Prop :=
  DrawnOnce (es.map Prod.fst) R ∧ ∀ x ∈ es, G.At x.1.2 x.1.1 x.2.markStart ∧ G.At x.1.1 x.1.2 x.2.markEnd ∧ x.2.Clear ∧
    (color = "auto" → x.2.color = colorOf x.2.markStart x.2.markEnd) ∧ (color.toLower ≠ "auto" → x.2.color = color) ∧
    ((x.2.text = some "v" ∧ ∃ V, visible = some V ∧ (x.1 ∈ V ∨ x.1.swap ∈ V)) ∨
      (x.2.text = none ∧ ¬ ∃ V, visible = some V ∧ (x.1 ∈ V ∨ x.1.swap ∈ V))) ∧
    JoinsNodes ns r x.1.1 x.1.2 x.2

/-- Exactly the edges in `R` are drawn, each once, as an arrow from the first to the second node. -/
def DagShown {α : Type} (R : α → α → Prop) (r : ℝ) (color : String) (ns : List (α × NodeShape)) (es : List ((α × α) × EdgeShape)) :
    Prop :=
  (es.map Prod.fst).Nodup ∧ (∀ a b, (a, b) ∈ es.map Prod.fst ↔ R a b) ∧ ∀ x ∈ es, x.2.markStart = .tail ∧ x.2.markEnd = .arrow ∧
    x.2.Clear ∧ x.2.color = (if color = "auto" then "black" else color) ∧ x.2.text = none ∧ JoinsNodes ns r x.1.1 x.1.2 x.2

/-- Every node is or has a label that can be drawn: a string, a number or an image. -/
def Labelled {α : Type} (opts : DrawOpts α) (N : Finset α) : Prop :=
  ∀ v ∈ N, opts.own v ≠ .other ∧ ∀ l, opts.labels = some l → l v ≠ some .other

end Draw
end Verif
