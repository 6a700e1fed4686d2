import Verif.Lemmas.PagSound
import Verif.Lemmas.PagMsep
import Verif.Props.Mixed

/-!
# Properties C29–C35, C58 (partial ancestral graphs)
-/

namespace Verif
open Relation MG

section
variable {α : Type} [DecidableEq α]

/-! ## Examples used below -/

/-- A maximal ancestral graph: `0 <-> 2`, `1 --> 2`, `3 --> 2`, `0 --> 4 <-- 1`, `0 --> 5 <-- 3`, and `6`, `7` are
parents of `1` and of `3`. -/
def exMag : MG Nat := .ofMarks {0, 1, 2, 3, 4, 5, 6, 7} pagTypes
  [(0, 2, .arrow), (2, 0, .arrow), (1, 2, .arrow), (2, 1, .tail), (3, 2, .arrow), (2, 3, .tail), (0, 4, .arrow),
   (4, 0, .tail), (1, 4, .arrow), (4, 1, .tail), (0, 5, .arrow), (5, 0, .tail), (3, 5, .arrow), (5, 3, .tail),
   (6, 1, .arrow), (1, 6, .tail), (7, 1, .arrow), (1, 7, .tail), (6, 3, .arrow), (3, 6, .tail), (7, 3, .arrow), (3, 7, .tail)]

/-- Separating sets of `exMag`. -/
def exSep : SepSet Nat :=
  [(1, 3, {6, 7}), (1, 5, {3}), (2, 4, {0, 1}), (2, 5, {0, 3}), (2, 6, {1, 3}), (2, 7, {1, 3}), (3, 4, {1}), (4, 5, {0, 1}),
   (4, 6, {1}), (4, 7, {1}), (5, 6, {3}), (5, 7, {3})].foldl (fun s (e : Nat × Nat × Finset Nat) => s.set e.1 e.2.1 e.2.2)
    (SepSet.init ascending exMag.nodes)

/-- The pattern of `exMag`: its adjacencies and the arrowheads of its unshielded colliders. -/
def exPag : MG Nat := .ofMarks {0, 1, 2, 3, 4, 5, 6, 7} pagTypes
  [(0, 2, .arrow), (2, 0, .circle), (1, 2, .arrow), (2, 1, .circle), (3, 2, .arrow), (2, 3, .circle), (0, 4, .arrow),
   (4, 0, .circle), (1, 4, .arrow), (4, 1, .circle), (0, 5, .arrow), (5, 0, .circle), (3, 5, .arrow), (5, 3, .circle),
   (6, 1, .arrow), (1, 6, .circle), (7, 1, .arrow), (1, 7, .circle), (6, 3, .arrow), (3, 6, .circle), (7, 3, .arrow),
   (3, 7, .circle)]

theorem exMag_proper : exMag.Proper := MG.ofMarks_proper (by decide +kernel)
theorem exPag_proper : exPag.Proper := MG.ofMarks_proper (by decide +kernel)
theorem exPag_types : ∀ m, m ∈ exPag.types := by intro m; cases m <;> decide

omit [DecidableEq α] in
/-- Ancestral graphs by a ranking of the nodes. -/
theorem MG.Ancestral.of_rank {M : MG α} (hM : M.Proper) (r : α → Nat)
    (h1 : ∀ a ∈ M.nodes, ∀ b ∈ M.nodes, a ∈ M.g b .arrow → r a ≤ r b ∧ (b ∈ M.g a .tail → r a < r b))
    (h2 : ∀ a ∈ M.nodes, ∀ b ∈ M.nodes, a ∉ M.g b .circle)
    (h3 : ∀ a ∈ M.nodes, ∀ b ∈ M.nodes, ∀ c ∈ M.nodes, a ∈ M.g b .tail → b ∈ M.g a .tail → c ∉ M.g a .arrow) :
    Ancestral M := by
  have hpar : ∀ a b, M.Par a b → r a < r b := fun a b h =>
    (h1 a (hM.mem _ _ _ h.1).1 b (hM.mem _ _ _ h.1).2 h.1).2 h.2
  have htg : ∀ a b, TransGen M.Par a b → r a < r b := by
    intro a b h
    induction h with
    | single h => exact hpar _ _ h
    | tail _ h ih => exact ih.trans (hpar _ _ h)
  refine ⟨hM, fun a b h => h2 a (hM.mem _ _ _ h).1 b (hM.mem _ _ _ h).2 h, fun a b h h' => ?_, fun a b c h h' h'' => ?_⟩
  · have := htg _ _ h'
    have := (h1 a (hM.mem _ _ _ h).1 b (hM.mem _ _ _ h).2 h).1
    omega
  · exact h3 a (hM.mem _ _ _ h).1 b (hM.mem _ _ _ h).2 c (hM.mem _ _ _ h'').1 h h' h''

theorem exMag_ancestral : Ancestral exMag :=
  .of_rank exMag_proper (fun v => [5, 4, 5, 4, 6, 6, 0, 0].getD v 0) (by decide +kernel) (by decide +kernel) (by decide +kernel)

omit [DecidableEq α] in
theorem MG.Proper.madj_iff {G : MG α} (hG : G.Proper) {a b : α} : G.MAdj a b ↔ a ∈ G.nodes ∧ b ∈ G.nodes ∧
    (a ∈ G.g b .tail ∨ a ∈ G.g b .arrow ∨ a ∈ G.g b .circle) := by
  rw [hG.adj_iff]
  constructor
  · rintro ⟨m, h⟩
    refine ⟨(hG.mem _ _ _ h).1, (hG.mem _ _ _ h).2, ?_⟩
    cases m
    · exact Or.inl h
    · exact Or.inr (Or.inl h)
    · exact Or.inr (Or.inr h)
  · rintro ⟨_, _, h | h | h⟩ <;> exact ⟨_, h⟩

omit [DecidableEq α] in
/-- Compatibility only concerns the nodes. -/
theorem MG.Compatible.of_nodes {P M : MG α} (hP : P.Proper) (hM : M.Proper) (hn : P.nodes = M.nodes)
    (h : ∀ a ∈ M.nodes, ∀ b ∈ M.nodes,
      ((a ∈ P.g b .tail ∨ a ∈ P.g b .arrow ∨ a ∈ P.g b .circle) ↔ (a ∈ M.g b .tail ∨ a ∈ M.g b .arrow ∨ a ∈ M.g b .circle)) ∧
      (a ∈ P.g b .arrow → a ∈ M.g b .arrow) ∧ (a ∈ P.g b .tail → a ∈ M.g b .tail) ∧
      (a ∈ M.g b .arrow → ∀ c ∈ M.nodes, a ≠ c → c ∈ M.g b .arrow →
        ¬ (a ∈ M.g c .tail ∨ a ∈ M.g c .arrow ∨ a ∈ M.g c .circle) → a ∈ P.g b .arrow ∧ c ∈ P.g b .arrow)) :
    Compatible P M := by
  have hm : ∀ {a b m}, P.At a b m → a ∈ M.nodes ∧ b ∈ M.nodes := fun h => hn ▸ hP.mem _ _ _ h
  refine ⟨fun a b => ?_, fun a b h' => (h a (hm h').1 b (hm h').2).2.1 h', fun a b h' => (h a (hm h').1 b (hm h').2).2.2.1 h',
    fun a b c hac k1 k2 k3 => ?_⟩
  · rw [hP.madj_iff, hM.madj_iff, hn]
    constructor
    · rintro ⟨h1, h2, h3⟩; exact ⟨h1, h2, (h a h1 b h2).1.1 h3⟩
    · rintro ⟨h1, h2, h3⟩; exact ⟨h1, h2, (h a h1 b h2).1.2 h3⟩
  · refine (h a (hM.mem _ _ _ k1).1 b (hM.mem _ _ _ k1).2).2.2.2 k1 c (hM.mem _ _ _ k2).1 hac k2 fun h' => k3 ?_
    exact hM.madj_iff.2 ⟨(hM.mem _ _ _ k1).1, (hM.mem _ _ _ k2).1, h'⟩

theorem exPag_compatible : Compatible exPag exMag :=
  .of_nodes exPag_proper exMag_proper rfl (by decide +kernel)

theorem exMag_directed : exMag.DirectedMixed := by
  have : ∀ a ∈ exMag.nodes, ∀ b ∈ exMag.nodes, (a ∈ exMag.g b .tail ∨ a ∈ exMag.g b .arrow ∨ a ∈ exMag.g b .circle) →
      (a ∈ exMag.g b .arrow ∨ a ∈ exMag.g b .tail) ∧ (a ∈ exMag.g b .arrow ∨ b ∈ exMag.g a .arrow) := by decide +kernel
  intro a b h
  obtain ⟨h1, h2, h3⟩ := exMag_proper.madj_iff.1 h
  exact this a h1 b h2 h3

theorem exSep_in : SepIn exSep.get exMag := by
  have key : ∀ i ∈ exMag.nodes, ∀ j ∈ exMag.nodes, i ≠ j →
      ¬ (i ∈ exMag.g j .tail ∨ i ∈ exMag.g j .arrow ∨ i ∈ exMag.g j .circle) →
      (match exSep.get i j with
        | .ok S => decide (S ⊆ exMag.nodes ∧ i ∉ S ∧ j ∉ S) && (exMag.isMSeparated ascending i j S).toOption == some true
        | .error _ => true) = true := by decide +kernel
  intro i hi j hj hij hadj S hS
  have := key i hi j hj hij fun h => hadj (exMag_proper.madj_iff.2 ⟨hi, hj, h⟩)
  rw [hS] at this
  simp only [Bool.and_eq_true, decide_eq_true_eq, beq_iff_eq] at this
  obtain ⟨b, h1, h2⟩ := isMSeparated_spec ascending exMag_proper (by decide) exMag_directed hi hj this.1.1 this.1.2.1 this.1.2.2
  rw [h1] at this
  exact h2.1 (by simpa [Except.toOption] using this.2)

/-! ## C29 -/

/-- `is_possible_ancestor` terminates and is `True` exactly when there is a possibly directed path of distinct nodes. -/
theorem C29_possible_ancestor (o : SetOrder α) {G : MG α} (hG : G.Proper) (x y : α) (en : Finset α) :
    ∃ b, G.isPossibleAncestor o x y en = .ok b ∧ (b = true ↔ ∃ l, PathVia G.PossPar en x y l) := by
  obtain ⟨b, h1, h2⟩ := isPossibleAncestor_spec o hG.type hG.irrefl x y en
  exact ⟨b, h1, by rw [h2, pathVia_iff]⟩

/-- `find_possible_ancestors` returns the given nodes and the nodes of the given set with a possibly directed path to one
of them. -/
theorem C29_find_possible_ancestors (o : SetOrder α) {G : MG α} (hG : G.Proper) (ds en : Finset α) :
    ∃ A, G.findPossibleAncestors o ds en = .ok A ∧
      ∀ x, x ∈ A ↔ x ∈ ds ∨ x ∈ en ∧ ∃ d ∈ ds, ∃ l, PathVia G.PossPar en x d l := by
  obtain ⟨A, h1, h2⟩ := findPossibleAncestors_spec o hG.type hG.irrefl ds en
  refine ⟨A, h1, fun x => ?_⟩
  rw [h2]
  by_cases hx : x ∈ ds
  · simp [hx]
  · simp only [hx, false_or]
    refine and_congr_right fun _ => exists_congr fun d => and_congr_right fun hd => ?_
    rw [pathVia_iff]
    exact ⟨fun h => ⟨fun e => hx (e ▸ hd), h⟩, And.right⟩

/-- `0 o-> 1`, `1 o-o 2`, `2 --> 3`, `3 <-> 4`. -/
def exQ : MG Nat := .ofMarks {0, 1, 2, 3, 4} pagTypes
  [(0, 1, .arrow), (1, 0, .circle), (1, 2, .circle), (2, 1, .circle), (2, 3, .arrow), (3, 2, .tail), (3, 4, .arrow), (4, 3, .arrow)]

theorem exQ_proper : exQ.Proper := MG.ofMarks_proper (by decide)

example : exQ.Proper ∧ exQ.isPossibleAncestor ascending 0 3 exQ.nodes = .ok true ∧
    exQ.isPossibleAncestor ascending 1 0 exQ.nodes = .ok false ∧ exQ.isPossibleAncestor descending 0 4 exQ.nodes = .ok false ∧
    exQ.isPossibleAncestor descending 0 3 {0, 1, 3} = .ok false ∧ exQ.isPossibleAncestor ascending 0 0 exQ.nodes = .ok false ∧
    (exQ.findPossibleAncestors ascending {3} exQ.nodes).map (ascending.iter ()) = .ok [0, 1, 2, 3] :=
  ⟨exQ_proper, by decide +kernel⟩

/-! ## C30 -/

/-- On graphs with edges `-->` and `<->` only, `is_m_separated` decides m-separation by paths. -/
theorem C30_m_separation (o : SetOrder α) {G : MG α} (hG : G.Proper) (hT : Mark.arrow ∈ G.types) (hD : G.DirectedMixed)
    {x y : α} (hx : x ∈ G.nodes) (hy : y ∈ G.nodes) {Z : Finset α} (hZ : Z ⊆ G.nodes) (hxZ : x ∉ Z) (hyZ : y ∉ Z) :
    ∃ b, G.isMSeparated o x y Z = .ok b ∧ (b = true ↔ G.MSep x y Z) :=
  isMSeparated_spec o hG hT hD hx hy hZ hxZ hyZ

example : exMag.Proper ∧ exMag.DirectedMixed ∧ exMag.isMSeparated ascending 0 1 ∅ = .ok true ∧
    exMag.isMSeparated ascending 0 1 {2} = .ok false ∧ exMag.isMSeparated descending 1 3 {6} = .ok false ∧
    exMag.isMSeparated descending 1 3 {6, 7} = .ok true := ⟨exMag_proper, exMag_directed, by decide +kernel⟩

/-- `0 --- 1 --- 2`. -/
def exUnd : MG Nat := .ofMarks {0, 1, 2} pagTypes [(0, 1, .tail), (1, 0, .tail), (1, 2, .tail), (2, 1, .tail)]

/-- With undirected edges the query is wrong: `0 --- 1 --- 2` is an ancestral graph in which `0` and `2` are m-connected
given the empty set, but `is_m_separated` answers `True`. -/
theorem C30_undirected_wrong : ∃ G : MG Nat, Ancestral G ∧ 0 ∈ G.nodes ∧ 2 ∈ G.nodes ∧
    G.isMSeparated ascending 0 2 ∅ = .ok true ∧ ¬ G.MSep 0 2 ∅ := by
  have hp : exUnd.Proper := MG.ofMarks_proper (by decide)
  refine ⟨exUnd, .of_rank hp (fun _ => 0) (by decide) (by decide) (by decide), by decide, by decide, by decide +kernel, ?_⟩
  refine fun h => h ⟨[0, 1, 2], by decide, rfl, rfl, ?_, ?_, ?_⟩
  · simp only [List.isChain_cons_cons, List.isChain_singleton, and_true]
    exact ⟨Or.inl ⟨.tail, by decide⟩, Or.inl ⟨.tail, by decide⟩⟩
  · intro a b c _ hc
    have : ∀ a b, a ∉ exUnd.g b .arrow := by
      intro a b hab
      simp [exUnd, ofMarks] at hab
    exact absurd hc.1 (this a b)
  · simp

/-! ## C33 -/

/-- Both searches for a discriminating path for `⟨a, b, c⟩` terminate; each returns a node exactly when there is a
discriminating path, and the node it returns is the far end point of one. -/
theorem C33_discriminating (o : SetOrder α) {G : MG α} (hG : G.Proper) {a b c : α} (hab : a ≠ b) (hac : a ≠ c) :
    ∃ r r', G.findDisc o a b c = .ok r ∧ G.findDiscRec o a b c = .ok r' ∧
      (r = none ↔ ¬ ∃ d l, G.DiscPath a b c d l) ∧ (r' = none ↔ ¬ ∃ d l, G.DiscPath a b c d l) ∧
      (∀ d, r = some d → ∃ l, G.DiscPath a b c d l) ∧ (∀ d, r' = some d → ∃ l, G.DiscPath a b c d l) := by
  obtain ⟨r, h1, h2, h3⟩ := findDisc_src o hG a b c
  obtain ⟨r', k1, k2, k3⟩ := findDiscRec_src o hG a b c
  have key : ∀ q : Option α, (∀ d, q = some d → G.DSrc c (G.nodes \ {a, b, c}) a d) →
      (q = none → ∀ d, ¬ G.DSrc c (G.nodes \ {a, b, c}) a d) →
      (q = none ↔ ¬ ∃ d l, G.DiscPath a b c d l) ∧ ∀ d, q = some d → ∃ l, G.DiscPath a b c d l := by
    intro q hq hn
    simp only [dsrc_iff hG hab hac] at hq hn
    refine ⟨⟨fun h => ?_, fun h => ?_⟩, hq⟩
    · rintro ⟨d, hd⟩; exact hn h d hd
    · cases q with
      | none => rfl
      | some d => exact absurd ⟨d, hq d rfl⟩ h
  exact ⟨r, r', h1, k1, (key r h2 h3).1, (key r' k2 k3).1, (key r h2 h3).2, (key r' k2 k3).2⟩

/-- `3 o-> 0 <-> 1 o-o 2`, `0 --> 2`, and `5 <-> 3`, `4 o-> 5`, `3 --> 2`, `5 --> 2`. -/
def exDisc : MG Nat := .ofMarks {0, 1, 2, 3, 4, 5} pagTypes
  [(3, 0, .arrow), (0, 3, .arrow), (0, 1, .arrow), (1, 0, .arrow), (1, 2, .circle), (2, 1, .circle), (0, 2, .arrow), (2, 0, .tail),
   (5, 3, .arrow), (3, 5, .arrow), (4, 5, .arrow), (5, 4, .circle), (3, 2, .arrow), (2, 3, .tail), (5, 2, .arrow), (2, 5, .tail)]

theorem exDisc_proper : exDisc.Proper := MG.ofMarks_proper (by decide)

example : exDisc.Proper ∧ exDisc.findDisc ascending 0 1 2 = .ok (some 4) ∧ exDisc.findDiscRec descending 0 1 2 = .ok (some 4) ∧
    exDisc.findDisc ascending 3 1 2 = .ok (some 4) ∧ exDisc.findDisc ascending 4 1 2 = .ok none ∧
    exDisc.findDiscRec ascending 4 1 2 = .ok none := ⟨exDisc_proper, by decide +kernel⟩

/-! ## C34 -/

/-- `find_uncovered_path` with distinct end points and neighbours: a path that is returned is an uncovered path whose
interior edges satisfy the edge condition; if it returns `None`, there is none. The end edges `x - nx` and `ny - y` are
the caller's. -/
theorem C34_uncovered_path (o : SetOrder α) {G : MG α} (hG : G.Proper) {cond : α → α → Py Bool} {C : α → α → Prop}
    (hcond : ∀ u v, u ≠ v → ∃ b, cond u v = .ok b ∧ (b = true ↔ C u v)) (hC : ∀ u v, C u v → G.MAdj u v) {x y nx ny : α}
    (hd : [x, y, nx, ny].Nodup) (en : Finset α) :
    ∃ r, G.findUncoveredPath o x y nx ny en cond = .ok r ∧ (∀ p, r = some p → G.UncovPath C en x y nx ny p) ∧
      (r = none → ∀ p, ¬ G.UncovPath C en x y nx ny p) :=
  findUncoveredPath_spec o hG hcond hC hd en

/-- When the two neighbours are the same node, the path of this node is returned without any test: also when `x` and `y`
are adjacent, so that the path is not uncovered. -/
theorem C34_same_node (o : SetOrder α) (G : MG α) (cond : α → α → Py Bool) (x y nx : α) (en : Finset α) :
    G.findUncoveredPath o x y nx nx en cond = .ok (some [nx]) :=
  findUncoveredPath_same o G cond x y nx en

example : exDisc.Proper ∧ [4, 1, 5, 0].Nodup ∧
    exDisc.findUncoveredPath ascending 4 1 5 0 exDisc.nodes (fun u v => exDisc.isConnected u v) = .ok (some [5, 3, 0]) ∧
    exDisc.findUncoveredPath ascending 4 1 5 2 exDisc.nodes (fun u v => exDisc.isConnected u v) = .ok (some [5, 2]) ∧
    exDisc.findUncoveredPath ascending 4 1 5 0 ∅ (fun u v => exDisc.isConnected u v) = .ok none ∧
    exDisc.findUncoveredPath ascending 3 1 5 2 exDisc.nodes (fun u v => exDisc.isConnected u v) = .ok none :=
  ⟨exDisc_proper, by decide, by decide +kernel⟩

/-! ## C58 -/

/-- Edge visibility, Definition 8 of Zhang (JMLR 2008), as documented at `partial_ancestral_graph.py:248-262`: `a --> b`,
and there is a node `c` not adjacent to `b` with an edge into `a`, or a discriminating path into `a` whose nodes between
the far end point and `a` are parents of `b` and whose last one is a spouse of `a`. -/
def MG.Visible (G : MG α) (a b : α) : Prop :=
  G.Par a b ∧ ((∃ c, ¬ G.MAdj b c ∧ c ≠ b ∧ G.At c a .arrow) ∨ ∃ d e l, G.Bidir a d ∧ G.Par d b ∧ G.DiscPath d a b e l)

theorem C58_edge_visible (o : SetOrder α) {G : MG α} (hG : G.Proper) (a b : α) :
    ∃ v, G.testEdgeVisible o a b = .ok v ∧ (v = true ↔ G.Visible a b) := testEdgeVisible_spec o hG a b

/-- `find_visible_edges` stores exactly the visible edges. -/
theorem C58_visible_edges (o : SetOrder α) {G : MG α} (hG : G.Proper) :
    ∃ E, G.findVisibleEdges o = .ok E ∧ ∀ a b, (a, b) ∈ E ↔ G.Visible a b := by
  have inner : ∀ (c : α) (L : List α) (E : Finset (α × α)),
      ∃ E', L.foldlM (fun (E : Finset (α × α)) p => do
        if ← G.testEdgeVisible o p c then return insert (p, c) E else return E) E = .ok E' ∧
        ∀ a b, (a, b) ∈ E' ↔ (a, b) ∈ E ∨ b = c ∧ a ∈ L ∧ G.Visible a b := by
    intro c L
    induction L with
    | nil => intro E; exact ⟨E, rfl, by simp⟩
    | cons p L ih =>
      intro E
      obtain ⟨v, hv, hv'⟩ := C58_edge_visible o hG p c
      obtain ⟨E', h1, h2⟩ := ih (if v = true then insert (p, c) E else E)
      refine ⟨E', ?_, fun a b => ?_⟩
      · rw [List.foldlM_cons, py_bind hv]
        split_ifs at h1 ⊢ <;> exact h1
      · rw [h2]
        split_ifs with hv''
        · simp only [Finset.mem_insert, Prod.mk.injEq, List.mem_cons]
          constructor
          · rintro ((⟨rfl, rfl⟩ | h) | ⟨h, h', h''⟩)
            · exact Or.inr ⟨rfl, Or.inl rfl, hv'.1 hv''⟩
            · exact Or.inl h
            · exact Or.inr ⟨h, Or.inr h', h''⟩
          · rintro (h | ⟨rfl, rfl | h, h'⟩)
            · exact Or.inl (Or.inr h)
            · exact Or.inl (Or.inl ⟨rfl, rfl⟩)
            · exact Or.inr ⟨rfl, h, h'⟩
        · simp only [List.mem_cons]
          constructor
          · rintro (h | ⟨h, h', h''⟩)
            · exact Or.inl h
            · exact Or.inr ⟨h, Or.inr h', h''⟩
          · rintro (h | ⟨rfl, rfl | h, h'⟩)
            · exact Or.inl h
            · exact absurd (hv'.2 h') hv''
            · exact Or.inr ⟨rfl, h, h'⟩
  have outer : ∀ (L : List α) (E : Finset (α × α)),
      ∃ E', L.foldlM (fun E c => (o.iter c (G.g c .arrow)).foldlM (fun (E : Finset (α × α)) p => do
        if ← G.testEdgeVisible o p c then return insert (p, c) E else return E) E) E = .ok E' ∧
        ∀ a b, (a, b) ∈ E' ↔ (a, b) ∈ E ∨ b ∈ L ∧ G.Visible a b := by
    intro L
    induction L with
    | nil => intro E; exact ⟨E, rfl, by simp⟩
    | cons c L ih =>
      intro E
      obtain ⟨E1, h1, h2⟩ := inner c (o.iter c (G.g c .arrow)) E
      obtain ⟨E2, k1, k2⟩ := ih E1
      refine ⟨E2, by rw [List.foldlM_cons, py_bind h1]; exact k1, fun a b => ?_⟩
      rw [k2, h2, o.mem, List.mem_cons]
      constructor
      · rintro ((h | ⟨h, h', h''⟩) | ⟨h, h'⟩)
        · exact Or.inl h
        · exact Or.inr ⟨Or.inl h, h''⟩
        · exact Or.inr ⟨Or.inr h, h'⟩
      · rintro (h | ⟨rfl | h, h'⟩)
        · exact Or.inl (Or.inl h)
        · exact Or.inl (Or.inr ⟨rfl, h'.1.1, h'⟩)
        · exact Or.inr ⟨h, h'⟩
  obtain ⟨E, h1, h2⟩ := outer (o.iter () G.nodes) ∅
  refine ⟨E, h1, fun a b => ?_⟩
  rw [h2, o.mem]
  simp only [Finset.notMem_empty, false_or]
  exact ⟨And.right, fun h => ⟨(hG.mem _ _ _ h.1.1).2, h⟩⟩

example : exDisc.Proper ∧ exMag.Proper ∧ (exDisc.findVisibleEdges ascending).map (fun E => [(0, 2), (3, 2), (5, 2), (4, 5)].map (fun e => decide (e ∈ E))) =
      .ok [true, true, true, false] ∧
    (exMag.findVisibleEdges descending).map (fun E => [(0, 4), (6, 1), (1, 2), (1, 4)].map (fun e => decide (e ∈ E))) =
      .ok [true, false, true, true] := ⟨exDisc_proper, exMag_proper, by decide +kernel⟩

end

section
variable {α : Type} [LinearOrder α]

/-! ## C31 -/

/-- `maximally_orient_pattern` with any list of rules from 1 to 10 terminates without error (if rule 4 is selected, the
separating sets must be defined); the nodes, types and adjacencies stay, no circle is created, and at the end no selected
rule finds its pattern or reports a change. -/
theorem C31_orientation (o : SetOrder α) (sep : SepSet α) {rules : List Nat} (hrules : ∀ idx ∈ rules, idx ∈ allPagRules)
    {G : MG α} (hG : G.Proper) (hT : ∀ m, m ∈ G.types)
    (hsep : 4 ∈ rules → ∀ i ∈ G.nodes, ∀ j ∈ G.nodes, i ≠ j → ∃ S, sep.get i j = .ok S) :
    ∃ H, pagMaxOrient o sep rules G = .ok H ∧ Oriented H G ∧
      ∀ idx ∈ rules, pagRule o sep idx H = .ok (H, false) ∧ ¬ H.PagPattern idx := by
  obtain ⟨H, h1, h2, _, h3⟩ := pagMaxOrient_spec o sep hrules hG hT hsep
  exact ⟨H, h1, h2, h3⟩

/-- An unknown rule index is a KeyError (if it is the first one). -/
theorem C31_unknown_rule (o : SetOrder α) (sep : SepSet α) (G : MG α) {idx : Nat} (h : idx ∉ allPagRules) (rules : List Nat) :
    pagMaxOrient o sep (idx :: rules) G = .error .keyError := by
  have : pagRule o sep idx G = .error .keyError := by
    unfold pagRule
    split <;> first | rfl | exact absurd (by decide) h
  simp only [pagMaxOrient, pagOrientLoop, pagRound, List.foldlM_cons, this]
  rfl

theorem exSep_defined : ∀ i ∈ exPag.nodes, ∀ j ∈ exPag.nodes, i ≠ j → ∃ S, exSep.get i j = .ok S := by
  have : ∀ i ∈ exPag.nodes, ∀ j ∈ exPag.nodes, i ≠ j → (exSep.get i j).toOption.isSome = true := by decide +kernel
  intro i hi j hj hij
  have := this i hi j hj hij
  cases h : exSep.get i j with
  | ok S => exact ⟨S, rfl⟩
  | error e => rw [h] at this; simp [Except.toOption] at this

/-- The tails that are in the second graph and not in the first (for examples). -/
def newTails (G : MG Nat) (r : Py (MG Nat)) : Py (List (Nat × Nat)) :=
  r.map fun H => (ascending.iter () H.nodes).flatMap fun v => (ascending.iter () (H.g v .tail \ G.g v .tail)).map fun u => (u, v)

example : exPag.Proper ∧ (∀ m, m ∈ exPag.types) ∧
    (∀ i ∈ exPag.nodes, ∀ j ∈ exPag.nodes, i ≠ j → ∃ S, exSep.get i j = .ok S) ∧
    newTails exPag (pagMaxOrient ascending exSep allPagRules exPag) = .ok [(2, 0), (2, 1), (4, 1), (2, 3), (5, 3)] :=
  ⟨exPag_proper, exPag_types, exSep_defined, by decide +kernel⟩

/-! ## C32 -/

/-- The rules 1 to 9 are sound: if the PAG is compatible with an ancestral graph `M`, and (for rule 4) the separating sets
are m-separating in `M`, then every tail and arrowhead of the result is in `M`. -/
theorem C32_sound (o : SetOrder α) (sep : SepSet α) {rules : List Nat} (hrules : ∀ idx ∈ rules, 1 ≤ idx ∧ idx ≤ 9)
    {G M : MG α} (hG : G.Proper) (hT : ∀ m, m ∈ G.types)
    (hsep : 4 ∈ rules → ∀ i ∈ G.nodes, ∀ j ∈ G.nodes, i ≠ j → ∃ S, sep.get i j = .ok S)
    (hM : Ancestral M) (hC : Compatible G M) (hS : 4 ∈ rules → SepIn sep.get M) :
    ∃ H, pagMaxOrient o sep rules G = .ok H ∧ Compatible H M := by
  obtain ⟨H, h1, _, h2, _⟩ := pagMaxOrient_spec o sep (rules := rules) (fun idx h => by
    have := hrules idx h
    simp only [allPagRules, List.mem_cons, List.not_mem_nil, or_false]
    omega) hG hT hsep
  exact ⟨H, h1, pagSteps_sound hG hT hM hC hS (fun h => absurd (hrules 10 h) (by omega)) h2⟩

example : exPag.Proper ∧ Ancestral exMag ∧ Compatible exPag exMag ∧ SepIn exSep.get exMag ∧
    newTails exPag (pagMaxOrient descending exSep [1, 2, 3, 4, 5, 6, 7, 8, 9] exPag) = .ok [(2, 1), (4, 1), (2, 3), (5, 3)] :=
  ⟨exPag_proper, exMag_ancestral, exPag_compatible, exSep_in, by decide +kernel⟩

/-! ## C35 -/

/-- Rule 10 as coded orients exactly one edge, where its coded condition holds; it does nothing iff there is no such
edge. -/
theorem C35_rule10_coded (o : SetOrder α) {G : MG α} (hG : G.Proper) (hT : ∀ m, m ∈ G.types) :
    ∃ st, pagRule10 o G = .ok st ∧
      (st.2 = false → st.1 = G ∧ ∀ a c, G.At c a .circle → G.At a c .arrow → ¬ G.Rule10Coded a c) ∧
      (st.2 = true → ∃ a c, G.At c a .circle ∧ G.At a c .arrow ∧ G.Rule10Coded a c ∧
        Upd G st.1 (fun u v m => u = c ∧ v = a ∧ m = .tail)) := by
  obtain ⟨r, h1, h2, h3⟩ := pagRule10Find_spec o hG hT
  cases r with
  | none =>
    refine ⟨(G, false), by unfold pagRule10 orientFound; rw [py_bind h1]; rfl, fun _ => ⟨rfl, fun a c k1 k2 k3 => ?_⟩, by simp⟩
    obtain ⟨b, d, e, f, p, q, k⟩ := k3
    exact h3 rfl ⟨a, b, c, d, e, f, p, q, k1, k2, k⟩
  | some ac =>
    obtain ⟨a, c⟩ := ac
    obtain ⟨k1, k2, k3⟩ := h2 _ rfl
    obtain ⟨H, e1, e2⟩ := replace_upd hG hT c a .tail
    exact ⟨(H, true), by unfold pagRule10 orientFound; rw [py_bind h1]; simp only; rw [py_bind e1]; rfl, by simp,
      fun _ => ⟨a, c, k1, k2, k3, e2⟩⟩

/-- Full statement: rule 10 is sound (as `C32_sound`). Proved here when, in every graph that can occur, the condition as
coded implies the documented one; without this hypothesis it is false, see `C35_rule10_unsound`. -/
theorem C35_rule10_partial (o : SetOrder α) (sep : SepSet α) {rules : List Nat} (hrules : ∀ idx ∈ rules, idx ∈ allPagRules)
    {G M : MG α} (hG : G.Proper) (hT : ∀ m, m ∈ G.types)
    (hsep : 4 ∈ rules → ∀ i ∈ G.nodes, ∀ j ∈ G.nodes, i ≠ j → ∃ S, sep.get i j = .ok S)
    (hM : Ancestral M) (hC : Compatible G M) (hS : 4 ∈ rules → SepIn sep.get M)
    (h10 : ∀ K, Oriented K G → Compatible K M → ∀ a c, K.At c a .circle → K.At a c .arrow → K.Rule10Coded a c →
      K.Rule10Documented a c) :
    ∃ H, pagMaxOrient o sep rules G = .ok H ∧ Compatible H M := by
  obtain ⟨H, h1, _, h2, _⟩ := pagMaxOrient_spec o sep hrules hG hT hsep
  exact ⟨H, h1, pagSteps_sound hG hT hM hC hS (fun _ => h10) h2⟩

/-- The disagreement: `exMag` is an ancestral graph with edges `-->` and `<->` only, `exPag` is its pattern, `exSep`
has separating sets for all its non-adjacent pairs. The rules 1 to 9 keep `0 o-> 2`; the condition of rule 10 as documented
does not hold for it, but rule 10 orients `0 --> 2`, whereas the edge is `0 <-> 2` in `exMag`. -/
theorem C35_rule10_unsound : Ancestral exMag ∧ exMag.DirectedMixed ∧ exPag.Proper ∧ Compatible exPag exMag ∧
    SepIn exSep.get exMag ∧
    (∃ K, pagMaxOrient ascending exSep [1, 2, 3, 4, 5, 6, 7, 8, 9] exPag = .ok K ∧ Compatible K exMag ∧
      K.At 2 0 .circle ∧ K.At 0 2 .arrow ∧ ¬ K.Rule10Documented 0 2 ∧
      ∃ H, pagRule10 ascending K = .ok (H, true) ∧ H.At 2 0 .tail ∧ exMag.At 2 0 .arrow) ∧
    ∃ H, pagMaxOrient ascending exSep allPagRules exPag = .ok H ∧ ¬ Compatible H exMag := by
  refine ⟨exMag_ancestral, exMag_directed, exPag_proper, exPag_compatible, exSep_in, ?_, ?_⟩
  · obtain ⟨K, h1, h2⟩ := C32_sound ascending exSep (rules := [1, 2, 3, 4, 5, 6, 7, 8, 9]) (by decide) exPag_proper exPag_types
      (fun _ => exSep_defined) exMag_ancestral exPag_compatible (fun _ => exSep_in)
    have e : (pagMaxOrient ascending exSep [1, 2, 3, 4, 5, 6, 7, 8, 9] exPag).bind (fun K => do
        let st ← pagRule10 ascending K
        return (decide (2 ∈ K.g 0 .circle), decide (0 ∈ K.g 2 .arrow), decide (2 ∈ st.1.g 0 .tail), st.2)) =
        .ok (true, true, true, true) := by decide +kernel
    rw [h1] at e
    simp only [Except.bind] at e
    cases hr : pagRule10 ascending K with
    | error err => rw [hr] at e; cases e
    | ok st =>
      rw [hr] at e
      simp only [bind, Except.bind, pure, Except.pure, Except.ok.injEq, Prod.mk.injEq, decide_eq_true_eq] at e
      have harr : exMag.At 2 0 .arrow := by
        show 2 ∈ exMag.g 0 .arrow
        decide
      refine ⟨K, h1, h2, e.1, e.2.1, fun h => ?_, st.1, by rw [← e.2.2.2]; exact hr, e.2.2.1, harr⟩
      exact absurd (exMag_proper.one _ _ _ _ harr (sound_r10 exMag_ancestral h2 (Or.inl ⟨_, e.1⟩) h)) (by simp)
  · obtain ⟨H, h1, _⟩ := C31_orientation ascending exSep (rules := allPagRules) (fun _ h => h) exPag_proper exPag_types
      (fun _ => exSep_defined)
    have e : (pagMaxOrient ascending exSep allPagRules exPag).map (fun H => decide (2 ∈ H.g 0 .tail)) = .ok true := by
      decide +kernel
    rw [h1] at e
    simp only [Except.map, Except.ok.injEq, decide_eq_true_eq] at e
    refine ⟨H, h1, fun h => ?_⟩
    have h2 := h.tail _ _ e
    revert h2
    show ¬ 2 ∈ exMag.g 0 .tail
    decide

end
end Verif
