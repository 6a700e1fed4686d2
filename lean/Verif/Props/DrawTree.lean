import Verif.Lemmas.DrawTree
import Verif.Props.Mixed

/-!
# C79: drawings of possible-d-sep trees
-/

namespace Verif
open Draw
variable {α : Type} [DecidableEq α]

namespace Draw

theorem nodup_map_of {β γ : Type} {f : β → γ} : ∀ {l : List β}, l.Nodup → (∀ x ∈ l, ∀ y ∈ l, f x = f y → x = y) → (l.map f).Nodup := by
  intro l hn h
  exact hn.map_on h

theorem polar_half {θ : ℝ} (h1 : 0 < θ) (h2 : θ < 180) (d : Nat) : 0 ≤ (polar θ d).2 := by
  unfold polar
  simp only
  have hpi := Real.pi_pos
  refine mul_nonneg (Real.sin_nonneg_of_nonneg_of_le_pi (by positivity) ?_) (by positivity)
  rw [div_le_iff₀ (by norm_num)]
  nlinarith

theorem coord_le {p : Vec} {d D : Nat} (h : sqDist (0, 0) p = (d : ℝ) ^ 2) (hd : d ≤ D) :
    -(D : ℝ) ≤ p.1 ∧ p.1 ≤ D ∧ -(D : ℝ) ≤ p.2 ∧ p.2 ≤ D := by
  unfold sqDist at h
  simp only at h
  have h1 : p.1 ^ 2 + p.2 ^ 2 = (d : ℝ) ^ 2 := by rw [← h]; ring
  have hD : (d : ℝ) ≤ D := by exact_mod_cast hd
  have hd0 : (0 : ℝ) ≤ d := by positivity
  have a1 : |p.1| ≤ D := le_trans (abs_le_of_sq_le_sq (by nlinarith [sq_nonneg p.2]) hd0) hD
  have a2 : |p.2| ≤ D := le_trans (abs_le_of_sq_le_sq (by nlinarith [sq_nonneg p.1]) hd0) hD
  exact ⟨(abs_le.mp a1).1, (abs_le.mp a1).2, (abs_le.mp a2).1, (abs_le.mp a2).2⟩

end Draw

/-- C79, shape of the drawing: with a PAG, `draw_pds_tree` succeeds for every tree with drawable labels. All nodes are drawn (the same
variable once per occurrence), at different places, at the distance from the centre that they have from the root of the tree,
inside of the canvas (in the upper half unless `circ_plot`). The edges join each node with its children. -/
theorem C79_shape {opts : TreeOpts α} {G : MG α} (hG : opts.pag = some G) (marked : Finset α) (bk : String) (circ : Bool) {t : PdsTree α}
    (hl : ∀ x ∈ treeNodes t 0, (opts.label x.1).getD (opts.own x.1) ≠ .other) :
    ∃ fig, drawPdsTree opts marked bk circ t = .ok fig ∧ fig.nodes.map Prod.fst = (treeNodes t 0).map Prod.fst ∧
      fig.nodes.map (fun x => sqDist (0, 0) x.2.center) = (treeNodes t 0).map (fun x => (x.2 : ℝ) ^ 2) ∧
      (fig.nodes.map (fun x => x.2.center)).Nodup ∧
      (∀ x ∈ fig.nodes, x.2.radius = opts.radius ∧ x.2.label = (opts.label x.1).getD (opts.own x.1) ∧ x.2.contour = .circle) ∧
      (∀ x ∈ fig.nodes, -canvasRadius opts t ≤ x.2.center.1 - opts.radius ∧ x.2.center.1 + opts.radius ≤ canvasRadius opts t ∧
        x.2.center.2 + opts.radius ≤ canvasRadius opts t ∧
        (if circ then -canvasRadius opts t else -opts.radius) ≤ x.2.center.2 - opts.radius) ∧
      fig.edges.map Prod.fst = treeEdges t ∧
      ∀ x ∈ fig.edges, ∃ a b, (x.1.1, a) ∈ fig.nodes ∧ (x.1.2, b) ∈ fig.nodes ∧ x.2.Joins opts.radius a.center b.center ∧
        ∃ d : Nat, sqDist (0, 0) a.center = (d : ℝ) ^ 2 ∧ sqDist (0, 0) b.center = ((d : ℝ) + 1) ^ 2 := by
  obtain ⟨fig, f1, f2, f3, f4, f5, f6, f7, -⟩ := drawBranch_spec hG marked bk t hl (0, 0) 0 (if circ then 360 else 180) 0
    (by simp [sqDist])
  have hab : (0 : ℝ) < (if circ then 360 else 180) := by split <;> norm_num
  obtain ⟨s1, s2⟩ := spots_in t hab 1
  have h360 : (if circ then (360 : ℝ) else 180) ≤ 360 := by split <;> norm_num
  have hdepth : (treeNodes t 0).map Prod.snd = 0 :: (spots t 0 (if circ then 360 else 180) 1).map Prod.fst := by
    rw [spots_depth]
    cases t with
    | node v k cs => rw [treeNodes]; rfl
  have hnode : ∀ x ∈ fig.nodes, ∃ d : Nat, d + 1 ≤ t.maxDepth ∧ sqDist (0, 0) x.2.center = (d : ℝ) ^ 2 ∧
      (circ = false → 0 ≤ x.2.center.2) := by
    intro x hx
    have hm : x.2.center ∈ fig.nodes.map (fun x => x.2.center) := List.mem_map_of_mem hx
    rw [f3, List.mem_cons] at hm
    rcases hm with hm | hm
    · refine ⟨0, ?_, by rw [hm]; simp [sqDist], fun _ => by rw [hm]⟩
      cases t with
      | node v k cs =>
        have := (treeNodes_le (.node v k cs) 0 (v, 0) (by rw [treeNodes]; simp)).2
        simpa using this
    · obtain ⟨s, hs, hse⟩ := List.mem_map.mp hm
      have hd : s.1 ∈ (treeNodes t 0).map Prod.snd := by rw [hdepth]; simp only [List.mem_cons]; exact Or.inr (List.mem_map_of_mem hs)
      obtain ⟨y, hy, hys⟩ := List.mem_map.mp hd
      have hle := (treeNodes_le t 0 y hy).2
      rw [hys] at hle
      refine ⟨s.1, by omega, by rw [← hse]; exact polar_dist _ _, fun hc => ?_⟩
      obtain ⟨-, h2, h3⟩ := s1 s hs
      subst hc
      rw [← hse]
      exact polar_half h2 (by simpa using h3) _
  refine ⟨fig, f1, f2, ?_, ?_, fun x hx => ⟨(f4 x hx).1, (f4 x hx).2.1, (f4 x hx).2.2.1⟩, ?_, f5, f7⟩
  · have e1 : fig.nodes.map (fun x => sqDist (0, 0) x.2.center) = (fig.nodes.map (fun x => x.2.center)).map (sqDist (0, 0)) := by
      rw [List.map_map]; rfl
    have e2 : (treeNodes t 0).map (fun x => (x.2 : ℝ) ^ 2) = ((treeNodes t 0).map Prod.snd).map (fun d : Nat => (d : ℝ) ^ 2) := by
      rw [List.map_map]; rfl
    rw [e1, e2, f3, hdepth, List.map_cons, List.map_cons, List.map_map, List.map_map]
    congr 1
    · simp [sqDist]
    · refine List.map_congr_left (fun s _ => ?_)
      exact polar_dist _ _
  · rw [f3, List.nodup_cons]
    refine ⟨?_, nodup_map_of s2 ?_⟩
    · intro h
      obtain ⟨s, hs, hse⟩ := List.mem_map.mp h
      have := polar_dist s.2 s.1
      rw [hse] at this
      have h1 := (s1 s hs).1
      have h2 : (1 : ℝ) ≤ s.1 := by exact_mod_cast h1
      simp only [sqDist, sub_zero] at this
      nlinarith
    · intro x hx y hy hxy
      obtain ⟨x1, x2, x3⟩ := s1 x hx
      obtain ⟨y1, y2, y3⟩ := s1 y hy
      have := polar_inj (by omega) x2 (by linarith) y2 (by linarith) hxy
      exact Prod.ext this.1 this.2
  · intro x hx
    obtain ⟨d, h1, h2, h3⟩ := hnode x hx
    obtain ⟨c1, c2, c3, c4⟩ := coord_le h2 (D := t.maxDepth - 1) (by omega)
    have hc : ((t.maxDepth - 1 : ℕ) : ℝ) = (t.maxDepth : ℝ) - 1 := by
      rw [Nat.cast_sub (by omega)]; norm_num
    rw [hc] at c1 c2 c3 c4
    unfold canvasRadius
    refine ⟨by linarith, by linarith, by linarith, ?_⟩
    cases circ with
    | true => simp only [if_true]; linarith
    | false =>
      have := h3 rfl
      rw [if_neg (by simp)]
      linarith

/-- C79 fails for the marks: every edge is drawn with its two marks interchanged: the mark at the child is drawn at the
parent, the mark at the parent is drawn at the child. -/
theorem C79_marks_swapped {opts : TreeOpts α} {G : MG α} (hG : opts.pag = some G) (hP : G.Proper) {marked : Finset α} {bk : String}
    {circ : Bool} {t : PdsTree α} (hl : ∀ x ∈ treeNodes t 0, (opts.label x.1).getD (opts.own x.1) ≠ .other)
    (hadj : ∀ e ∈ treeEdges t, G.MAdj e.1 e.2) {fig : TreeFigure α} (h : drawPdsTree opts marked bk circ t = .ok fig) :
    ∀ x ∈ fig.edges, G.At x.1.1 x.1.2 x.2.markStart ∧ G.At x.1.2 x.1.1 x.2.markEnd ∧ x.2.Clear ∧
      (opts.lineColor = "auto" → x.2.color = colorOf x.2.markEnd x.2.markStart) := by
  obtain ⟨fig', f1, f2, f3, f4, f5, f6, f7, -⟩ := drawBranch_spec hG marked bk t hl (0, 0) 0 (if circ then 360 else 180) 0
    (by simp [sqDist])
  have : fig' = fig := Except.ok.inj (f1.symm.trans h)
  subst this
  intro x hx
  obtain ⟨e1, e2, e3, e4, -⟩ := f6 x hx
  have hm : x.1 ∈ treeEdges t := by rw [← f5]; exact List.mem_map_of_mem hx
  obtain ⟨m, hm0⟩ := hP.adj_iff.mp (hadj _ hm)
  obtain ⟨m', hm1⟩ := hP.adj_iff.mp (hadj _ hm).symm
  rw [(MG.getEdgeMark_spec hP).mpr hm0, (MG.getEdgeMark_spec hP).mpr hm1] at e1 e2
  rw [(MG.getEdgeMark_spec hP).mpr hm0] at e3
  rw [(MG.getEdgeMark_spec hP).mpr hm1] at e4
  obtain ⟨s1, s2, s3⟩ := shape_marks e1 e3 e4
  refine ⟨by rw [s1]; exact hm0, by rw [s2]; exact hm1, s3, fun hc => ?_⟩
  rw [e2, s1, s2, color_marks]
  · cases m <;> cases m' <;> rfl
  · rw [hc, ← String.toList_inj]; simp [String.toLower]

/-- C79 for the marks: an edge is drawn right exactly if it has the same mark at both ends. -/
theorem C79_marks_partial {opts : TreeOpts α} {G : MG α} (hG : opts.pag = some G) (hP : G.Proper) {marked : Finset α} {bk : String}
    {circ : Bool} {t : PdsTree α} (hl : ∀ x ∈ treeNodes t 0, (opts.label x.1).getD (opts.own x.1) ≠ .other)
    (hadj : ∀ e ∈ treeEdges t, G.MAdj e.1 e.2) {fig : TreeFigure α} (h : drawPdsTree opts marked bk circ t = .ok fig) :
    ∀ x ∈ fig.edges, (G.At x.1.2 x.1.1 x.2.markStart ∧ G.At x.1.1 x.1.2 x.2.markEnd) ↔ ∃ m, G.At x.1.1 x.1.2 m ∧ G.At x.1.2 x.1.1 m := by
  intro x hx
  obtain ⟨h1, h2, -⟩ := C79_marks_swapped hG hP hl hadj h x hx
  constructor
  · rintro ⟨h3, -⟩
    exact ⟨_, h1, h3⟩
  · rintro ⟨m, h3, h4⟩
    rw [hP.one _ _ _ _ h1 h3, hP.one _ _ _ _ h2 h4]
    exact ⟨h4, h3⟩

/-- C79 fails for the marking of nodes: the parameters `marked_nodes` and `bkcolor` have no effect. -/
theorem C79_marked_ignored (opts : TreeOpts α) (marked marked' : Finset α) (bk bk' : String) (circ : Bool) (t : PdsTree α) :
    drawPdsTree opts marked bk circ t = drawPdsTree opts marked' bk' circ t := by
  have key : ∀ (t : PdsTree α) (pos : Vec) (a b : ℝ) (depth : Nat),
      drawBranch opts marked bk t pos a b depth = drawBranch opts marked' bk' t pos a b depth := by
    intro t
    induction t using PdsTree.rec (motive_2 := fun cs => ∀ (v : α) (pos : Vec) (a b : ℝ) (depth n i : Nat),
      drawChildren opts marked bk cs v pos a b depth n i = drawChildren opts marked' bk' cs v pos a b depth n i) with
    | node v k cs ih =>
      intro pos a b depth
      rw [drawBranch, drawBranch, ih]
      rfl
    | nil => rw [drawChildren, drawChildren]
    | cons c cs ih1 ih2 =>
      rw [drawChildren, drawChildren]
      simp only [ih1, ih2]
  exact key _ _ _ _ _

/-- C79 fails without a PAG: although `pag=None` is the default, a tree with children ends with an AttributeError. -/
theorem C79_pag_needed {opts : TreeOpts α} (hG : opts.pag = none) (marked : Finset α) (bk : String) (circ : Bool) {v : α} {k : Nat}
    {c : PdsTree α} {cs : List (PdsTree α)} (hl : (opts.label v).getD (opts.own v) ≠ .other) :
    drawPdsTree opts marked bk circ (.node v k (c :: cs)) = .error .attributeError := by
  obtain ⟨s, s1, -⟩ := drawTreeNode_spec (v := v) hl marked bk (0, 0)
  unfold drawPdsTree
  rw [drawBranch, py_bind s1, drawChildren, hG]
  rfl

/-- The tree with root 1, children 0 and 2 of 1, and child 3 of 2. -/
def exPlotTree : PdsTree Nat := .node 1 0 [.node 0 1 [], .node 2 1 [.node 3 2 []]]

/-- Drawing options for `exM`. -/
noncomputable def exTreeOpts : TreeOpts Nat := ⟨some exM, fun _ => none, fun _ => .text "n", 1 / 4, "blue", "auto"⟩

theorem exTree_labels : ∀ x ∈ treeNodes exPlotTree 0, (exTreeOpts.label x.1).getD (exTreeOpts.own x.1) ≠ .other := by
  intro x _; simp [exTreeOpts]

theorem exTree_adj : ∀ e ∈ treeEdges exPlotTree, exM.MAdj e.1 e.2 := by
  intro e he
  simp only [exPlotTree, treeEdges, treeEdgesL, PdsTree.origin] at he
  simp at he
  rcases he with rfl | rfl | rfl 
  · exact Or.inl ⟨.circle, by decide⟩
  · exact Or.inl ⟨.arrow, by decide⟩
  · exact Or.inl ⟨.tail, by decide⟩

/-- The negation of C79, first witness: the edge 0 o→ 1 is drawn as 0 ←o 1. -/
theorem C79_wrong_arrow : ∃ fig e, drawPdsTree exTreeOpts ∅ "black" false exPlotTree = .ok fig ∧ ((1, 0), e) ∈ fig.edges ∧
    exM.At 0 1 .arrow ∧ exM.At 1 0 .circle ∧ e.markStart = .circle ∧ e.markEnd = .arrow := by
  obtain ⟨fig, f1, -, -, -, -, -, f5, -⟩ := C79_shape (opts := exTreeOpts) (G := exM) rfl ∅ "black" false exTree_labels
  have hm : (1, 0) ∈ fig.edges.map Prod.fst := by rw [f5]; simp [exPlotTree, treeEdges, treeEdgesL, PdsTree.origin]
  obtain ⟨⟨-, e⟩, he, rfl⟩ := List.mem_map.mp hm
  obtain ⟨h1, h2, -⟩ := C79_marks_swapped (opts := exTreeOpts) rfl exM_proper exTree_labels exTree_adj f1 _ he
  have g1 : exM.At 0 1 .arrow := by decide
  have g2 : exM.At 1 0 .circle := by decide
  exact ⟨fig, e, f1, he, g1, g2, exM_proper.one _ _ _ _ h1 g2, exM_proper.one _ _ _ _ h2 g1⟩

example := C79_shape (opts := exTreeOpts) (G := exM) rfl {1} "black" true exTree_labels
example : ∃ fig, drawPdsTree exTreeOpts ∅ "black" false exPlotTree = .ok fig ∧ ∀ x ∈ fig.edges,
    (exM.At x.1.2 x.1.1 x.2.markStart ∧ exM.At x.1.1 x.1.2 x.2.markEnd) ↔ ∃ m, exM.At x.1.1 x.1.2 m ∧ exM.At x.1.2 x.1.1 m := by
  obtain ⟨fig, f1, -⟩ := C79_shape (opts := exTreeOpts) (G := exM) rfl ∅ "black" false exTree_labels
  exact ⟨fig, f1, C79_marks_partial (opts := exTreeOpts) rfl exM_proper exTree_labels exTree_adj f1⟩
example := C79_marked_ignored exTreeOpts ∅ {0, 1} "black" "red" false exPlotTree
example := C79_pag_needed (opts := { exTreeOpts with pag := none }) rfl ∅ "black" false (v := 0) (k := 0) (c := .node 1 1 []) (cs := [])
  (by simp [exTreeOpts])

end Verif
