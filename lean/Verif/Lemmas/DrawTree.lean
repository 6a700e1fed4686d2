import Verif.Spec.DrawTree
import Verif.Lemmas.Draw

/-!
# Lemmas about the drawing of trees
-/

namespace Verif
namespace Draw
variable {α : Type}

mutual
/-- Distance and angle of all nodes below the root of a branch. -/
noncomputable def spots : PdsTree α → ℝ → ℝ → Nat → List (Nat × ℝ)
  | .node _ _ cs, a, b, depth => spotsL cs a b depth cs.length 0
/-- Distance and angle of the nodes in the branches from number `i` on. -/
noncomputable def spotsL : List (PdsTree α) → ℝ → ℝ → Nat → Nat → Nat → List (Nat × ℝ)
  | [], _, _, _, _, _ => []
  | c :: cs, a, b, depth, n, i => (depth, childAngle a b n i) :: spots c (sectorBorder a b n i) (sectorBorder a b n (i + 1)) (depth + 1) ++
      spotsL cs a b depth n (i + 1)
end

theorem border_lt {a b : ℝ} (h : a < b) {n i : Nat} (hn : 0 < n) :
    sectorBorder a b n i < childAngle a b n i ∧ childAngle a b n i < sectorBorder a b n (i + 1) := by
  have hn' : (0 : ℝ) < n := by exact_mod_cast hn
  have hb : 0 < b - a := by linarith
  unfold sectorBorder childAngle
  have e1 : (b - a) * (1 / (2 * (n : ℝ)) + (i : ℝ) / n) = (b - a) / (2 * n) + (i : ℝ) * (b - a) / n := by field_simp
  have e2 : ((i + 1 : ℕ) : ℝ) * (b - a) / n = (b - a) / (2 * n) + (b - a) / (2 * n) + (i : ℝ) * (b - a) / n := by
    push_cast; field_simp; ring
  have e3 : 0 < (b - a) / (2 * (n : ℝ)) := by positivity
  rw [e1, e2]
  constructor <;> linarith

theorem border_mono {a b : ℝ} (h : a < b) {n i : Nat} (hn : 0 < n) : sectorBorder a b n i < sectorBorder a b n (i + 1) :=
  (border_lt h hn).1.trans (border_lt h hn).2

theorem border_zero (a b : ℝ) (n : Nat) : sectorBorder a b n 0 = a := by simp [sectorBorder]

theorem border_last {a b : ℝ} {n : Nat} (hn : 0 < n) : sectorBorder a b n n = b := by
  have hn' : (n : ℝ) ≠ 0 := by exact_mod_cast hn.ne'
  unfold sectorBorder
  field_simp
  ring

mutual
/-- The nodes of a branch are strictly inside of its sector and at least as far out as its children. -/
theorem spots_in : ∀ (t : PdsTree α) {a b : ℝ} (_ : a < b) (depth : Nat),
    (∀ s ∈ spots t a b depth, depth ≤ s.1 ∧ a < s.2 ∧ s.2 < b) ∧ (spots t a b depth).Nodup
  | .node v d cs, a, b, hab, depth => by
    rw [spots]
    have h := spotsL_in cs hab depth cs.length 0 (by omega)
    rw [border_zero] at h
    exact h

/-- The same for a list of branches. -/
theorem spotsL_in : ∀ (cs : List (PdsTree α)) {a b : ℝ} (_ : a < b) (depth n i : Nat) (_ : i + cs.length = n),
    (∀ s ∈ spotsL cs a b depth n i, depth ≤ s.1 ∧ sectorBorder a b n i < s.2 ∧ s.2 < b) ∧ (spotsL cs a b depth n i).Nodup
  | [], _, _, _, _, _, _, _ => by simp [spotsL]
  | c :: cs, a, b, hab, depth, n, i, hn => by
    rw [List.length_cons] at hn
    have hn0 : 0 < n := by omega
    have hb := border_lt hab (i := i) hn0
    have hlast : sectorBorder a b n (i + 1) ≤ b := by
      have hl := border_last (a := a) (b := b) hn0
      have hn' : (0 : ℝ) < n := by exact_mod_cast hn0
      unfold sectorBorder at hl ⊢
      have : ((i + 1 : ℕ) : ℝ) ≤ n := by exact_mod_cast (by omega)
      have h2 : ((i + 1 : ℕ) : ℝ) * (b - a) ≤ n * (b - a) := mul_le_mul_of_nonneg_right this (by linarith)
      have := div_le_div_of_nonneg_right h2 hn'.le
      linarith
    obtain ⟨c1, c2⟩ := spots_in c (border_mono hab (i := i) hn0) (depth + 1)
    obtain ⟨r1, r2⟩ := spotsL_in cs hab depth n (i + 1) (by omega)
    rw [spotsL]
    refine ⟨?_, ?_⟩
    · intro s hs
      rw [List.cons_append, List.mem_cons, List.mem_append] at hs
      rcases hs with rfl | hs | hs
      · exact ⟨le_refl _, hb.1, by linarith [hb.2]⟩
      · obtain ⟨h1, h2, h3⟩ := c1 s hs
        exact ⟨by omega, h2, by linarith⟩
      · obtain ⟨h1, h2, h3⟩ := r1 s hs
        exact ⟨h1, by linarith [border_mono hab (i := i) hn0], h3⟩
    · rw [List.cons_append, List.nodup_cons, List.nodup_append]
      refine ⟨?_, c2, r2, ?_⟩
      · rw [List.mem_append]
        rintro (h | h)
        · have := (c1 _ h).1; simp only at this; omega
        · have := (r1 _ h).2.1; simp only at this; linarith [hb.2]
      · rintro s hs s' hs' rfl
        have h1 := (c1 s hs).2.2
        have h2 := (r1 s hs').2.1
        linarith
end

mutual
/-- The distances are those of the tree. -/
theorem spots_depth : ∀ (t : PdsTree α) (a b : ℝ) (depth : Nat), (spots t a b depth).map Prod.fst = ((treeNodesL t.children depth).map Prod.snd)
  | .node v d cs, a, b, depth => by
    rw [spots]
    exact spotsL_depth cs a b depth cs.length 0
/-- The same for a list of branches. -/
theorem spotsL_depth : ∀ (cs : List (PdsTree α)) (a b : ℝ) (depth n i : Nat),
    (spotsL cs a b depth n i).map Prod.fst = (treeNodesL cs depth).map Prod.snd
  | [], _, _, _, _, _ => by simp [spotsL, treeNodesL]
  | c :: cs, a, b, depth, n, i => by
    have h1 := spots_depth c (sectorBorder a b n i) (sectorBorder a b n (i + 1)) (depth + 1)
    have h2 := spotsL_depth cs a b depth n (i + 1)
    rw [spotsL, treeNodesL, List.cons_append, List.map_cons, List.map_append, h1, h2, List.map_append]
    cases c with
    | node v d cs' => rw [treeNodes]; simp [PdsTree.children]
end

theorem maxDepthLoop_le : ∀ (cs : List (PdsTree α)) (m : Nat), m ≤ PdsTree.maxDepthLoop cs m ∧ ∀ c ∈ cs, c.maxDepth ≤ PdsTree.maxDepthLoop cs m := by
  intro cs
  induction cs with
  | nil => intro m; simp [PdsTree.maxDepthLoop]
  | cons c cs ih =>
    intro m
    rw [PdsTree.maxDepthLoop]
    obtain ⟨h1, h2⟩ := ih (if c.maxDepth > m then c.maxDepth else m)
    refine ⟨?_, ?_⟩
    · split at h1 <;> split <;> omega
    · intro c' hc'
      rcases List.mem_cons.mp hc' with rfl | hc'
      · split at h1 <;> split <;> omega
      · exact h2 c' hc'

mutual
/-- No node is further from the root than `get_max_depth() - 1`. -/
theorem treeNodes_le : ∀ (t : PdsTree α) (d : Nat), ∀ x ∈ treeNodes t d, d ≤ x.2 ∧ x.2 + 1 ≤ d + t.maxDepth
  | .node v k cs, d => by
    intro x hx
    rw [treeNodes, List.mem_cons] at hx
    rw [PdsTree.maxDepth]
    rcases hx with rfl | hx
    · split <;> simp
    · obtain ⟨c, hc, h1, h2⟩ := treeNodesL_le cs (d + 1) x hx
      have := (maxDepthLoop_le cs 1).2 c hc
      have hl : cs.length ≠ 0 := by have := List.length_pos_of_mem hc; omega
      rw [if_neg hl]
      omega
/-- The same for a list of branches. -/
theorem treeNodesL_le : ∀ (cs : List (PdsTree α)) (d : Nat), ∀ x ∈ treeNodesL cs d, ∃ c ∈ cs, d ≤ x.2 ∧ x.2 + 1 ≤ d + c.maxDepth
  | [], _ => by simp [treeNodesL]
  | c :: cs, d => by
    intro x hx
    rw [treeNodesL, List.mem_append] at hx
    rcases hx with hx | hx
    · exact ⟨c, by simp, treeNodes_le c d x hx⟩
    · obtain ⟨c', hc', h⟩ := treeNodesL_le cs d x hx
      exact ⟨c', by simp [hc'], h⟩
end

theorem polar_dist (θ : ℝ) (d : Nat) : sqDist (0, 0) (polar θ d) = (d : ℝ) ^ 2 := by
  unfold sqDist polar
  simp only
  have := Real.sin_sq_add_cos_sq (θ * Real.pi / 180)
  calc _ = (d : ℝ) ^ 2 * (Real.sin (θ * Real.pi / 180) ^ 2 + Real.cos (θ * Real.pi / 180) ^ 2) := by ring
    _ = _ := by rw [this, mul_one]

theorem polar_inj {θ φ : ℝ} {d e : Nat} (hd : 0 < d) (h1 : 0 < θ) (h2 : θ < 360) (h3 : 0 < φ) (h4 : φ < 360)
    (h : polar θ d = polar φ e) : d = e ∧ θ = φ := by
  have hde : d = e := by
    have := congrArg (sqDist (0, 0)) h
    rw [polar_dist, polar_dist] at this
    have h5 : (d : ℝ) = e := by
      have hd0 : (0 : ℝ) ≤ d := by positivity
      have he0 : (0 : ℝ) ≤ e := by positivity
      nlinarith [sq_nonneg ((d : ℝ) - e)]
    exact_mod_cast h5
  subst hde
  refine ⟨rfl, ?_⟩
  have hd' : (d : ℝ) ≠ 0 := by exact_mod_cast hd.ne'
  have hx := congrArg Prod.fst h
  have hy := congrArg Prod.snd h
  simp only [polar] at hx hy
  have hx := mul_right_cancel₀ hd' hx
  have hy := mul_right_cancel₀ hd' hy
  have hpi := Real.pi_pos
  have := angle_inj (a := θ * Real.pi / 180) (b := φ * Real.pi / 180) (by positivity) (by nlinarith) (by positivity) (by nlinarith) hx hy
  have h6 : θ * Real.pi = φ * Real.pi := by linarith
  exact mul_right_cancel₀ hpi.ne' h6

mutual
theorem treeNodes_map : ∀ (t : PdsTree α) (d e : Nat), (treeNodes t d).map Prod.fst = (treeNodes t e).map Prod.fst
  | .node v k cs, d, e => by rw [treeNodes, treeNodes, List.map_cons, List.map_cons, treeNodesL_map cs (d + 1) (e + 1)]
theorem treeNodesL_map : ∀ (cs : List (PdsTree α)) (d e : Nat), (treeNodesL cs d).map Prod.fst = (treeNodesL cs e).map Prod.fst
  | [], _, _ => by simp [treeNodesL]
  | c :: cs, d, e => by
    rw [treeNodesL, treeNodesL, List.map_append, List.map_append, treeNodes_map c d e, treeNodesL_map cs d e]
end

theorem treeNodesL_fst (cs : List (PdsTree α)) (d e : Nat) (x : α × Nat) (h : x ∈ treeNodesL cs d) : ∃ y ∈ treeNodesL cs e, y.1 = x.1 := by
  have : x.1 ∈ (treeNodesL cs d).map Prod.fst := List.mem_map_of_mem h
  rw [treeNodesL_map cs d e] at this
  exact List.mem_map.mp this

variable [DecidableEq α]

/-- What is drawn for an edge of the tree. -/
def TreeEdgeOk (opts : TreeOpts α) (G : MG α) (x : (α × α) × EdgeShape) : Prop :=
  x.2.style = edgeStyle (G.getEdgeMark x.1.1 x.1.2) (G.getEdgeMark x.1.2 x.1.1) ∧
    x.2.color = edgeColor (G.getEdgeMark x.1.1 x.1.2) (G.getEdgeMark x.1.2 x.1.1) opts.lineColor ∧
    x.2.circ0 = decide (G.getEdgeMark x.1.1 x.1.2 = some .circle) ∧ x.2.circ1 = decide (G.getEdgeMark x.1.2 x.1.1 = some .circle) ∧
    x.2.text = none ∧ x.2.rad = 0

/-- What is drawn for a node of the tree. -/
def TreeNodeOk (opts : TreeOpts α) (x : α × NodeShape) : Prop :=
  x.2.radius = opts.radius ∧ x.2.label = (opts.label x.1).getD (opts.own x.1) ∧ x.2.contour = .circle ∧ x.2.fill = "white" ∧
    x.2.textColor = "black" ∧ x.2.line = (if x.2.label = .image then "white" else opts.fgcolor)

theorem drawTreeNode_spec {opts : TreeOpts α} {v : α} (hl : (opts.label v).getD (opts.own v) ≠ .other) (marked : Finset α) (bk : String)
    (pos : Vec) : ∃ s, drawTreeNode opts marked bk v pos = .ok s ∧ s.center = pos ∧ TreeNodeOk opts (v, s) := by
  refine ⟨⟨pos, opts.radius, .circle, if (opts.label v).getD (opts.own v) = .image then "white" else opts.fgcolor, "white", "black",
    (opts.label v).getD (opts.own v)⟩, ?_, rfl, rfl, rfl, rfl, rfl, rfl, rfl⟩
  unfold drawTreeNode drawNode
  simp only
  rw [if_neg hl]

/-- The edge joins two of the nodes, one step further from the root. -/
def TreeJoins (r : ℝ) (ns : List (α × NodeShape)) (x : (α × α) × EdgeShape) : Prop :=
  ∃ a b, (x.1.1, a) ∈ ns ∧ (x.1.2, b) ∈ ns ∧ x.2.Joins r a.center b.center ∧
    ∃ d : Nat, sqDist (0, 0) a.center = (d : ℝ) ^ 2 ∧ sqDist (0, 0) b.center = ((d : ℝ) + 1) ^ 2

omit [DecidableEq α] in
theorem TreeJoins.mono {r : ℝ} {ns ns' : List (α × NodeShape)} {x : (α × α) × EdgeShape} (h : TreeJoins r ns x) (hs : ∀ y ∈ ns, y ∈ ns') :
    TreeJoins r ns' x := by
  obtain ⟨a, b, h1, h2, h3⟩ := h
  exact ⟨a, b, hs _ h1, hs _ h2, h3⟩

mutual
/-- The drawing of a branch. -/
theorem drawBranch_spec {opts : TreeOpts α} {G : MG α} (hG : opts.pag = some G) (marked : Finset α) (bk : String) :
    ∀ (t : PdsTree α) (_ : ∀ x ∈ treeNodes t 0, (opts.label x.1).getD (opts.own x.1) ≠ .other) (pos : Vec) (a b : ℝ) (depth : Nat)
      (_ : sqDist (0, 0) pos = (depth : ℝ) ^ 2),
    ∃ fig, drawBranch opts marked bk t pos a b (depth + 1) = .ok fig ∧ fig.nodes.map Prod.fst = (treeNodes t 0).map Prod.fst ∧
      fig.nodes.map (fun x => x.2.center) = pos :: (spots t a b (depth + 1)).map (fun s => polar s.2 s.1) ∧
      (∀ x ∈ fig.nodes, TreeNodeOk opts x) ∧ fig.edges.map Prod.fst = treeEdges t ∧ (∀ x ∈ fig.edges, TreeEdgeOk opts G x) ∧
      (∀ x ∈ fig.edges, TreeJoins opts.radius fig.nodes x) ∧ ∃ n rest, fig.nodes = (t.origin, n) :: rest ∧ n.center = pos
  | .node v k cs, hl, pos, a, b, depth, hd => by
    obtain ⟨s, s1, s2, s3⟩ := drawTreeNode_spec (v := v) (hl (v, 0) (by rw [treeNodes]; simp)) marked bk pos
    obtain ⟨fig, f1, f2, f3, f4, f5, f6, f7⟩ := drawChildren_spec hG marked bk cs (fun x hx => by
      obtain ⟨y, hy, hyx⟩ := treeNodesL_fst cs 0 1 x hx
      rw [← hyx]
      exact hl y (by rw [treeNodes]; simp [hy])) v pos a b depth hd cs.length 0
    refine ⟨⟨(v, s) :: fig.nodes, fig.edges⟩, ?_, ?_, ?_, ?_, ?_, f6, ?_, s, fig.nodes, rfl, s2⟩
    · rw [drawBranch, py_bind s1, py_bind f1]
      rfl
    · rw [treeNodes, List.map_cons, List.map_cons, f2, treeNodesL_map cs 0 1]
    · rw [List.map_cons, f3, spots]
      simp [s2]
    · intro x hx
      rcases List.mem_cons.mp hx with rfl | hx
      · exact s3
      · exact f4 x hx
    · rw [treeEdges]; exact f5
    · intro x hx
      exact f7 s s2 x hx

/-- The drawing of the branches from number `i` on. -/
theorem drawChildren_spec {opts : TreeOpts α} {G : MG α} (hG : opts.pag = some G) (marked : Finset α) (bk : String) :
    ∀ (cs : List (PdsTree α)) (_ : ∀ x ∈ treeNodesL cs 0, (opts.label x.1).getD (opts.own x.1) ≠ .other) (v : α) (pos : Vec) (a b : ℝ)
      (depth : Nat) (_ : sqDist (0, 0) pos = (depth : ℝ) ^ 2) (n i : Nat),
    ∃ fig, drawChildren opts marked bk cs v pos a b (depth + 1) n i = .ok fig ∧ fig.nodes.map Prod.fst = (treeNodesL cs 0).map Prod.fst ∧
      fig.nodes.map (fun x => x.2.center) = (spotsL cs a b (depth + 1) n i).map (fun s => polar s.2 s.1) ∧
      (∀ x ∈ fig.nodes, TreeNodeOk opts x) ∧ fig.edges.map Prod.fst = treeEdgesL v cs ∧ (∀ x ∈ fig.edges, TreeEdgeOk opts G x) ∧
      ∀ s : NodeShape, s.center = pos → ∀ x ∈ fig.edges, TreeJoins opts.radius ((v, s) :: fig.nodes) x
  | [], _, v, pos, a, b, depth, _, n, i => ⟨⟨[], []⟩, by rw [drawChildren], by simp [treeNodesL], by simp [spotsL], by simp, by simp [treeEdgesL],
      by simp, by simp⟩
  | c :: cs, hl, v, pos, a, b, depth, hd, n, i => by
    have hne : pos ≠ polar (childAngle a b n i) (depth + 1) := by
      intro h
      have := polar_dist (childAngle a b n i) (depth + 1)
      rw [← h, hd] at this
      push_cast at this
      have h0 : (0 : ℝ) ≤ depth := by positivity
      nlinarith
    obtain ⟨e, e1, e2, e3, e4, e5, e6, e7, e8, -⟩ := drawEdge_spec false pos (polar (childAngle a b n i) (depth + 1)) opts.radius
      (G.getEdgeMark v c.origin) (G.getEdgeMark c.origin v) opts.lineColor none false (Or.inl hne)
    have hpd : sqDist (0, 0) (polar (childAngle a b n i) (depth + 1)) = ((depth + 1 : ℕ) : ℝ) ^ 2 := polar_dist _ _
    obtain ⟨f, f1, f2, f3, f4, f5, f6, f7, m, rest, f8, f9⟩ := drawBranch_spec hG marked bk c (fun x hx => hl x (by rw [treeNodesL]; simp [hx]))
      (polar (childAngle a b n i) (depth + 1)) (sectorBorder a b n i) (sectorBorder a b n (i + 1)) (depth + 1) hpd
    obtain ⟨g, g1, g2, g3, g4, g5, g6, g7⟩ := drawChildren_spec hG marked bk cs (fun x hx => hl x (by rw [treeNodesL]; simp [hx]))
      v pos a b depth hd n (i + 1)
    refine ⟨⟨f.nodes ++ g.nodes, ((v, c.origin), e) :: f.edges ++ g.edges⟩, ?_, ?_, ?_, ?_, ?_, ?_, ?_⟩
    · rw [drawChildren, hG]
      simp only [pure_bind]
      rw [py_bind e1, py_bind f1, py_bind g1]
      rfl
    · rw [treeNodesL, List.map_append, List.map_append, f2, g2]
    · rw [spotsL, List.map_append, f3, g3]
      simp
    · intro x hx
      rcases List.mem_append.mp hx with hx | hx
      · exact f4 x hx
      · exact g4 x hx
    · rw [treeEdgesL, List.map_append, List.map_cons, f5, g5]
    · intro x hx
      rw [List.cons_append, List.mem_cons, List.mem_append] at hx
      rcases hx with rfl | hx | hx
      · exact ⟨e2, e3, e4, e5, e6, e8 rfl⟩
      · exact f6 x hx
      · exact g6 x hx
    · intro s hs x hx
      rw [List.cons_append, List.mem_cons, List.mem_append] at hx
      rcases hx with rfl | hx | hx
      · refine ⟨s, m, by simp, by simp [f8], ?_, depth, ?_, ?_⟩
        · rw [hs, f9]; exact e7
        · rw [hs]; exact hd
        · rw [f9, hpd]; push_cast; rfl
      · exact (f7 x hx).mono (fun y hy => by simp [hy])
      · exact (g7 s hs x hx).mono (fun y hy => by
          rcases List.mem_cons.mp hy with rfl | hy
          · simp
          · simp [hy])
end

end Draw
end Verif
