import Verif.Lemmas.Draw
import Verif.Props.Layout
import Verif.Lemmas.PagKeep
import Verif.Lemmas.DagMisc

/-!
# C78: drawings show the graph; C80: drawing and random numbers
-/

namespace Verif
open Draw
variable {α : Type} [DecidableEq α]

namespace Draw

/-- The state of the generator after a layout for `draw_graph`. -/
noncomputable def stateAfter {S : Type} (g : NpRandom S) (n : Nat) (lt : LayoutType) : S :=
  let s := (initCoords g bigWin n (none : Option (List (List Nat))) (g.seed 123)).2.2
  match lt with
  | .circular => (initCoords g bigWin n (none : Option (List (List Nat))) s).2.2
  | _ => s

omit [DecidableEq α] in
theorem lists_none (N : Finset α) : Lists none N := by intro gs h; cases h

theorem bigWin_open : bigWin.Open := by unfold Win.Open bigWin; norm_num

theorem layoutPos_spec {S : Type} (g : NpRandom S) (o : SetOrder α) {G : Drawable α} (hN : G.nodes.Nonempty)
    (hadj : ∀ v ∈ G.nodes, ∃ A, G.adj v = .ok A ∧ A ⊆ G.nodes) {lt : LayoutType} (hlt : lt ≠ .other) (s : S) :
    ∃ pos, layoutPos g o G lt s = .ok (pos, stateAfter g G.nodes.card lt) ∧ Inside G.nodes bigWin pos ∧
      (lt = .circular → Apart G.nodes pos) := by
  have hw : bigWin.left ≤ bigWin.right ∧ bigWin.top ≤ bigWin.bottom := ⟨bigWin_open.1.le, bigWin_open.2.le⟩
  obtain ⟨pos, k, p1, p2, -⟩ := forceInit_spec g o hN hw (lists_none G.nodes) s
  have hforce : ∃ pos', forceCalc o G.adj ⟨G.nodes, bigWin, none, pos⟩ k 100 = .ok pos' ∧ Inside G.nodes bigWin pos' := by
    obtain ⟨pos', h1, -, h3⟩ := forceCalc_spec o (L := ⟨G.nodes, bigWin, none, pos⟩) hadj hw k (fun v hv => (p2 v).mpr hv) 100
    exact ⟨pos', h1, h3 (by norm_num)⟩
  obtain ⟨pos', f1, f2⟩ := hforce
  cases lt with
  | other => exact absurd rfl hlt
  | circular =>
    obtain ⟨posC, c1, c2, -⟩ := baseInit_spec g o bigWin (lists_none G.nodes) ((initCoords g bigWin G.nodes.card
      (none : Option (List (List α))) (g.seed 123)).2.2)
    obtain ⟨L, s', posD, d1, d2, d3, d4, -⟩ := C77_circle g o (lists_none G.nodes) hw ((initCoords g bigWin G.nodes.card
      (none : Option (List (List α))) (g.seed 123)).2.2)
    rw [c1] at d1
    cases d1
    refine ⟨posD, ?_, d3, fun _ => d4 bigWin_open⟩
    unfold layoutPos
    rw [py_bind p1]
    simp only
    rw [py_bind c1]
    simp only
    rw [py_bind d2]
    rfl
  | default =>
    refine ⟨pos', ?_, f2, fun h => by cases h⟩
    unfold layoutPos
    rw [py_bind p1]
    simp only
    rw [py_bind f1]
    rfl
  | force =>
    refine ⟨pos', ?_, f2, fun h => by cases h⟩
    unfold layoutPos
    rw [py_bind p1]
    simp only
    rw [py_bind f1]
    rfl

theorem pag_adj {G : MG α} (hG : G.Proper) (visible : Option (Finset (α × α))) :
    ∀ v ∈ (Drawable.pag G visible).nodes, ∃ A, (Drawable.pag G visible).adj v = .ok A ∧ A ⊆ (Drawable.pag G visible).nodes := by
  intro v _
  refine ⟨_, rfl, fun x hx => ?_⟩
  obtain ⟨m, hm⟩ := hG.adj_iff.mp (MG.adj_of_mem_adjacent hx)
  exact (hG.mem _ _ _ hm).1

theorem dag_adj {D : Dag α} (hD : D.WF) :
    ∀ v ∈ (Drawable.dag D).nodes, ∃ A, (Drawable.dag D).adj v = .ok A ∧ A ⊆ (Drawable.dag D).nodes := by
  intro v hv
  have hpar : D.parents v = .ok (D.par v) := by unfold Dag.parents; exact if_pos hv
  refine ⟨D.par v ∪ D.nodes.filter (fun x => v ∈ D.par x), ?_, ?_⟩
  · change D.findAdjacentNodes v = _
    unfold Dag.findAdjacentNodes
    rw [py_bind hpar, py_bind (Dag.findChildren_ok (Finset.Subset.refl _))]
    rfl
  · intro x hx
    rcases Finset.mem_union.mp hx with hx | hx
    · exact (hD _ _ hx).1
    · exact (Finset.mem_filter.mp hx).1

theorem normalize_in {r : ℝ} (hr : r ≤ 1 / 4) {p : Vec} (hp : bigWin.Has p) : InUnit (normalize 1000 r p) (2 * r) := by
  obtain ⟨h1, h2, h3, h4⟩ := hp
  simp only [bigWin] at h1 h2 h3 h4
  have hk : 0 ≤ 1 - 4 * r := by linarith
  have b1 : -1 ≤ p.1 / 1000 := by linarith
  have b2 : p.1 / 1000 ≤ 1 := by linarith
  have b3 : -1 ≤ p.2 / 1000 := by linarith
  have b4 : p.2 / 1000 ≤ 1 := by linarith
  have c1 := mul_le_mul_of_nonneg_right b1 hk
  have c2 := mul_le_mul_of_nonneg_right b2 hk
  have c3 := mul_le_mul_of_nonneg_right b3 hk
  have c4 := mul_le_mul_of_nonneg_right b4 hk
  refine ⟨?_, ?_, ?_, ?_⟩ <;> simp only [normalize] <;> linarith

theorem normalize_inj {r : ℝ} (hr : r < 1 / 4) {p q : Vec} (h : normalize 1000 r p = normalize 1000 r q) : p = q := by
  have h1 := congrArg Prod.fst h
  have h2 := congrArg Prod.snd h
  simp only [normalize] at h1 h2
  have hk : 1 - 4 * r ≠ 0 := by linarith
  have e1 : p.1 / 1000 = q.1 / 1000 := mul_right_cancel₀ hk (by linarith)
  have e2 : p.2 / 1000 = q.2 / 1000 := mul_right_cancel₀ hk (by linarith)
  exact Prod.ext (by linarith) (by linarith)

/-- From the facts about the drawn nodes to the specification. -/
theorem nodesShown_of {o : SetOrder α} {N latent selection : Finset α} {pos : α → Option Vec} {r m : ℝ} {bk fg : String}
    {labels : α → Option Label} {ns : List (α × NodeShape)} (h1 : ns.map Prod.fst = o.iter () N)
    (h2 : ∀ x ∈ ns, NodeOk latent selection pos r bk fg labels x.1 x.2) (h3 : ∀ v ∈ N, ∀ p, pos v = some p → InUnit p m) :
    NodesShown N latent selection labels r m bk fg ns := by
  have hmem : ∀ v, v ∈ ns.map Prod.fst ↔ v ∈ N := by intro v; rw [h1, o.mem]
  refine ⟨by rw [h1]; exact o.nodup _ _, hmem, fun x hx => ?_⟩
  obtain ⟨a1, a2, a3, a4, a5, a6, a7⟩ := h2 x hx
  refine ⟨h3 x.1 ((hmem _).mp (List.mem_map_of_mem hx)) _ a1, a2, a3, ?_, a4, fun hl => ?_, fun hl => ?_⟩
  · rw [a5]
    by_cases hh : x.1 ∈ latent ∨ x.1 ∈ selection <;> simp [hh]
  · rw [a6, a7, if_pos hl, if_pos hl]; exact ⟨rfl, rfl⟩
  · rw [a6, a7, if_neg hl, if_neg hl]; exact ⟨rfl, rfl⟩

theorem joins_of {N latent selection : Finset α} {pos : α → Option Vec} {r : ℝ} {bk fg : String} {labels : α → Option Label}
    {ns : List (α × NodeShape)} (h1 : ∀ v, v ∈ ns.map Prod.fst ↔ v ∈ N)
    (h2 : ∀ x ∈ ns, NodeOk latent selection pos r bk fg labels x.1 x.2) {i j : α} (hi : i ∈ N) (hj : j ∈ N) {e : EdgeShape} {p q : Vec}
    (hp : pos i = some p) (hq : pos j = some q) (h : e.Joins r p q) : JoinsNodes ns r i j e := by
  obtain ⟨⟨i', a⟩, ha, rfl⟩ := List.mem_map.mp ((h1 i).mpr hi)
  obtain ⟨⟨j', b⟩, hb, rfl⟩ := List.mem_map.mp ((h1 j).mpr hj)
  refine ⟨a, b, ha, hb, ?_⟩
  have e1 := (h2 _ ha).1
  have e2 := (h2 _ hb).1
  simp only at e1 e2 hp hq
  rw [hp] at e1
  rw [hq] at e2
  cases e1
  cases e2
  exact h

omit [DecidableEq α] in
theorem text_of [DecidableEq α] (visible : Option (Finset (α × α))) (x : α × α) {t : Option String} (h : t = visibleText visible x.1 x.2) :
    (t = some "v" ∧ ∃ V, visible = some V ∧ (x ∈ V ∨ x.swap ∈ V)) ∨ (t = none ∧ ¬ ∃ V, visible = some V ∧ (x ∈ V ∨ x.swap ∈ V)) := by
  obtain ⟨i, j⟩ := x
  cases visible with
  | none => right; simp [h, visibleText]
  | some V =>
    by_cases hv : (i, j) ∈ V ∨ (j, i) ∈ V
    · exact Or.inl ⟨by rw [h]; exact if_pos hv, V, rfl, hv⟩
    · refine Or.inr ⟨by rw [h]; exact if_neg hv, ?_⟩
      rintro ⟨V', hV, h'⟩
      cases hV
      exact hv h'

theorem toLower_auto : "auto".toLower = "auto" := by rw [← String.toList_inj]; simp [String.toLower]

theorem pagShown_of {G : MG α} (hG : G.Proper) {visible : Option (Finset (α × α))} {R : α → α → Prop} {latent selection : Finset α}
    {pos : α → Option Vec} {r : ℝ} {bk fg color : String} {labels : α → Option Label} {ns : List (α × NodeShape)}
    {es : List ((α × α) × EdgeShape)} (h1 : ∀ v, v ∈ ns.map Prod.fst ↔ v ∈ G.nodes)
    (h2 : ∀ x ∈ ns, NodeOk latent selection pos r bk fg labels x.1 x.2) (h3 : DrawnOnce (es.map Prod.fst) R)
    (h4 : ∀ x ∈ es, ∃ c, PagEdgeOk G visible pos r color x.1.1 x.1.2 c x.2) : PagShown G visible R r color ns es := by
  refine ⟨h3, fun x hx => ?_⟩
  obtain ⟨c, a1, a2, a3, a4, a5, a6, ⟨p, q, hp, hq, a7, -⟩, -⟩ := h4 x hx
  have hN := hG.mem _ _ _ a1
  exact ⟨a1, a2, a3, fun h => a4 (by rw [h]; exact toLower_auto), a5, text_of visible x.1 a6, joins_of h1 h2 hN.2 hN.1 hp hq a7⟩

theorem dagShown_of {D : Dag α} (hD : D.WF) {R : α → α → Prop} {latent selection : Finset α} {pos : α → Option Vec} {r : ℝ}
    {bk fg color : String} {labels : α → Option Label} {ns : List (α × NodeShape)} {es : List ((α × α) × EdgeShape)}
    (h1 : ∀ v, v ∈ ns.map Prod.fst ↔ v ∈ D.nodes) (h2 : ∀ x ∈ ns, NodeOk latent selection pos r bk fg labels x.1 x.2)
    (h3 : (es.map Prod.fst).Nodup) (h4 : ∀ a b, (a, b) ∈ es.map Prod.fst ↔ R a b) (h5 : ∀ a b, R a b → D.Edge a b) {c : Bool}
    (h6 : ∀ x ∈ es, DagEdgeOk pos r color x.1.1 x.1.2 c x.2) : DagShown R r color ns es := by
  refine ⟨h3, h4, fun x hx => ?_⟩
  obtain ⟨a1, a2, a3, a4, a5, ⟨p, q, hp, hq, a7, -⟩, -⟩ := h6 x hx
  have hE := h5 _ _ ((h4 x.1.1 x.1.2).mp (List.mem_map_of_mem hx))
  exact ⟨a1, a2, a3, a4, a5, joins_of h1 h2 (hD _ _ hE).1 (hD _ _ hE).2 hp hq a7⟩

theorem labels_of {opts : DrawOpts α} {N : Finset α} (h : Labelled opts N) :
    ∀ v ∈ N, ∃ l, fillLabels opts.own N opts.labels v = some l ∧ l ≠ .other := by
  intro v hv
  obtain ⟨h1, h2⟩ := h v hv
  unfold fillLabels
  cases hl : opts.labels with
  | none => exact ⟨opts.own v, by simp [hv], h1⟩
  | some l =>
    cases hlv : l v with
    | none => exact ⟨opts.own v, by simp [hlv, hv], h1⟩
    | some x => exact ⟨x, by simp [hlv], fun hx => h2 l hl (by rw [hlv, hx])⟩

/-- Positions in the unit square. -/
theorem mapPos_unit {o : SetOrder α} {N : Finset α} {pos : α → Option Vec} {r : ℝ} (hi : Inside N bigWin pos) :
    ∃ pos', mapPos o N (normalize 1000 r) pos = .ok pos' ∧ (∀ v ∈ N, (pos' v).isSome) ∧
      (r ≤ 1 / 4 → ∀ v ∈ N, ∀ p, pos' v = some p → InUnit p (2 * r)) ∧ (r < 1 / 4 → Apart N pos → Apart N pos') := by
  obtain ⟨pos', m1, m2⟩ := mapPos_spec o N (normalize 1000 r) (pos := pos) (fun v hv => by
    obtain ⟨p, hp, -⟩ := hi v hv; rw [hp]; rfl)
  have m3 : ∀ v ∈ N, ∃ p, pos v = some p ∧ bigWin.Has p ∧ pos' v = some (normalize 1000 r p) := by
    intro v hv
    obtain ⟨p, hp, hh⟩ := hi v hv
    exact ⟨p, hp, hh, by rw [m2 v, if_pos hv, hp]; rfl⟩
  refine ⟨pos', m1, fun v hv => ?_, fun hr v hv p hp => ?_, fun hr ha u hu v hv huv => ?_⟩
  · obtain ⟨p, -, -, h⟩ := m3 v hv; rw [h]; rfl
  · obtain ⟨q, -, hh, h⟩ := m3 v hv
    rw [h] at hp
    cases hp
    exact normalize_in hr hh
  · obtain ⟨p, hp, -, h1⟩ := m3 u hu
    obtain ⟨q, hq, -, h2⟩ := m3 v hv
    rw [h1, h2] at huv
    exact ha u hu v hv (by rw [hp, hq, normalize_inj hr (Option.some.inj huv)])

end Draw

/-- C78 for PAGs: `draw_graph` succeeds for every non-empty PAG with drawable labels and known layout. All nodes are drawn once and
stay one radius away from the border, each edge is drawn once with both marks at the right ends. Labels that are missing
are added. With the circular layout different nodes are at different places. -/
theorem C78_pag {S : Type} (g : NpRandom S) (o : SetOrder α) {G : MG α} (hG : G.Proper) (hN : G.nodes.Nonempty)
    (visible : Option (Finset (α × α))) {opts : DrawOpts α} (hl : Labelled opts G.nodes) (hs : opts.sizeFactor ≤ 6)
    {lt : LayoutType} (hlt : lt ≠ .other) (s : S) :
    ∃ fig t, drawGraph g o opts lt (.pag G visible) s = .ok (fig, t) ∧
      NodesShown G.nodes opts.latent opts.selection fig.labels (0.04 * opts.sizeFactor) (0.08 * opts.sizeFactor) opts.bkcolor
        opts.fgcolor fig.nodes ∧
      PagShown G visible G.MAdj (0.04 * opts.sizeFactor) opts.lineColor fig.nodes fig.edges ∧
      (lt = .circular → ∀ x ∈ fig.nodes, ∀ y ∈ fig.nodes, x.2.center = y.2.center → x.1 = y.1) ∧
      (∀ v, fig.labels v = ((opts.labels.getD (fun _ => none)) v <|> if v ∈ G.nodes then some (opts.own v) else none)) ∧
      ∀ x ∈ fig.edges, x.2.rad = 0 := by
  have hr : 0.04 * opts.sizeFactor < 1 / 4 := by linarith
  obtain ⟨pos, l1, l2, l3⟩ := layoutPos_spec g o (G := .pag G visible) hN (pag_adj hG visible) hlt s
  obtain ⟨pos', m1, m2, m3, m4⟩ := mapPos_unit (o := o) (r := 0.04 * opts.sizeFactor) l2
  obtain ⟨ns, n1, n2, n3⟩ := drawNodes_spec o opts.latent opts.selection (0.04 * opts.sizeFactor) opts.bkcolor opts.fgcolor m2 (labels_of hl)
  obtain ⟨es, e1, e2, e3⟩ := drawPagEdges_spec o hG visible (0.04 * opts.sizeFactor) opts.lineColor (skip := fun _ _ => false)
    (fun _ _ => rfl) (curved := fun _ _ => .ok false) m2 (fun _ _ _ _ _ => ⟨false, rfl, by simp⟩)
  have hmem : ∀ v, v ∈ ns.map Prod.fst ↔ v ∈ G.nodes := by intro v; rw [n2, o.mem]; rfl
  refine ⟨⟨ns, es, fillLabels opts.own G.nodes opts.labels⟩, stateAfter g G.nodes.card lt, ?_, ?_, ?_, ?_, ?_, ?_⟩
  · unfold drawGraph
    simp only
    rw [py_bind l1]
    simp only
    rw [py_bind m1, py_bind n1, py_bind e1]
    rfl
  · refine nodesShown_of n2 n3 (fun v hv p hp => ?_)
    have := m3 hr.le v hv p hp
    have e : 2 * (0.04 * opts.sizeFactor) = 0.08 * opts.sizeFactor := by ring
    rwa [e] at this
  · refine pagShown_of hG hmem n3 ?_ (fun x hx => ?_)
    · simpa using e2
    · obtain ⟨c, -, hok⟩ := e3 x hx
      exact ⟨c, hok⟩
  · intro hc x hx y hy hxy
    have a := (n3 x hx).1
    have b := (n3 y hy).1
    exact m4 hr (l3 hc) _ ((hmem _).mp (List.mem_map_of_mem hx)) _ ((hmem _).mp (List.mem_map_of_mem hy)) (by rw [a, b, hxy])
  · intro v
    simp only [fillLabels]
    cases (opts.labels.getD (fun _ => none)) v <;> rfl
  · intro x hx
    obtain ⟨c, hc, hok⟩ := e3 x hx
    cases hc
    exact hok.2.2.2.2.2.2.2 rfl

/-- C78 for DAGs: as for PAGs; each edge is one arrow from the parent to the child. -/
theorem C78_dag {S : Type} (g : NpRandom S) (o : SetOrder α) {D : Dag α} (hD : D.WF) (hN : D.nodes.Nonempty)
    {opts : DrawOpts α} (hl : Labelled opts D.nodes) (hs : opts.sizeFactor ≤ 6) {lt : LayoutType} (hlt : lt ≠ .other) (s : S) :
    ∃ fig t, drawGraph g o opts lt (.dag D) s = .ok (fig, t) ∧
      NodesShown D.nodes opts.latent opts.selection fig.labels (0.04 * opts.sizeFactor) (0.08 * opts.sizeFactor) opts.bkcolor
        opts.fgcolor fig.nodes ∧
      DagShown D.Edge (0.04 * opts.sizeFactor) opts.lineColor fig.nodes fig.edges ∧
      (lt = .circular → ∀ x ∈ fig.nodes, ∀ y ∈ fig.nodes, x.2.center = y.2.center → x.1 = y.1) ∧
      (∀ v, fig.labels v = ((opts.labels.getD (fun _ => none)) v <|> if v ∈ D.nodes then some (opts.own v) else none)) ∧
      ∀ x ∈ fig.edges, x.2.rad = 0 := by
  have hr : 0.04 * opts.sizeFactor < 1 / 4 := by linarith
  obtain ⟨pos, l1, l2, l3⟩ := layoutPos_spec g o (G := .dag D) hN (dag_adj hD) hlt s
  obtain ⟨pos', m1, m2, m3, m4⟩ := mapPos_unit (o := o) (r := 0.04 * opts.sizeFactor) l2
  obtain ⟨ns, n1, n2, n3⟩ := drawNodes_spec o opts.latent opts.selection (0.04 * opts.sizeFactor) opts.bkcolor opts.fgcolor m2 (labels_of hl)
  obtain ⟨es, e1, e2, e3, e4⟩ := drawDagEdges_spec o hD (0.04 * opts.sizeFactor) opts.lineColor (fun _ _ => false) false m2 (by simp)
  have hmem : ∀ v, v ∈ ns.map Prod.fst ↔ v ∈ D.nodes := by intro v; rw [n2, o.mem]; rfl
  refine ⟨⟨ns, es, fillLabels opts.own D.nodes opts.labels⟩, stateAfter g D.nodes.card lt, ?_, ?_, ?_, ?_, ?_, ?_⟩
  · unfold drawGraph
    simp only
    rw [py_bind l1]
    simp only
    rw [py_bind m1, py_bind n1, py_bind e1]
    rfl
  · refine nodesShown_of n2 n3 (fun v hv p hp => ?_)
    have := m3 hr.le v hv p hp
    have e : 2 * (0.04 * opts.sizeFactor) = 0.08 * opts.sizeFactor := by ring
    rwa [e] at this
  · exact dagShown_of hD hmem n3 e2 (fun a b => by rw [e3]; simp) (fun _ _ h => h) e4
  · intro hc x hx y hy hxy
    have a := (n3 x hx).1
    have b := (n3 y hy).1
    exact m4 hr (l3 hc) _ ((hmem _).mp (List.mem_map_of_mem hx)) _ ((hmem _).mp (List.mem_map_of_mem hy)) (by rw [a, b, hxy])
  · intro v
    simp only [fillLabels]
    cases (opts.labels.getD (fun _ => none)) v <;> rfl
  · intro x hx
    exact (e4 x hx).2.2.2.2.2.2 rfl

namespace Draw

omit [DecidableEq α] in
theorem lists_reverse {gs : List (List α)} {N : Finset α} (h : Lists (some gs) N) : Lists (some gs.reverse) N := by
  intro gs' hg
  cases hg
  obtain ⟨h1, h2⟩ := h gs rfl
  have hp : gs.reverse.flatten.Perm gs.flatten := List.Perm.flatten (List.reverse_perm gs)
  exact ⟨hp.nodup_iff.mpr h1, fun v => by rw [hp.mem_iff]; exact h2 v⟩

theorem timeIndex_spec {gs : List (List α)} (hn : gs.flatten.Nodup) {i j : Nat} {c : List α} {v : α} (hi : gs[i]? = some c)
    (hj : c[j]? = some v) : timeIndex gs v = some (i, j) := by
  have hmem : (v, i, j) ∈ gs.zipIdx.flatMap (fun gi => gi.1.zipIdx.map (fun vi => (vi.1, gi.2, vi.2))) := by
    simp only [List.mem_flatMap, List.mem_map]
    exact ⟨(c, i), List.mem_zipIdx_iff_getElem?.mpr hi, (v, j), List.mem_zipIdx_iff_getElem?.mpr hj, rfl⟩
  have hkeys := zip_flatten gs 0
  unfold timeIndex
  generalize gs.zipIdx.flatMap (fun gi => gi.1.zipIdx.map (fun vi => (vi.1, gi.2, vi.2))) = items at hmem hkeys
  rw [← hkeys] at hn
  clear hkeys hi hj
  have skip : ∀ (l : List (α × Nat × Nat)) (d : α → Option (Nat × Nat)), v ∉ l.map (·.1) →
      l.foldl (fun d x => fun v => if v = x.1 then some x.2 else d v) d v = d v := by
    intro l
    induction l with
    | nil => intro d _; rfl
    | cons a l ih =>
      intro d hv
      simp only [List.map_cons, List.mem_cons, not_or] at hv
      rw [List.foldl_cons, ih _ hv.2, if_neg hv.1]
  have key : ∀ (l : List (α × Nat × Nat)) (d : α → Option (Nat × Nat)), (l.map (·.1)).Nodup → (v, i, j) ∈ l →
      l.foldl (fun d x => fun v => if v = x.1 then some x.2 else d v) d v = some (i, j) := by
    intro l
    induction l with
    | nil => intro d _ h; simp at h
    | cons a l ih =>
      intro d hn hm
      rw [List.map_cons, List.nodup_cons] at hn
      rw [List.foldl_cons]
      rcases List.mem_cons.mp hm with rfl | hm
      · rw [skip l _ hn.1, if_pos rfl]
      · exact ih _ hn.2 hm
  exact key _ _ hn hmem

/-- The positions of `draw_temporal_graph`. -/
theorem temporalPos_spec {S : Type} (g : NpRandom S) (o : SetOrder α) {N : Finset α} {gs : List (List α)} (h : Lists (some gs) N)
    (h2 : ∃ c ∈ gs, 1 < c.length) (s : S) :
    ∃ L pos pos', baseInit g o N ⟨-1, 1, -1, 1⟩ (some gs.reverse) s = .ok (L, s) ∧ columnCalc o L = .ok pos ∧
      mapPos o N (fun p => ((p.1 * (1 - 6 * 0.04) + 1) / 2, (p.2 * (1 - 6 * 0.04) + 1) / 2)) pos = .ok pos' ∧
      (∀ v ∈ N, ∃ p, pos' v = some p ∧ InUnit p 0.12) ∧ Apart N pos' ∧
      ∀ (i i' : Nat) c c' u v, gs[i]? = some c → gs[i']? = some c' → u ∈ c → v ∈ c' → i < i' →
        ∃ p q, pos' u = some p ∧ pos' v = some q ∧ q.1 < p.1 := by
  have hL := lists_reverse h
  have h2' : ∃ c ∈ gs.reverse, 1 < c.length := by
    obtain ⟨c, hc, h⟩ := h2
    exact ⟨c, by simpa using hc, h⟩
  obtain ⟨L, s', pos, c1, c2, c3, c4, m, -, -, c5⟩ := C77_column_partial g o hL (w := ⟨-1, 1, -1, 1⟩) (by norm_num) h2' s
  obtain ⟨pos0, b1, -⟩ := baseInit_spec g o ⟨-1, 1, -1, 1⟩ hL s
  rw [b1] at c1
  have hs : s' = s := (Prod.mk.inj (Except.ok.inj c1)).2.symm
  subst hs
  obtain ⟨pos', m1, m2⟩ := mapPos_spec o N (fun p => ((p.1 * (1 - 6 * 0.04) + 1) / 2, (p.2 * (1 - 6 * 0.04) + 1) / 2)) (pos := pos)
    (fun v hv => by obtain ⟨p, hp, -⟩ := c3 v hv; rw [hp]; rfl)
  have m3 : ∀ v ∈ N, ∀ p, pos v = some p → pos' v = some ((p.1 * (1 - 6 * 0.04) + 1) / 2, (p.2 * (1 - 6 * 0.04) + 1) / 2) := by
    intro v hv p hp
    rw [m2 v, if_pos hv, hp]; rfl
  refine ⟨L, pos, pos', by rw [b1, c1], c2, m1, ?_, ?_, ?_⟩
  · intro v hv
    obtain ⟨p, hp, h1, h2, h3, h4⟩ := c3 v hv
    simp only at h1 h2 h3 h4
    refine ⟨_, m3 v hv p hp, ?_, ?_, ?_, ?_⟩ <;> norm_num <;> linarith
  · intro u hu v hv huv
    obtain ⟨p, hp, -⟩ := c3 u hu
    obtain ⟨q, hq, -⟩ := c3 v hv
    rw [m3 u hu p hp, m3 v hv q hq] at huv
    have e := Option.some.inj huv
    have e1 := congrArg Prod.fst e
    have e2 := congrArg Prod.snd e
    norm_num at e1 e2
    refine c4 (by unfold Win.Open; norm_num) u hu v hv ?_
    rw [hp, hq]
    exact congrArg some (Prod.ext e1 e2)
  · intro i i' c c' u v hi hi' hu hv hlt
    have hii := getElem?_lt hi
    have hii' := getElem?_lt hi'
    have r1 : gs.reverse[gs.length - 1 - i]? = some c := by
      rw [List.getElem?_reverse (by omega), ← hi]
      congr 1
      omega
    have r2 : gs.reverse[gs.length - 1 - i']? = some c' := by
      rw [List.getElem?_reverse (by omega), ← hi']
      congr 1
      omega
    obtain ⟨j, hj⟩ := List.getElem?_of_mem hu
    obtain ⟨j', hj'⟩ := List.getElem?_of_mem hv
    obtain ⟨x, hx, hx'⟩ := c5 _ j c u r1 hj
    obtain ⟨y, hy, hy'⟩ := c5 _ j' c' v r2 hj'
    have hlen : 1 < gs.reverse.length := by rw [List.length_reverse]; omega
    have huN : u ∈ N := ((h gs rfl).2 u).mp (List.mem_flatten.mpr ⟨c, List.mem_of_getElem? hi, hu⟩)
    have hvN : v ∈ N := ((h gs rfl).2 v).mp (List.mem_flatten.mpr ⟨c', List.mem_of_getElem? hi', hv⟩)
    refine ⟨_, _, m3 u huN _ hx, m3 v hvN _ hy, ?_⟩
    simp only
    rw [hx' hlen, hy' hlen, List.length_reverse]
    have hn : (0 : ℝ) < (gs.length : ℝ) - 1 := by
      have : (1 : ℝ) < gs.length := by exact_mod_cast (by omega : 1 < gs.length)
      linarith
    have e1 : ((gs.length - 1 - i' : ℕ) : ℝ) < ((gs.length - 1 - i : ℕ) : ℝ) := by exact_mod_cast (by omega)
    have e2 : ((gs.length - 1 - i' : ℕ) : ℝ) / ((gs.length : ℝ) - 1) < ((gs.length - 1 - i : ℕ) : ℝ) / ((gs.length : ℝ) - 1) :=
      div_lt_div_of_pos_right e1 hn
    rw [mul_div_assoc, mul_div_assoc]
    norm_num
    linarith

end Draw

/-- C78 for PAGs over time: `draw_temporal_graph` succeeds if some time has two variables and the present is not empty. All nodes are
drawn, at different places inside of the unit square, earlier times further left. With `ignore_homology` exactly the edges with a
node of the present are drawn, else all, once with both marks at the right ends; exactly the edges over more than one column
or row are curved. -/
theorem C78_temporal_pag_partial {S : Type} (g : NpRandom S) (o : SetOrder α) {G : MG α} (hG : G.Proper) (visible : Option (Finset (α × α)))
    (opts : DrawOpts α) (ignore : Bool) {present : List α} {past : List (List α)} (h : Lists (some (present :: past)) G.nodes)
    (h1 : present ≠ []) (h2 : ∃ c ∈ present :: past, 1 < c.length) (s : S) :
    ∃ fig, drawTemporal g o opts ignore (some (present :: past)) (.pag G visible) s = .ok (fig, s) ∧
      NodesShown G.nodes opts.latent opts.selection (fun v => some (.text (opts.str v))) 0.04 0.12 opts.bkcolor opts.fgcolor fig.nodes ∧
      (∀ x ∈ fig.nodes, ∀ y ∈ fig.nodes, x.2.center = y.2.center → x.1 = y.1) ∧
      (∀ (i i' : Nat) c c', (present :: past)[i]? = some c → (present :: past)[i']? = some c' → i < i' →
        ∀ x ∈ fig.nodes, ∀ y ∈ fig.nodes, x.1 ∈ c → y.1 ∈ c' → y.2.center.1 < x.2.center.1) ∧
      PagShown G visible (fun a b => G.MAdj a b ∧ (ignore = true → a ∈ present ∨ b ∈ present)) 0.04 opts.lineColor fig.nodes fig.edges ∧
      ∀ x ∈ fig.edges, ∀ (i j i' j' : Nat) c c', (present :: past)[i]? = some c → (present :: past)[i']? = some c' →
        c[j]? = some x.1.1 → c'[j']? = some x.1.2 → (x.2.rad ≠ 0 ↔ i + 1 < i' ∨ i' + 1 < i ∨ j + 1 < j' ∨ j' + 1 < j) := by
  obtain ⟨L, pos, pos', b1, b2, b3, b4, b5, b6⟩ := temporalPos_spec g o h h2 s
  have hp : ∀ v ∈ G.nodes, (pos' v).isSome := fun v hv => by obtain ⟨p, hp, -⟩ := b4 v hv; rw [hp]; rfl
  have hidx : ∀ v ∈ G.nodes, ∃ t y, timeIndex (present :: past).reverse v = some (t, y) := by
    intro v hv
    obtain ⟨c, hc, hvc⟩ := List.mem_flatten.mp (((lists_reverse h _ rfl).2 v).mpr hv)
    obtain ⟨i, hi⟩ := List.getElem?_of_mem hc
    obtain ⟨j, hj⟩ := List.getElem?_of_mem hvc
    exact ⟨i, j, timeIndex_spec (lists_reverse h _ rfl).1 hi hj⟩
  obtain ⟨ns, n1, n2, n3⟩ := drawNodes_spec o opts.latent opts.selection 0.04 opts.bkcolor opts.fgcolor hp
    (labels := fun v => some (.text (opts.str v))) (fun v _ => ⟨_, rfl, by simp⟩)
  obtain ⟨es, e1, e2, e3⟩ := drawPagEdges_spec o hG visible 0.04 opts.lineColor
    (skip := fun i j => ignore && decide (i ∉ present) && decide (j ∉ present))
    (fun a b => by rw [Bool.and_assoc, Bool.and_assoc, Bool.and_comm (decide (a ∉ present))])
    (curved := isCurved (timeIndex (present :: past).reverse)) hp (by
      intro i hi j hj hij
      obtain ⟨t, y, h1⟩ := hidx i hi
      obtain ⟨t', y', h2⟩ := hidx j hj
      refine ⟨decide (((t : Int) - t').natAbs > 1) || decide (((y : Int) - y').natAbs > 1), ?_, fun _ hh => hij (b5 i hi j hj hh)⟩
      simp only [isCurved, h1, h2])
  have hmem : ∀ v, v ∈ ns.map Prod.fst ↔ v ∈ G.nodes := by intro v; rw [n2, o.mem]
  obtain ⟨bot, hbot⟩ : ∃ x, present.getLast? = some x := by
    cases hl : present.getLast? with
    | none => exact absurd (List.getLast?_eq_none_iff.mp hl) h1
    | some x => exact ⟨x, rfl⟩
  obtain ⟨top, htop⟩ : ∃ x, present.reverse.getLast? = some x := by
    cases hl : present.reverse.getLast? with
    | none => exact absurd (by simpa using hl) h1
    | some x => exact ⟨x, rfl⟩
  have hmemN : ∀ v ∈ present, v ∈ G.nodes := fun v hv => ((h _ rfl).2 v).mp (by simp [hv])
  obtain ⟨pb, hpb⟩ := Option.isSome_iff_exists.mp (hp bot (hmemN _ (List.mem_of_getLast? hbot)))
  obtain ⟨pt, hpt⟩ := Option.isSome_iff_exists.mp (hp top (hmemN _ (by simpa using List.mem_of_getLast? htop)))
  refine ⟨⟨ns, es, fun _ => none⟩, ?_, nodesShown_of n2 n3 (fun v hv p hpp => ?_), ?_, ?_, ?_, ?_⟩
  · unfold drawTemporal
    simp only [Option.getD_some, Drawable.nodes]
    rw [py_bind b1]
    simp only
    rw [py_bind b2, py_bind b3]
    simp only [pure_bind]
    rw [py_bind (show pyLast present = .ok bot from by unfold pyLast; rw [hbot]), py_bind (getPos_ok hpb),
      py_bind (show pyLast present.reverse = .ok top from by unfold pyLast; rw [htop]), py_bind (getPos_ok hpt)]
    rw [py_bind n1, py_bind e1]
    rfl
  · obtain ⟨q, hq, hin⟩ := b4 v hv
    rw [hq] at hpp
    cases hpp
    exact hin
  · intro x hx y hy hxy
    exact b5 _ ((hmem _).mp (List.mem_map_of_mem hx)) _ ((hmem _).mp (List.mem_map_of_mem hy)) (by
      rw [(n3 x hx).1, (n3 y hy).1, hxy])
  · intro i i' c c' hi hi' hlt x hx y hy hxc hyc
    obtain ⟨p, q, h1, h2, h3⟩ := b6 i i' c c' x.1 y.1 hi hi' hxc hyc hlt
    have a := (n3 x hx).1
    have b := (n3 y hy).1
    rw [h1] at a
    rw [h2] at b
    rw [← Option.some.inj a, ← Option.some.inj b]
    exact h3
  · refine pagShown_of hG hmem n3 ?_ (fun x hx => ?_)
    · refine ⟨e2.1, e2.2.1, fun a b => ?_⟩
      rw [e2.2.2 a b]
      refine and_congr_right (fun _ => ?_)
      cases ignore with
      | false => simp
      | true =>
        by_cases ha : a ∈ present <;> by_cases hb : b ∈ present <;> simp [ha, hb]
    · obtain ⟨c, -, hok⟩ := e3 x hx
      exact ⟨c, hok⟩
  · intro x hx i j i' j' c c' hi hi' hj hj'
    obtain ⟨cv, hcv, -, -, -, -, -, -, ⟨p, q, hpp, hqq, -, hrad⟩, hrad0⟩ := e3 x hx
    have hii := getElem?_lt hi
    have hii' := getElem?_lt hi'
    have r1 : (present :: past).reverse[(present :: past).length - 1 - i]? = some c := by
      rw [List.getElem?_reverse (by omega), ← hi]
      congr 1
      omega
    have r2 : (present :: past).reverse[(present :: past).length - 1 - i']? = some c' := by
      rw [List.getElem?_reverse (by omega), ← hi']
      congr 1
      omega
    have t1 := timeIndex_spec (lists_reverse h _ rfl).1 r1 hj
    have t2 := timeIndex_spec (lists_reverse h _ rfl).1 r2 hj'
    simp only [isCurved, t1, t2, Except.ok.injEq] at hcv
    have hcase : cv = true ↔ i + 1 < i' ∨ i' + 1 < i ∨ j + 1 < j' ∨ j' + 1 < j := by
      rw [← hcv]
      simp only [Bool.or_eq_true, decide_eq_true_eq]
      omega
    rw [← hcase]
    constructor
    · intro hne
      by_contra hcf
      exact hne (hrad0 (by simpa using hcf))
    · intro hct h0
      have := hrad hct
      rw [h0] at this
      norm_num at this

/-- C78 for DAGs over time. All edges are curved. -/
theorem C78_temporal_dag_partial {S : Type} (g : NpRandom S) (o : SetOrder α) {D : Dag α} (hD : D.WF) (hirr : ∀ a, ¬ D.Edge a a)
    (opts : DrawOpts α) (ignore : Bool) {present : List α} {past : List (List α)} (h : Lists (some (present :: past)) D.nodes)
    (h1 : present ≠ []) (h2 : ∃ c ∈ present :: past, 1 < c.length) (s : S) :
    ∃ fig, drawTemporal g o opts ignore (some (present :: past)) (.dag D) s = .ok (fig, s) ∧
      NodesShown D.nodes opts.latent opts.selection (fun v => some (.text (opts.str v))) 0.04 0.12 opts.bkcolor opts.fgcolor fig.nodes ∧
      (∀ x ∈ fig.nodes, ∀ y ∈ fig.nodes, x.2.center = y.2.center → x.1 = y.1) ∧
      DagShown (fun a b => D.Edge a b ∧ (ignore = true → a ∈ present ∨ b ∈ present)) 0.04 opts.lineColor fig.nodes fig.edges ∧
      ∀ x ∈ fig.edges, x.2.rad ≠ 0 := by
  obtain ⟨L, pos, pos', b1, b2, b3, b4, b5, b6⟩ := temporalPos_spec g o h h2 s
  have hp : ∀ v ∈ D.nodes, (pos' v).isSome := fun v hv => by obtain ⟨p, hp, -⟩ := b4 v hv; rw [hp]; rfl
  obtain ⟨ns, n1, n2, n3⟩ := drawNodes_spec o opts.latent opts.selection 0.04 opts.bkcolor opts.fgcolor hp
    (labels := fun v => some (.text (opts.str v))) (fun v _ => ⟨_, rfl, by simp⟩)
  obtain ⟨es, e1, e2, e3, e4⟩ := drawDagEdges_spec o hD 0.04 opts.lineColor
    (fun i j => ignore && decide (i ∉ present) && decide (j ∉ present)) true hp (fun _ i j hij hh => by
      have := b5 i (hD i j hij).1 j (hD i j hij).2 hh
      subst this
      exact hirr _ hij)
  have hmem : ∀ v, v ∈ ns.map Prod.fst ↔ v ∈ D.nodes := by intro v; rw [n2, o.mem]
  obtain ⟨bot, hbot⟩ : ∃ x, present.getLast? = some x := by
    cases hl : present.getLast? with
    | none => exact absurd (List.getLast?_eq_none_iff.mp hl) h1
    | some x => exact ⟨x, rfl⟩
  obtain ⟨top, htop⟩ : ∃ x, present.reverse.getLast? = some x := by
    cases hl : present.reverse.getLast? with
    | none => exact absurd (by simpa using hl) h1
    | some x => exact ⟨x, rfl⟩
  have hmemN : ∀ v ∈ present, v ∈ D.nodes := fun v hv => ((h _ rfl).2 v).mp (by simp [hv])
  obtain ⟨pb, hpb⟩ := Option.isSome_iff_exists.mp (hp bot (hmemN _ (List.mem_of_getLast? hbot)))
  obtain ⟨pt, hpt⟩ := Option.isSome_iff_exists.mp (hp top (hmemN _ (by simpa using List.mem_of_getLast? htop)))
  refine ⟨⟨ns, es, fun _ => none⟩, ?_, nodesShown_of n2 n3 (fun v hv p hpp => ?_), ?_, ?_, ?_⟩
  · unfold drawTemporal
    simp only [Option.getD_some, Drawable.nodes]
    rw [py_bind b1]
    simp only
    rw [py_bind b2, py_bind b3]
    simp only [pure_bind]
    rw [py_bind (show pyLast present = .ok bot from by unfold pyLast; rw [hbot]), py_bind (getPos_ok hpb),
      py_bind (show pyLast present.reverse = .ok top from by unfold pyLast; rw [htop]), py_bind (getPos_ok hpt)]
    rw [py_bind n1, py_bind e1]
    rfl
  · obtain ⟨q, hq, hin⟩ := b4 v hv
    rw [hq] at hpp
    cases hpp
    exact hin
  · intro x hx y hy hxy
    exact b5 _ ((hmem _).mp (List.mem_map_of_mem hx)) _ ((hmem _).mp (List.mem_map_of_mem hy)) (by
      rw [(n3 x hx).1, (n3 y hy).1, hxy])
  · refine dagShown_of hD hmem n3 e2 (fun a b => ?_) (fun _ _ h => h.1) e4
    rw [e3 a b]
    refine and_congr_right (fun _ => ?_)
    cases ignore with
    | false => simp
    | true => by_cases ha : a ∈ present <;> by_cases hb : b ∈ present <;> simp [ha, hb]
  · intro x hx h0
    obtain ⟨-, -, -, -, -, ⟨p, q, -, -, -, hrad⟩, -⟩ := e4 x hx
    have := hrad rfl
    rw [h0] at this
    norm_num at this

/-- C78 fails without `nodes_set_list`: although `None` is replaced by one group of all nodes, the call ends with a TypeError. -/
theorem C78_temporal_none {S : Type} (g : NpRandom S) (o : SetOrder α) (opts : DrawOpts α) (ignore : Bool) {G : Drawable α}
    (h : G.nodes.card ≠ 1) (s : S) : drawTemporal g o opts ignore none G s = .error .typeError := by
  have hL : Lists (some [o.iter () G.nodes]) G.nodes := by
    intro gs hg
    cases hg
    simp only [List.flatten_cons, List.flatten_nil, List.append_nil]
    exact ⟨o.nodup _ _, fun v => o.mem _ _ _⟩
  obtain ⟨pos, b1, b2, -⟩ := baseInit_spec g o ⟨-1, 1, -1, 1⟩ hL s
  have hlen : (o.iter () G.nodes).length = G.nodes.card := by
    have : (o.iter () G.nodes).toFinset = G.nodes := by ext v; simp [o.mem]
    rw [← List.toFinset_card_of_nodup (o.nodup _ _), this]
  obtain ⟨pos1, c1, -, c3⟩ := columnCalc_spec o (L := ⟨G.nodes, ⟨-1, 1, -1, 1⟩, some [o.iter () G.nodes], pos⟩) hL
    (fun v hv => (b2 v).mpr hv) (by
      change maxGroup [o.iter () G.nodes] ≠ 1
      unfold maxGroup
      simp only [List.foldl_cons, List.foldl_nil, hlen]
      split <;> omega)
  obtain ⟨pos', m1, -⟩ := mapPos_spec o G.nodes (fun p => ((p.1 * (1 - 6 * 0.04) + 1) / 2, (p.2 * (1 - 6 * 0.04) + 1) / 2)) (pos := pos1)
    (fun v hv => by
      obtain ⟨j, hj⟩ := List.getElem?_of_mem ((o.mem () G.nodes v).mpr hv)
      rw [c3 0 j (o.iter () G.nodes) v rfl hj]; rfl)
  unfold drawTemporal
  simp only [Option.getD_none, List.reverse_cons, List.reverse_nil, List.nil_append]
  rw [py_bind b1]
  simp only
  rw [py_bind c1, py_bind m1]
  rfl

/-- C78 fails for one variable per time: the call ends with a ZeroDivisionError. -/
theorem C78_temporal_single {S : Type} (g : NpRandom S) (o : SetOrder α) (opts : DrawOpts α) (ignore : Bool) {G : Drawable α}
    (hN : G.nodes.Nonempty) {gs : List (List α)} (h : Lists (some gs) G.nodes) (h1 : ∀ c ∈ gs, c.length ≤ 1) (s : S) :
    drawTemporal g o opts ignore (some gs) G s = .error .zeroDivision := by
  obtain ⟨L, s', b1, b2⟩ := C77_column_fails g o hN ⟨-1, 1, -1, 1⟩ (lists_reverse h) (fun c hc => h1 c (by simpa using hc)) s
  unfold drawTemporal
  simp only [Option.getD_some]
  rw [py_bind b1]
  simp only
  rw [b2]
  rfl

/-- C78 needs labels that can be drawn: a tuple as label raises TypeError. -/
theorem C78_label_fails (p : Vec) (r : ℝ) (a b c : String) (k : Contour) : drawNode p r a b c .other k = .error .typeError := by
  simp [drawNode]

end Verif
