import Verif.Props.Draw
import Verif.Props.Mixed
import Verif.Props.Dag

/-!
# C80: drawing and random numbers; examples for C78
-/

namespace Verif
open Draw
variable {α : Type} [DecidableEq α]

namespace Draw

theorem bind_inv {β γ : Type} {x : Py β} {f : β → Py γ} {c : γ} (h : (x >>= f) = .ok c) : ∃ b, x = .ok b ∧ f b = .ok c := by
  cases x with
  | error e => cases h
  | ok b => exact ⟨b, rfl, h⟩

theorem layoutPos_state {S : Type} (g : NpRandom S) (o : SetOrder α) {G : Drawable α} (hN : G.nodes.Nonempty) {lt : LayoutType} {s t : S}
    {pos : α → Option Vec} (h : layoutPos g o G lt s = .ok (pos, t)) : t = stateAfter g G.nodes.card lt := by
  have hw : bigWin.left ≤ bigWin.right ∧ bigWin.top ≤ bigWin.bottom := ⟨bigWin_open.1.le, bigWin_open.2.le⟩
  obtain ⟨pos0, k, p1, -⟩ := forceInit_spec g o hN hw (lists_none G.nodes) s
  unfold layoutPos at h
  rw [py_bind p1] at h
  simp only at h
  cases lt with
  | other => cases h
  | circular =>
    obtain ⟨posC, c1, -⟩ := baseInit_spec g o bigWin (lists_none G.nodes) ((initCoords g bigWin G.nodes.card
      (none : Option (List (List α))) (g.seed 123)).2.2)
    simp only at h
    rw [py_bind c1] at h
    obtain ⟨q, -, h⟩ := bind_inv h
    cases h
    rfl
  | default =>
    obtain ⟨q, -, h⟩ := bind_inv h
    cases h
    rfl
  | force =>
    obtain ⟨q, -, h⟩ := bind_inv h
    cases h
    rfl

theorem drawGraph_state {S : Type} (g : NpRandom S) (o : SetOrder α) {G : Drawable α} (hN : G.nodes.Nonempty) {opts : DrawOpts α}
    {lt : LayoutType} {s t : S} {fig : Figure α} (h : drawGraph g o opts lt G s = .ok (fig, t)) :
    t = stateAfter g G.nodes.card lt := by
  unfold drawGraph at h
  simp only at h
  obtain ⟨⟨pos, t'⟩, h1, h⟩ := bind_inv h
  obtain ⟨pos', -, h⟩ := bind_inv h
  obtain ⟨ns, -, h⟩ := bind_inv h
  rw [← layoutPos_state g o hN h1]
  cases G with
  | dag D =>
    obtain ⟨es, -, h⟩ := bind_inv h
    cases h
    rfl
  | pag P V =>
    obtain ⟨es, -, h⟩ := bind_inv h
    cases h
    rfl

/-- Two isolated nodes move away from each other. -/
theorem isolated_round {o : SetOrder α} {a b : α} (hab : a ≠ b) {adj : α → Py (Finset α)} (ha : adj a = .ok ∅) (hb : adj b = .ok ∅)
    {w : Win} (hw : w.Open) {k : ℝ} (hk : 0 < k) (i : Nat) {pos : α → Option Vec} {p q : Vec} (hp : pos a = some p) (hq : pos b = some q)
    (hlt : p.1 < q.1) (hpw : w.Has p) (hqw : w.Has q) :
    ∃ pos' p' q', forceRound o adj {a, b} w k i pos = .ok pos' ∧ pos' a = some p' ∧ pos' b = some q' ∧ p'.1 < q'.1 ∧ w.Has p' ∧ w.Has q' := by
  obtain ⟨pos', r1, -, r3⟩ := forceRound_spec o (N := {a, b}) (adj := adj) (by
    intro v hv
    rcases Finset.mem_insert.mp hv with rfl | hv
    · exact ⟨∅, ha, by simp⟩
    · rw [Finset.mem_singleton.mp hv]; exact ⟨∅, hb, by simp⟩) w k i (pos := pos) (by
    intro v hv
    rcases Finset.mem_insert.mp hv with rfl | hv
    · rw [hp]; rfl
    · rw [Finset.mem_singleton.mp hv, hq]; rfl)
  have single : ∀ (x y : α), o.iter x ({y} : Finset α) = [y] := by
    intro x y
    have hn := o.nodup x ({y} : Finset α)
    have hm := o.mem x ({y} : Finset α)
    cases hl : o.iter x ({y} : Finset α) with
    | nil => have := (hm y).mpr (by simp); rw [hl] at this; simp at this
    | cons z l =>
      rw [hl] at hn hm
      have hz : z = y := by simpa using (hm z).mp (by simp)
      subst hz
      cases l with
      | nil => rfl
      | cons z' l =>
        have hz' : z' = z := by simpa using (hm z').mp (by simp)
        subst hz'
        simp at hn
  have empty : ∀ x : α, o.iter x (∅ : Finset α) = [] := by
    intro x
    rw [List.eq_nil_iff_forall_not_mem]
    intro y hy
    rw [o.mem] at hy
    simp at hy
  have hsd1 : ({a, b} : Finset α) \ {a} = {b} := by
    ext x; simp only [Finset.mem_sdiff, Finset.mem_insert, Finset.mem_singleton]
    constructor
    · rintro ⟨h | h, h'⟩
      · exact absurd h h'
      · exact h
    · rintro rfl; exact ⟨Or.inr rfl, fun h => hab h.symm⟩
  have hsd2 : ({a, b} : Finset α) \ {b} = {a} := by
    ext x; simp only [Finset.mem_sdiff, Finset.mem_insert, Finset.mem_singleton]
    constructor
    · rintro ⟨h | h, h'⟩
      · exact h
      · exact absurd h h'
    · rintro rfl; exact ⟨Or.inl rfl, hab⟩
  have rep : ∀ (x y : α) (u v : Vec), pos x = some u → pos y = some v → ∀ N : Finset α, N \ {x} = {y} → repulse o N k pos x =
      .ok (0 + (u.1 - v.1) / (diff u v).2 * (k * k / (diff u v).2), 0 + (u.2 - v.2) / (diff u v).2 * (k * k / (diff u v).2)) := by
    intro x y u v hx hy N hN
    unfold repulse
    rw [hN, single, List.foldlM_cons, py_bind (show _ = Except.ok _ from by
      rw [py_bind (getPos_ok hx), py_bind (getPos_ok hy)]; rfl)]
    rfl
  have att : ∀ x : α, adj x = .ok ∅ → attract o adj k pos x = .ok (0, 0) := by
    intro x hx
    unfold attract
    rw [py_bind hx, empty]
    rfl
  have hd1 : ∀ u v : Vec, 1 ≤ (diff u v).2 := fun u v => le_max_right _ _
  have hmd : 0 ≤ k / ((i : ℝ) + 1) := by positivity
  obtain ⟨p0, f, f', hp0, hf, hf', hp'⟩ := r3 a (by simp)
  obtain ⟨q0, h, h', hq0, hh, hh', hq'⟩ := r3 b (by simp)
  rw [hp] at hp0
  cases hp0
  rw [hq] at hq0
  cases hq0
  rw [rep a b p q hp hq _ hsd1] at hf
  rw [rep b a q p hq hp _ hsd2] at hh
  rw [att a ha] at hf'
  rw [att b hb] at hh'
  cases hf; cases hf'; cases hh; cases hh'
  have hw' : w.left ≤ w.right ∧ w.top ≤ w.bottom := ⟨hw.1.le, hw.2.le⟩
  refine ⟨pos', _, _, r1, hp', hq', ?_, move_has hw' _ _ _, move_has hw' _ _ _⟩
  -- the first coordinate never moves in the wrong direction
  have left : ∀ (d : Vec), d.1 ≤ 0 → (move w (k / ((i : ℝ) + 1)) p d).1 ≤ p.1 := by
    intro d hd
    unfold move
    simp only
    have hn0 := Real.sqrt_nonneg (d.1 * d.1 + d.2 * d.2)
    generalize Real.sqrt (d.1 * d.1 + d.2 * d.2) = n at hn0 ⊢
    unfold nanDiv
    split
    · change pyMin w.right w.left ≤ p.1
      unfold pyMin
      rw [if_pos hw.1]
      exact hpw.1
    · simp only [Option.map_some, pyMax]
      have h1 : d.1 / n * pyMin n (k / ((i : ℝ) + 1)) ≤ 0 := by
        refine mul_nonpos_of_nonpos_of_nonneg (div_nonpos_of_nonpos_of_nonneg hd hn0) ?_
        unfold pyMin; split <;> assumption
      have hp1 := hpw.1
      unfold pyMin at h1 ⊢
      split_ifs <;> split_ifs at h1 <;> linarith
  have right : ∀ (d : Vec), 0 < d.1 → q.1 ≤ (move w (k / ((i : ℝ) + 1)) q d).1 := by
    intro d hd
    unfold move
    simp only
    have hn0 := Real.sqrt_nonneg (d.1 * d.1 + d.2 * d.2)
    have hn : Real.sqrt (d.1 * d.1 + d.2 * d.2) ≠ 0 := by
      rw [Real.sqrt_ne_zero (by nlinarith [mul_self_nonneg d.1, mul_self_nonneg d.2])]
      nlinarith [mul_self_nonneg d.2]
    generalize Real.sqrt (d.1 * d.1 + d.2 * d.2) = n at hn0 hn ⊢
    unfold nanDiv
    rw [if_neg hn]
    simp only [Option.map_some, pyMax]
    have h1 : 0 ≤ d.1 / n * pyMin n (k / ((i : ℝ) + 1)) := by
      refine mul_nonneg (div_nonneg hd.le hn0) ?_
      unfold pyMin; split <;> assumption
    have hq1 := hqw.2.1
    have hq2 := hqw.1
    unfold pyMin at h1 ⊢
    split_ifs <;> split_ifs at h1 <;> linarith
  have e1 := hd1 p q
  have e2 := hd1 q p
  have k2 : 0 < k * k := mul_pos hk hk
  refine lt_of_le_of_lt (left _ ?_) (lt_of_lt_of_le hlt (right _ ?_))
  · simp only
    have : (p.1 - q.1) / (diff p q).2 * (k * k / (diff p q).2) ≤ 0 :=
      mul_nonpos_of_nonpos_of_nonneg (div_nonpos_of_nonpos_of_nonneg (by linarith) (by linarith)) (div_nonneg k2.le (by linarith))
    linarith
  · simp only
    have : 0 < (q.1 - p.1) / (diff q p).2 * (k * k / (diff q p).2) :=
      mul_pos (div_pos (by linarith) (by linarith)) (div_pos k2 (by linarith))
    linarith

theorem isolated_run {o : SetOrder α} {a b : α} (hab : a ≠ b) {adj : α → Py (Finset α)} (ha : adj a = .ok ∅) (hb : adj b = .ok ∅)
    {L : Layout α} (hN : L.nodes = {a, b}) (hw : L.win.Open) {k : ℝ} (hk : 0 < k) {p q : Vec} (hp : L.pos a = some p)
    (hq : L.pos b = some q) (hlt : p.1 < q.1) (hpw : L.win.Has p) (hqw : L.win.Has q) (n : Nat) :
    ∃ pos' p' q', forceCalc o adj L k n = .ok pos' ∧ pos' a = some p' ∧ pos' b = some q' ∧ p'.1 < q'.1 ∧
      L.win.Has p' ∧ L.win.Has q' := by
  induction n with
  | zero => exact ⟨L.pos, p, q, rfl, hp, hq, hlt, hpw, hqw⟩
  | succ n ih =>
    obtain ⟨pos', p', q', h1, h2, h3, h4, h5, h6⟩ := ih
    obtain ⟨pos'', p'', q'', g1, g2⟩ := isolated_round (o := o) hab ha hb hw hk n h2 h3 h4 h5 h6
    refine ⟨pos'', p'', q'', ?_, g2⟩
    unfold forceCalc at h1 ⊢
    rw [List.range_succ, List.foldlM_append, py_bind h1, List.foldlM_cons, hN, py_bind g1]
    rfl

end Draw

/-- C80 fails: `draw_graph` puts numpy's global generator into a state that does not depend on the state before (it calls
`np.random.seed(123)`, also for the circular layout). Random numbers drawn after a plot repeat in every run. -/
theorem C80_reseeds {S : Type} (g : NpRandom S) (o : SetOrder α) {G G' : Drawable α} (hN : G.nodes.Nonempty)
    (hN' : G'.nodes.card = G.nodes.card) {opts opts' : DrawOpts α} {lt : LayoutType} {s s' t t' : S} {fig fig' : Figure α}
    (h : drawGraph g o opts lt G s = .ok (fig, t)) (h' : drawGraph g o opts' lt G' s' = .ok (fig', t')) : t = t' := by
  have hN2 : G'.nodes.Nonempty := by rw [← Finset.card_pos, hN']; exact Finset.card_pos.mpr hN
  rw [drawGraph_state g o hN h, drawGraph_state g o hN2 h', hN']

/-- C80, circular layout: the drawing does not depend on the state of the generator. -/
theorem C80_circular_partial {S : Type} (g : NpRandom S) (o : SetOrder α) {G : Drawable α} (hN : G.nodes.Nonempty) (opts : DrawOpts α) (s s' : S) :
    drawGraph g o opts .circular G s = drawGraph g o opts .circular G s' := by
  have hw : bigWin.left ≤ bigWin.right ∧ bigWin.top ≤ bigWin.bottom := ⟨bigWin_open.1.le, bigWin_open.2.le⟩
  obtain ⟨pos, k, p1, -⟩ := forceInit_spec g o hN hw (lists_none G.nodes) s
  obtain ⟨pos', k', p1', -⟩ := forceInit_spec g o hN hw (lists_none G.nodes) s'
  have : layoutPos g o G .circular s = layoutPos g o G .circular s' := by
    unfold layoutPos
    rw [py_bind p1, py_bind p1']
  unfold drawGraph
  rw [this]

/-- C80 for time series: `draw_temporal_graph` neither uses nor changes the generator. -/
theorem C80_temporal_partial {S : Type} (g : NpRandom S) (o : SetOrder α) (G : Drawable α) (opts : DrawOpts α) (ignore : Bool)
    (gs : List (List α)) (s s' : S) :
    drawTemporal g o opts ignore (some gs) G s = (drawTemporal g o opts ignore (some gs) G s').map (fun x => (x.1, s)) := by
  have hb : ∀ s : S, baseInit g o G.nodes ⟨-1, 1, -1, 1⟩ (some gs.reverse) s =
      (baseInit g o G.nodes ⟨-1, 1, -1, 1⟩ (some gs.reverse) s').map (fun x => (x.1, s)) := by
    intro s
    unfold baseInit initCoords
    simp only
    cases (List.range G.nodes.card).foldlM (fun (pos : α → Option Vec) idx => (match (nodesOrder o G.nodes (some gs.reverse))[idx]? with
      | none => .error .indexError
      | some v => .ok (setPos pos v ((linspace (-1) 1 G.nodes.card).getD idx 0, (linspace (-1) 1 G.nodes.card).getD idx 0)) :
        Py (α → Option Vec))) (fun _ => none) <;> rfl
  have key : ∀ {β : Type} (x : Py β) (f : β → Py (Figure α × S)) (f' : β → Py (Figure α × S)),
      (∀ b, f b = (f' b).map (fun x => (x.1, s))) → (x >>= f) = (x >>= f').map (fun x => (x.1, s)) := by
    intro β x f f' h
    cases x with
    | error e => rfl
    | ok b => exact h b
  unfold drawTemporal
  simp only [Option.getD_some]
  rw [hb s]
  cases baseInit g o G.nodes ⟨-1, 1, -1, 1⟩ (some gs.reverse) s' with
  | error e => rfl
  | ok Ls =>
    change (columnCalc o Ls.1 >>= _) = Except.map _ (columnCalc o Ls.1 >>= _)
    refine key _ _ _ (fun pos => key _ _ _ (fun pos => key _ _ _ (fun groups => ?_)))
    cases groups with
    | nil => rfl
    | cons p l =>
      refine key _ _ _ (fun bot => key _ _ _ (fun _ => key _ _ _ (fun top => key _ _ _ (fun _ => key _ _ _ (fun _ => key _ _ _ (fun ns => ?_))))))
      cases G with
      | dag D => exact key _ _ _ (fun es => rfl)
      | pag P V => exact key _ _ _ (fun es => rfl)

/-- Default options, nodes are numbers. -/
noncomputable def exDrawOpts : DrawOpts Nat := ⟨{1}, {2}, "white", "black", "auto", none, fun _ => .text "n", fun _ => "n", 1⟩

theorem exDraw_labelled (N : Finset Nat) : Labelled exDrawOpts N := fun _ _ => ⟨by simp [exDrawOpts], fun l h => by cases h⟩

/-- A generator that draws 0, 1/2, 0, 0, … from state 0 on. -/
noncomputable def exNp2 : NpRandom Nat :=
  ⟨fun n => (if n = 1 then 1 / 2 else 0, n + 1), fun n => n, fun n => by dsimp only; split <;> norm_num⟩

/-- C80 fails for the default layout: although the generator is seeded, the starting positions are drawn before. The same graph with two
unconnected nodes is drawn with node 0 on the left, or with node 1 on the left. -/
theorem C80_unreproducible : ∃ fig fig' t, drawGraph exNp2 ascending exDrawOpts .default (.dag ⟨{0, 1}, fun _ => ∅⟩) 0 = .ok (fig, t) ∧
    drawGraph exNp2 ascending exDrawOpts .default (.dag ⟨{0, 1}, fun _ => ∅⟩) 1 = .ok (fig', t) ∧
    (∀ a b, (0, a) ∈ fig.nodes → (1, b) ∈ fig.nodes → a.center.1 < b.center.1) ∧
    ∀ a b, (0, a) ∈ fig'.nodes → (1, b) ∈ fig'.nodes → b.center.1 < a.center.1 := by
  have hN : ({0, 1} : Finset Nat).Nonempty := by simp
  have hw : bigWin.left ≤ bigWin.right ∧ bigWin.top ≤ bigWin.bottom := ⟨bigWin_open.1.le, bigWin_open.2.le⟩
  have hD : (⟨{0, 1}, fun _ => ∅⟩ : Dag Nat).WF := by intro a b h; simp at h
  have hadj : ∀ v ∈ ({0, 1} : Finset Nat), (Drawable.dag (⟨{0, 1}, fun _ => ∅⟩ : Dag Nat)).adj v = .ok ∅ := by
    intro v hv
    change Dag.findAdjacentNodes _ v = _
    unfold Dag.findAdjacentNodes
    rw [py_bind (show Dag.parents (⟨{0, 1}, fun _ => ∅⟩ : Dag Nat) v = .ok ∅ from by unfold Dag.parents; exact if_pos hv),
      py_bind (Dag.findChildren_ok (Finset.Subset.refl _))]
    simp [pure, Except.pure]
  have hord : nodesOrder ascending ({0, 1} : Finset Nat) none = [0, 1] := by decide
  have hcard : ({0, 1} : Finset Nat).card = 2 := by decide
  -- the run of the layout for a state where node `a` starts on the left
  have run : ∀ (a b : Nat) (s : Nat), ({a, b} : Finset Nat) = {0, 1} → a ≠ b →
      (∀ pos : Nat → Option Vec, (∀ i v, [0, 1][i]? = some v → pos v = some ((initCoords exNp2 bigWin 2
        (none : Option (List (List Nat))) s).1.getD i 0, (initCoords exNp2 bigWin 2 (none : Option (List (List Nat))) s).2.1.getD i 0)) →
        ∃ p q, pos a = some p ∧ pos b = some q ∧ p.1 < q.1 ∧ bigWin.Has p ∧ bigWin.Has q) →
      ∃ fig, drawGraph exNp2 ascending exDrawOpts .default (.dag ⟨{0, 1}, fun _ => ∅⟩) s = .ok (fig, stateAfter exNp2 2 .default) ∧
        ∀ x y, (a, x) ∈ fig.nodes → (b, y) ∈ fig.nodes → x.center.1 < y.center.1 := by
    intro a b s hab hne hinit
    obtain ⟨pos, k, p1, p2, p3, p4, p5⟩ := forceInit_spec exNp2 ascending hN hw (lists_none ({0, 1} : Finset Nat)) s
    have hk : 0 < k := by
      rcases p3.lt_or_eq with h | h
      · exact h
      · rw [← h] at p4; simp only [bigWin, hcard] at p4; norm_num at p4
    rw [hord, hcard] at p5
    obtain ⟨p, q, hp, hq, hlt, hpw, hqw⟩ := hinit pos p5
    have ha : a ∈ ({0, 1} : Finset Nat) := by rw [← hab]; simp
    have hb : b ∈ ({0, 1} : Finset Nat) := by rw [← hab]; simp
    obtain ⟨pos', p', q', r1, r2, r3, r4, r5, r6⟩ := isolated_run (o := ascending) (L := ⟨{0, 1}, bigWin, none, pos⟩) hne (hadj a ha) (hadj b hb)
      hab.symm bigWin_open hk hp hq hlt hpw hqw 100
    have hin : Inside ({0, 1} : Finset Nat) bigWin pos' := by
      intro v hv
      rw [← hab] at hv
      rcases Finset.mem_insert.mp hv with rfl | hv
      · exact ⟨p', r2, r5⟩
      · rw [Finset.mem_singleton.mp hv]; exact ⟨q', r3, r6⟩
    obtain ⟨pos'', m1, m2⟩ := mapPos_spec ascending ({0, 1} : Finset Nat) (normalize 1000 (0.04 * 1)) (pos := pos') (fun v hv => by
      obtain ⟨p, hp, -⟩ := hin v hv; rw [hp]; rfl)
    have m3 : ∀ v ∈ ({0, 1} : Finset Nat), (pos'' v).isSome := by
      intro v hv
      obtain ⟨p, hp, -⟩ := hin v hv
      rw [m2 v, if_pos hv, hp]; rfl
    obtain ⟨ns, n1, n2, n3⟩ := drawNodes_spec ascending exDrawOpts.latent exDrawOpts.selection (0.04 * 1) exDrawOpts.bkcolor exDrawOpts.fgcolor
      m3 (labels_of (exDraw_labelled _))
    obtain ⟨es, e1, -⟩ := drawDagEdges_spec ascending hD (0.04 * 1) exDrawOpts.lineColor (fun _ _ => false) false m3 (by simp)
    refine ⟨⟨ns, es, fillLabels exDrawOpts.own {0, 1} exDrawOpts.labels⟩, ?_, ?_⟩
    · unfold drawGraph
      simp only [Drawable.nodes]
      rw [py_bind (show layoutPos exNp2 ascending (.dag ⟨{0, 1}, fun _ => ∅⟩) .default s = .ok (pos', stateAfter exNp2 2 .default) from by
        unfold layoutPos
        simp only [Drawable.nodes]
        rw [py_bind p1]
        simp only
        rw [py_bind r1]
        rfl)]
      simp only
      rw [show (0.04 * exDrawOpts.sizeFactor : ℝ) = 0.04 * 1 from rfl, py_bind m1, py_bind n1, py_bind e1]
      rfl
    · intro x y hx hy
      have a1 := (n3 _ hx).1
      have a2 := (n3 _ hy).1
      simp only at a1 a2
      rw [m2, if_pos ha, r2] at a1
      rw [m2, if_pos hb, r3] at a2
      have b1 := congrArg Prod.fst (Option.some.inj a1)
      have b2 := congrArg Prod.fst (Option.some.inj a2)
      rw [← b1, ← b2]
      simp only [Draw.normalize]
      norm_num
      linarith
  obtain ⟨fig, f1, f2⟩ := run 0 1 0 (by decide) (by decide) (by
    intro pos h
    refine ⟨_, _, h 0 0 rfl, h 1 1 rfl, ?_, ?_, ?_⟩ <;>
      simp [Win.Has, initCoords, uniforms, exNp2, bigWin] <;> norm_num)
  obtain ⟨fig', g1, g2⟩ := run 1 0 1 (by decide) (by decide) (by
    intro pos h
    refine ⟨_, _, h 1 1 rfl, h 0 0 rfl, ?_, ?_, ?_⟩ <;>
      simp [Win.Has, initCoords, uniforms, exNp2, bigWin] <;> norm_num)
  exact ⟨fig, fig', _, f1, g1, f2, fun a b ha hb => g2 b a hb ha⟩

/-! ### Examples for C78 -/

example := C78_pag exNp ascending exM_proper (by simp [exM, MG.ofMarks]) (some {(0, 1)}) (exDraw_labelled _) (by norm_num [exDrawOpts])
  (lt := .circular) (by simp) 7
example := C78_dag exNp ascending exD_wf (by simp [exD]) (exDraw_labelled _) (by norm_num [exDrawOpts]) (lt := .force) (by simp) 7
theorem exM_lists : Lists (some [[0, 1], [2, 3], [4]]) exM.nodes := by
  rintro gs h
  cases h
  exact ⟨by decide, fun v => by simp [exM, MG.ofMarks]⟩
example := C78_temporal_pag_partial exNp ascending exM_proper none exDrawOpts true exM_lists (by simp) ⟨[0, 1], by simp, by simp⟩ 7
theorem exD_lists : Lists (some [[0, 1], [2, 3], [4]]) exD.nodes := by
  rintro gs h
  cases h
  exact ⟨by decide, fun v => by simp [exD]⟩
example := C78_temporal_dag_partial exNp ascending exD_wf (fun a h => by
  simp only [Dag.Edge, exD] at h
  split at h
  · simp at h; omega
  · split at h
    · simp at h; omega
    · simp at h) exDrawOpts true exD_lists (by simp) ⟨[0, 1], by simp, by simp⟩ 7
example := C78_temporal_none exNp ascending exDrawOpts true (G := .dag exD) (by decide) 7
example := C78_temporal_single exNp ascending exDrawOpts true (G := .dag ⟨{0, 1, 2}, fun _ => ∅⟩) ⟨0, by simp [Drawable.nodes]⟩
  exLay_lists1 (by simp) 7
example : ∃ fig fig' t t', drawGraph exNp ascending exDrawOpts .circular (.dag exD) 7 = .ok (fig, t) ∧
    drawGraph exNp ascending exDrawOpts .circular (.pag exM none) 8 = .ok (fig', t') ∧ t = t' := by
  obtain ⟨fig, t, h, -⟩ := C78_dag exNp ascending exD_wf (by simp [exD]) (exDraw_labelled _) (by norm_num [exDrawOpts])
    (lt := .circular) (by simp) 7
  obtain ⟨fig', t', h', -⟩ := C78_pag exNp ascending exM_proper (by simp [exM, MG.ofMarks]) none (exDraw_labelled _) (by norm_num [exDrawOpts])
    (lt := .circular) (by simp) 8
  exact ⟨fig, fig', t, t', h, h', C80_reseeds exNp ascending (by simp [Drawable.nodes, exD])
    (by simp [Drawable.nodes, exD, exM, MG.ofMarks]) h h'⟩
example := C80_circular_partial exNp ascending (G := .dag exD) (by simp [Drawable.nodes, exD]) exDrawOpts 7 8

end Verif
