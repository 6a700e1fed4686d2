import Verif.Lemmas.Layout

/-!
# C77: node layouts
-/

namespace Verif
open Draw
variable {α : Type} [DecidableEq α]

namespace Draw

theorem Lists.mem_index (o : SetOrder α) {N : Finset α} {groups : Option (List (List α))} (h : Lists groups N) {v : α}
    (hv : v ∈ N) : ∃ i, i < N.card ∧ (nodesOrder o N groups)[i]? = some v := by
  obtain ⟨i, hi⟩ := List.getElem?_of_mem (((nodesOrder_spec o h).2 v).mpr hv)
  refine ⟨i, ?_, hi⟩
  rw [← nodesOrder_length o h]
  by_contra hh
  rw [List.getElem?_eq_none (by omega)] at hi
  simp at hi

omit [DecidableEq α] in
theorem Lists.mem_group (o : SetOrder α) {L : Layout α} (h : Lists L.groups L.nodes) {v : α} (hv : v ∈ L.nodes) :
    ∃ (i j : Nat) (g : List α), (columnGroups o L)[i]? = some g ∧ g[j]? = some v := by
  have hfl : (columnGroups o L).flatten = nodesOrder o L.nodes L.groups := by
    unfold columnGroups nodesOrder
    cases L.groups <;> simp
  have := ((nodesOrder_spec o h).2 v).mpr hv
  rw [← hfl, List.mem_flatten] at this
  obtain ⟨g, hg, hv⟩ := this
  obtain ⟨i, hi⟩ := List.getElem?_of_mem hg
  obtain ⟨j, hj⟩ := List.getElem?_of_mem hv
  exact ⟨i, j, g, hi, hj⟩

theorem getElem?_lt {β : Type} {l : List β} {i : Nat} {b : β} (h : l[i]? = some b) : i < l.length := by
  by_contra hh
  rw [List.getElem?_eq_none (by omega)] at h
  simp at h

theorem forceInit_spec {S : Type} (g : NpRandom S) (o : SetOrder α) {N : Finset α} (hN : N.Nonempty) {w : Win}
    (hw : w.left ≤ w.right ∧ w.top ≤ w.bottom) {groups : Option (List (List α))} (h : Lists groups N) (s : S) :
    ∃ pos k, forceInit g o N w groups none s =
        .ok (⟨N, w, groups, pos⟩, k, (initCoords g w N.card groups (g.seed 123)).2.2) ∧ (∀ v, (pos v).isSome ↔ v ∈ N) ∧
      0 ≤ k ∧ k * k * N.card = (w.right - w.left) * (w.bottom - w.top) ∧
      ∀ i v, (nodesOrder o N groups)[i]? = some v →
        pos v = some ((initCoords g w N.card groups s).1.getD i 0, (initCoords g w N.card groups s).2.1.getD i 0) := by
  obtain ⟨pos, p1, p2, p3⟩ := baseInit_spec g o w h s
  obtain ⟨pos', q1, q2, -⟩ := baseInit_spec g o w h (g.seed 123)
  obtain ⟨pos'', c1, -, -⟩ := circleCalc_spec o (L := ⟨N, w, groups, pos'⟩) h (fun v hv => (q2 v).mpr hv)
  have hc : (0 : ℝ) < N.card := by exact_mod_cast hN.card_pos
  have hk : 0 ≤ (w.right - w.left) * (w.bottom - w.top) / (N.card : ℝ) :=
    div_nonneg (mul_nonneg (by linarith [hw.1]) (by linarith [hw.2])) hc.le
  refine ⟨pos, Real.sqrt ((w.right - w.left) * (w.bottom - w.top) / (N.card : ℝ)), ?_, p2, Real.sqrt_nonneg _, ?_, p3⟩
  · unfold forceInit
    rw [py_bind p1]
    simp only
    rw [py_bind (show defaultK w N.card = .ok _ from by
      unfold defaultK
      rw [if_neg hN.card_pos.ne', if_neg (not_lt.mpr hk)]), py_bind q1]
    simp only
    rw [py_bind c1]
    rfl
  · rw [Real.mul_self_sqrt hk]
    field_simp

/-- Clamping to an interval is a contraction towards the points of the interval. -/
theorem clamp_le {a b p x : ℝ} (h1 : a ≤ p) (h2 : p ≤ b) : (p - pyMin b (pyMax a (some x))) ^ 2 ≤ (p - x) ^ 2 := by
  unfold pyMin pyMax
  simp only
  split_ifs <;> nlinarith

theorem move_step {w : Win} {m : ℝ} (hm : 0 ≤ m) {p d : Vec} (hp : w.Has p) :
    (d = (0, 0) ∧ move w m p d = (pyMin w.right w.left, pyMin w.bottom w.top)) ∨ sqDist p (move w m p d) ≤ m ^ 2 := by
  have hn0 := Real.sqrt_nonneg (d.1 * d.1 + d.2 * d.2)
  have hn2 : Real.sqrt (d.1 * d.1 + d.2 * d.2) * Real.sqrt (d.1 * d.1 + d.2 * d.2) = d.1 * d.1 + d.2 * d.2 :=
    Real.mul_self_sqrt (by nlinarith [mul_self_nonneg d.1, mul_self_nonneg d.2])
  unfold move sqDist
  simp only
  generalize Real.sqrt (d.1 * d.1 + d.2 * d.2) = n at hn0 hn2 ⊢
  by_cases hn : n = 0
  · left
    subst hn
    have h1 : d.1 = 0 := by nlinarith [mul_self_nonneg d.1, mul_self_nonneg d.2]
    have h2 : d.2 = 0 := by nlinarith [mul_self_nonneg d.1, mul_self_nonneg d.2]
    exact ⟨Prod.ext h1 h2, by simp [nanDiv, pyMax]⟩
  · right
    have hmin : 0 ≤ pyMin n m ∧ pyMin n m ≤ m := by unfold pyMin; split <;> constructor <;> linarith
    simp only [nanDiv, if_neg hn, Option.map_some]
    have h1 := clamp_le hp.1 hp.2.1 (x := p.1 + d.1 / n * pyMin n m)
    have h2 := clamp_le hp.2.2.1 hp.2.2.2 (x := p.2 + d.2 / n * pyMin n m)
    have h3 : (p.1 - (p.1 + d.1 / n * pyMin n m)) ^ 2 + (p.2 - (p.2 + d.2 / n * pyMin n m)) ^ 2 = (pyMin n m) ^ 2 := by
      have : (d.1 * d.1 + d.2 * d.2) / (n * n) = 1 := by rw [← hn2]; field_simp
      calc _ = (d.1 * d.1 + d.2 * d.2) / (n * n) * (pyMin n m) ^ 2 := by field_simp; ring
        _ = _ := by rw [this, one_mul]
    have h4 : (pyMin n m) ^ 2 ≤ m ^ 2 := by nlinarith [hmin.1, hmin.2]
    linarith

end Draw

/-- C77, circular layout: it always succeeds, the nodes are spread evenly on the ellipse of the window in the order of the groups,
inside of the window and at different places. -/
theorem C77_circle {S : Type} (g : NpRandom S) (o : SetOrder α) {N : Finset α} {w : Win} {groups : Option (List (List α))}
    (h : Lists groups N) (hw : w.left ≤ w.right ∧ w.top ≤ w.bottom) (s : S) :
    ∃ L s' pos, baseInit g o N w groups s = .ok (L, s') ∧ circleCalc o L = .ok pos ∧ Inside N w pos ∧
      (w.Open → Apart N pos) ∧
      ∀ gs, groups = some gs → ∀ (i : Nat) v, gs.flatten[i]? = some v →
        pos v = some ((w.left + w.right) / 2 + (w.right - w.left) / 2 * Real.cos (2 * Real.pi * i / N.card),
          (w.top + w.bottom) / 2 + (w.bottom - w.top) / 2 * Real.sin (2 * Real.pi * i / N.card)) := by
  obtain ⟨pos, p1, p2, -⟩ := baseInit_spec g o w h s
  obtain ⟨pos', c1, -, c3⟩ := circleCalc_spec o (L := ⟨N, w, groups, pos⟩) h (fun v hv => (p2 v).mpr hv)
  simp only at c3
  refine ⟨_, _, pos', p1, c1, ?_, ?_, ?_⟩
  · intro v hv
    obtain ⟨i, -, hi⟩ := h.mem_index o hv
    exact ⟨_, c3 i v hi, circlePoint_has hw _ _⟩
  · intro ho u hu v hv huv
    obtain ⟨i, hi', hi⟩ := h.mem_index o hu
    obtain ⟨j, hj', hj⟩ := h.mem_index o hv
    rw [c3 i u hi, c3 j v hj] at huv
    have := circlePoint_inj ho hi' hj' (Option.some.inj huv)
    subst this
    rw [hi] at hj
    exact Option.some.inj hj
  · intro gs hgs i v hi
    subst hgs
    rw [c3 i v hi]
    unfold circlePoint
    rw [add_comm w.right, add_comm w.bottom]

/-- C77, column layout: if some group has two nodes, it succeeds; group `i` is column `i` from the left, its nodes from the bottom
border on, all nodes are in the window and at different places. -/
theorem C77_column_partial {S : Type} (g : NpRandom S) (o : SetOrder α) {N : Finset α} {w : Win} {gs : List (List α)}
    (h : Lists (some gs) N) (hw : w.left ≤ w.right ∧ w.top ≤ w.bottom) (h2 : ∃ c ∈ gs, 1 < c.length) (s : S) :
    ∃ L s' pos, baseInit g o N w (some gs) s = .ok (L, s') ∧ columnCalc o L = .ok pos ∧ Inside N w pos ∧
      (w.Open → Apart N pos) ∧
      ∃ m, (∀ c ∈ gs, c.length ≤ m) ∧ (∃ c ∈ gs, c.length = m) ∧
        ∀ (i j : Nat) c v, gs[i]? = some c → c[j]? = some v → ∃ x, pos v = some (x, w.bottom + (w.top - w.bottom) * j / ((m : ℝ) - 1)) ∧
          (1 < gs.length → x = w.left + (w.right - w.left) * i / ((gs.length : ℝ) - 1)) := by
  obtain ⟨pos, p1, p2, -⟩ := baseInit_spec g o w h s
  obtain ⟨c, hc, hc2⟩ := h2
  have hmx := maxGroup_le (gs := gs)
  have hm : 1 < maxGroup gs := lt_of_lt_of_le hc2 (hmx.1 c hc)
  obtain ⟨pos', c1, -, c3⟩ := columnCalc_spec o (L := ⟨N, w, some gs, pos⟩) h (fun v hv => (p2 v).mpr hv) (by
    change maxGroup gs ≠ 1; omega)
  change ∀ i j g v, gs[i]? = some g → g[j]? = some v → pos' v = some (columnPoint w gs.length (maxGroup gs) i j) at c3
  have hidx : ∀ v ∈ N, ∃ i j c, gs[i]? = some c ∧ c[j]? = some v ∧ i < gs.length ∧ j < maxGroup gs := by
    intro v hv
    obtain ⟨i, j, c, hi, hj⟩ := Lists.mem_group o (L := ⟨N, w, some gs, pos⟩) h hv
    exact ⟨i, j, c, hi, hj, getElem?_lt hi, lt_of_lt_of_le (getElem?_lt hj) (hmx.1 c (List.mem_of_getElem? hi))⟩
  refine ⟨_, _, pos', p1, c1, ?_, ?_, maxGroup gs, hmx.1, hmx.2.resolve_left (by omega), ?_⟩
  · intro v hv
    obtain ⟨i, j, c, hi, hj, hi', hj'⟩ := hidx v hv
    exact ⟨_, c3 i j c v hi hj, columnPoint_has hw hi' hj' (by omega)⟩
  · intro ho u hu v hv huv
    obtain ⟨i, j, c, hi, hj, hi', -⟩ := hidx u hu
    obtain ⟨i2, j2, c2, hi2, hj2, hi2', -⟩ := hidx v hv
    rw [c3 i j c u hi hj, c3 i2 j2 c2 v hi2 hj2] at huv
    obtain ⟨rfl, rfl⟩ := columnPoint_inj ho hi' hi2' hm (Option.some.inj huv)
    rw [hi] at hi2
    cases hi2
    rw [hj] at hj2
    exact Option.some.inj hj2
  · intro i j c v hi hj
    refine ⟨_, c3 i j c v hi hj, fun h1 => ?_⟩
    rw [if_pos h1]

/-- C77 fails for the column layout: with one node per group (every one-variable time series) it divides by zero. -/
theorem C77_column_fails {S : Type} (g : NpRandom S) (o : SetOrder α) {N : Finset α} (hN : N.Nonempty) (w : Win) {gs : List (List α)}
    (h : Lists (some gs) N) (h1 : ∀ c ∈ gs, c.length ≤ 1) (s : S) :
    ∃ L s', baseInit g o N w (some gs) s = .ok (L, s') ∧ columnCalc o L = .error .zeroDivision := by
  obtain ⟨pos, p1, p2, -⟩ := baseInit_spec g o w h s
  refine ⟨_, _, p1, columnCalc_fails o ?_⟩
  change maxGroup gs = 1
  have hmx := maxGroup_le (gs := gs)
  obtain ⟨v, hv⟩ := hN
  obtain ⟨c, hc, hvc⟩ := List.mem_flatten.mp (((h gs rfl).2 v).mpr hv)
  have h3 := hmx.1 c hc
  have h4 := List.length_pos_of_mem hvc
  rcases hmx.2 with h5 | ⟨c', hc', h5⟩
  · omega
  · have := h1 c' hc'
    omega

/-- C77, force-directed layout: the whole run succeeds for every non-empty graph and leaves every node inside of the window. -/
theorem C77_force {S : Type} (g : NpRandom S) (o : SetOrder α) {N : Finset α} (hN : N.Nonempty) {w : Win} (hw : w.Open)
    {groups : Option (List (List α))} (h : Lists groups N) {adj : α → Py (Finset α)}
    (hadj : ∀ v ∈ N, ∃ A, adj v = .ok A ∧ A ⊆ N) (s : S) {rounds : Nat} (hr : 0 < rounds) :
    ∃ L k s' pos, forceInit g o N w groups none s = .ok (L, k, s') ∧ 0 < k ∧
      k ^ 2 * N.card = (w.right - w.left) * (w.bottom - w.top) ∧ forceCalc o adj L k rounds = .ok pos ∧ Inside N w pos := by
  have hw' : w.left ≤ w.right ∧ w.top ≤ w.bottom := ⟨hw.1.le, hw.2.le⟩
  obtain ⟨pos, k, p1, p2, p3, p4, -⟩ := forceInit_spec g o hN hw' h s
  obtain ⟨pos', q1, -, q3⟩ := forceCalc_spec o (L := ⟨N, w, groups, pos⟩) hadj hw' k (fun v hv => (p2 v).mpr hv) rounds
  refine ⟨_, k, _, pos', p1, ?_, by rw [← p4]; ring, q1, q3 hr⟩
  have hc : (0 : ℝ) < N.card := by exact_mod_cast hN.card_pos
  have : 0 < k * k * N.card := by rw [p4]; exact mul_pos (by linarith [hw.1]) (by linarith [hw.2])
  have hk2 : 0 < k * k := pos_of_mul_pos_left this hc.le
  nlinarith

/-- C77, one round of the force-directed layout: a node in the window moves by at most `k / (i + 1)`, or jumps to the corner. -/
theorem C77_force_step_partial (o : SetOrder α) {N : Finset α} {w : Win} (hw : w.Open) {adj : α → Py (Finset α)}
    (hadj : ∀ v ∈ N, ∃ A, adj v = .ok A ∧ A ⊆ N) {k : ℝ} (hk : 0 ≤ k) (i : Nat) {pos : α → Option Vec} (hp : Inside N w pos) :
    ∃ pos', forceRound o adj N w k i pos = .ok pos' ∧ ∀ v ∈ N, ∃ p p', pos v = some p ∧ pos' v = some p' ∧
      (p' = (w.left, w.top) ∨ sqDist p p' ≤ (k / ((i : ℝ) + 1)) ^ 2) := by
  obtain ⟨pos', p1, -, p3⟩ := forceRound_spec o hadj w k i (pos := pos) (fun v hv => by
    obtain ⟨p, h, -⟩ := hp v hv
    rw [h]; rfl)
  refine ⟨pos', p1, fun v hv => ?_⟩
  obtain ⟨p, f, f', h1, -, -, h4⟩ := p3 v hv
  obtain ⟨p0, h0, hin⟩ := hp v hv
  rw [h1] at h0
  cases h0
  refine ⟨p, _, h1, h4, ?_⟩
  rcases move_step (m := k / ((i : ℝ) + 1)) (by positivity) hin (d := (f.1 + f'.1, f.2 + f'.2)) with h | h
  · left
    rw [h.2]
    unfold pyMin
    rw [if_pos hw.1, if_pos hw.2]
  · exact Or.inr h

/-- C77 fails for nodes without net force: a graph with a single node is always drawn in the corner of the window, wherever the node
started and however small the allowed step is. -/
theorem C77_force_corner (o : SetOrder α) (v : α) {L : Layout α} (hN : L.nodes = {v}) (hw : L.win.Open) {adj : α → Py (Finset α)}
    (hadj : adj v = .ok ∅) (k : ℝ) {p : Vec} (hp : L.pos v = some p) {rounds : Nat} (hr : 0 < rounds) :
    ∃ pos, forceCalc o adj L k rounds = .ok pos ∧ pos v = some (L.win.left, L.win.top) := by
  have hA : ∀ u ∈ L.nodes, ∃ A, adj u = .ok A ∧ A ⊆ L.nodes := by
    intro u hu
    rw [hN, Finset.mem_singleton] at hu
    subst hu
    exact ⟨∅, hadj, by simp⟩
  have hP : ∀ u ∈ L.nodes, (L.pos u).isSome := by
    intro u hu
    rw [hN, Finset.mem_singleton] at hu
    subst hu
    rw [hp]; rfl
  obtain ⟨n, rfl⟩ : ∃ n, rounds = n + 1 := ⟨rounds - 1, by omega⟩
  obtain ⟨pos, h1, h2, -⟩ := forceCalc_spec o hA ⟨hw.1.le, hw.2.le⟩ k hP n
  obtain ⟨pos', p1, -, p3⟩ := forceRound_spec o hA L.win k n h2
  refine ⟨pos', ?_, ?_⟩
  · unfold forceCalc at h1 ⊢
    rw [List.range_succ, List.foldlM_append, py_bind h1, List.foldlM_cons, py_bind p1]
    rfl
  · obtain ⟨q, f, f', -, r1, r2, r3⟩ := p3 v (by rw [hN]; simp)
    have e1 : o.iter v (L.nodes \ {v}) = [] := by
      rw [List.eq_nil_iff_forall_not_mem]
      intro x hx
      rw [o.mem, hN] at hx
      simp at hx
    have e2 : o.iter v (∅ : Finset α) = [] := by
      rw [List.eq_nil_iff_forall_not_mem]
      intro x hx
      rw [o.mem] at hx
      simp at hx
    unfold repulse at r1
    rw [e1] at r1
    cases r1
    unfold attract at r2
    rw [py_bind hadj, e2] at r2
    cases r2
    rw [r3]
    unfold move
    simp [nanDiv, pyMax, pyMin, hw.1, hw.2]

/-- C77: the groups have to list all nodes: with fewer entries than nodes every layout raises IndexError. -/
theorem C77_short {S : Type} (g : NpRandom S) (o : SetOrder α) {N : Finset α} (w : Win) {gs : List (List α)}
    (h : gs.flatten.length < N.card) (s : S) : baseInit g o N w (some gs) s = .error .indexError := by
  have key : ∀ (n : Nat) (c : List ℝ × List ℝ × S) (pos : α → Option Vec), gs.flatten.length < n →
      (List.range n).foldlM (fun (pos : α → Option Vec) idx => (match gs.flatten[idx]? with
        | none => .error .indexError
        | some v => .ok (setPos pos v (c.1.getD idx 0, c.2.1.getD idx 0)) : Py (α → Option Vec))) pos = .error .indexError := by
    intro n c
    induction n with
    | zero => intro pos h; omega
    | succ n ih =>
      intro pos hn
      rw [List.range_succ, List.foldlM_append]
      by_cases hlt : gs.flatten.length < n
      · rw [ih pos hlt]; rfl
      · cases hr : (List.range n).foldlM (fun (pos : α → Option Vec) idx => (match gs.flatten[idx]? with
          | none => .error .indexError
          | some v => .ok (setPos pos v (c.1.getD idx 0, c.2.1.getD idx 0)) : Py (α → Option Vec))) pos with
        | ok q =>
          rw [py_bind rfl, List.foldlM_cons]
          have : gs.flatten[n]? = none := List.getElem?_eq_none (by omega)
          rw [this]; rfl
        | error e =>
          have : ∀ (l : List Nat) (pos : α → Option Vec) e, l.foldlM (fun (pos : α → Option Vec) idx => (match gs.flatten[idx]? with
              | none => .error .indexError
              | some v => .ok (setPos pos v (c.1.getD idx 0, c.2.1.getD idx 0)) : Py (α → Option Vec))) pos = .error e → e = .indexError := by
            intro l
            induction l with
            | nil => intro pos e h; cases h
            | cons a l ih2 =>
              intro pos e h
              rw [List.foldlM_cons] at h
              cases ha : gs.flatten[a]? with
              | none => rw [ha] at h; cases h; rfl
              | some v => rw [ha, py_bind rfl] at h; exact ih2 _ _ h
          rw [this _ _ _ hr]; rfl
  unfold baseInit
  simp only
  have := key N.card (initCoords g w N.card (some gs) s) (fun _ => none) h
  have e : ∀ (x : Py (α → Option Vec)) (f : (α → Option Vec) → Py (Layout α × S)), x = .error .indexError →
      (x >>= f) = .error .indexError := by rintro _ f rfl; rfl
  exact e _ _ this

/-- Three nodes `0, 1, 2` in the window of `draw_temporal_graph`. -/
def exLay : Win := ⟨-1, 1, -1, 1⟩
theorem exLay_open : exLay.Open := by unfold Win.Open exLay; norm_num
theorem exLay_lists : Lists (some [[0, 1], [2]]) ({0, 1, 2} : Finset Nat) := by
  rintro gs h
  cases h
  exact ⟨by decide, fun v => by simp⟩
theorem exLay_lists1 : Lists (some [[0], [1], [2]]) ({0, 1, 2} : Finset Nat) := by
  rintro gs h
  cases h
  exact ⟨by decide, fun v => by simp⟩
/-- A generator that always draws 1/2. -/
noncomputable def exNp : NpRandom Nat := ⟨fun n => (1 / 2, n + 1), fun n => n, fun _ => by norm_num⟩

example : ∃ L s' pos, baseInit exNp ascending {0, 1, 2} exLay (some [[0, 1], [2]]) 7 = .ok (L, s') ∧ circleCalc ascending L = .ok pos ∧
    Apart {0, 1, 2} pos ∧ pos 0 = some (1, 0) := by
  obtain ⟨L, s', pos, h1, h2, -, h4, h5⟩ := C77_circle exNp ascending exLay_lists ⟨exLay_open.1.le, exLay_open.2.le⟩ 7
  refine ⟨L, s', pos, h1, h2, h4 exLay_open, ?_⟩
  rw [h5 _ rfl 0 0 rfl]
  simp [exLay]
example : ∃ L s' pos, baseInit exNp ascending {0, 1, 2} exLay (some [[0, 1], [2]]) 7 = .ok (L, s') ∧ columnCalc ascending L = .ok pos ∧
    Apart {0, 1, 2} pos ∧ pos 2 = some (1, 1) := by
  obtain ⟨L, s', pos, h1, h2, -, h4, m, -, -, h5⟩ := C77_column_partial exNp ascending exLay_lists ⟨exLay_open.1.le, exLay_open.2.le⟩
    ⟨[0, 1], by simp, by simp⟩ 7
  obtain ⟨x, h6, h7⟩ := h5 1 0 [2] 2 rfl rfl
  refine ⟨L, s', pos, h1, h2, h4 exLay_open, h6.trans ?_⟩
  rw [h7 (by simp)]
  norm_num [exLay]
example := C77_column_fails exNp ascending (by simp) exLay exLay_lists1 (by simp) 7
example := C77_force exNp ascending (by simp) exLay_open exLay_lists (adj := fun v => .ok (({0, 1, 2} : Finset Nat).erase v))
  (fun v _ => ⟨_, rfl, Finset.erase_subset _ _⟩) 7 (rounds := 100) (by norm_num)
example := C77_force_corner ascending 5 (L := ⟨{5}, exLay, none, fun _ => some (0, 0)⟩) rfl exLay_open (adj := fun _ => .ok ∅) rfl 1
  (p := (0, 0)) rfl (rounds := 100) (by norm_num)
example := C77_short exNp ascending exLay (N := {0, 1, 2}) (gs := [[0], [1]]) (by decide) 7

end Verif
