import Verif.Lemmas.TsClosed

/-!
# C52, C67, C68, C69: TS-ICD
-/

namespace Verif
open TsSpec TsIcd

variable {α : Type} [LinearOrder α]

/-! ## C67: homology maps -/

/-- `get_edge_homology` of a present node `n0` and a node `n1`: exactly the pairs that are these two nodes moved back by
the same positive number of steps. A first node of the past gives an AssertionError, an unknown node a KeyError. -/
theorem C67_edge_homology {sets : List (List α)} (hg : Grid sets) (n0 n1 : α) :
    (∀ i, Cell sets 0 i n0 → n1 ∈ sets.flatten → ∃ l, edgeHomology sets n0 n1 = .ok l ∧
      ∀ a b, (a, b) ∈ l ↔ ∃ k, 1 ≤ k ∧ Shift sets k n0 a ∧ Shift sets k n1 b) ∧
    (∀ t i, Cell sets (t + 1) i n0 → edgeHomology sets n0 n1 = .error .assertionError) ∧
    (n0 ∉ sets.flatten → edgeHomology sets n0 n1 = .error .keyError) ∧
    (∀ i, Cell sets 0 i n0 → n1 ∉ sets.flatten → edgeHomology sets n0 n1 = .error .keyError) := by
  refine ⟨?_, ?_, ?_, ?_⟩
  · intro i h0 h1
    obtain ⟨t1, i1, h1⟩ := cell_of_mem h1
    obtain ⟨l, e, hl⟩ := edgeHomology_spec hg h0 h1
    refine ⟨l, e, fun a b => ?_⟩
    rw [hl]
    constructor
    · rintro ⟨k, q1, q2, q3⟩
      exact ⟨k, q1, ⟨0, i, h0, by rwa [Nat.zero_add]⟩, ⟨t1, i1, h1, q3⟩⟩
    · rintro ⟨k, q1, ⟨t, j, q2, q3⟩, ⟨t', j', q4, q5⟩⟩
      obtain ⟨rfl, rfl⟩ := h0.unique hg q2
      obtain ⟨rfl, rfl⟩ := h1.unique hg q4
      exact ⟨k, q1, by rwa [Nat.zero_add] at q3, q5⟩
  · intro t i h
    exact edgeHomology_err (time_of_cell hg h) (by omega)
  · intro h
    rw [edgeHomology, time_err h]
    rfl
  · intro i h0 h1
    rw [edgeHomology, py_bind (time_of_cell hg h0), if_neg (by simp), time_err h1]
    rfl

/-- `get_ci_homology` of a present node, a node and a non-empty conditioning tuple: exactly the triples that are these
moved back by the same positive number of steps, in the same order. An empty tuple gives a ValueError, a first node
of the past an AssertionError. -/
theorem C67_ci_homology {sets : List (List α)} (hg : Grid sets) (n0 n1 : α) (z : List α) :
    (∀ i, Cell sets 0 i n0 → n1 ∈ sets.flatten → (∀ x ∈ z, x ∈ sets.flatten) → z ≠ [] →
      ∃ l, ciHomology sets n0 n1 z = .ok l ∧
        ∀ a b c, (a, b, c) ∈ l ↔ ∃ k, 1 ≤ k ∧ Shift sets k n0 a ∧ Shift sets k n1 b ∧ List.Forall₂ (Shift sets k) z c) ∧
    (∀ i, Cell sets 0 i n0 → n1 ∈ sets.flatten → ciHomology sets n0 n1 [] = .error .valueError) ∧
    (∀ t i, Cell sets (t + 1) i n0 → ciHomology sets n0 n1 z = .error .assertionError) := by
  refine ⟨?_, ?_, ?_⟩
  · intro i h0 h1 hz hne
    obtain ⟨t1, i1, h1⟩ := cell_of_mem h1
    obtain ⟨l, e, hl⟩ := ciHomology_spec hg h0 h1 hz hne
    refine ⟨l, e, fun a b c => ?_⟩
    rw [hl]
    constructor
    · rintro ⟨k, q1, q2, q3, q4⟩
      exact ⟨k, q1, ⟨0, i, h0, by rwa [Nat.zero_add]⟩, ⟨t1, i1, h1, q3⟩, q4⟩
    · rintro ⟨k, q1, ⟨t, j, q2, q3⟩, ⟨t', j', q4, q5⟩, q6⟩
      obtain ⟨rfl, rfl⟩ := h0.unique hg q2
      obtain ⟨rfl, rfl⟩ := h1.unique hg q4
      exact ⟨k, q1, by rwa [Nat.zero_add] at q3, q5, q6⟩
  · intro i h0 h1
    obtain ⟨t1, i1, h1⟩ := cell_of_mem h1
    rw [ciHomology, py_bind (time_of_cell hg h0), if_neg (by simp), py_bind (time_of_cell hg h1)]
    change (do
      let i0 ← idx sets n0
      let i1 ← idx sets n1
      _) = _
    rw [py_bind (idx_of_cell hg h0), py_bind (idx_of_cell hg h1)]
  · intro t i h
    exact ciHomology_err (time_of_cell hg h) (by omega)

/-- The pairs on which an orientation is written are exactly the pairs of the same variables with the same lag. -/
theorem C67_mark_homology {sets : List (List α)} (hg : Grid sets) {p c : α} (hp : p ∈ sets.flatten) (hc : c ∈ sets.flatten) :
    ∃ l, markHomology sets p c = .ok l ∧ ∀ a b, (b, a) ∈ l ↔ Homologous sets p c a b :=
  markHomology_spec hg hp hc

/-- A window with three time steps and two variables. -/
def exWin : List (List Nat) := [[0, 1], [2, 3], [4, 5]]

theorem exWin_grid : Grid exWin := ⟨by decide, ⟨2, by decide⟩, by decide⟩

example : edgeHomology exWin 0 3 = .ok [(2, 5)] ∧ edgeHomology exWin 0 1 = .ok [(2, 3), (4, 5)] ∧
    ciHomology exWin 0 1 [3] = .ok [(2, 3, [5])] ∧ ciHomology exWin 0 1 [4] = .ok [] ∧
    markHomology exWin 5 2 = .ok [(2, 5), (0, 3)] := by decide

/-! ## C68: every removal is accounted for -/

/-- The edge is in the initial graph of the constructor. -/
def TsIcd.InitialEdge (sets : List (List α)) (initial : Option (MG α)) (a b : α) : Prop :=
  match initial with
  | none => a ∈ sets.flatten ∧ b ∈ sets.flatten ∧ a ≠ b
  | some P => P.MAdj a b

/-- An initial graph: marks only between different nodes, of the window, at most one at each end of an edge. -/
def TsIcd.InitialOk (sets : List (List α)) (initial : Option (MG α)) : Prop :=
  ∀ P, initial = some P → P.Weak ∧ ∀ v ∈ P.nodes, v ∈ sets.flatten

theorem TsIcd.run_acc {o : SetOrder α} {sets : List (List α)} {homology : Bool} {initial : Option (MG α)} {opts : IcdOpts}
    {ci : CITest α} {st : IcdState α} (hini : InitialOk sets initial)
    (h : run o sets homology initial opts ci = .ok st) :
    ∃ cfg P, Grid sets ∧ cfg.sets = sets ∧ cfg.homology = homology ∧
      (initial = some P ∨ (initial = none ∧ defaultPag sets = .ok P)) ∧
      (∀ a b m, Dict.get? cfg.fixed (a, b) = some m → P.At a b m) ∧
      Acc ci cfg P st ∧ Final ci cfg o P st := by
  rw [run] at h
  obtain ⟨⟨cfg, s0⟩, e1, e2⟩ := py_bind_ok h
  obtain ⟨hg, q1, q2, -, P, q3, q4, q5⟩ := init_acc (ci := ci) o (fun P hP => ⟨(hini P hP).1, fun v hv => by
    rw [nodesOf, List.mem_toFinset]; exact (hini P hP).2 v hv⟩) e1
  have hg' : Grid cfg.sets := by rw [q1]; exact hg
  obtain ⟨r1, r2⟩ := loop_acc o hg' _ (st := { s0 with done := false, size := 0 }) ⟨q4.weak, q4.nodes, q4.sep, q4.past⟩ e2
  exact ⟨cfg, P, hg, q1, q2, q3, q5, r1, r2⟩

theorem TsIcd.initial_edge {sets : List (List α)} (hg : Grid sets) {initial : Option (MG α)} {P : MG α}
    (h : initial = some P ∨ (initial = none ∧ defaultPag sets = .ok P)) {a b : α} :
    InitialEdge sets initial a b ↔ P.MAdj a b := by
  classical
  rcases h with rfl | ⟨rfl, h⟩
  · rfl
  · obtain ⟨P', e1, -, -, e4⟩ := defaultPag_spec hg
    rw [h] at e1
    cases e1
    simp only [MG.MAdj, e4, InitialEdge]
    constructor
    · rintro ⟨h1, h2, h3⟩
      by_cases hl : Later sets b a
      · exact Or.inl ⟨.arrow, h1, h2, h3, by rw [if_pos hl]⟩
      · exact Or.inl ⟨.circle, h1, h2, h3, by rw [if_neg hl]⟩
    · rintro (⟨m, h1, h2, h3, -⟩ | ⟨m, h1, h2, h3, -⟩)
      · exact ⟨h1, h2, h3⟩
      · exact ⟨h2, h1, h3.symm⟩

/-- Every edge of the initial graph that is missing in the result of a run of TS-ICD has a recorded separating set, and
that set comes from a CI test of the run with result "independent": a test of a present node and another node, all moved
back by the same number of steps (not moved if homology is off). -/
theorem C68 {o : SetOrder α} {sets : List (List α)} {homology : Bool} {initial : Option (MG α)} {opts : IcdOpts}
    {ci : CITest α} {st : IcdState α} (hini : InitialOk sets initial)
    (h : run o sets homology initial opts ci = .ok st) {a b : α} (h0 : InitialEdge sets initial a b)
    (hab : ¬ st.graph.MAdj a b) :
    ∃ S, st.sep.get a b = .ok S ∧ Justified ci sets homology st.calls a b S := by
  obtain ⟨cfg, P, hg, rfl, rfl, q3, -, r1, -⟩ := run_acc hini h
  exact r1.sep a b ((initial_edge hg q3).mp h0) hab

/-- If no CI test ever reports independence then no edge of the initial graph is lost. -/
theorem C68_dependent {o : SetOrder α} {sets : List (List α)} {homology : Bool} {initial : Option (MG α)} {opts : IcdOpts}
    {st : IcdState α} (hini : InitialOk sets initial)
    (h : run o sets homology initial opts (fun _ _ _ _ => false) = .ok st) {a b : α} (h0 : InitialEdge sets initial a b) :
    st.graph.MAdj a b := by
  by_contra hab
  obtain ⟨S, -, n, i, j, z, k, c, -, q, -⟩ := C68 hini h h0 hab
  cases q

/-! ## C69: time order and stationarity of the result -/

/-- The initial graph, if given, has an arrowhead at the later node of every edge between different times. -/
def TsIcd.InitialForward (sets : List (List α)) (initial : Option (MG α)) : Prop :=
  ∀ P, initial = some P → ∀ a b m, Later sets b a → P.At a b m → m = .arrow

theorem TsIcd.fixed_forward {sets : List (List α)} (hg : Grid sets) {initial : Option (MG α)} {P : MG α}
    (h : initial = some P ∨ (initial = none ∧ defaultPag sets = .ok P)) (hf : InitialForward sets initial)
    {fixed : Dict (α × α) Mark} (hx : ∀ a b m, Dict.get? fixed (a, b) = some m → P.At a b m) : FixedForward sets fixed := by
  classical
  intro a b m hl hm
  rcases h with rfl | ⟨rfl, h⟩
  · exact hf P rfl a b m hl (hx _ _ _ hm)
  · obtain ⟨P', e1, -, -, e4⟩ := defaultPag_spec hg
    rw [h] at e1
    cases e1
    have := ((e4 a b m).mp (hx _ _ _ hm)).2.2.2
    rwa [if_pos hl] at this

/-- Every edge between different times in the result of a run of TS-ICD has an arrowhead at the later node, for the
default initial graph and for initial graphs with that property. -/
theorem C69_time_order {o : SetOrder α} {sets : List (List α)} {homology : Bool} {initial : Option (MG α)} {opts : IcdOpts}
    {ci : CITest α} {st : IcdState α} (hini : InitialOk sets initial) (hf : InitialForward sets initial)
    (h : run o sets homology initial opts ci = .ok st) {a b : α} (hl : Later sets b a) (hab : st.graph.MAdj a b) :
    st.graph.At a b .arrow ∧ ∀ m, st.graph.At a b m → m = .arrow := by
  obtain ⟨cfg, P, hg, rfl, rfl, q3, q4, r1, s, r2, c, r3⟩ := run_acc hini h
  obtain ⟨w, -, -, -, hF⟩ := orientGraph_facts o hg r2.weak r2.nodes r3
  have := (hF (fixed_forward hg q3 hf q4)).1 a b hl hab
  exact ⟨this, fun m hm => w.one _ _ _ _ hm this⟩

/-- Arrowheads and tails in the result of a run of TS-ICD do not depend on time: the same pair of variables with the same
lag has the same mark anywhere in the window. -/
theorem C69_stationary {o : SetOrder α} {sets : List (List α)} {homology : Bool} {initial : Option (MG α)} {opts : IcdOpts}
    {ci : CITest α} {st : IcdState α} (hini : InitialOk sets initial)
    (h : run o sets homology initial opts ci = .ok st) {a b c d : α} (hh : Homologous sets a b c d) {m : Mark}
    (hm : m ≠ .circle) : st.graph.At a b m ↔ st.graph.At c d m := by
  obtain ⟨cfg, P, hg, rfl, rfl, q3, q4, r1, s, r2, c', r3⟩ := run_acc hini h
  obtain ⟨-, -, -, hS, -⟩ := orientGraph_facts o hg r2.weak r2.nodes r3
  exact ⟨fun h => hS _ _ _ _ _ hh h hm, fun h => hS _ _ _ _ _ hh.symm h hm⟩

/-! ## C52: orientation restores removed edges -/

/-- Without homology no removal of an edge between different times can last, unless its lag is the longest of the window:
such a pair is adjacent in the result whatever the CI tests say. -/
theorem C52_no_homology {o : SetOrder α} {sets : List (List α)} {opts : IcdOpts} {ci : CITest α} {st : IcdState α}
    (h : run o sets false none opts ci = .ok st) {a b : α} {t i k j : Nat} (ha : Cell sets t i a)
    (hb : Cell sets (t + k + 1) j b) (hk : k + 2 < sets.length) : st.graph.MAdj a b := by
  have hini : InitialOk sets (none : Option (MG α)) := by intro P hP; cases hP
  obtain ⟨cfg, P, hg, rfl, hf, q3, q4, r1, s, r2, c', r3⟩ := run_acc hini h
  obtain ⟨-, -, -, -, hF⟩ := orientGraph_facts o hg r2.weak r2.nodes r3
  obtain ⟨-, hR⟩ := hF (fixed_forward hg q3 (by intro P hP; cases hP) q4)
  obtain ⟨a', ha'⟩ := ha.move hg (t' := 1) (by omega)
  obtain ⟨b', hb'⟩ := hb.move hg (t' := k + 1 + 1) (by omega)
  have hl : Later cfg.sets a' b' := ⟨1, i, k + 1 + 1, j, ha', hb', by omega⟩
  have hne : a' ≠ b' := by
    rintro rfl
    exact absurd (ha'.unique hg hb').1 (by omega)
  have h0 : P.MAdj a' b' := (initial_edge hg q3).mp ⟨ha'.mem, hb'.mem, hne⟩
  have hp := r2.past hf a' b' 0 i (k + 1) j ha' hb' h0
  refine (hR b a b' a' hl hp.symm ?_).symm
  rcases Nat.lt_or_ge t 1 with ht | ht
  · obtain rfl : t = 0 := by omega
    exact ⟨1, Or.inr ⟨⟨_, _, hb, by convert hb' using 1; omega⟩, ⟨_, _, ha, ha'⟩⟩⟩
  · refine ⟨t - 1, Or.inl ⟨⟨_, _, hb', ?_⟩, ⟨_, _, ha', ?_⟩⟩⟩
    · convert hb using 1; omega
    · convert ha using 1; omega

/-- Orientation of a graph whose skeleton does not depend on time raises no exception and keeps the adjacencies. Full
statement: for every graph in a run. Missing (and false, see C52_fails, C52_crash): graphs in which a pair is adjacent
and the same pair at another time is not. -/
theorem C52_partial_orient (o : SetOrder α) {cfg : TsCfg α} (hg : Grid cfg.sets) {sep : SepSet α} (complete : Bool) {G : MG α}
    (hG : G.Proper) (ht : G.types = MG.pagTypes) (hn : ∀ v, v ∈ G.nodes ↔ v ∈ cfg.sets.flatten) (hc : Closed cfg.sets G)
    (hf : ∀ a b, G.MAdj a b → ∃ m, Dict.get? cfg.fixed (a, b) = some m)
    (hkey : ∀ i ∈ G.nodes, ∀ j ∈ G.nodes, i ≠ j → ∃ S, sep.get i j = .ok S) :
    ∃ K, orientGraph o cfg sep complete G = .ok K ∧ K.Proper ∧ ∀ a b, K.MAdj a b ↔ G.MAdj a b := by
  obtain ⟨K, k1, k2⟩ := orientGraph_ok o hg (c := complete) hG ht hn hc hf hkey
  exact ⟨K, k1, k2.proper, k2.adj⟩

/-- The hypotheses are met by the initial state for a window of three steps. -/
example : ∃ (cfg : TsCfg Nat) (G : MG Nat) (sep : SepSet Nat), cfg.sets = [[0, 1], [2, 3], [4, 5]] ∧ Grid cfg.sets ∧ G.Proper ∧
    G.types = MG.pagTypes ∧ (∀ v, v ∈ G.nodes ↔ v ∈ cfg.sets.flatten) ∧ Closed cfg.sets G ∧ G.MAdj 0 3 ∧
    (∀ a b, G.MAdj a b → ∃ m, Dict.get? cfg.fixed (a, b) = some m) ∧
    (∀ i ∈ G.nodes, ∀ j ∈ G.nodes, i ≠ j → ∃ S, sep.get i j = .ok S) := by
  obtain ⟨cfg, s0, -, e, -, hx, g0, hadj⟩ := init_good ascending exWin_grid ⟨false, false, true⟩
  refine ⟨cfg, s0.graph, s0.sep, e, by rw [e]; exact exWin_grid, g0.proper, g0.types, g0.nodes, g0.closed,
    hadj 0 (by decide) 3 (by decide) (by decide), fun a b hab => ?_, fun i hi j hj hij => ?_⟩
  · obtain ⟨q1, q2⟩ := g0.proper.mem_adj hab
    exact hx a ((g0.nodes a).mp q1) b ((g0.nodes b).mp q2) (g0.proper.ne hab)
  · exact g0.key i ((g0.nodes i).mp hi) j ((g0.nodes j).mp hj) hij

/-- With homology and the default initial graph: if no positive CI test conditions on a node earlier than the second
tested node, the run returns, with a well-formed graph whose skeleton does not depend on time, and what was removed stays
removed: a present node and another node that are independent unconditionally are not adjacent at any time, and every
missing edge has a justified separating set. Full statement: for every CI test. Missing (and false, see C52_crash):
tests that condition on nodes earlier than both tested nodes. -/
theorem C52_partial (o : SetOrder α) {sets : List (List α)} (hg : Grid sets) (opts : IcdOpts) {ci : CITest α}
    (hci : NoEarlier ci sets) :
    ∃ st, run o sets true none opts ci = .ok st ∧ st.graph.Proper ∧ (∀ v, v ∈ st.graph.nodes ↔ v ∈ sets.flatten) ∧
      Closed sets st.graph ∧
      (∀ i j, (∃ v, Cell sets 0 v i) → (∀ n, ci n i j [] = true ∧ ci n j i [] = true) →
        ∀ a b, Homologous sets i j a b → ¬ st.graph.MAdj a b) ∧
      ∀ a b, a ∈ sets.flatten → b ∈ sets.flatten → a ≠ b → ¬ st.graph.MAdj a b →
        ∃ S, st.sep.get a b = .ok S ∧ Justified ci sets true st.calls a b S := by
  obtain ⟨cfg, s0, e1, rfl, hh, hx, g0, -⟩ := init_good o hg opts
  obtain ⟨st, e2, g, -, m1, m2⟩ := learn_good o hg hh hci hx g0
  have hrun : run o cfg.sets true none opts ci = .ok st := by rw [run, py_bind e1]; exact e2
  refine ⟨st, hrun, g.proper, g.nodes, g.closed, ?_, ?_⟩
  · intro i j hi hind a b hab hadj
    have hne : i ≠ j := by
      rintro rfl
      exact g.proper.ne (g.closed _ _ _ _ hab.symm hadj) rfl
    obtain ⟨-, ⟨_, _, hj⟩, -, -⟩ := hab.cells
    rcases edges_all hi hj.mem hne with h | h | h
    · exact m1 _ h (fun n => (hind n).1) a b hab hadj
    · exact m2 _ h (fun n => (hind n).1) a b hab hadj
    · exact m2 _ h (fun n => (hind n).2) b a hab.swap hadj.symm
  · intro a b ha hb hab hadj
    exact C68 (by intro P hP; cases hP) hrun ⟨ha, hb, hab⟩ hadj

/-- The computation returns a value with the given property (to evaluate examples). -/
def Py.okWith {β : Type} (x : Py β) (p : β → Bool) : Bool :=
  match x with
  | .ok b => p b
  | .error _ => false

theorem Py.okWith_iff {β : Type} {x : Py β} {p : β → Bool} (h : x.okWith p = true) : ∃ b, x = .ok b ∧ p b = true := by
  cases x with
  | ok b => exact ⟨b, rfl, h⟩
  | error e => cases h

/-- The computation ends with the given exception (to evaluate examples). -/
def Py.errWith {β : Type} (x : Py β) (e : PyErr) : Bool :=
  match x with
  | .ok _ => false
  | .error e' => decide (e' = e)

theorem Py.errWith_iff {β : Type} {x : Py β} {e : PyErr} (h : x.errWith e = true) : x = .error e := by
  cases x with
  | ok b => cases h
  | error e' => rw [of_decide_eq_true (p := e' = e) h]

/-- Three time steps of one variable. -/
def exSer : List (List Nat) := [[0], [1], [2]]

/-- The only independence: of nodes 0 and 1, unconditionally. -/
def exIndep : CITest Nat := fun _ i j z => i == 0 && j == 1 && z.isEmpty

/-- A removed edge comes back: nodes 0 and 1 are tested unconditionally and found independent, the pair is recorded with
the empty separating set and it is adjacent in the result. -/
theorem C52_fails : ∃ st, run ascending exSer false none ⟨false, false, true⟩ exIndep = .ok st ∧
    st.sep.get 0 1 = .ok ∅ ∧ exIndep 0 0 1 [] = true ∧ 1 ∈ st.graph.g 0 .arrow ∧ 0 ∈ st.graph.g 1 .circle := by
  obtain ⟨st, h1, h2⟩ := Py.okWith_iff (x := run ascending exSer false none ⟨false, false, true⟩ exIndep)
    (p := fun st => decide (st.sep.get 0 1 = .ok ∅ ∧ exIndep 0 0 1 [] = true ∧ 1 ∈ st.graph.g 0 .arrow ∧
      0 ∈ st.graph.g 1 .circle)) (by decide +kernel)
  exact ⟨st, h1, of_decide_eq_true h2⟩

/-- Three variables at three time steps (0, 1, 2 are the present): the first and the third are autoregressive and both
cause the second one step later. Given as map from nodes to parents. -/
def exHist : Dag Nat := ⟨{0, 1, 2, 3, 4, 5, 6, 7, 8}, fun v =>
  if 6 ≤ v then ∅ else if v % 3 = 1 then {v + 2, v + 4} else {v + 3}⟩

theorem exHist_wf : exHist.WF := by
  intro a b h
  by_cases hb : 6 ≤ b
  · rw [exHist] at h
    simp [if_pos hb] at h
  · have : ∀ b < 6, ∀ a ∈ exHist.par b, a ∈ exHist.nodes ∧ b ∈ exHist.nodes := by decide
    exact this b (by omega) a h

theorem exHist_acyclic : exHist.Acyclic := by
  obtain ⟨b, h1, h2⟩ := Dag.isAcyclic_spec ascending exHist_wf
  have h : exHist.isAcyclic ascending = .ok true := by decide +kernel
  rw [h] at h1
  cases h1
  exact h2.mp rfl

/-- With homology and d-separation of that DAG as CI test the run on the window of the last two steps ends with an
AssertionError: orientation writes one mark on a pair that was removed, and then finds no mark at the other end. -/
theorem C52_crash : exHist.WF ∧ exHist.Acyclic ∧
    run ascending [[0, 1, 2], [3, 4, 5]] true none ⟨false, false, true⟩ (Pc.dsepTest ascending exHist) = .error .assertionError := by
  refine ⟨exHist_wf, exHist_acyclic, ?_⟩
  exact Py.errWith_iff (by decide +kernel)

/-- An initial graph for that window with the single edge 2 o→ 0. -/
def exSerInit : MG Nat := ⟨{0, 1, 2}, MG.pagTypes, fun v m =>
  if v = 0 ∧ m = .arrow then {2} else if v = 2 ∧ m = .circle then {0} else ∅⟩

theorem exSerInit_at (a b : Nat) (m : Mark) : exSerInit.At a b m ↔ (a = 2 ∧ b = 0 ∧ m = .arrow) ∨ (a = 0 ∧ b = 2 ∧ m = .circle) := by
  unfold MG.At exSerInit
  dsimp only
  split_ifs with h1 h2
  · obtain ⟨rfl, rfl⟩ := h1; simp
  · obtain ⟨rfl, rfl⟩ := h2; simp
  · simp only [Finset.notMem_empty, false_iff]; tauto

/-- The hypotheses of C68, C69 and C52_no_homology are met: by a run with homology that removes edges, by a run with a
given initial graph, by a run without homology; the pair of nodes 0 and 1 has a lag shorter than the longest. -/
example :
    (InitialOk exSer none ∧ InitialForward exSer none ∧ ∃ st, run ascending exSer true none ⟨false, false, true⟩ exIndep = .ok st ∧
      InitialEdge exSer none 1 2 ∧ 1 ∉ st.graph.g 2 .circle ∧ 1 ∉ st.graph.g 2 .arrow ∧ 1 ∉ st.graph.g 2 .tail ∧
      2 ∉ st.graph.g 1 .circle ∧ 2 ∉ st.graph.g 1 .arrow ∧ 2 ∉ st.graph.g 1 .tail ∧ st.sep.get 1 2 = .ok ∅) ∧
    (InitialOk exSer (some exSerInit) ∧ InitialForward exSer (some exSerInit) ∧
      ∃ st, run ascending exSer true (some exSerInit) ⟨false, false, true⟩ exIndep = .ok st ∧ 2 ∈ st.graph.g 0 .arrow) ∧
    (∃ st, run ascending exSer false none ⟨false, false, true⟩ exIndep = .ok st) ∧
    Cell exSer 0 0 0 ∧ Cell exSer (0 + 0 + 1) 0 1 ∧ 0 + 2 < exSer.length := by
  refine ⟨⟨(by intro P h; cases h), (by intro P h; cases h), ?_⟩, ⟨?_, ?_, ?_⟩, ?_, ⟨_, rfl, rfl⟩, ⟨_, rfl, rfl⟩, by decide⟩
  · obtain ⟨st, h1, h2⟩ := Py.okWith_iff (x := run ascending exSer true none ⟨false, false, true⟩ exIndep)
      (p := fun st => decide (1 ∉ st.graph.g 2 .circle ∧ 1 ∉ st.graph.g 2 .arrow ∧ 1 ∉ st.graph.g 2 .tail ∧
      2 ∉ st.graph.g 1 .circle ∧ 2 ∉ st.graph.g 1 .arrow ∧ 2 ∉ st.graph.g 1 .tail ∧ st.sep.get 1 2 = .ok ∅)) (by decide +kernel)
    exact ⟨st, h1, ⟨by decide, by decide, by decide⟩, of_decide_eq_true h2⟩
  · rintro P ⟨⟩
    refine ⟨⟨rfl, ?_, ?_, ?_⟩, by decide⟩
    · intro a b m h
      rcases (exSerInit_at _ _ _).mp h with ⟨rfl, rfl, -⟩ | ⟨rfl, rfl, -⟩ <;> decide
    · intro a m h
      rcases (exSerInit_at _ _ _).mp h with ⟨rfl, h, -⟩ | ⟨rfl, h, -⟩ <;> omega
    · intro a b m m' h h'
      rcases (exSerInit_at _ _ _).mp h with ⟨h1, h2, rfl⟩ | ⟨h1, h2, rfl⟩ <;>
        rcases (exSerInit_at _ _ _).mp h' with ⟨h3, h4, rfl⟩ | ⟨h3, h4, rfl⟩ <;> first | rfl | omega
  · rintro P ⟨⟩ a b m hl h
    rcases (exSerInit_at _ _ _).mp h with ⟨-, -, h⟩ | ⟨rfl, rfl, -⟩
    · exact h
    · obtain ⟨t, i, s, j, ⟨l, h1, h2⟩, ⟨l', h3, h4⟩, h5⟩ := hl
      have g : Grid exSer := ⟨by decide, ⟨1, by decide⟩, by decide⟩
      have c2 : Cell exSer 2 0 2 := ⟨_, rfl, rfl⟩
      have c0 : Cell exSer 0 0 0 := ⟨_, rfl, rfl⟩
      have e1 := (c2.unique g ⟨l, h1, h2⟩).1
      have e2 := (c0.unique g ⟨l', h3, h4⟩).1
      omega
  · obtain ⟨st, h1, h2⟩ := Py.okWith_iff (x := run ascending exSer true (some exSerInit) ⟨false, false, true⟩ exIndep)
      (p := fun st => decide (2 ∈ st.graph.g 0 .arrow)) (by decide +kernel)
    exact ⟨st, h1, of_decide_eq_true h2⟩
  · obtain ⟨st, h1, -⟩ := C52_fails
    exact ⟨st, h1⟩

/-- The hypotheses of C52_partial are met by an unconditional test, which has positive results, and by a test that
conditions on the earlier node itself; the window of C52_crash is a window. -/
example : Grid exSer ∧ NoEarlier exIndep exSer ∧ exIndep 0 0 1 [] = true ∧
    (∀ n, (fun _ i j z => decide (i = 0 ∧ j = 2 ∧ z = [1]) : CITest Nat) n 0 2 [1] = true) ∧
    NoEarlier (fun _ i j z => decide (i = 0 ∧ j = 2 ∧ z = [1]) : CITest Nat) exSer := by
  have g : Grid exSer := ⟨by decide, ⟨1, by decide⟩, by decide⟩
  refine ⟨g, ?_, rfl, fun _ => rfl, ?_⟩
  · intro n i j z h x hx
    simp only [exIndep, Bool.and_eq_true, List.isEmpty_iff] at h
    rw [h.2] at hx
    cases hx
  · intro n i j z h x hx
    obtain ⟨-, rfl, rfl⟩ := of_decide_eq_true h
    rw [List.mem_singleton] at hx
    subst hx
    rw [Later.iff g (ta := 2) (ia := 0) (tb := 1) (ib := 0) ⟨_, rfl, rfl⟩ ⟨_, rfl, rfl⟩]
    omega

end Verif
