import Verif.Lemmas.Extend
import Verif.Props.Dag

/-!
# Properties C13–C20: PDAGs, CPDAG conversion, orientation rules, DAG extension
-/

namespace Verif
open Relation
variable {α : Type} [DecidableEq α]

/-! ## Concrete PDAGs for the examples -/

/-- A PDAG given by its directed and undirected edges (used only to write examples; not part of the code's model). -/
def MG.ofEdges (nodes : Finset α) (arrows unds : List (α × α)) : MG α :=
  ⟨nodes, [.tail, .arrow], fun v m =>
    match m with
    | .arrow => nodes.filter (fun u => v ∈ nodes ∧ (u, v) ∈ arrows)
    | .tail => nodes.filter (fun u => v ∈ nodes ∧ ((u, v) ∈ unds ∨ (v, u) ∈ unds))
    | .circle => ∅⟩

theorem MG.ofEdges_wf {nodes : Finset α} {arrows unds : List (α × α)}
    (h : (∀ e ∈ arrows, e.1 ≠ e.2 ∧ e ∉ unds ∧ (e.2, e.1) ∉ unds) ∧ ∀ e ∈ unds, e.1 ≠ e.2) :
    (MG.ofEdges nodes arrows unds).PdagWF := by
  refine ⟨by simp [ofEdges], ?_, ?_, ?_, ?_⟩
  · intro a b m hm
    cases m <;> simp [ofEdges] at hm
    · exact ⟨hm.1, hm.2.1⟩
    · exact ⟨hm.1, hm.2.1⟩
  · intro a m hm
    cases m <;> simp [ofEdges] at hm
    · exact h.2 _ hm.2 rfl
    · exact (h.1 _ hm.2).1 rfl
  · intro a b hm
    simp [ofEdges] at hm ⊢
    exact ⟨hm.2.1, hm.1, hm.2.2.symm⟩
  · intro a b hm hm'
    simp [ofEdges] at hm hm'
    have := h.1 _ hm.2.2
    rcases hm'.2.2 with h' | h'
    · exact this.2.1 h'
    · exact this.2.2 h'

/-- Directed and undirected edges of a result, as lists (for examples). -/
def MG.show (r : Py (MG Nat)) : Py (List (Nat × Nat) × List (Nat × Nat)) :=
  r.map fun G => ((ascending.iter () G.nodes).flatMap fun v =>
      (ascending.iter () (G.g v .arrow)).map fun u => (u, v),
    (ascending.iter () G.nodes).flatMap fun v =>
      ((ascending.iter () (G.g v .tail)).filter (· < v)).map fun u => (u, v))

/-- `0 --> 2 <-- 1`, `2 --> 3`, `0 --> 4`. -/
def exD2 : Dag Nat := ⟨{0, 1, 2, 3, 4}, fun v => if v = 2 then {0, 1} else if v = 3 then {2} else if v = 4 then {0} else ∅⟩

theorem exD2_wf : exD2.WF := by
  intro a b h
  simp only [exD2] at *
  split at h
  · subst_vars; simp at h; rcases h with rfl | rfl <;> decide
  · split at h
    · subst_vars; simp at h; subst h; decide
    · split at h
      · subst_vars; simp at h; subst h; decide
      · simp at h

theorem exD2_acyclic : exD2.Acyclic := by
  have h := Dag.isAcyclic_spec ascending exD2_wf
  have : Dag.isAcyclic ascending exD2 = .ok true := by decide +kernel
  obtain ⟨b, h1, h2⟩ := h
  rw [this] at h1; cases h1
  exact h2.mp rfl

/-! ## C13 -/

/-- `DAG.convert_to_cpdag` raises ValueError exactly on cyclic graphs. -/
theorem C13_cyclic (o : SetOrder α) {rules : List Nat} (hr : ∀ r, r ∈ rules ↔ r = 1 ∨ r = 2 ∨ r = 3)
    {D : Dag α} (hD : D.WF) :
    D.convertToCpdag o rules (MG.pdagEmpty D.nodes) = .error .valueError ↔ ¬ D.Acyclic := by
  constructor
  · intro h hac
    obtain ⟨P, hP, _⟩ := Dag.convertToCpdag_spec o hr hD hac
    rw [hP] at h; cases h
  · exact fun h => Dag.convertToCpdag_cyclic o rules hD h _

/-- On an acyclic graph it returns a well-formed PDAG without bi-directed edges, with the same nodes, adjacencies and
unshielded colliders, whose directed edges agree with the DAG. -/
theorem C13_cpdag (o : SetOrder α) {rules : List Nat} (hr : ∀ r, r ∈ rules ↔ r = 1 ∨ r = 2 ∨ r = 3)
    {D : Dag α} (hD : D.WF) (hac : D.Acyclic) :
    ∃ P, D.convertToCpdag o rules (MG.pdagEmpty D.nodes) = .ok P ∧ P.PdagWF ∧ P.nodes = D.nodes ∧
      (∀ a b, P.PAdj a b ↔ D.Adj a b) ∧ (∀ a b c, P.PUCol a b c ↔ D.UCol a b c) ∧
      (∀ a b, P.Arrow a b → D.Edge a b) ∧ ∀ a b, P.Arrow a b → ¬ P.Arrow b a := by
  obtain ⟨P, h1, h2, h3⟩ := Dag.convertToCpdag_spec o hr hD hac
  have hE : ∀ a b, P.Arrow a b → D.Edge a b := fun a b h => (h2.der a b h).sound hac
  refine ⟨P, h1, h2.wf, h2.nodes, h2.adj, fun a b c => ?_, hE, fun a b h h' => ?_⟩
  · constructor
    · rintro ⟨u1, u2, u3, u4⟩
      exact ⟨hE _ _ u1, hE _ _ u2, u3, fun h => u4 ((h2.adj _ _).mpr h)⟩
    · intro u
      exact ⟨h3.vs _ _ _ u, h3.vs _ _ _ u.swap, u.2.2.1, fun h => u.2.2.2 ((h2.adj _ _).mp h)⟩
  · exact Dag.not_edge_of_edge hac (hE _ _ h) (hE _ _ h')

example : exD2.WF ∧ exD2.Acyclic ∧
    MG.show (exD2.convertToCpdag ascending [1, 2, 3] (MG.pdagEmpty exD2.nodes))
      = .ok ([(0, 2), (1, 2), (2, 3)], [(0, 4)]) ∧
    exCyc.WF ∧ ¬ exCyc.Acyclic :=
  ⟨exD2_wf, exD2_acyclic, by decide +kernel, exCyc_wf, by
    intro h
    exact h 0 (TransGen.head (b := 1) (by simp [Dag.Edge, exCyc]) (TransGen.single (by simp [Dag.Edge, exCyc])))⟩

/-! ## C14 -/

omit [DecidableEq α] in
theorem Dag.Equivalent.rfl' {D : Dag α} (hD : D.WF) (hac : D.Acyclic) : D.Equivalent D :=
  ⟨rfl, hD, hac, fun _ _ => Iff.rfl, fun _ _ _ => Iff.rfl⟩

/-- An edge of the result is directed `x --> y` if and only if it is so in every Markov equivalent DAG. -/
theorem C14_essential (o : SetOrder α) {rules : List Nat} (hr : ∀ r, r ∈ rules ↔ r = 1 ∨ r = 2 ∨ r = 3)
    {D : Dag α} (hD : D.WF) (hac : D.Acyclic) :
    ∃ P, D.convertToCpdag o rules (MG.pdagEmpty D.nodes) = .ok P ∧
      (∀ x y, P.Arrow x y ↔ ∀ H : Dag α, D.Equivalent H → H.Edge x y) ∧
      ∀ x y, P.Und x y ↔ (∃ H : Dag α, D.Equivalent H ∧ H.Edge x y) ∧ ∃ H : Dag α, D.Equivalent H ∧ H.Edge y x := by
  obtain ⟨P, h1, h2, h3⟩ := Dag.convertToCpdag_spec o hr hD hac
  have harr : ∀ x y, P.Arrow x y ↔ ∀ H : Dag α, D.Equivalent H → H.Edge x y := by
    intro x y
    rw [h3.iff_essential hD hac]
    exact ⟨fun h => h.2, fun h => ⟨h D (Dag.Equivalent.rfl' hD hac), h⟩⟩
  refine ⟨P, h1, harr, fun x y => ?_⟩
  constructor
  · intro h
    have hu := (h2.undOf x y).mpr h
    exact ⟨h3.complete hD hac hu, h3.complete hD hac hu.symm⟩
  · rintro ⟨⟨H, hH, hxy⟩, K, hK, hyx⟩
    rw [← h2.undOf]
    refine ⟨(hH.adj x y).mp (Or.inl hxy), fun h => ?_, fun h => ?_⟩
    · exact Dag.not_edge_of_edge hK.acyclic hyx ((harr x y).mp h K hK)
    · exact Dag.not_edge_of_edge hH.acyclic hxy ((harr y x).mp h H hH)

example : (∀ r, r ∈ [3, 1, 2] ↔ r = 1 ∨ r = 2 ∨ r = 3) ∧ exD2.WF ∧ exD2.Acyclic ∧
    MG.show (exD2.convertToCpdag descending [3, 1, 2] (MG.pdagEmpty exD2.nodes))
      = .ok ([(0, 2), (1, 2), (2, 3)], [(0, 4)]) :=
  ⟨by intro r; simp; tauto, exD2_wf, exD2_acyclic, by decide +kernel⟩

/-! ## C15 -/

/-- The CPDAG characterises the equivalence class and does not depend on iteration orders. -/
theorem C15_canonical (o₁ o₂ : SetOrder α) {rules₁ rules₂ : List Nat} (hr₁ : ∀ r, r ∈ rules₁ ↔ r = 1 ∨ r = 2 ∨ r = 3)
    (hr₂ : ∀ r, r ∈ rules₂ ↔ r = 1 ∨ r = 2 ∨ r = 3) {D₁ D₂ : Dag α} (hD₁ : D₁.WF) (hD₂ : D₂.WF)
    (hac₁ : D₁.Acyclic) (hac₂ : D₂.Acyclic) (hn : D₁.nodes = D₂.nodes) :
    ∃ P₁ P₂, D₁.convertToCpdag o₁ rules₁ (MG.pdagEmpty D₁.nodes) = .ok P₁ ∧
      D₂.convertToCpdag o₂ rules₂ (MG.pdagEmpty D₂.nodes) = .ok P₂ ∧
      (P₁.Same P₂ ↔ (∀ a b, D₁.Adj a b ↔ D₂.Adj a b) ∧ ∀ a b c, D₁.UCol a b c ↔ D₂.UCol a b c) := by
  obtain ⟨P₁, h1, hP1, hc1⟩ := Dag.convertToCpdag_spec o₁ hr₁ hD₁ hac₁
  obtain ⟨P₂, h2, hP2, hc2⟩ := Dag.convertToCpdag_spec o₂ hr₂ hD₂ hac₂
  refine ⟨P₁, P₂, h1, h2, ?_⟩
  constructor
  · intro h
    have hadj : ∀ a b, D₁.Adj a b ↔ D₂.Adj a b := by
      intro a b
      rw [← hP1.adj, ← hP2.adj]
      simp only [MG.PAdj, h.arrow, h.und]
    refine ⟨hadj, fun a b c => ?_⟩
    constructor
    · intro u
      exact ⟨(hP2.der _ _ ((h.arrow _ _).mp (hc1.vs _ _ _ u))).sound hac₂,
        (hP2.der _ _ ((h.arrow _ _).mp (hc1.vs _ _ _ u.swap))).sound hac₂, u.2.2.1,
        fun h' => u.2.2.2 ((hadj _ _).mpr h')⟩
    · intro u
      exact ⟨(hP1.der _ _ ((h.arrow _ _).mpr (hc2.vs _ _ _ u))).sound hac₁,
        (hP1.der _ _ ((h.arrow _ _).mpr (hc2.vs _ _ _ u.swap))).sound hac₁, u.2.2.1,
        fun h' => u.2.2.2 ((hadj _ _).mp h')⟩
  · rintro ⟨hadj, hu⟩
    have harr : ∀ a b, P₁.Arrow a b ↔ P₂.Arrow a b := by
      intro a b
      rw [hc1.iff_der hac₁, hc2.iff_der hac₂]
      exact ⟨Dag.Der.transfer (fun a b => (hadj a b).symm) (fun a b c => (hu a b c).symm), Dag.Der.transfer hadj hu⟩
    refine ⟨hP1.nodes.trans (hn.trans hP2.nodes.symm), harr, fun a b => ?_⟩
    rw [← hP1.undOf, ← hP2.undOf]
    simp only [Dag.UndOf, hadj, harr]

/-- `4 --> 0` instead of `0 --> 4`: Markov equivalent to `exD2`. -/
def exD3 : Dag Nat := ⟨{0, 1, 2, 3, 4}, fun v => if v = 2 then {0, 1} else if v = 3 then {2} else if v = 0 then {4} else ∅⟩

example : exD2.nodes = exD3.nodes ∧ exD3.isAcyclic ascending = .ok true ∧
    MG.show (exD3.convertToCpdag descending [3, 2, 1] (MG.pdagEmpty exD3.nodes)) =
      MG.show (exD2.convertToCpdag ascending [1, 2, 3] (MG.pdagEmpty exD2.nodes)) ∧
    MG.show (exD.convertToCpdag ascending [1, 2, 3] (MG.pdagEmpty exD.nodes)) ≠
      MG.show (exD2.convertToCpdag ascending [1, 2, 3] (MG.pdagEmpty exD2.nodes)) :=
  ⟨by decide, by decide +kernel, by decide +kernel, by decide +kernel⟩

/-! ## C16 -/

/-- `PDAG.maximally_orient_pattern` with any selection of rules terminates in a well-formed PDAG that refines the
given one (see `MG.Refines`), and no pattern of a selected rule remains at a node of interest. -/
theorem C16_fixpoint (o : SetOrder α) {rules : List Nat} (hr : ∀ r ∈ rules, 1 ≤ r ∧ r ≤ 4) (en : Finset α)
    {G : MG α} (hG : G.PdagWF) :
    ∃ G', G.maximallyOrient o rules en = .ok G' ∧ G'.PdagWF ∧ G.Refines G' ∧
      ∀ r ∈ rules, ∀ y ∈ en, ∀ x, ¬ G'.RulePattern r x y := by
  obtain ⟨G', h1, h2, h3⟩ := MG.maximallyOrient_spec o hr en hG
  exact ⟨G', h1, MG.steps_wf h2 hG, MG.steps_refines h2 hG, h3⟩

/-- An index outside 1..4 among the rules raises KeyError. -/
theorem C16_keyError (o : SetOrder α) {rules : List Nat} (hr : ∃ r ∈ rules, r = 0 ∨ 4 < r) (en : Finset α)
    {G : MG α} (hG : G.PdagWF) : G.maximallyOrient o rules en = .error .keyError := by
  simp only [MG.maximallyOrient, MG.maxOrientLoop, MG.rulesLoop_keyError o en rules G false hG hr]
  rfl

/-- `0 --> 1 --- 2`, `1 --- 3`, `2 --- 3`. -/
def exP : MG Nat := MG.ofEdges {0, 1, 2, 3} [(0, 1)] [(1, 2), (1, 3), (2, 3)]

theorem exP_wf : exP.PdagWF := MG.ofEdges_wf (by decide)

example : exP.PdagWF ∧ MG.show (exP.maximallyOrient ascending [1, 2, 3] {0, 1, 2, 3})
    = .ok ([(0, 1), (1, 2), (1, 3)], [(2, 3)]) ∧
    MG.show (exP.maximallyOrient ascending [1, 7] {0}) = .error .keyError :=
  ⟨exP_wf, by decide +kernel, by decide +kernel⟩

/-! ## C17 -/

omit [DecidableEq α] in
/-- Rules 1–3 as coded, and rule 4 with the documented condition that `w` and `y` are not adjacent, only direct edges
that have this direction in every consistent extension. -/
theorem C17_rules_sound {G : MG α} (hG : G.PdagWF) {E : Dag α} (hE : G.Extension E) {r : Nat} {x y : α}
    (h : G.RulePattern r x y)
    (h4 : r = 4 → ∃ w z, G.Und w x ∧ G.Arrow w z ∧ G.Arrow z y ∧ G.PAdj x z ∧ ¬ G.PAdj w y) : E.Edge x y :=
  hE.rule hG h h4

/-- With rules 1–3 every consistent extension of the input is one of the output. -/
theorem C17_extension_kept (o : SetOrder α) {rules : List Nat} (hr : ∀ r ∈ rules, 1 ≤ r ∧ r ≤ 3) (en : Finset α)
    {G : MG α} (hG : G.PdagWF) {E : Dag α} (hE : G.Extension E) :
    ∃ G', G.maximallyOrient o rules en = .ok G' ∧ G'.Extension E := by
  obtain ⟨G', h1, h2, hfix⟩ := MG.maximallyOrient_spec o (rules := rules) (fun r h => by have := hr r h; omega) en hG
  refine ⟨G', h1, ?_⟩
  clear h1 hfix
  induction h2 with
  | refl => exact hE
  | @tail H K hs hst ih =>
    have hH := MG.steps_wf hs hG
    obtain ⟨r, hr', x, y, hp, rfl⟩ := hst
    have hadj := MG.orientEdge_padj (Or.inr (Or.inr (Or.inl hp.und)) : H.PAdj x y)
    have hxy := ih.rule hH hp (fun h => by have := hr r hr'; omega)
    refine ⟨ih.nodes, ih.wf, ih.acyclic, fun a b => ?_, fun a b h => ?_, fun a b c h => ?_⟩
    · rw [hadj]; exact ih.adj a b
    · rcases MG.orientEdge_arrow.mp h with h | ⟨rfl, rfl⟩
      · exact ih.dir _ _ h
      · exact hxy
    · obtain ⟨u1, u2, u3, u4⟩ := ih.ucol a b c h
      exact ⟨MG.orientEdge_arrow.mpr (Or.inl u1), MG.orientEdge_arrow.mpr (Or.inl u2), u3,
        fun h => u4 ((hadj _ _).mp h)⟩

/-- `0 --> 1 --> 2`, `0 --> 2`, and `3` joined to the others by undirected edges. -/
def exP4 : MG Nat := MG.ofEdges {0, 1, 2, 3} [(0, 1), (1, 2), (0, 2)] [(0, 3), (1, 3), (2, 3)]

/-- `0 --> 1 --> 2 --> 3` with all shortcuts. -/
def exD4 : Dag Nat := ⟨{0, 1, 2, 3}, fun v => if v = 1 then {0} else if v = 2 then {0, 1} else if v = 3 then {0, 1, 2} else ∅⟩

theorem exD4_ext : exP4.Extension exD4 := by
  have hedge : ∀ a b, exD4.Edge a b ↔ a < b ∧ b < 4 := by
    intro a b
    simp only [Dag.Edge, exD4]
    split
    · subst_vars; simp
    · split
      · subst_vars; simp; omega
      · split
        · subst_vars; simp; omega
        · simp; omega
  have hA : ∀ a b, exP4.Arrow a b ↔ (a = 0 ∧ b = 1) ∨ (a = 1 ∧ b = 2) ∨ (a = 0 ∧ b = 2) := by
    intro a b; simp [MG.Arrow, exP4, MG.ofEdges]; omega
  have hU : ∀ a b, exP4.Und a b ↔ (b = 3 ∧ a < 3) ∨ (a = 3 ∧ b < 3) := by
    intro a b; simp [MG.Und, exP4, MG.ofEdges]; omega
  refine ⟨rfl, ?_, ?_, ?_, ?_, ?_⟩
  · intro a b h
    have := (hedge a b).mp h
    simp [exD4]; omega
  · intro v h
    have : ∀ a b, TransGen exD4.Edge a b → a < b := by
      intro a b h
      induction h with
      | single h => exact ((hedge _ _).mp h).1
      | tail _ h ih => exact ih.trans ((hedge _ _).mp h).1
    exact lt_irrefl _ (this v v h)
  · intro a b
    simp only [Dag.Adj, hedge, MG.PAdj, hA, hU]; omega
  · intro a b h
    have := (hA a b).mp h
    rw [hedge]; omega
  · rintro a b c ⟨h1, h2, h3, h4⟩
    simp only [Dag.Adj, hedge] at h1 h2 h4
    omega

/-- Rule 4 as coded is unsound: in `exP4` it directs `3 --> 2` although the consistent extension `exD4` has
`2 --> 3`. The documented condition (`w` and `y` not adjacent) is not checked. -/
theorem C17_rule4_unsound : exP4.PdagWF ∧ exP4.Extension exD4 ∧ exD4.Edge 2 3 ∧
    MG.show (exP4.maximallyOrient ascending [4] {0, 1, 2, 3})
      = .ok ([(0, 1), (0, 2), (1, 2), (3, 2)], [(0, 3), (1, 3)]) ∧ ¬ exD4.Edge 3 2 :=
  ⟨MG.ofEdges_wf (by decide), exD4_ext, by simp [Dag.Edge, exD4], by decide +kernel, by simp [Dag.Edge, exD4]⟩

/-- `3 --- 2`, `3 --- 0 --> 1 --> 2`, `3 --- 1`: rule 4 with its documented condition. -/
example : exP.PdagWF ∧ exP.RulePattern 1 1 2 ∧
    (MG.ofEdges {0, 1, 2, 3} [(0, 1), (1, 2)] [(0, 3), (1, 3), (2, 3)]).PdagWF ∧
    (MG.ofEdges {0, 1, 2, 3} [(0, 1), (1, 2)] [(0, 3), (1, 3), (2, 3)]).RulePattern 4 3 2 ∧
    ¬ (MG.ofEdges {0, 1, 2, 3} [(0, 1), (1, 2)] [(0, 3), (1, 3), (2, 3)]).PAdj 0 2 := by
  refine ⟨exP_wf, ⟨by decide, 0, by decide, ?_⟩, MG.ofEdges_wf (by decide),
    ⟨by decide, 0, 1, by decide, by decide, by decide, Or.inr (Or.inr (Or.inl (by decide)))⟩, ?_⟩
  · rintro (h | h | h | h) <;> exact absurd h (by decide)
  · rintro (h | h | h | h) <;> exact absurd h (by decide)

/-! ## C18 and C19 -/

omit [DecidableEq α] in
theorem MG.Extension.congr {G : MG α} {D E : Dag α} (hE : G.Extension E) (hn : D.nodes = E.nodes)
    (he : ∀ a b, D.Edge a b ↔ E.Edge a b) : G.Extension D := by
  have : D = E := by
    cases D; cases E
    simp only [Dag.Edge] at hn he
    subst hn
    congr 1
    funext v
    ext a
    exact he a v
  rw [this]; exact hE

/-- If `PDAG.convert_to_dag` reports success, the DAG it filled is a consistent extension of the PDAG. -/
theorem C18_sound (o : SetOrder α) {G : MG α} (hG : G.PdagWF) {D : Dag α}
    (h : G.convertToDag o (Dag.empty G.nodes) = .ok (D, true)) : G.Extension D := by
  obtain ⟨D', flag, h1, h2, _⟩ := MG.convertToDag_spec o hG
  rw [h] at h1; cases h1
  obtain ⟨E, hE, hn, he⟩ := h2 rfl
  exact hE.congr hn he

/-- `PDAG.convert_to_dag` always returns, and it reports success exactly if the PDAG has a consistent extension. -/
theorem C19_complete (o : SetOrder α) {G : MG α} (hG : G.PdagWF) :
    ∃ D flag, G.convertToDag o (Dag.empty G.nodes) = .ok (D, flag) ∧ (flag = true ↔ ∃ E, G.Extension E) := by
  obtain ⟨D, flag, h1, h2, h3⟩ := MG.convertToDag_spec o hG
  refine ⟨D, flag, h1, ?_, h3⟩
  intro hf
  obtain ⟨E, hE, _⟩ := h2 hf
  exact ⟨E, hE⟩

/-- An undirected 4-cycle has no consistent extension; `exP` has one. -/
example : exP.PdagWF ∧ (exP.convertToDag ascending (Dag.empty exP.nodes)).map (fun r => (r.2, [0, 1, 2, 3].map (fun v =>
      ascending.iter () (r.1.par v)))) = .ok (true, [[], [0], [1, 3], [1]]) ∧
    (MG.ofEdges {0, 1, 2, 3} [] [(0, 1), (1, 2), (2, 3), (0, 3)]).PdagWF ∧
    ((MG.ofEdges {0, 1, 2, 3} [] [(0, 1), (1, 2), (2, 3), (0, 3)]).convertToDag ascending
      (Dag.empty {0, 1, 2, 3})).map (fun r => r.2) = .ok false :=
  ⟨exP_wf, by decide +kernel, MG.ofEdges_wf (by decide), by decide +kernel⟩

/-! ## C20 -/

/-- `PDAG.find_partial_topological_order(nodes)` returns disjoint non-empty groups covering `nodes`; no directed edge
leads from an earlier-listed group to a later-listed one. Any graph, cyclic or with bi-directed edges. -/
theorem C20_partial_order (o : SetOrder α) (G : MG α) (en : Finset α) :
    ∃ gs, G.partialTopo o en = .ok gs ∧ (∀ x, x ∈ en ↔ ∃ g ∈ gs, x ∈ g) ∧ (∀ g ∈ gs, g.Nonempty) ∧
      gs.Pairwise (fun g g' => Disjoint g g' ∧ ∀ a ∈ g, ∀ b ∈ g', ¬ G.Arrow a b) :=
  MG.partialTopoFuel_spec o G _ en (Nat.lt_succ_self _)

/-- The first group consists exactly of the nodes without a directed edge to a node of the set, if there is any. -/
theorem C20_first_group (o : SetOrder α) (G : MG α) {en : Finset α} (h : ∃ x ∈ en, ∀ y ∈ en, ¬ G.Arrow x y) :
    ∃ g gs, G.partialTopo o en = .ok (g :: gs) ∧ ∀ x, x ∈ g ↔ x ∈ en ∧ ∀ y ∈ en, ¬ G.Arrow x y := by
  obtain ⟨x, hx, hxs⟩ := h
  have hps := fun x => MG.mem_foldl_parents G en x (o.iter () en) ∅
  simp only [Finset.notMem_empty, false_or, o.mem] at hps
  have h0 : en.card ≠ 0 := Finset.card_ne_zero_of_mem hx
  simp only [MG.partialTopo, MG.partialTopoFuel, h0, if_false]
  generalize (o.iter () en).foldl (fun acc v => acc ∪ (G.parents v ∩ en)) ∅ = ps at hps ⊢
  have hl : (en \ ps).card ≠ 0 := Finset.card_ne_zero_of_mem (a := x)
    (Finset.mem_sdiff.mpr ⟨hx, fun h => by obtain ⟨_, v, hv, h⟩ := (hps x).mp h; exact hxs v hv h⟩)
  simp only [hl, if_false]
  have hsub : ps ⊆ en := fun x hx => ((hps x).mp hx).1
  have hcard := Finset.card_sdiff_add_card_eq_card hsub
  obtain ⟨gs, h1, _⟩ := MG.partialTopoFuel_spec o G en.card ps (by omega)
  refine ⟨en \ ps, gs, by simp only [h1]; rfl, fun z => ?_⟩
  rw [Finset.mem_sdiff, hps]
  constructor
  · rintro ⟨h1, h2⟩; exact ⟨h1, fun y hy h => h2 ⟨h1, y, hy, h⟩⟩
  · rintro ⟨h1, h2⟩; exact ⟨h1, fun ⟨_, y, hy, h⟩ => h2 y hy h⟩

example : (exP4.partialTopo ascending {0, 1, 2, 3}).map (List.map (ascending.iter ())) = .ok [[2, 3], [1], [0]] ∧
    ((MG.ofEdges {0, 1, 2} [(0, 1), (1, 0), (1, 2)] []).partialTopo ascending {0, 1, 2}).map
      (List.map (ascending.iter ())) = .ok [[2], [0, 1]] :=
  ⟨by decide +kernel, by decide +kernel⟩

end Verif
