import Verif.Lemmas.Cpdag

/-!
# PDAG to DAG extension (Dor–Tarsi), partial topological order, soundness of the rules
-/

namespace Verif
open Relation
namespace MG
variable {α : Type} [DecidableEq α]

/-! ### disconnecting a node -/

omit [DecidableEq α] in
theorem PdagWF.mem_adj {G : MG α} (hG : G.PdagWF) {a b : α} (h : G.PAdj a b) : a ∈ G.nodes ∧ b ∈ G.nodes := by
  rcases h with h | h | h | h
  · exact hG.mem _ _ _ h
  · exact (hG.mem _ _ _ h).symm
  · exact hG.mem _ _ _ h
  · exact (hG.mem _ _ _ h).symm

omit [DecidableEq α] in
theorem PdagWF.ne_of_adj {G : MG α} (hG : G.PdagWF) {a b : α} (h : G.PAdj a b) : a ≠ b := by
  rintro rfl
  rcases h with h | h | h | h <;> exact hG.irrefl _ _ h

theorem deleteUnd_fold (x : α) (l : List α) : ∀ (G : MG α),
    let G' := l.foldl (fun G y => G.deleteUndirectedEdge y x) G
    G'.nodes = G.nodes ∧ G'.types = G.types ∧ (∀ v m, m ≠ .tail → G'.g v m = G.g v m) ∧
      ∀ a b, G'.Und a b ↔ G.Und a b ∧ ¬ (b = x ∧ a ∈ l) ∧ ¬ (a = x ∧ b ∈ l) := by
  induction l with
  | nil => intro G; exact ⟨rfl, rfl, fun _ _ _ => rfl, by simp⟩
  | cons y l ih =>
    intro G
    obtain ⟨h1, h2, h3, h4⟩ := ih (G.deleteUndirectedEdge y x)
    refine ⟨h1, h2, fun v m hm => ?_, fun a b => ?_⟩
    · simp only [List.foldl_cons]
      rw [h3 v m hm]; simp [deleteUndirectedEdge, upd, hm]
    · simp only [List.foldl_cons]
      rw [h4]
      have : (G.deleteUndirectedEdge y x).Und a b ↔ G.Und a b ∧ ¬ (b = x ∧ a = y) ∧ ¬ (a = x ∧ b = y) := by
        simp only [Und, deleteUndirectedEdge]
        by_cases hx : b = x <;> by_cases hy : b = y <;> simp [hx, hy, mem_upd] <;> split_ifs <;> tauto
      rw [this]
      simp only [List.mem_cons]
      tauto

theorem deleteDir_fold (x : α) (l : List α) : ∀ (G : MG α),
    let G' := l.foldl (fun G p => G.deleteDirectedEdge p x) G
    G'.nodes = G.nodes ∧ G'.types = G.types ∧ (∀ v m, m ≠ .arrow → G'.g v m = G.g v m) ∧
      ∀ a b, G'.Arrow a b ↔ G.Arrow a b ∧ ¬ (b = x ∧ a ∈ l) := by
  induction l with
  | nil => intro G; exact ⟨rfl, rfl, fun _ _ _ => rfl, by simp⟩
  | cons y l ih =>
    intro G
    obtain ⟨h1, h2, h3, h4⟩ := ih (G.deleteDirectedEdge y x)
    refine ⟨h1, h2, fun v m hm => ?_, fun a b => ?_⟩
    · simp only [List.foldl_cons]
      rw [h3 v m hm]; simp [deleteDirectedEdge, upd, hm]
    · simp only [List.foldl_cons]
      rw [h4]
      have : (G.deleteDirectedEdge y x).Arrow a b ↔ G.Arrow a b ∧ ¬ (b = x ∧ a = y) := by
        simp only [Arrow, deleteDirectedEdge]
        by_cases hx : b = x <;> simp [hx, mem_upd]; tauto
      rw [this]
      simp only [List.mem_cons]
      tauto

theorem disconnectSink_spec (o : SetOrder α) {G : MG α} (hG : G.PdagWF) (x : α) :
    let G' := disconnectSink o G x
    G'.nodes = G.nodes ∧ G'.types = G.types ∧ (∀ v, G'.g v .circle = G.g v .circle) ∧
      (∀ a b, G'.Arrow a b ↔ G.Arrow a b ∧ b ≠ x) ∧ ∀ a b, G'.Und a b ↔ G.Und a b ∧ a ≠ x ∧ b ≠ x := by
  obtain ⟨a1, a2, a3, a4⟩ := deleteUnd_fold x (o.iter (x, 0) (G.und x)) G
  obtain ⟨b1, b2, b3, b4⟩ := deleteDir_fold x
    (o.iter (x, 1) (((o.iter (x, 0) (G.und x)).foldl (fun G y => G.deleteUndirectedEdge y x) G).parents x))
    ((o.iter (x, 0) (G.und x)).foldl (fun G y => G.deleteUndirectedEdge y x) G)
  have harr : ∀ v, ((o.iter (x, 0) (G.und x)).foldl (fun G y => G.deleteUndirectedEdge y x) G).g v .arrow
    = G.g v .arrow := fun v => a3 v .arrow (by decide)
  refine ⟨b1.trans a1, b2.trans a2, fun v => (b3 v .circle (by decide)).trans (a3 v .circle (by decide)), ?_, ?_⟩
  · intro a b
    refine (b4 a b).trans ?_
    simp only [Arrow, parents, o.mem, harr]
    constructor
    · rintro ⟨h1, h2⟩; exact ⟨h1, by rintro rfl; exact h2 ⟨rfl, h1⟩⟩
    · rintro ⟨h1, h2⟩; exact ⟨h1, fun h => h2 h.1⟩
  · intro a b
    have : (disconnectSink o G x).Und a b ↔
      ((o.iter (x, 0) (G.und x)).foldl (fun G y => G.deleteUndirectedEdge y x) G).Und a b := by
      simp only [Und]
      rw [show (disconnectSink o G x).g b .tail = _ from b3 b .tail (by decide)]
    rw [this, a4 a b]
    simp only [o.mem, und, Und]
    constructor
    · rintro ⟨h1, h2, h3⟩
      exact ⟨h1, by rintro rfl; exact h3 ⟨rfl, hG.symm _ _ h1⟩, by rintro rfl; exact h2 ⟨rfl, h1⟩⟩
    · rintro ⟨h1, h2, h3⟩; exact ⟨h1, fun h => h3 h.1, fun h => h2 h.1⟩

theorem disconnectSink_wf (o : SetOrder α) {G : MG α} (hG : G.PdagWF) (x : α) :
    (disconnectSink o G x).PdagWF := by
  obtain ⟨h1, h2, h3, h4, h5⟩ := disconnectSink_spec o hG x
  refine ⟨by rw [h2]; exact hG.types, ?_, ?_, ?_, ?_⟩
  · intro a b m h
    rw [h1]
    cases m with
    | tail => exact hG.mem _ _ _ ((h5 a b).mp h).1
    | arrow => exact hG.mem _ _ _ ((h4 a b).mp h).1
    | circle => rw [h3] at h; exact hG.mem _ _ _ h
  · intro a m h
    cases m with
    | tail => exact hG.irrefl _ _ ((h5 a a).mp h).1
    | arrow => exact hG.irrefl _ _ ((h4 a a).mp h).1
    | circle => rw [h3] at h; exact hG.irrefl _ _ h
  · intro a b h
    obtain ⟨h6, h7, h8⟩ := (h5 a b).mp h
    exact (h5 b a).mpr ⟨hG.symm _ _ h6, h8, h7⟩
  · intro a b h h'
    exact hG.excl _ _ ((h4 a b).mp h).1 ((h5 a b).mp h').1

/-! ### selecting a node -/

/-- A node that can be removed: no directed edge leaves it, and its undirected neighbours are adjacent to all nodes
adjacent to it. -/
def Removable (G : MG α) (x : α) : Prop :=
  (∀ v ∈ G.nodes, ¬ G.Arrow x v) ∧
    ∀ y, G.Und y x → ∀ a, G.Und a x ∨ G.Arrow a x → a ≠ y → G.PAdj y a

theorem allConnected_spec (o : SetOrder α) {G : MG α} (hG : G.PdagWF) (A : Finset α) :
    ∀ l : List α, ∃ b, allConnected G A o l = .ok b ∧ (b = true ↔ ∀ y ∈ l, ∀ a ∈ A, a ≠ y → G.PAdj y a) := by
  intro l
  induction l with
  | nil => exact ⟨true, rfl, by simp⟩
  | cons y l ih =>
    obtain ⟨b, hb, hb'⟩ := forAny_spec (f := fun a => do return !(← G.isConnected y a)) (P := fun a => ¬ G.PAdj y a)
      (o.iter y (A.erase y)) (by
        intro a ha
        rw [o.mem, Finset.mem_erase] at ha
        obtain ⟨b, hb, hb'⟩ := isConnected_spec hG (Ne.symm ha.1)
        exact ⟨!b, by rw [hb]; rfl, by simp [← hb']⟩)
    simp only [o.mem, Finset.mem_erase] at hb'
    cases b with
    | true =>
      refine ⟨false, by simp only [allConnected, hb]; rfl, ?_⟩
      obtain ⟨a, ha, hn⟩ := hb'.mp rfl
      simp only [Bool.false_eq_true, false_iff]
      exact fun h => hn (h y (by simp) a ha.2 ha.1)
    | false =>
      obtain ⟨c, hc, hc'⟩ := ih
      have hb'' : ∀ a ∈ A, a ≠ y → G.PAdj y a := by
        intro a ha hne
        by_contra hn
        exact Bool.false_ne_true (hb'.mpr ⟨a, ⟨hne, ha⟩, hn⟩)
      refine ⟨c, by simp only [allConnected, hb]; exact hc, hc'.trans ?_⟩
      simp only [List.mem_cons, forall_eq_or_imp]
      exact ⟨fun h => ⟨hb'', h⟩, fun h => h.2⟩

theorem selectNode_spec (o : SetOrder α) {G : MG α} (hG : G.PdagWF) :
    ∀ l : List α, ∃ r, selectNode o G l = .ok r ∧ (∀ x, r = some x → x ∈ l ∧ G.Removable x) ∧
      (r = none → ∀ x ∈ l, ¬ G.Removable x) := by
  intro l
  induction l with
  | nil => exact ⟨none, rfl, by simp, by simp⟩
  | cons x l ih =>
    obtain ⟨r, hr, hr1, hr2⟩ := ih
    obtain ⟨b, hb, hb'⟩ := allConnected_spec o hG (G.und x ∪ G.parents x) (o.iter (x, 1) (G.und x))
    have hrem : (G.isSink x G.nodes = true ∧ b = true) ↔ G.Removable x := by
      rw [hb']
      simp only [isSink, decide_eq_true_eq, o.mem, Finset.mem_union, Removable]
      exact Iff.rfl
    have hskip : ¬ G.Removable x → selectNode o G (x :: l) = selectNode o G l := by
      intro hn
      rw [← hrem] at hn
      simp only [selectNode]
      by_cases hs : G.isSink x G.nodes = true
      · have : b = false := by cases b; rfl; exact absurd ⟨hs, rfl⟩ hn
        subst this
        simp only [hs, if_true, hb]; rfl
      · simp only [hs]; rfl
    by_cases hx : G.Removable x
    · obtain ⟨hs, rfl⟩ := hrem.mpr hx
      refine ⟨some x, by simp only [selectNode, hs, if_true, hb]; rfl, ?_, by simp⟩
      rintro _ ⟨⟩; exact ⟨by simp, hx⟩
    · refine ⟨r, (hskip hx).trans hr, fun y hy => ?_, fun hn y hy => ?_⟩
      · obtain ⟨h1, h2⟩ := hr1 y hy; exact ⟨List.mem_cons_of_mem _ h1, h2⟩
      · rcases List.mem_cons.mp hy with rfl | hy
        · exact hx
        · exact hr2 hn y hy

/-! ### extensions and removable nodes -/

omit [DecidableEq α] in
theorem Extension.edge_of_und {G : MG α} {E : Dag α} (hE : G.Extension E) {a b : α} (h : G.Und a b)
    (hn : ¬ E.Edge b a) : E.Edge a b :=
  ((hE.adj a b).mpr (Or.inr (Or.inr (Or.inl h)))).resolve_right hn

omit [DecidableEq α] in
/-- A sink of an extension is removable. -/
theorem Extension.removable_of_sink {G : MG α} (hG : G.PdagWF) {E : Dag α} (hE : G.Extension E) {x : α}
    (hx : ∀ y, ¬ E.Edge x y) : G.Removable x := by
  refine ⟨fun v _ h => hx v (hE.dir _ _ h), ?_⟩
  intro y hy a ha hne
  have h1 : E.Edge y x := hE.edge_of_und hy (hx y)
  have h2 : E.Edge a x := by
    rcases ha with ha | ha
    · exact hE.edge_of_und ha (hx a)
    · exact hE.dir _ _ ha
  by_contra hn
  have := hE.ucol y x a ⟨h1, h2, Ne.symm hne, fun h => hn ((hE.adj _ _).mp h)⟩
  exact hG.excl _ _ this.1 hy

/-- Restriction of an extension after removing a node. -/
theorem Extension.restrict (o : SetOrder α) {G : MG α} (hG : G.PdagWF) {E : Dag α} (hE : G.Extension E) {x : α}
    (hx : ∀ v, ¬ G.Arrow x v) : ∃ E', (disconnectSink o G x).Extension E' := by
  obtain ⟨h1, _, _, h4, h5⟩ := disconnectSink_spec o hG x
  have h4' : ∀ a b, (disconnectSink o G x).Arrow a b ↔ G.Arrow a b ∧ a ≠ x ∧ b ≠ x := by
    intro a b
    rw [h4]
    exact ⟨fun h => ⟨h.1, by rintro rfl; exact hx _ h.1, h.2⟩, fun h => ⟨h.1, h.2.2⟩⟩
  have hadj : ∀ a b, (disconnectSink o G x).PAdj a b ↔ G.PAdj a b ∧ a ≠ x ∧ b ≠ x := by
    intro a b
    simp only [PAdj, h4', h5]; tauto
  let E' : Dag α := ⟨E.nodes, fun v => if v = x then ∅ else (E.par v).erase x⟩
  have hedge : ∀ a b, E'.Edge a b ↔ E.Edge a b ∧ a ≠ x ∧ b ≠ x := by
    intro a b
    simp only [E', Dag.Edge]
    split
    · rename_i h; simp [h]
    · rename_i h; simp [h, and_comm]
  have hadjE : ∀ a b, E'.Adj a b ↔ E.Adj a b ∧ a ≠ x ∧ b ≠ x := by
    intro a b; simp only [Dag.Adj, hedge]; tauto
  refine ⟨E', hE.nodes.trans h1.symm, ?_, ?_, ?_, ?_, ?_⟩
  · intro a b h; exact hE.wf _ _ ((hedge a b).mp h).1
  · intro v h; exact hE.acyclic v (tg_mono (fun a b h => ((hedge a b).mp h).1) h)
  · intro a b; rw [hadjE, hadj, hE.adj]
  · intro a b h
    obtain ⟨h6, h7⟩ := (h4' a b).mp h
    exact (hedge a b).mpr ⟨hE.dir _ _ h6, h7⟩
  · rintro a b c ⟨ha, hc, hne, hn⟩
    obtain ⟨ha1, ha2, ha3⟩ := (hedge _ _).mp ha
    obtain ⟨hc1, hc2, hc3⟩ := (hedge _ _).mp hc
    obtain ⟨u1, u2, _, u4⟩ := hE.ucol a b c ⟨ha1, hc1, hne, fun h => hn ((hadjE _ _).mpr ⟨h, ha2, hc2⟩)⟩
    exact ⟨(h4' _ _).mpr ⟨u1, ha2, ha3⟩, (h4' _ _).mpr ⟨u2, hc2, hc3⟩, hne, fun h => u4 ((hadj _ _).mp h).1⟩

/-- Adding a removable node back to an extension, as a sink. -/
theorem Extension.addSink (o : SetOrder α) {G : MG α} (hG : G.PdagWF) {x : α} (hx : G.Removable x)
    {E' : Dag α} (hE : (disconnectSink o G x).Extension E') :
    ∃ E, G.Extension E ∧ ∀ a b, E.Edge a b ↔ E'.Edge a b ∨ (b = x ∧ (G.Und a x ∨ G.Arrow a x)) := by
  obtain ⟨h1, _, _, h4, h5⟩ := disconnectSink_spec o hG x
  have hout : ∀ v, ¬ G.Arrow x v := fun v h => hx.1 v (hG.mem _ _ _ h).2 h
  have h4' : ∀ a b, (disconnectSink o G x).Arrow a b ↔ G.Arrow a b ∧ a ≠ x ∧ b ≠ x := by
    intro a b
    rw [h4]
    exact ⟨fun h => ⟨h.1, by rintro rfl; exact hout _ h.1, h.2⟩, fun h => ⟨h.1, h.2.2⟩⟩
  have hadj : ∀ a b, (disconnectSink o G x).PAdj a b ↔ G.PAdj a b ∧ a ≠ x ∧ b ≠ x := by
    intro a b
    simp only [PAdj, h4', h5]; tauto
  have hE' : ∀ a b, E'.Edge a b → G.PAdj a b ∧ a ≠ x ∧ b ≠ x := fun a b h =>
    (hadj a b).mp ((hE.adj a b).mp (Or.inl h))
  let E : Dag α := ⟨G.nodes, fun v => if v = x then G.und x ∪ G.parents x else E'.par v⟩
  have hedge : ∀ a b, E.Edge a b ↔ E'.Edge a b ∨ (b = x ∧ (G.Und a x ∨ G.Arrow a x)) := by
    intro a b
    simp only [E, Dag.Edge]
    split
    · rename_i h; subst h
      simp only [Finset.mem_union, true_and]
      constructor
      · intro h; exact Or.inr h
      · rintro (h | h)
        · exact absurd rfl (hE' a b h).2.2
        · exact h
    · rename_i h; simp [h]
  have hsink : ∀ b, ¬ E.Edge x b := by
    intro b h
    rcases (hedge x b).mp h with h | ⟨rfl, h | h⟩
    · exact (hE' x b h).2.1 rfl
    · exact hG.irrefl _ _ h
    · exact hG.irrefl _ _ h
  have hEadj : ∀ a b, E.Adj a b ↔ G.PAdj a b := by
    intro a b
    simp only [Dag.Adj, hedge]
    constructor
    · rintro ((h | ⟨rfl, h | h⟩) | (h | ⟨rfl, h | h⟩))
      · exact (hE' a b h).1
      · exact Or.inr (Or.inr (Or.inl h))
      · exact Or.inl h
      · exact (hE' b a h).1.symm
      · exact Or.inr (Or.inr (Or.inr h))
      · exact Or.inr (Or.inl h)
    · intro h
      have hne := hG.ne_of_adj h
      by_cases hb : b = x
      · subst hb
        rcases h with h | h | h | h
        · exact Or.inl (Or.inr ⟨rfl, Or.inr h⟩)
        · exact absurd h (hout a)
        · exact Or.inl (Or.inr ⟨rfl, Or.inl h⟩)
        · exact Or.inl (Or.inr ⟨rfl, Or.inl (hG.symm _ _ h)⟩)
      · by_cases ha : a = x
        · subst ha
          rcases h with h | h | h | h
          · exact absurd h (hout b)
          · exact Or.inr (Or.inr ⟨rfl, Or.inr h⟩)
          · exact Or.inr (Or.inr ⟨rfl, Or.inl (hG.symm _ _ h)⟩)
          · exact Or.inr (Or.inr ⟨rfl, Or.inl h⟩)
        · rcases (hE.adj a b).mpr ((hadj a b).mpr ⟨h, ha, hb⟩) with h | h
          · exact Or.inl (Or.inl h)
          · exact Or.inr (Or.inl h)
  refine ⟨E, ⟨rfl, ?_, ?_, hEadj, ?_, ?_⟩, hedge⟩
  · intro a b h
    exact hG.mem_adj ((hEadj a b).mp (Or.inl h))
  · intro v h
    have key : ∀ a b, TransGen E.Edge a b → b ≠ x → TransGen E'.Edge a b := by
      intro a b h
      induction h with
      | single h =>
        intro hne
        rcases (hedge _ _).mp h with h | h
        · exact TransGen.single h
        · exact absurd h.1 hne
      | @tail b c h1 h2 ih =>
        intro hne
        rcases (hedge _ _).mp h2 with h | h
        · exact TransGen.tail (ih (hE' _ _ h).2.1) h
        · exact absurd h.1 hne
    have hvx : v ≠ x := by
      rintro rfl
      obtain ⟨w, hw, _⟩ := TransGen.head'_iff.mp h
      exact hsink w hw
    exact hE.acyclic v (key v v h hvx)
  · intro a b h
    rw [hedge]
    by_cases hb : b = x
    · subst hb; exact Or.inr ⟨rfl, Or.inr h⟩
    · exact Or.inl (hE.dir _ _ ((h4 a b).mpr ⟨h, hb⟩))
  · rintro a b c ⟨ha, hc, hne, hn⟩
    rw [hEadj] at hn
    rcases (hedge _ _).mp ha with ha | ⟨rfl, ha⟩
    · rcases (hedge _ _).mp hc with hc | ⟨rfl, _⟩
      · have u := hE.ucol a b c ⟨ha, hc, hne, fun h => hn ((hadj _ _).mp ((hE.adj _ _).mp h)).1⟩
        exact ⟨((h4' _ _).mp u.1).1, ((h4' _ _).mp u.2.1).1, hne, hn⟩
      · exact absurd rfl (hE' _ _ (by assumption)).2.2
    · rcases (hedge _ _).mp hc with hc | ⟨_, hc⟩
      · exact absurd rfl (hE' _ _ hc).2.2
      · rcases ha with ha | ha
        · exact absurd (hx.2 a ha c hc (Ne.symm hne)) hn
        · rcases hc with hc | hc
          · exact absurd (hx.2 c hc a (Or.inr ha) hne).symm hn
          · exact ⟨ha, hc, hne, hn⟩

theorem isEmpty_spec {G : MG α} (hG : G.PdagWF) : G.isEmpty = true ↔ ∀ a b, ¬ G.PAdj a b := by
  simp only [isEmpty, decide_eq_true_eq]
  constructor
  · intro h a b hab
    have h' : ∀ u v m, m ∈ G.types → u ∉ G.g v m := by
      intro u v m hm hu
      rw [h v (hG.mem _ _ _ hu).2 m hm] at hu; simp at hu
    rcases hab with h1 | h1 | h1 | h1
    · exact h' _ _ _ ((hG.types _).mpr (Or.inr rfl)) h1
    · exact h' _ _ _ ((hG.types _).mpr (Or.inr rfl)) h1
    · exact h' _ _ _ ((hG.types _).mpr (Or.inl rfl)) h1
    · exact h' _ _ _ ((hG.types _).mpr (Or.inl rfl)) h1
  · intro h v _ m hm
    rw [Finset.eq_empty_iff_forall_notMem]
    intro a ha
    rcases (hG.types m).mp hm with rfl | rfl
    · exact h a v (Or.inr (Or.inr (Or.inl ha)))
    · exact h a v (Or.inl ha)

theorem dag_addEdges_ok {D : Dag α} {ps : Finset α} {t : α} (hp : ps ⊆ D.nodes) (ht : t ∈ D.nodes) :
    ∃ D', D.addEdges ps t = .ok D' ∧ D'.nodes = D.nodes ∧ ∀ a b, D'.Edge a b ↔ D.Edge a b ∨ (b = t ∧ a ∈ ps) := by
  refine ⟨{ D with par := modify D.par t (fun s => s ∪ ps) }, ?_, rfl, ?_⟩
  · simp [Dag.addEdges, ht, Finset.sdiff_eq_empty_iff_subset.mpr hp]
  · intro a b
    simp only [Dag.Edge, modify]
    split
    · rename_i h; subst h; simp
    · rename_i h; simp [h]

/-- The loop of `convert_to_dag`. -/
theorem toDagLoop_spec (o : SetOrder α) :
    ∀ (n : Nat) (G : MG α) (A : Finset α) (D : Dag α), G.PdagWF → A.card < n → A ⊆ G.nodes →
      (∀ a b, G.PAdj a b → a ∈ A ∧ b ∈ A) → D.nodes = G.nodes → (∀ a b, G.Arrow a b → D.Edge a b) →
      ∃ D' flag, toDagLoop o n G A D = .ok (D', flag) ∧ D'.nodes = D.nodes ∧
        (flag = true → ∃ E, G.Extension E ∧ ∀ a b, D'.Edge a b ↔ D.Edge a b ∨ E.Edge a b) ∧
        ((∃ E, G.Extension E) → flag = true) := by
  intro n
  induction n with
  | zero => intro G A D _ h; exact absurd h (Nat.not_lt_zero _)
  | succ n ih =>
    intro G A D hG hn hAn hA hD harr
    by_cases hemp : G.isEmpty = true
    · refine ⟨D, true, by simp [toDagLoop, hemp], rfl, fun _ => ?_, fun _ => rfl⟩
      have hno := (isEmpty_spec hG).mp hemp
      have he : ∀ a b, ¬ (Dag.empty G.nodes).Edge a b := by intro a b h; simp [Dag.Edge, Dag.empty] at h
      refine ⟨Dag.empty G.nodes, ⟨rfl, fun a b h => absurd h (he a b), ?_, ?_, ?_, ?_⟩, ?_⟩
      · intro v h
        obtain ⟨w, hw, _⟩ := TransGen.head'_iff.mp h
        exact he _ _ hw
      · intro a b
        exact ⟨fun h => h.elim (fun h => absurd h (he a b)) (fun h => absurd h (he b a)), fun h => absurd h (hno a b)⟩
      · intro a b h; exact absurd (Or.inl h) (hno a b)
      · intro a b c h; exact absurd h.1 (he a b)
      · intro a b; exact ⟨Or.inl, fun h => h.elim id (fun h => absurd h (he a b))⟩
    · obtain ⟨r, hr, hr1, hr2⟩ := selectNode_spec o hG (o.iter n A)
      cases r with
      | none =>
        refine ⟨D, false, by simp only [toDagLoop, hemp, hr]; rfl, rfl, by simp, ?_⟩
        rintro ⟨E, hE⟩
        exfalso
        have hne : ∃ a b, G.PAdj a b := by
          by_contra hc
          push Not at hc
          exact hemp ((isEmpty_spec hG).mpr hc)
        obtain ⟨a, b, hab⟩ := hne
        obtain ⟨x, hxA, hx⟩ := exists_sink hE.acyclic ⟨a, (hA a b hab).1⟩
        refine hr2 rfl x ((o.mem _ _ _).mpr hxA) (hE.removable_of_sink hG ?_)
        intro y hy
        exact hx y (hA _ _ ((hE.adj x y).mp (Or.inl hy))).2 hy
      | some x =>
        obtain ⟨hxA, hx⟩ := hr1 x rfl
        rw [o.mem] at hxA
        have hG' := disconnectSink_wf o hG x
        obtain ⟨h1, _, _, h4, h5⟩ := disconnectSink_spec o hG x
        have hout : ∀ v, ¬ G.Arrow x v := fun v h => hx.1 v (hG.mem _ _ _ h).2 h
        have hpadj : ∀ a b, (disconnectSink o G x).PAdj a b → G.PAdj a b ∧ a ≠ x ∧ b ≠ x := by
          intro a b h
          simp only [PAdj, h4, h5] at h ⊢
          rcases h with h | h | h | h
          · exact ⟨Or.inl h.1, by rintro rfl; exact hout _ h.1, h.2⟩
          · exact ⟨Or.inr (Or.inl h.1), h.2, by rintro rfl; exact hout _ h.1⟩
          · exact ⟨Or.inr (Or.inr (Or.inl h.1)), h.2⟩
          · exact ⟨Or.inr (Or.inr (Or.inr h.1)), h.2.2, h.2.1⟩
        have haddE : ∃ D1, D.addEdges (G.und x) x = .ok D1 ∧ D1.nodes = D.nodes ∧
            ∀ a b, D1.Edge a b ↔ D.Edge a b ∨ (b = x ∧ a ∈ G.und x) := by
          refine dag_addEdges_ok ?_ (by rw [hD]; exact hAn hxA)
          intro a ha; rw [hD]; exact (hG.mem _ _ _ ha).1
        obtain ⟨D1, hD1, hD1n, hD1e⟩ := haddE
        obtain ⟨D', flag, g1, g2, g3, g4⟩ := ih (disconnectSink o G x) (A.erase x) D1 hG'
          (by rw [Finset.card_erase_of_mem hxA]; have := Finset.card_pos.mpr ⟨x, hxA⟩; omega)
          (by rw [h1]; exact (Finset.erase_subset _ _).trans hAn)
          (fun a b h => by
            obtain ⟨h6, h7, h8⟩ := hpadj a b h
            exact ⟨Finset.mem_erase.mpr ⟨h7, (hA a b h6).1⟩, Finset.mem_erase.mpr ⟨h8, (hA a b h6).2⟩⟩)
          (hD1n.trans (hD.trans h1.symm))
          (fun a b h => (hD1e a b).mpr (Or.inl (harr a b ((h4 a b).mp h).1)))
        refine ⟨D', flag, ?_, g2.trans hD1n, fun hf => ?_, fun ⟨E, hE⟩ => g4 (hE.restrict o hG hout)⟩
        · simp only [toDagLoop, hemp, hr, bind, Except.bind, hD1]; exact g1
        · obtain ⟨E', hE', hDe⟩ := g3 hf
          obtain ⟨E, hE, hEe⟩ := hE'.addSink o hG hx
          refine ⟨E, hE, fun a b => ?_⟩
          rw [hDe, hD1e, hEe]
          constructor
          · rintro ((h | ⟨rfl, h⟩) | h)
            · exact Or.inl h
            · exact Or.inr (Or.inr ⟨rfl, Or.inl h⟩)
            · exact Or.inr (Or.inl h)
          · rintro (h | h | ⟨rfl, h | h⟩)
            · exact Or.inl (Or.inl h)
            · exact Or.inr h
            · exact Or.inl (Or.inr ⟨rfl, h⟩)
            · exact Or.inl (Or.inl (harr _ _ h))

theorem convertToDag_spec (o : SetOrder α) {G : MG α} (hG : G.PdagWF) :
    ∃ D flag, G.convertToDag o (Dag.empty G.nodes) = .ok (D, flag) ∧
      (flag = true → ∃ E, G.Extension E ∧ D.nodes = E.nodes ∧ ∀ a b, D.Edge a b ↔ E.Edge a b) ∧
      ((∃ E, G.Extension E) → flag = true) := by
  obtain ⟨D0, h1, h2, h3⟩ := foldlM_ok_inv (f := fun (D : Dag α) v => D.addEdges (G.parents v) v)
    (fun done D => D.nodes = G.nodes ∧ ∀ a b, D.Edge a b ↔ b ∈ done ∧ G.Arrow a b) (o.iter () G.nodes) []
    (Dag.empty G.nodes) ⟨rfl, by simp [Dag.Edge, Dag.empty]⟩
    (by
      intro done v D hv hI
      rw [o.mem] at hv
      obtain ⟨D', h1, h2, h3⟩ := dag_addEdges_ok (D := D) (ps := G.parents v) (t := v)
        (by intro a ha; rw [hI.1]; exact (hG.mem _ _ _ ha).1) (by rw [hI.1]; exact hv)
      refine ⟨D', h1, h2.trans hI.1, fun a b => ?_⟩
      rw [h3, hI.2]
      simp only [List.mem_append, List.mem_singleton]
      constructor
      · rintro (h | ⟨rfl, h⟩)
        · exact ⟨Or.inl h.1, h.2⟩
        · exact ⟨Or.inr rfl, h⟩
      · rintro ⟨h | rfl, h'⟩
        · exact Or.inl ⟨h, h'⟩
        · exact Or.inr ⟨rfl, h'⟩)
  have h3' : ∀ a b, D0.Edge a b ↔ G.Arrow a b := by
    intro a b
    rw [h3]
    simp only [List.nil_append, o.mem]
    exact ⟨fun h => h.2, fun h => ⟨(hG.mem _ _ _ h).2, h⟩⟩
  obtain ⟨D, flag, g1, g2, g3, g4⟩ := toDagLoop_spec o (G.nodes.card + 1) G G.nodes D0 hG (Nat.lt_succ_self _)
    (Finset.Subset.refl _) (fun a b h => hG.mem_adj h) h2 (fun a b h => (h3' a b).mpr h)
  refine ⟨D, flag, by simp only [convertToDag, h1]; exact g1, fun hf => ?_, g4⟩
  obtain ⟨E, hE, hDe⟩ := g3 hf
  refine ⟨E, hE, (g2.trans h2).trans hE.nodes.symm, fun a b => ?_⟩
  rw [hDe, h3']
  exact ⟨fun h => h.elim (hE.dir a b) id, Or.inr⟩

/-! ### partial topological order -/

theorem mem_foldl_parents (G : MG α) (en : Finset α) (x : α) : ∀ (l : List α) (acc : Finset α),
    x ∈ l.foldl (fun acc v => acc ∪ (G.parents v ∩ en)) acc ↔ x ∈ acc ∨ (x ∈ en ∧ ∃ v ∈ l, G.Arrow x v) := by
  intro l
  induction l with
  | nil => simp
  | cons v l ih =>
    intro acc
    rw [List.foldl_cons, ih]
    simp only [Finset.mem_union, Finset.mem_inter, List.mem_cons, exists_eq_or_imp, parents, Arrow]
    tauto

theorem partialTopoFuel_spec (o : SetOrder α) (G : MG α) :
    ∀ (n : Nat) (en : Finset α), en.card < n →
      ∃ gs, partialTopoFuel o G n en = .ok gs ∧ (∀ x, x ∈ en ↔ ∃ g ∈ gs, x ∈ g) ∧ (∀ g ∈ gs, g.Nonempty) ∧
        gs.Pairwise (fun g g' => Disjoint g g' ∧ ∀ a ∈ g, ∀ b ∈ g', ¬ G.Arrow a b) := by
  intro n
  induction n with
  | zero => intro en h; exact absurd h (Nat.not_lt_zero _)
  | succ n ih =>
    intro en hn
    simp only [partialTopoFuel]
    by_cases h0 : en.card = 0
    · rw [if_pos h0]
      rw [Finset.card_eq_zero] at h0
      subst h0
      exact ⟨[], rfl, by simp, by simp, List.Pairwise.nil⟩
    · rw [if_neg h0]
      have hps' := fun x => mem_foldl_parents G en x (o.iter () en) ∅
      simp only [Finset.notMem_empty, false_or, o.mem] at hps'
      generalize (o.iter () en).foldl (fun acc v => acc ∪ (G.parents v ∩ en)) ∅ = ps at hps' ⊢
      by_cases hl : (en \ ps).card = 0
      · simp only [hl, if_true]
        rw [Finset.card_eq_zero, Finset.sdiff_eq_empty_iff_subset] at hl
        have : ps = en := Finset.Subset.antisymm (fun x hx => ((hps' x).mp hx).1) hl
        refine ⟨[ps], rfl, by simp [this], ?_, List.pairwise_singleton _ _⟩
        intro g hg
        simp only [List.mem_singleton] at hg
        rw [hg, this, ← Finset.card_pos]; omega
      · simp only [hl, if_false]
        have hsub : ps ⊆ en := fun x hx => ((hps' x).mp hx).1
        have hcard := Finset.card_sdiff_add_card_eq_card hsub
        obtain ⟨gs, h1, h2, h3, h4⟩ := ih ps (by omega)
        refine ⟨(en \ ps) :: gs, by simp only [h1]; rfl, ?_, ?_, ?_⟩
        · intro x
          simp only [List.mem_cons, exists_eq_or_imp, Finset.mem_sdiff, ← h2]
          constructor
          · intro h; by_cases hx : x ∈ ps
            · exact Or.inr hx
            · exact Or.inl ⟨h, hx⟩
          · rintro (h | h)
            · exact h.1
            · exact hsub h
        · intro g hg
          rcases List.mem_cons.mp hg with rfl | hg
          · rw [← Finset.card_pos]; omega
          · exact h3 g hg
        · rw [List.pairwise_cons]
          refine ⟨fun g hg => ⟨?_, ?_⟩, h4⟩
          · rw [Finset.disjoint_left]
            intro a ha hag
            exact (Finset.mem_sdiff.mp ha).2 ((h2 a).mpr ⟨g, hg, hag⟩)
          · intro a ha b hb hab
            rw [Finset.mem_sdiff] at ha
            exact ha.2 ((hps' a).mpr ⟨ha.1, b, hsub ((h2 b).mpr ⟨g, hg, hb⟩), hab⟩)

/-! ### soundness of the rules for consistent extensions -/

omit [DecidableEq α] in
theorem Extension.rule {G : MG α} (hG : G.PdagWF) {E : Dag α} (hE : G.Extension E) {r : Nat} {x y : α}
    (h : G.RulePattern r x y)
    (h4 : r = 4 → ∃ w z, G.Und w x ∧ G.Arrow w z ∧ G.Arrow z y ∧ G.PAdj x z ∧ ¬ G.PAdj w y) : E.Edge x y := by
  have hxy := h.und
  by_contra hn
  have hyx : E.Edge y x := hE.edge_of_und (hG.symm _ _ hxy) hn
  have hac := hE.acyclic
  have hrange : r = 1 ∨ r = 2 ∨ r = 3 ∨ r = 4 := by
    obtain ⟨_, h⟩ := h
    split at h
    · simp
    · simp
    · simp
    · simp
    · exact absurd h id
  rcases hrange with rfl | rfl | rfl | rfl
  · obtain ⟨_, z, h1, h2⟩ := h
    have hne : z ≠ y := by rintro rfl; exact hG.excl _ _ h1 (hG.symm _ _ hxy)
    have := hE.ucol z x y ⟨hE.dir _ _ h1, hyx, hne, fun h => h2 ((hE.adj _ _).mp h)⟩
    exact hG.excl _ _ this.2.1 (hG.symm _ _ hxy)
  · obtain ⟨_, z, h1, h2⟩ := h
    exact hac x (TransGen.head (hE.dir _ _ h1) (TransGen.head (hE.dir _ _ h2) (TransGen.single hyx)))
  · obtain ⟨_, w, z, hne, h1, h2, h3, h4, h5⟩ := h
    have key : ∀ v, G.Und v x → G.Arrow v y → E.Edge v x := by
      intro v hv hvy
      refine hE.edge_of_und hv fun hxv => ?_
      exact hac x (TransGen.head hxv (TransGen.head (hE.dir _ _ hvy) (TransGen.single hyx)))
    have := hE.ucol w x z ⟨key w h1 h3, key z h2 h4, hne, fun h => h5 ((hE.adj _ _).mp h)⟩
    exact hG.excl _ _ this.1 h1
  · obtain ⟨w, z, h1, h2, h3, h5, h6⟩ := h4 rfl
    have hzy := hE.dir _ _ h3
    have hwz := hE.dir _ _ h2
    have hzx : E.Edge z x := by
      rcases (hE.adj x z).mpr h5 with h | h
      · exact absurd (TransGen.head h (TransGen.head hzy (TransGen.single hyx))) (hac x)
      · exact h
    have hwx : E.Edge w x := hE.edge_of_und h1 fun hxw =>
      hac x (TransGen.head hxw (TransGen.head hwz (TransGen.single hzx)))
    have hne : w ≠ y := by
      rintro rfl
      exact hac w (TransGen.head hwz (TransGen.single hzy))
    have := hE.ucol w x y ⟨hwx, hyx, hne, fun h => h6 ((hE.adj _ _).mp h)⟩
    exact hG.excl _ _ this.1 h1

end MG
end Verif
