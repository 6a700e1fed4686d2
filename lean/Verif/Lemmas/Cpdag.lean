import Verif.Lemmas.PdagRules

/-!
# From a DAG to its CPDAG
-/

namespace Verif
open Relation
namespace MG
variable {α : Type} [DecidableEq α]

/-- A PDAG with the adjacencies of `D` in which all directed edges are derivable from `D`'s unshielded colliders. -/
structure Pat (D : Dag α) (P : MG α) : Prop where
  nodes : P.nodes = D.nodes
  wf : P.PdagWF
  adj : ∀ a b, P.PAdj a b ↔ D.Adj a b
  der : ∀ a b, P.Arrow a b → Dag.Der D a b

theorem Pat.orient {D : Dag α} (hac : D.Acyclic) {P : MG α} (h : Pat D P) {a b : α} (hd : Dag.Der D a b) :
    Pat D (P.orientEdge a b) := by
  have hE := hd.sound hac
  have hadj : P.PAdj a b := (h.adj a b).mpr (Or.inl hE)
  have hm : a ∈ P.nodes ∧ b ∈ P.nodes := by
    rcases hadj with h' | h' | h' | h'
    · exact h.wf.mem _ _ _ h'
    · exact (h.wf.mem _ _ _ h').symm
    · exact h.wf.mem _ _ _ h'
    · exact (h.wf.mem _ _ _ h').symm
  refine ⟨h.nodes, orientEdge_wf h.wf ?_ hm.1 hm.2, fun x y => ?_, fun x y h' => ?_⟩
  · rintro rfl; exact Dag.irrefl hac _ hE
  · rw [orientEdge_padj hadj, h.adj]
  · rcases orientEdge_arrow.mp h' with h' | ⟨rfl, rfl⟩
    · exact h.der _ _ h'
    · exact hd

omit [DecidableEq α] in
/-- Rules 1–3 only derive derivable orientations. -/
theorem Pat.rule {D : Dag α} {P : MG α} (h : Pat D P)
    (hvs : ∀ a b c, D.UCol a b c → P.Arrow a b) {r : Nat} (hr : r = 1 ∨ r = 2 ∨ r = 3) {x y : α}
    (hp : P.RulePattern r x y) : Dag.Der D x y := by
  have hxy : D.Adj x y := (h.adj x y).mp (Or.inr (Or.inr (Or.inl hp.und)))
  have hund := hp.und
  have hund' := h.wf.symm _ _ hund
  rcases hr with rfl | rfl | rfl
  · obtain ⟨_, z, h1, h2⟩ := hp
    refine Dag.Der.r1 (h.der _ _ h1) hxy ?_ (fun h' => h2 ((h.adj _ _).mpr h')) ?_
    · rintro rfl; exact h.wf.excl _ _ h1 hund'
    · intro hu; exact h.wf.excl _ _ (hvs _ _ _ hu.swap) hund'
  · obtain ⟨_, z, h1, h2⟩ := hp
    exact Dag.Der.r2 (h.der _ _ h1) (h.der _ _ h2) hxy
  · obtain ⟨_, w, z, hne, h1, h2, h3, h4, h5⟩ := hp
    refine Dag.Der.r3 (h.der _ _ h3) (h.der _ _ h4) hne (fun h' => h5 ((h.adj _ _).mpr h')) ?_ ?_ hxy ?_
    · exact (h.adj x w).mp (Or.inr (Or.inr (Or.inr h1)))
    · exact (h.adj x z).mp (Or.inr (Or.inr (Or.inr h2)))
    · intro hu; exact h.wf.excl _ _ (hvs _ _ _ hu) h1

theorem Pat.steps {D : Dag α} (hac : D.Acyclic) {P P' : MG α} {rules : List Nat}
    (hr : ∀ r ∈ rules, r = 1 ∨ r = 2 ∨ r = 3) (hs : ReflTransGen (Step rules) P P') (h : Pat D P)
    (hvs : ∀ a b c, D.UCol a b c → P.Arrow a b) : Pat D P' ∧ ∀ a b c, D.UCol a b c → P'.Arrow a b := by
  induction hs with
  | refl => exact ⟨h, hvs⟩
  | tail _ hst ih =>
    obtain ⟨ih1, ih2⟩ := ih
    obtain ⟨r, hr', x, y, hp, rfl⟩ := hst
    exact ⟨ih1.orient hac (ih1.rule ih2 (hr r hr') hp),
      fun a b c hu => orientEdge_arrow.mpr (Or.inl (ih2 a b c hu))⟩

omit [DecidableEq α] in
theorem Pat.undOf {D : Dag α} {P : MG α} (h : Pat D P) (a b : α) : D.UndOf P.Arrow a b ↔ P.Und a b := by
  constructor
  · rintro ⟨h1, h2, h3⟩
    rcases (h.adj a b).mpr h1 with h' | h' | h' | h'
    · exact absurd h' h2
    · exact absurd h' h3
    · exact h'
    · exact h.wf.symm _ _ h'
  · intro h'
    refine ⟨(h.adj a b).mp (Or.inr (Or.inr (Or.inl h'))), fun h1 => h.wf.excl _ _ h1 h', fun h1 => ?_⟩
    exact h.wf.excl _ _ h1 (h.wf.symm _ _ h')

omit [DecidableEq α] in
theorem Pat.closed {D : Dag α} {P : MG α} (h : Pat D P)
    (hvs : ∀ a b c, D.UCol a b c → P.Arrow a b)
    (hno : ∀ r, r = 1 ∨ r = 2 ∨ r = 3 → ∀ y ∈ P.nodes, ∀ x, ¬ P.RulePattern r x y) :
    Dag.ClosedPattern D P.Arrow := by
  have hno' : ∀ r, r = 1 ∨ r = 2 ∨ r = 3 → ∀ x y, ¬ P.RulePattern r x y := fun r hr x y hp =>
    hno r hr y (h.wf.mem _ _ _ hp.und).2 x hp
  refine ⟨h.der, hvs, ?_, ?_, ?_⟩
  · intro z x y h1 h2 _
    by_contra hn
    exact hno' 1 (by simp) x y ⟨(h.undOf _ _).mp h2, z, h1, fun h' => hn ((h.adj _ _).mp h')⟩
  · intro x z y h1 h2 h3
    exact hno' 2 (by simp) x y ⟨(h.undOf _ _).mp h3, z, h1, h2⟩
  · intro x w z y h1 h2 hne hn h3 h4 h5
    exact hno' 3 (by simp) x y ⟨(h.undOf _ _).mp h5, w, z, hne, h.wf.symm _ _ ((h.undOf _ _).mp h3),
      h.wf.symm _ _ ((h.undOf _ _).mp h4), h1, h2, fun h' => hn ((h.adj _ _).mp h')⟩

/-- Maximal orientation of a pattern that has all unshielded colliders ends in a closed pattern. -/
theorem Pat.maximallyOrient {D : Dag α} (hac : D.Acyclic) (o : SetOrder α) {rules : List Nat}
    (hr : ∀ r, r ∈ rules ↔ r = 1 ∨ r = 2 ∨ r = 3) {P : MG α} (h : Pat D P)
    (hvs : ∀ a b c, D.UCol a b c → P.Arrow a b) :
    ∃ P', P.maximallyOrient o rules P.nodes = .ok P' ∧ Pat D P' ∧ Dag.ClosedPattern D P'.Arrow := by
  obtain ⟨P', h1, h2, h3⟩ := maximallyOrient_spec o (rules := rules)
    (fun r h => by rcases (hr r).mp h with rfl | rfl | rfl <;> omega) P.nodes h.wf
  obtain ⟨h4, h5⟩ := h.steps hac (fun r h => (hr r).mp h) h2 hvs
  refine ⟨P', h1, h4, h4.closed h5 ?_⟩
  intro r hr' y hy
  exact h3 r ((hr r).mpr hr') y (by rw [h.nodes]; rw [h4.nodes] at hy; exact hy)

/-! ### add_edges of a PDAG -/

theorem pdagAddEdges_tail (G : MG α) (ps : Finset α) (t : α) :
    ∃ G', G.pdagAddEdges ps t .tail = .ok G' ∧ G'.nodes = G.nodes ∧ G'.types = G.types ∧
      (∀ a b, G'.Und a b ↔ G.Und a b ∨ (b = t ∧ a ∈ ps) ∨ (a = t ∧ b ∈ ps)) ∧
      ∀ v m, m ≠ .tail → G'.g v m = G.g v m := by
  refine ⟨_, if_neg (by decide), ?_, ?_, fun a b => ?_, fun v m hm => ?_⟩
  · rw [if_pos rfl]; rfl
  · rw [if_pos rfl]; rfl
  · rw [if_pos rfl]
    simp only [Und, upd, and_true, true_and]
    split_ifs with h1 h2 h2
    · subst h2; simp only [Finset.mem_insert, Finset.mem_union]; tauto
    · simp only [Finset.mem_insert]; tauto
    · subst h2; simp only [Finset.mem_union]; tauto
    · tauto
  · rw [if_pos rfl]; simp [upd, hm]

theorem pdagAddEdges_arrow (G : MG α) (ps : Finset α) (t : α) :
    ∃ G', G.pdagAddEdges ps t .arrow = .ok G' ∧ G'.nodes = G.nodes ∧ G'.types = G.types ∧
      (∀ a b, G'.Arrow a b ↔ G.Arrow a b ∨ (b = t ∧ a ∈ ps)) ∧
      ∀ v m, m ≠ .arrow → G'.g v m = G.g v m := by
  refine ⟨_, if_neg (by decide), ?_, ?_, fun a b => ?_, fun v m hm => ?_⟩
  · rw [if_neg (by decide)]; rfl
  · rw [if_neg (by decide)]; rfl
  · rw [if_neg (by decide)]
    simp only [Arrow, mem_upd, and_true]
    split_ifs with ht <;> simp [ht]
  · rw [if_neg (by decide)]; simp [upd, hm]

end MG

namespace Dag
variable {α : Type} [DecidableEq α]

theorem isConnected_spec {D : Dag α} {i j : α} (hi : i ∈ D.nodes) (hj : j ∈ D.nodes) :
    ∃ b, D.isConnected i j = .ok b ∧ (b = true ↔ D.Adj i j) :=
  ⟨_, isConnected_ok hi hj, by simp only [decide_eq_true_eq]; rfl⟩

/-- The first loop of `convert_to_cpdag`: all edges undirected. -/
theorem cpdag_skeleton (o : SetOrder α) {D : Dag α} (hD : D.WF) (hac : D.Acyclic) :
    ∃ P, (o.iter 0 D.nodes).foldlM (fun P v => do P.pdagAddEdges (← D.parents v) v .tail)
      (MG.pdagEmpty D.nodes) = .ok P ∧ MG.Pat D P := by
  obtain ⟨P, h1, h2, h3, h4, h5⟩ := foldlM_ok_inv
    (f := fun (P : MG α) v => do P.pdagAddEdges (← D.parents v) v .tail)
    (fun done P => P.nodes = D.nodes ∧ P.types = [.tail, .arrow] ∧
      (∀ a b, P.Und a b ↔ (b ∈ done ∧ D.Edge a b) ∨ (a ∈ done ∧ D.Edge b a)) ∧
      ∀ v m, m ≠ .tail → P.g v m = ∅) (o.iter 0 D.nodes) [] (MG.pdagEmpty D.nodes)
    (by simp [MG.pdagEmpty, MG.empty, MG.Und])
    (by
      intro done v P hv hI
      rw [o.mem] at hv
      obtain ⟨P', h1, h2, h3, h4, h5⟩ := MG.pdagAddEdges_tail P (D.par v) v
      refine ⟨P', by simp only [parents_ok hv, bind, Except.bind, h1], h2.trans hI.1, h3.trans hI.2.1, ?_, ?_⟩
      · intro a b
        rw [h4, hI.2.2.1]
        simp only [List.mem_append, List.mem_singleton, Edge]
        constructor
        · rintro ((h | h) | ⟨rfl, h⟩ | ⟨rfl, h⟩) <;> tauto
        · rintro (⟨h | rfl, h'⟩ | ⟨h | rfl, h'⟩) <;> tauto
      · intro w m hm; rw [h5 w m hm]; exact hI.2.2.2 w m hm)
  simp only [List.nil_append, o.mem] at h4
  have hund : ∀ a b, P.Und a b ↔ D.Adj a b := by
    intro a b
    rw [h4]
    constructor
    · rintro (h | h)
      · exact Or.inl h.2
      · exact Or.inr h.2
    · rintro (h | h)
      · exact Or.inl ⟨(hD _ _ h).2, h⟩
      · exact Or.inr ⟨(hD _ _ h).2, h⟩
  have harr : ∀ a b, ¬ P.Arrow a b := by
    intro a b h
    simp only [MG.Arrow, h5 b .arrow (by decide)] at h
    simp at h
  have hmem : ∀ a b, D.Adj a b → a ∈ P.nodes ∧ b ∈ P.nodes := by
    rw [h2]
    rintro a b (h | h)
    · exact hD _ _ h
    · exact (hD _ _ h).symm
  refine ⟨P, h1, h2, ⟨by rw [h3]; intro m; simp, ?_, ?_, ?_, ?_⟩, ?_, ?_⟩
  · intro a b m h
    cases m with
    | tail => exact hmem a b ((hund a b).mp h)
    | arrow => exact absurd h (harr a b)
    | circle => rw [h5 b .circle (by decide)] at h; simp at h
  · intro a m h
    cases m with
    | tail => rcases (hund a a).mp h with h | h <;> exact irrefl hac a h
    | arrow => exact harr a a h
    | circle => rw [h5 a .circle (by decide)] at h; simp at h
  · intro a b h
    exact (hund b a).mpr ((hund a b).mp h).symm
  · intro a b h
    exact absurd h (harr a b)
  · intro a b
    simp only [MG.PAdj, harr, false_or, hund]
    exact ⟨fun h => h.elim id Adj.symm, Or.inl⟩
  · intro a b h
    exact absurd h (harr a b)

/-- The second loop of `convert_to_cpdag`: orientation of the unshielded colliders. -/
theorem cpdag_colliders (o : SetOrder α) {D : Dag α} (hD : D.WF) (hac : D.Acyclic) {P : MG α} (hP : MG.Pat D P) :
    ∃ P', (o.iter 1 D.nodes).foldlM (fun P v => do
      (pairs (o.iter v (← D.parents v))).foldlM (fun P (ij : α × α) => do
        if !(← D.isConnected ij.1 ij.2) then return (P.orientEdge ij.1 v).orientEdge ij.2 v
        else return P) P) P = .ok P' ∧ MG.Pat D P' ∧ ∀ a b c, D.UCol a b c → P'.Arrow a b := by
  obtain ⟨P', h1, h2, h3⟩ := foldlM_ok_inv
    (f := fun (P : MG α) v => do
      (pairs (o.iter v (← D.parents v))).foldlM (fun P (ij : α × α) => do
        if !(← D.isConnected ij.1 ij.2) then return (P.orientEdge ij.1 v).orientEdge ij.2 v
        else return P) P)
    (fun done P => MG.Pat D P ∧ ∀ a b c, D.UCol a b c → b ∈ done → P.Arrow a b) (o.iter 1 D.nodes) [] P
    ⟨hP, by simp⟩
    (by
      intro done v P hv hI
      rw [o.mem] at hv
      simp only [parents_ok hv, bind, Except.bind]
      obtain ⟨P', h1, h2, h3, h4⟩ := foldlM_ok_inv
        (f := fun (P : MG α) (ij : α × α) => do
          if !(← D.isConnected ij.1 ij.2) then return (P.orientEdge ij.1 v).orientEdge ij.2 v
          else return P)
        (fun dn P' => MG.Pat D P' ∧ (∀ a b, P.Arrow a b → P'.Arrow a b) ∧
          ∀ ij ∈ dn, ¬ D.Adj ij.1 ij.2 → P'.Arrow ij.1 v ∧ P'.Arrow ij.2 v)
        (pairs (o.iter v (D.par v))) [] P ⟨hI.1, fun _ _ h => h, by simp⟩
        (by
          rintro dn ⟨i, j⟩ Q hij ⟨hQ1, hQ2, hQ3⟩
          have hi := mem_pairs_left hij
          have hj := mem_pairs_right hij
          have hne := mem_pairs_ne (o.nodup _ _) hij
          rw [o.mem] at hi hj
          obtain ⟨b, hb, hb'⟩ := isConnected_spec (D := D) (hD _ _ hi).1 (hD _ _ hj).1
          simp only [hb, bind, Except.bind]
          cases b with
          | true =>
            refine ⟨Q, rfl, hQ1, hQ2, ?_⟩
            intro ij hij hn
            rcases List.mem_append.mp hij with h | h
            · exact hQ3 ij h hn
            · simp only [List.mem_singleton] at h; subst h
              exact absurd (hb'.mp rfl) hn
          | false =>
            have hn : ¬ D.Adj i j := by rw [← hb']; simp
            have hu : D.UCol i v j := ⟨hi, hj, hne, hn⟩
            refine ⟨_, rfl, (hQ1.orient hac (Der.vs hu)).orient hac (Der.vs hu.swap), ?_, ?_⟩
            · intro a b h
              exact MG.orientEdge_arrow.mpr (Or.inl (MG.orientEdge_arrow.mpr (Or.inl (hQ2 a b h))))
            · intro ij hij hn'
              simp only [MG.orientEdge_arrow]
              rcases List.mem_append.mp hij with h | h
              · have := hQ3 ij h hn'
                exact ⟨Or.inl (Or.inl this.1), Or.inl (Or.inl this.2)⟩
              · simp only [List.mem_singleton] at h; subst h
                simp)
      refine ⟨P', h1, h2, ?_⟩
      intro a b c hu hb
      rcases List.mem_append.mp hb with hb | hb
      · exact h3 _ _ (hI.2 a b c hu hb)
      · simp only [List.mem_singleton] at hb; subst hb
        have ha' : a ∈ o.iter b (D.par b) := (o.mem _ _ _).mpr hu.1
        have hc' : c ∈ o.iter b (D.par b) := (o.mem _ _ _).mpr hu.2.1
        rcases mem_pairs_or ha' hc' hu.2.2.1 with h | h
        · exact (h4 _ (by simpa using h) hu.2.2.2).1
        · exact (h4 _ (by simpa using h) (fun h => hu.2.2.2 h.symm)).2)
  refine ⟨P', h1, h2, ?_⟩
  intro a b c hu
  exact h3 a b c hu (by simpa [o.mem] using (hD _ _ hu.1).2)

theorem convertToCpdag_spec (o : SetOrder α) {rules : List Nat} (hr : ∀ r, r ∈ rules ↔ r = 1 ∨ r = 2 ∨ r = 3)
    {D : Dag α} (hD : D.WF) (hac : D.Acyclic) :
    ∃ P, D.convertToCpdag o rules (MG.pdagEmpty D.nodes) = .ok P ∧ MG.Pat D P ∧ ClosedPattern D P.Arrow := by
  obtain ⟨b, hb, hb'⟩ := isAcyclic_spec o hD
  rw [← hb'] at hac
  subst hac
  have hac := hb'.mp rfl
  obtain ⟨P1, h1, hP1⟩ := cpdag_skeleton o hD hac
  obtain ⟨P2, h2, hP2, hP2'⟩ := cpdag_colliders o hD hac hP1
  obtain ⟨P3, h3, hP3, hP3'⟩ := hP2.maximallyOrient hac o hr hP2'
  refine ⟨P3, ?_, hP3, hP3'⟩
  simp only [convertToCpdag, hb]
  simp only [bind, Except.bind, Bool.not_true, Bool.false_eq_true, if_false, pure, Except.pure] at h1 h2 ⊢
  simp only [h1, h2, h3]

theorem convertToCpdag_cyclic (o : SetOrder α) (rules : List Nat) {D : Dag α} (hD : D.WF) (hac : ¬ D.Acyclic)
    (P : MG α) : D.convertToCpdag o rules P = .error .valueError := by
  obtain ⟨b, hb, hb'⟩ := isAcyclic_spec o hD
  cases b with
  | true => exact absurd (hb'.mp rfl) hac
  | false => simp only [convertToCpdag, hb]; rfl

end Dag
end Verif
