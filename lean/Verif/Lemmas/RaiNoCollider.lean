import Verif.Lemmas.RaiCol
import Verif.Lemmas.NoCollider
import Verif.Lemmas.PagKeep

/-!
# The RAI learner on DAGs without unshielded colliders

No edge is ever directed, so the recursion never splits the nodes; after the tests with `n` conditioning nodes exactly the pairs that
are not separated by `n` or fewer nodes are adjacent.
-/

namespace Verif
open Relation
namespace Rai
variable {α : Type} [LinearOrder α]
open Pc (Witness firstIndep firstIndep_spec Perfect)

/-- The recorded sets of missing edges have fewer than `n` nodes. -/
def Small (N : Finset α) (n : Nat) (st : PcState α) : Prop :=
  ∀ i ∈ N, ∀ j ∈ N, i ≠ j → ¬ st.graph.PAdj i j → ∃ S, st.sep.get i j = .ok S ∧ S.card < n

theorem testPair_small {o : SetOrder α} {ci : CITest α} {N : Finset α} {src : MG α} (hsrc : src.PdagWF) {order : Nat} {st st' : PcState α}
    {x y a b : α} (hp : ∀ a b, ¬ st.graph.Arrow a b) (hs : Small N (order + 1) st)
    (h : testPair o ci src order st x y a b = .ok st') : (∀ a b, ¬ st'.graph.Arrow a b) ∧ Small N (order + 1) st' := by
  rw [testPair] at h
  obtain ⟨t, -, h⟩ := py_bind_ok h
  cases t with
  | false => cases h; exact ⟨hp, hs⟩
  | true =>
    simp only [Bool.not_true, Bool.false_eq_true, if_false] at h
    obtain ⟨f1, f2⟩ := firstIndep_spec ci x y (condSets o src order a b) st.calls
    generalize firstIndep ci x y (condSets o src order a b) st.calls = r at h f1 f2
    obtain ⟨r, k⟩ := r
    cases r with
    | none => cases h; exact ⟨hp, hs⟩
    | some z =>
      cases h
      obtain ⟨hz, -⟩ := f1 z rfl
      refine ⟨fun c d h => hp c d (MG.deleteEdge_arrow.mp h).1, fun i hi j hj hij hn => ?_⟩
      simp only [SepSet.get_set]
      split
      · refine ⟨_, rfl, ?_⟩
        have h1 := (mem_condSets o hsrc hz).2.2.2
        have h2 := List.toFinset_card_le z
        omega
      · rename_i h
        refine hs i hi j hj hij (fun hu => hn (deleteEdge_padj.mpr ⟨hu, fun h' => h ?_⟩))
        rcases h' with ⟨rfl, rfl⟩ | ⟨rfl, rfl⟩
        · exact Or.inl ⟨rfl, rfl⟩
        · exact Or.inr ⟨rfl, rfl⟩

/-- The state between the levels: no edge is directed, and the adjacent pairs are those that fewer than `n` nodes do not separate. -/
structure LInv (ci : CITest α) (D : Dag α) (n : Nat) (st : PcState α) : Prop where
  inv : Inv ci D.nodes st
  plain : ∀ a b, ¬ st.graph.Arrow a b
  adj : ∀ i j, st.graph.PAdj i j ↔ i ∈ D.nodes ∧ j ∈ D.nodes ∧ i ≠ j ∧ D.Tied n i j
  small : Small D.nodes n st

variable {ci : CITest α} {D : Dag α}

theorem LInv.und {n : Nat} {st : PcState α} (h : LInv ci D n st) {i j : α} : st.graph.PAdj i j ↔ st.graph.Und i j := by
  refine ⟨fun h' => ?_, fun h' => Or.inr (Or.inr (Or.inl h'))⟩
  rcases h' with h' | h' | h' | h'
  · exact absurd h' (h.plain _ _)
  · exact absurd h' (h.plain _ _)
  · exact h'
  · exact h.inv.wf.symm _ _ h'

theorem init_linv (o : SetOrder α) (ci : CITest α) (D : Dag α) : LInv ci D 0 (init o D.nodes) := by
  refine ⟨init_inv o ci D.nodes, fun a b h => absurd h MG.pdagComplete_arrow, fun i j => ?_, ?_⟩
  · constructor
    · rintro (h | h | h | h)
      · exact absurd h MG.pdagComplete_arrow
      · exact absurd h MG.pdagComplete_arrow
      · obtain ⟨h1, h2, h3⟩ := MG.pdagComplete_und.mp h
        exact ⟨h1, h2, h3, fun T hT => absurd hT (Nat.not_lt_zero _)⟩
      · obtain ⟨h1, h2, h3⟩ := MG.pdagComplete_und.mp h
        exact ⟨h2, h1, h3.symm, fun T hT => absurd hT (Nat.not_lt_zero _)⟩
    · rintro ⟨h1, h2, h3, -⟩
      exact Or.inr (Or.inr (Or.inl (MG.pdagComplete_und.mpr ⟨h1, h2, h3⟩)))
  · intro i hi j hj hij hn
    exact absurd (Or.inr (Or.inr (Or.inl (MG.pdagComplete_und.mpr ⟨hi, hj, hij⟩)))) hn

/-- Without directed edges the rules direct nothing. -/
theorem plain_steps {rules : List Nat} {G H : MG α} (hG : ∀ a b, ¬ G.Arrow a b) (h : ReflTransGen (MG.Step rules) G H) : H = G := by
  rcases ReflTransGen.cases_head h with h | ⟨K, ⟨idx, -, x, y, ⟨-, hp⟩, -⟩, -⟩
  · exact h.symm
  · exfalso
    match idx, hp with
    | 1, ⟨z, h, _⟩ => exact hG _ _ h
    | 2, ⟨z, h, _⟩ => exact hG _ _ h
    | 3, ⟨w, z, _, _, _, h, _⟩ => exact hG _ _ h
    | 4, ⟨w, z, _, h, _⟩ => exact hG _ _ h

/-- Nothing is directed between the levels. -/
theorem LInv.noCalls (hm : D.NoUCol) (hac : D.Acyclic) (hp : Perfect ci D) {n : Nat} {st : PcState α} (h : LInv ci D n st)
    (en : Finset α) {a b c : α} (hc : st.graph.Und c b) : ¬ Calls st.sep en st.graph a b c := by
  rintro ⟨-, hab, hne, hn, S, hS, hbS⟩
  obtain ⟨a1, b1, -, ab⟩ := (h.adj a b).1 (h.und.2 hab)
  obtain ⟨c1, -, -, cb⟩ := (h.adj c b).1 (h.und.2 hc)
  obtain ⟨S', e1, e2⟩ := h.small a a1 c c1 hne hn
  obtain ⟨S'', e3, e4⟩ := h.inv.witness a a1 c c1 hne hn
  rw [hS] at e1 e3
  cases e1
  cases e3
  have hd := e4.dsep hac hp a1 c1 hne
  obtain ⟨l, k, rfl, -, w2, w3, -⟩ := e4
  exact hm.not_both hac (by simpa using w2) (by simpa using w3) hd hbS e2 ab cb

theorem LInv.orient (hm : D.NoUCol) (hac : D.Acyclic) (hp : Perfect ci D) (o : SetOrder α) (en : Finset α) {n : Nat} {st : PcState α}
    (h : LInv ci D n st) : ∃ st', maximallyOrientEdges o en st = .ok st' ∧ LInv ci D n st' := by
  obtain ⟨st', h1, h2, h3⟩ := maximallyOrientEdges_spec o en h.inv
  refine ⟨st', h1, h2.1, ?_, fun i j => (h3 i j).trans (h.adj i j), ?_⟩
  · obtain ⟨G1, g1, g2, -, g4⟩ := orientVStructures_exact o st.sep en h.inv.wf (by rw [h.inv.nodes]; exact h.inv.key)
    have hG1 : ∀ a b, ¬ G1.Arrow a b := by
      intro a b hab
      rcases (g4 a b).1 hab with hx | ⟨c, c1, c2⟩ | ⟨-, c, c1, -⟩
      · exact h.plain _ _ hx
      · exact h.noCalls hm hac hp en c1 c2
      · exact h.plain _ _ c1
    obtain ⟨G2, k1, k2, -⟩ := MG.maximallyOrient_spec o (rules := [1, 2, 3, 4]) (by simp) G1.nodes g2
    have e := plain_steps hG1 k2
    subst e
    have : maximallyOrientEdges o en st = .ok { st with graph := G2.convertBidirected o en } := by
      rw [maximallyOrientEdges, py_bind g1, py_bind k1]
      rfl
    rw [this] at h1
    cases h1
    intro a b hab
    exact hG1 a b (((MG.convertBidirected_on o g2 en).2.2.1 a b).1 hab).1
  · have hsep : st'.sep = st.sep := by
      rw [maximallyOrientEdges] at h1
      obtain ⟨G1, -, h1⟩ := py_bind_ok h1
      obtain ⟨G2, -, h1⟩ := py_bind_ok h1
      cases h1
      rfl
    intro i hi j hj hij hn
    rw [hsep]
    exact h.small i hi j hj hij (fun h' => hn ((h3 i j).2 h'))

/-- One level of tests. -/
theorem LInv.endogenous (hm : D.NoUCol) (hac : D.Acyclic) (hD : D.WF) (hp : Perfect ci D) (o : SetOrder α) (overwrite : Bool) {n : Nat}
    {st : PcState α} (h : LInv ci D n st) : ∃ st', refineEndogenous o ci overwrite D.nodes n st = .ok st' ∧ LInv ci D (n + 1) st' := by
  obtain ⟨st', h1, h2, h3⟩ := refineEndogenous_spec o overwrite (subset_refl D.nodes) n h.inv
  have hkeep : Inv ci D.nodes st' ∧ (∀ a b, ¬ st'.graph.Arrow a b) ∧ Small D.nodes (n + 1) st' := by
    refine ⟨h2.1, ?_⟩
    have hs0 : (∀ a b, ¬ st.graph.Arrow a b) ∧ Small D.nodes (n + 1) st := ⟨h.plain, fun i hi j hj hij hn => by
      obtain ⟨S, e1, e2⟩ := h.small i hi j hj hij hn
      exact ⟨S, e1, by omega⟩⟩
    have := foldlM_keep (fun s : PcState α => s.graph.PdagWF ∧ (∀ a b, ¬ s.graph.Arrow a b) ∧ Small D.nodes (n + 1) s)
      (pairs (o.iter n D.nodes)) st st' (f := fun (s : PcState α) (ij : α × α) =>
        testPair o ci (if overwrite then s.graph else st.graph) n s ij.1 ij.2 ij.1 ij.2) ?_ ⟨h.inv.wf, hs0⟩ h1
    · exact this.2
    · rintro s ij s' - ⟨k1, k2, k3⟩ k4
      have hsrc : (if overwrite then s.graph else st.graph).PdagWF := by split; exacts [k1, h.inv.wf]
      refine ⟨?_, testPair_small hsrc k2 k3 k4⟩
      rw [testPair] at k4
      obtain ⟨t, -, k4⟩ := py_bind_ok k4
      cases t with
      | false => cases k4; exact k1
      | true =>
        simp only [Bool.not_true, Bool.false_eq_true, if_false] at k4
        generalize firstIndep ci ij.1 ij.2 _ s.calls = r at k4
        obtain ⟨r, k⟩ := r
        cases r with
        | none => cases k4; exact k1
        | some z => cases k4; exact MG.deleteEdge_wf k1 _ _
  obtain ⟨k1, k2, k3⟩ := hkeep
  have hund : ∀ {i j}, st'.graph.PAdj i j → st'.graph.Und i j := by
    intro i j h'
    rcases h' with h' | h' | h' | h'
    · exact absurd h' (k2 _ _)
    · exact absurd h' (k2 _ _)
    · exact h'
    · exact k1.wf.symm _ _ h'
  have hin : ∀ i ∈ D.nodes, ∀ j ∈ D.nodes, i ≠ j → D.Tied (n + 1) i j → st'.graph.PAdj i j := by
    intro i hi j hj hij hI
    by_contra hn
    obtain ⟨S, e1, e2⟩ := k3 i hi j hj hij hn
    obtain ⟨S', e3, e4⟩ := k1.witness i hi j hj hij hn
    rw [e1] at e3
    cases e3
    have hd := e4.dsep hac hp hi hj hij
    obtain ⟨l, k, rfl, -, w2, w3, -⟩ := e4
    rw [hm.dseparated hac (by simpa using w2) (by simpa using w3)] at hd
    exact hd (hI _ e2 (by simpa using w2) (by simpa using w3))
  refine ⟨st', h1, k1, k2, fun i j => ⟨fun hij => ?_, fun h => hin i h.1 j h.2.1 h.2.2.1 h.2.2.2⟩, k3⟩
  obtain ⟨hi, hj, hne, hI⟩ := (h.adj i j).1 (padj_of_pot h2.2 i j hij)
  refine ⟨hi, hj, hne, fun T hT hiT hjT => ?_⟩
  by_contra hc
  have hTc : T.card = n := by
    by_contra hne'
    exact hc (hI T (by omega) hiT hjT)
  obtain ⟨S, s1, s2, s3, s4, s5, s6⟩ := hm.closest hac hD hiT hjT hc (by rw [hTc]; exact hI)
  rw [hTc] at s1 s6
  obtain ⟨l, k, e, hk⟩ := h3 i hi j hj hij S s1 (Or.inl ⟨fun s hs => Or.inr (hund (hin s (s2 hs) i hi
    (fun h => s3 (h ▸ hs)) (Dag.Tied.symm (fun T' hT' => s6 s hs T' (by omega))))), s4⟩)
  have hd := (hm.dseparated hac s3 s4).2 s5
  rw [← e] at hd s2 s3 s4
  have hmem : ∀ x ∈ l, x ∈ D.nodes := fun x hx => s2 (by simpa using hx)
  rcases hk with hk | hk
  · rw [(hp k i j l hi hj hne (by simpa using s3) (by simpa using s4) hmem).2 hd] at hk
    cases hk
  · rw [(hp k j i l hj hi hne.symm (by simpa using s4) (by simpa using s3) hmem).2 ((Dag.dseparated_symm hac).1 hd)] at hk
    cases hk

omit [LinearOrder α] in
theorem iter_empty {τ : Type} (o : SetOrder α) (t : τ) : o.iter t (∅ : Finset α) = [] := by
  rw [List.eq_nil_iff_forall_not_mem]
  intro x hx
  exact absurd ((o.mem _ _ _).1 hx) (Finset.notMem_empty x)

theorem refineExogenous_empty (o : SetOrder α) (ci : CITest α) (overwrite : Bool) (en : Finset α) (order : Nat) (st : PcState α) :
    refineExogenous o ci overwrite en ∅ order st = .ok st := by
  rw [refineExogenous]
  simp only [iter_empty o, List.foldlM_nil]
  induction o.iter order en with
  | nil => rfl
  | cons x l ih => exact ih

/-- Without directed edges the nodes are not split. -/
theorem split_plain (o : SetOrder α) {G : MG α} (hG : ∀ a b, ¬ G.Arrow a b) {en : Finset α} (hne : en.Nonempty) :
    split o G en = .ok (en, [], ∅) := by
  have hps : (o.iter () en).foldl (fun acc v => acc ∪ (G.parents v ∩ en)) ∅ = ∅ := by
    ext x
    rw [MG.mem_foldl_parents]
    simp [hG]
  have hc : en.card ≠ 0 := fun h => hne.ne_empty (Finset.card_eq_zero.1 h)
  obtain ⟨m, hm⟩ : ∃ m, en.card = m + 1 := ⟨en.card - 1, by omega⟩
  have htopo : G.partialTopo o en = .ok [en] := by
    rw [MG.partialTopo, hm, MG.partialTopoFuel, if_neg hc]
    simp only [hps, Finset.sdiff_empty, if_neg hc]
    rw [MG.partialTopoFuel]
    rfl
  have hlow : lowestTopologicalSet o G en = .ok en := by
    rw [lowestTopologicalSet, py_bind htopo]
    rfl
  have hsub : G.findUnconnectedSubgraphs o ∅ none = .ok [] := by
    simp only [MG.findUnconnectedSubgraphs, Finset.card_empty, MG.subgraphsLoop, popSet, iter_empty o]
  rw [split, py_bind hlow]
  simp only [Finset.sdiff_self]
  rw [py_bind hsub]
  rfl

/-- A node with an edge too many has more neighbours than the current size. -/
theorem LInv.exit (hm : D.NoUCol) (hac : D.Acyclic) (hD : D.WF) {n : Nat} {st : PcState α} (h : LInv ci D n st)
    (he : exitCond st.graph D.nodes n = true) (i j : α) : st.graph.PAdj i j ↔ D.Adj i j := by
  refine ⟨fun hij => ?_, fun hij => (h.adj i j).2 ?_⟩
  · by_contra hn
    obtain ⟨hi, hj, hne, hI⟩ := (h.adj i j).1 hij
    obtain ⟨S, s1, s2, s3, s4, s5, s6⟩ := hm.exists_closest hac hD hne hn
    have hle : n ≤ S.card := by
      by_contra hc
      exact (hm.dseparated hac s2 s3).1 s4 (hI S (by omega) s2 s3)
    have hsub : insert j S ⊆ st.graph.und i := by
      intro x hx
      rcases Finset.mem_insert.1 hx with rfl | hx
      · exact h.inv.wf.symm _ _ (h.und.1 hij)
      · exact h.inv.wf.symm _ _ (h.und.1 ((h.adj i x).2 ⟨hi, s1 hx, fun e => s2 (e ▸ hx), (s6 x hx).mono (by omega)⟩))
    have hcard := Finset.card_le_card hsub
    rw [Finset.card_insert_of_notMem s3] at hcard
    simp only [exitCond, decide_eq_true_eq] at he
    refine he i hi ?_
    rw [MG.fanIn]
    omega
  · have hne : i ≠ j := by
      rintro rfl
      exact hij.elim (Dag.irrefl hac _) (Dag.irrefl hac _)
    exact ⟨hij.elim (fun h => (hD _ _ h).1) (fun h => (hD _ _ h).2), hij.elim (fun h => (hD _ _ h).2) (fun h => (hD _ _ h).1), hne,
      Dag.tied_of_adj hij n⟩

theorem learnRecursively_plain (hm : D.NoUCol) (hac : D.Acyclic) (hD : D.WF) (hp : Perfect ci D) (o : SetOrder α) (overwrite : Bool) :
    ∀ (n order : Nat) (st : PcState α), D.nodes.card + 1 ≤ n + order → 0 < n → LInv ci D order st →
      ∃ st' m, learnRecursively o ci overwrite n D.nodes ∅ order st = .ok st' ∧ LInv ci D m st' ∧
        ∀ i j, st'.graph.PAdj i j ↔ D.Adj i j := by
  intro n
  induction n with
  | zero => intro _ _ _ h; omega
  | succ n ih =>
    intro order st hn _ hst
    rw [learnRecursively]
    by_cases he : exitCond st.graph D.nodes order = true
    · exact ⟨st, order, by simp [he], hst, hst.exit hm hac hD he⟩
    · have hlt : order < D.nodes.card := by
        by_contra hc
        exact he (exitCond_of_le hst.inv D.nodes (by omega))
      have hne : D.nodes.Nonempty := Finset.card_pos.1 (by omega)
      obtain ⟨s1, h1, l1⟩ := hst.orient hm hac hp o D.nodes
      obtain ⟨s2, h2, l2⟩ := l1.endogenous hm hac hD hp o overwrite
      obtain ⟨s3, h3, l3⟩ := l2.orient hm hac hp o D.nodes
      obtain ⟨s4, m, h4, l4⟩ := ih (order + 1) s3 (by omega) (by omega) l3
      refine ⟨s4, m, ?_, l4⟩
      simp only [he, if_false, Bool.false_eq_true]
      have hr : refineAndOrient o ci overwrite D.nodes ∅ order st = .ok s3 := by
        rw [refineAndOrient, py_bind (refineExogenous_empty o ci overwrite D.nodes order st), py_bind h1, py_bind h2, h3]
      rw [py_bind hr, py_bind (split_plain o l3.plain hne)]
      simp only [List.foldlM_nil, Finset.empty_union]
      exact h4

theorem learnStructure_plain (hm : D.NoUCol) (hac : D.Acyclic) (hD : D.WF) (hp : Perfect ci D) (o : SetOrder α) (overwrite : Bool) :
    ∃ st, learnStructure o ci overwrite (init o D.nodes) = .ok st ∧ st.graph.PdagWF ∧ st.graph.nodes = D.nodes ∧
      (∀ a b, st.graph.PAdj a b ↔ D.Adj a b) ∧ ∀ a b, ¬ st.graph.Arrow a b := by
  obtain ⟨s1, m, h1, l1, a1⟩ := learnRecursively_plain hm hac hD hp o overwrite (D.nodes.card + 1) 0 (init o D.nodes) (by omega) (by omega)
    (init_linv o ci D)
  obtain ⟨G2, h2, h3, -⟩ := MG.maximallyOrient_spec o (rules := [1, 2, 3]) (by simp) s1.graph.nodes l1.inv.wf
  obtain rfl := plain_steps l1.plain h3
  obtain ⟨G3, P, h4, w4, n4, a4, -, -, -, aP, sP, -⟩ := reOrientSkeleton_spec o l1.inv.wf (fun a b h => absurd h (l1.plain a b))
  have hP : ∀ a b, ¬ P.Arrow a b := by
    intro a b h
    obtain ⟨c, hc⟩ := (aP a b).1 h
    exact l1.plain _ _ hc.1
  obtain rfl := plain_steps hP sP
  refine ⟨{ s1 with graph := G3 }, ?_, w4, n4.trans l1.inv.nodes, fun a b => (a4 a b).trans (a1 a b), hP⟩
  have h1' : learnRecursively o ci overwrite ((init o D.nodes).graph.nodes.card + 1) (init o D.nodes).graph.nodes ∅ 0 (init o D.nodes) =
    .ok s1 := h1
  rw [learnStructure, py_bind h1', py_bind h2, py_bind h4]
  rfl

end Rai
end Verif
