import Verif.Lemmas.Rai
import Verif.Lemmas.Minimal

/-!
# The separating sets recorded by RAI are minimal
-/

namespace Verif
open Pc (Dependent MinimalFor AllMinimal)
variable {α : Type} [LinearOrder α] {ci : CITest α} {N : Finset α}

namespace Rai

/-- The pair was found dependent given each set of fewer than `n` potential parents (in `G`) of one of its ends. -/
def Below (ci : CITest α) (G : MG α) (n : Nat) (i j : α) : Prop :=
  ∀ S : Finset α, S.card < n → ((∀ s ∈ S, Pot G s i) ∧ j ∉ S) ∨ ((∀ s ∈ S, Pot G s j) ∧ i ∉ S) → Dependent ci i j S

theorem Below.mono {G H : MG α} {n : Nat} {i j : α} (h : Below ci G n i j) (hp : ∀ a b, Pot H a b → Pot G a b) : Below ci H n i j :=
  fun S hc hS =>
    h S hc (hS.imp (fun h => ⟨fun s hs => hp _ _ (h.1 s hs), h.2⟩) (fun h => ⟨fun s hs => hp _ _ (h.1 s hs), h.2⟩))

theorem Below.symm {G : MG α} {n : Nat} {i j : α} (h : Below ci G n i j) : Below ci G n j i := fun S hc hS => (h S hc hS.symm).symm

/-- The tuples consist of different potential parents of one end. -/
theorem condSets_mem (o : SetOrder α) {src : MG α} {order : Nat} {a b : α} {z : List α} (h : z ∈ condSets o src order a b) :
    z.Nodup ∧ z.length = order ∧ (((∀ s ∈ z, Pot src s a) ∧ b ∉ z) ∨ ((∀ s ∈ z, Pot src s b) ∧ a ∉ z)) := by
  rw [condSets, mem_uniqueElems, List.mem_append, mem_combs, mem_combs] at h
  have key : ∀ u v, z.Sublist (o.iter (order, a, b) (potParents src u v)) → z.Nodup ∧ (∀ s ∈ z, Pot src s u) ∧ v ∉ z := by
    intro u v hs
    have hm : ∀ x ∈ z, Pot src x u ∧ x ≠ v := fun x hx => mem_potParents.mp ((o.mem _ _ _).mp (hs.subset hx))
    exact ⟨hs.nodup (o.nodup _ _), fun s hs => (hm s hs).1, fun h => (hm v h).2 rfl⟩
  rcases h.1 with h | h
  · exact ⟨(key a b h.1).1, h.2, Or.inl (key a b h.1).2⟩
  · exact ⟨(key b a h.1).1, h.2, Or.inr (key b a h.1).2⟩

/-- One pair, with the conditioning sets from a graph that has all potential parents of the current one. -/
theorem testPair_minimal (o : SetOrder α) (order : Nat) {src : MG α} (hsrc : src.PdagWF) {st st' : PcState α}
    (hsub : ∀ a b, Pot st.graph a b → Pot src a b)
    (hm : AllMinimal ci N st.graph.PAdj st.sep) {x y a b : α} (hab : (a = x ∧ b = y) ∨ (a = y ∧ b = x)) (hxy : x ≠ y)
    (hb : src.PAdj x y → Below ci src order x y) (h : testPair o ci src order st x y a b = .ok st') :
    AllMinimal ci N st'.graph.PAdj st'.sep ∧ (st'.graph.PAdj x y → Below ci st'.graph (order + 1) x y) := by
  obtain ⟨c, hc, hc'⟩ := MG.isConnected_spec hsrc hxy
  cases c with
  | false =>
    simp only [testPair, hc] at h
    cases h
    exact ⟨hm, fun h => absurd (hc'.mpr (padj_of_pot hsub _ _ h)) (by simp)⟩
  | true =>
    have hbl := hb (hc'.mp rfl)
    have hsw : ∀ S : Finset α, (((∀ s ∈ S, Pot src s a) ∧ b ∉ S) ∨ ((∀ s ∈ S, Pot src s b) ∧ a ∉ S)) ↔
        (((∀ s ∈ S, Pot src s x) ∧ y ∉ S) ∨ ((∀ s ∈ S, Pot src s y) ∧ x ∉ S)) := by
      intro S
      rcases hab with ⟨rfl, rfl⟩ | ⟨rfl, rfl⟩
      · exact Iff.rfl
      · exact or_comm
    obtain ⟨f1, f2⟩ := Pc.firstIndep_spec ci x y (condSets o src order a b) st.calls
    cases hf : Pc.firstIndep ci x y (condSets o src order a b) st.calls with
    | mk r k =>
      rw [hf] at f1 f2
      simp only [testPair, hc, bind, Except.bind, hf] at h
      cases r with
      | none =>
        cases h
        refine ⟨hm, fun _ => Below.mono (G := src) (fun S hS hS' => ?_) hsub⟩
        by_cases hlt : S.card < order
        · exact hbl S hlt hS'
        · obtain ⟨z, hz, rfl⟩ := exists_condSet o ((hsw S).mpr hS') (by omega : S.card = order)
          obtain ⟨k', hk⟩ := f2 rfl z hz
          exact ⟨z, k', rfl, (List.toFinset_card_of_nodup (condSets_mem o hz).1).symm, Or.inl hk⟩
      | some z =>
        cases h
        obtain ⟨z1, z2, z3⟩ := condSets_mem o (f1 z rfl).1
        refine ⟨hm.set (fun T hT => hbl T ?_ ((hsw T).mp ?_)) (fun a b => deleteEdge_padj),
          fun h => absurd (Or.inl ⟨rfl, rfl⟩) (deleteEdge_padj.mp h).2⟩
        · have := Finset.card_lt_card hT
          rw [List.toFinset_card_of_nodup z1] at this
          omega
        · have hs : ∀ s ∈ T, s ∈ z := fun s hs => by simpa using hT.1 hs
          exact z3.imp (fun h => ⟨fun s h' => h.1 s (hs s h'), fun h' => h.2 (hs _ h')⟩)
            (fun h => ⟨fun s h' => h.1 s (hs s h'), fun h' => h.2 (hs _ h')⟩)

/-- What the steps of the recursion keep. -/
def GoodM (ci : CITest α) (N : Finset α) (st st' : PcState α) : Prop :=
  Good ci N st st' ∧ AllMinimal ci N st'.graph.PAdj st'.sep

theorem refineExogenous_minimal (o : SetOrder α) (overwrite : Bool) {en ex : Finset α} (hen : en ⊆ N) (hex : ex ⊆ N) (hd : Disjoint en ex) (order : Nat)
    {st : PcState α} (hst : Inv ci N st) (hm : AllMinimal ci N st.graph.PAdj st.sep)
    (hb : ∀ e ∈ ex, ∀ v ∈ en, st.graph.PAdj e v → Below ci st.graph order e v) :
    ∃ st', refineExogenous o ci overwrite en ex order st = .ok st' ∧ GoodM ci N st st' ∧
      ∀ e ∈ ex, ∀ v ∈ en, st'.graph.PAdj e v → Below ci st'.graph (order + 1) e v := by
  obtain ⟨st', h1, h2, h3⟩ := foldlM_ok_inv (f := fun (s : PcState α) v => (o.iter (order, v) ex).foldlM (fun s e =>
    testPair o ci (if overwrite then s.graph else st.graph) order s e v v e) s)
    (fun done s => GoodM ci N st s ∧ ∀ e ∈ ex, ∀ v ∈ done, s.graph.PAdj e v → Below ci s.graph (order + 1) e v)
    (o.iter order en) [] st ⟨⟨⟨hst, fun _ _ h => h⟩, hm⟩, by simp⟩ (by
      rintro done v s hv ⟨hs, hs'⟩
      obtain ⟨s', h1, h2, h3, h4⟩ := foldlM_ok_inv (f := fun (s : PcState α) e =>
        testPair o ci (if overwrite then s.graph else st.graph) order s e v v e)
        (fun dn s' => GoodM ci N st s' ∧ (∀ a b, Pot s'.graph a b → Pot s.graph a b) ∧
          ∀ e ∈ dn, s'.graph.PAdj e v → Below ci s'.graph (order + 1) e v)
        (o.iter (order, v) ex) [] s ⟨hs, fun _ _ h => h, by simp⟩ (by
          rintro dn e s1 he ⟨g1, g2, g3⟩
          have hv' := (o.mem _ _ _).mp hv
          have he' := (o.mem _ _ _).mp he
          have hne : e ≠ v := fun h => Finset.disjoint_left.mp hd hv' (h ▸ he')
          obtain ⟨s', h1, h2, h3, -⟩ := testPair_spec o (src := if overwrite then s1.graph else st.graph)
            (by split; exacts [g1.1.1.wf, hst.wf]) (by split; exacts [g1.1.1.nodes, hst.nodes]) order g1.1.1
            (by split; exacts [fun _ _ h => h, g1.1.2]) (a := v) (b := e) (Or.inr ⟨rfl, rfl⟩) (hex he') (hen hv') hne
          obtain ⟨m1, m2⟩ := testPair_minimal o order (src := if overwrite then s1.graph else st.graph)
            (by split; exacts [g1.1.1.wf, hst.wf]) (by split; exacts [fun _ _ h => h, g1.1.2]) g1.2 (Or.inr ⟨rfl, rfl⟩) hne
            (by split; exacts [fun ha => (hb e he' v hv' (padj_of_pot g1.1.2 _ _ ha)).mono g1.1.2, hb e he' v hv']) h1
          refine ⟨s', h1, ⟨g1.1.trans ⟨h2, h3⟩, m1⟩, fun a b h => g2 a b (h3 a b h), fun e' hm ha => ?_⟩
          rcases List.mem_append.mp hm with hm | hm
          · exact (g3 e' hm (padj_of_pot h3 _ _ ha)).mono h3
          · obtain rfl := List.mem_singleton.mp hm
            exact m2 ha)
      refine ⟨s', h1, h2, fun e he v' hm ha => ?_⟩
      rcases List.mem_append.mp hm with hm | hm
      · exact (hs' e he v' hm (padj_of_pot h3 _ _ ha)).mono h3
      · obtain rfl := List.mem_singleton.mp hm
        exact h4 e (by simpa [o.mem] using he) ha)
  exact ⟨st', h1, h2, fun e he v hv ha => h3 e he v (by simpa [o.mem] using hv) ha⟩

theorem refineEndogenous_minimal (o : SetOrder α) (overwrite : Bool) {en : Finset α} (hen : en ⊆ N) (order : Nat) {st : PcState α} (hst : Inv ci N st)
    (hm : AllMinimal ci N st.graph.PAdj st.sep) (hb : ∀ i ∈ en, ∀ j ∈ en, st.graph.PAdj i j → Below ci st.graph order i j) :
    ∃ st', refineEndogenous o ci overwrite en order st = .ok st' ∧ GoodM ci N st st' ∧
      ∀ i ∈ en, ∀ j ∈ en, st'.graph.PAdj i j → Below ci st'.graph (order + 1) i j := by
  obtain ⟨st', h1, h2, h3⟩ := foldlM_ok_inv (f := fun (s : PcState α) (ij : α × α) =>
    testPair o ci (if overwrite then s.graph else st.graph) order s ij.1 ij.2 ij.1 ij.2)
    (fun done s => GoodM ci N st s ∧ ∀ ij ∈ done, s.graph.PAdj ij.1 ij.2 → Below ci s.graph (order + 1) ij.1 ij.2)
    (pairs (o.iter order en)) [] st ⟨⟨⟨hst, fun _ _ h => h⟩, hm⟩, by simp⟩ (by
      rintro done ⟨i, j⟩ s hij ⟨hs, hs'⟩
      have hi := (o.mem _ _ _).mp (mem_pairs_left hij)
      have hj := (o.mem _ _ _).mp (mem_pairs_right hij)
      have hne := mem_pairs_ne (o.nodup _ _) hij
      obtain ⟨s', h1, h2, h3, -⟩ := testPair_spec o (src := if overwrite then s.graph else st.graph)
        (by split; exacts [hs.1.1.wf, hst.wf]) (by split; exacts [hs.1.1.nodes, hst.nodes]) order hs.1.1
        (by split; exacts [fun _ _ h => h, hs.1.2]) (x := i) (y := j) (a := i) (b := j) (Or.inl ⟨rfl, rfl⟩) (hen hi) (hen hj) hne
      obtain ⟨m1, m2⟩ := testPair_minimal o order (src := if overwrite then s.graph else st.graph)
        (by split; exacts [hs.1.1.wf, hst.wf]) (by split; exacts [fun _ _ h => h, hs.1.2]) hs.2 (Or.inl ⟨rfl, rfl⟩) hne
        (by split; exacts [fun ha => (hb i hi j hj (padj_of_pot hs.1.2 _ _ ha)).mono hs.1.2, hb i hi j hj]) h1
      refine ⟨s', h1, ⟨hs.1.trans ⟨h2, h3⟩, m1⟩, ?_⟩
      intro ij hm ha
      rcases List.mem_append.mp hm with hm | hm
      · exact (hs' ij hm (padj_of_pot h3 _ _ ha)).mono h3
      · obtain rfl := List.mem_singleton.mp hm
        exact m2 ha)
  refine ⟨st', h1, h2, fun i hi j hj ha => ?_⟩
  have hne : i ≠ j := by
    rintro rfl
    rcases ha with h | h | h | h <;> exact h2.1.1.wf.irrefl _ _ h
  rcases mem_pairs_or ((o.mem order _ _).mpr hi) ((o.mem order _ _).mpr hj) hne with h | h
  · exact h3 _ (List.mem_append_right _ h) ha
  · exact (h3 _ (List.mem_append_right _ h) ha.symm).symm

theorem maximallyOrientEdges_minimal (o : SetOrder α) (en : Finset α) {st : PcState α} (hst : Inv ci N st)
    (hm : AllMinimal ci N st.graph.PAdj st.sep) : ∃ st', maximallyOrientEdges o en st = .ok st' ∧ GoodM ci N st st' := by
  obtain ⟨s', h1, h2, h3⟩ := maximallyOrientEdges_spec o en hst
  have hsep : s'.sep = st.sep := by
    rw [maximallyOrientEdges] at h1
    obtain ⟨G, -, h1⟩ := py_bind_ok h1
    obtain ⟨G', -, h1⟩ := py_bind_ok h1
    cases h1
    rfl
  refine ⟨s', h1, h2, fun i hi j hj hij hn S hS => hm i hi j hj hij (fun h => hn ((h3 i j).mpr h)) S ?_⟩
  rw [← hsep]
  exact hS

theorem refineAndOrient_minimal (o : SetOrder α) (overwrite : Bool) {en ex : Finset α} (hen : en ⊆ N) (hex : ex ⊆ N) (hd : Disjoint en ex) (order : Nat)
    {st : PcState α} (hst : Inv ci N st) (hm : AllMinimal ci N st.graph.PAdj st.sep)
    (hb : ∀ i ∈ en ∪ ex, ∀ j ∈ en, st.graph.PAdj i j → Below ci st.graph order i j) :
    ∃ st', refineAndOrient o ci overwrite en ex order st = .ok st' ∧ GoodM ci N st st' ∧
      ∀ i ∈ en ∪ ex, ∀ j ∈ en, st'.graph.PAdj i j → Below ci st'.graph (order + 1) i j := by
  obtain ⟨s1, h1, g1, t1⟩ := refineExogenous_minimal o overwrite hen hex hd order hst hm (fun e he v hv => hb e (Finset.mem_union_right _ he) v hv)
  obtain ⟨s2, h2, g2⟩ := maximallyOrientEdges_minimal o en g1.1.1 g1.2
  have g12 := g1.1.trans g2.1
  obtain ⟨s3, h3, g3, t3⟩ := refineEndogenous_minimal o overwrite hen order g2.1.1 g2.2
    (fun i hi j hj h => (hb i (Finset.mem_union_left _ hi) j hj (padj_of_pot g12.2 _ _ h)).mono g12.2)
  obtain ⟨s4, h4, g4⟩ := maximallyOrientEdges_minimal o en g3.1.1 g3.2
  have g14 := (g2.1.trans g3.1).trans g4.1
  refine ⟨s4, ?_, ⟨g1.1.trans g14, g4.2⟩, fun i hi j hj h => ?_⟩
  · rw [refineAndOrient, py_bind h1, py_bind h2, py_bind h3, h4]
  · rcases Finset.mem_union.mp hi with hi | hi
    · exact (t3 i hi j hj (padj_of_pot g4.1.2 _ _ h)).mono g4.1.2
    · exact (t1 i hi j hj (padj_of_pot g14.2 _ _ h)).mono g14.2

theorem learnRecursively_minimal (o : SetOrder α) (overwrite : Bool) :
    ∀ (n : Nat) (en ex : Finset α) (order : Nat) (st : PcState α), N.card + 1 ≤ n + order → en ⊆ N → ex ⊆ N →
      Disjoint en ex → Inv ci N st → AllMinimal ci N st.graph.PAdj st.sep →
      (∀ i ∈ en ∪ ex, ∀ j ∈ en, st.graph.PAdj i j → Below ci st.graph order i j) → 0 < n →
      ∃ st', learnRecursively o ci overwrite n en ex order st = .ok st' ∧ GoodM ci N st st' := by
  intro n
  induction n with
  | zero => intro en ex order st _ _ _ _ _ _ _ h; omega
  | succ n ih =>
    intro en ex order st hn hen hex hd hst hm hb _
    rw [learnRecursively]
    by_cases he : exitCond st.graph en order = true
    · exact ⟨st, by simp [he], ⟨hst, fun _ _ h => h⟩, hm⟩
    · have hlt : order < N.card := by
        by_contra hc
        exact he (exitCond_of_le hst en (by omega))
      have hne : en.Nonempty := by
        rw [Finset.nonempty_iff_ne_empty]
        rintro rfl
        exact he (by simp [exitCond])
      obtain ⟨s1, h1, g1, t1⟩ := refineAndOrient_minimal o overwrite hen hex hd order hst hm hb
      obtain ⟨d, l, h2, hdn, hl⟩ := split_spec o g1.1.1.wf hne
      obtain ⟨s2, h3, g2⟩ := foldlM_ok_inv
        (f := fun (s : PcState α) s' => learnRecursively o ci overwrite n s' ex (order + 1) s)
        (fun _ s => GoodM ci N s1 s) l [] s1 ⟨⟨g1.1.1, fun _ _ h => h⟩, g1.2⟩ (by
          intro _ x s hx hs
          have hxe : x ⊆ en := (hl x hx).trans Finset.sdiff_subset
          obtain ⟨s', e1, e2⟩ := ih x ex (order + 1) s (by omega) (hxe.trans hen) hex
            (Finset.disjoint_of_subset_left hxe hd) hs.1.1 hs.2
            (fun i hi j hj h => (t1 i (Finset.union_subset_union_left hxe hi) j (hxe hj) (padj_of_pot hs.1.2 _ _ h)).mono hs.1.2)
            (by omega)
          exact ⟨s', e1, hs.1.trans e2.1, e2.2⟩)
      obtain ⟨s3, h4, g3⟩ := ih d (en \ d ∪ ex) (order + 1) s2 (by omega) (hdn.trans hen)
        (Finset.union_subset (Finset.sdiff_subset.trans hen) hex)
        (Finset.disjoint_union_right.mpr ⟨Finset.disjoint_sdiff, Finset.disjoint_of_subset_left hdn hd⟩) g2.1.1 g2.2
        (fun i hi j hj h => (t1 i (by
          simp only [Finset.mem_union, Finset.mem_sdiff] at hi ⊢
          rcases hi with hi | hi | hi
          · exact Or.inl (hdn hi)
          · exact Or.inl hi.1
          · exact Or.inr hi) j (hdn hj) (padj_of_pot g2.1.2 _ _ h)).mono g2.1.2) (by omega)
      refine ⟨s3, ?_, (g1.1.trans g2.1).trans g3.1, g3.2⟩
      simp only [he, if_false, Bool.false_eq_true]
      rw [py_bind h1, py_bind h2]
      exact (py_bind h3 _).trans h4

theorem learnStructure_minimal (o : SetOrder α) (ci : CITest α) (N : Finset α) (overwrite : Bool) {st : PcState α}
    (h : learnStructure o ci overwrite (init o N) = .ok st) : AllMinimal ci N st.graph.PAdj st.sep := by
  obtain ⟨s1, h1, g1, m1⟩ := learnRecursively_minimal (ci := ci) o overwrite (N.card + 1) N ∅ 0 (init o N) (by omega) (subset_refl N)
    (Finset.empty_subset N) (Finset.disjoint_empty_right _) (init_inv o ci N)
    (fun i hi j hj hij hn => absurd (Or.inr (Or.inr (Or.inl (MG.pdagComplete_und.mpr ⟨hi, hj, hij⟩)))) hn)
    (fun _ _ _ _ _ _ hc => absurd hc (Nat.not_lt_zero _)) (by omega)
  obtain ⟨G2, h2, h3, -⟩ := MG.maximallyOrient_spec o (rules := [1, 2, 3]) (by simp) s1.graph.nodes g1.1.wf
  have hr := MG.steps_refines h3 g1.1.wf
  have hw := MG.steps_wf h3 g1.1.wf
  have hbi : ∀ a b, G2.Arrow a b → ¬ G2.Arrow b a := by
    intro a b hab hba
    have e1 := (hr.new a b hab).elim id (fun h => absurd hba h.2)
    have e2 := (hr.new b a hba).elim id (fun h => absurd hab h.2)
    exact g1.1.noBi a b e1 e2
  obtain ⟨G3, P, h4, -, -, a4, -⟩ := reOrientSkeleton_spec o hw hbi
  have hadj : ∀ a b, G3.PAdj a b ↔ s1.graph.PAdj a b := fun a b => (a4 a b).trans (hr.adj a b)
  have h1' : learnRecursively o ci overwrite ((init o N).graph.nodes.card + 1) (init o N).graph.nodes ∅ 0 (init o N) = .ok s1 := h1
  rw [learnStructure, py_bind h1', py_bind h2, py_bind h4] at h
  cases h
  exact fun i hi j hj hij hn => m1 i hi j hj hij (fun h => hn ((hadj i j).mpr h))

end Rai
end Verif
