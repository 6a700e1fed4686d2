import Verif.Model.Rai
import Verif.Lemmas.Pc
import Verif.Lemmas.Mixed
import Verif.Lemmas.Extend
import Verif.Lemmas.Py
import Verif.Lemmas.OrdMarks

/-!
# The RAI learner: invariants for an arbitrary CI test
-/

namespace Verif
open Relation
namespace MG
variable {α : Type} [DecidableEq α]

theorem subgraphsLoop_ok (o : SetOrder α) (G : MG α) (types : Option (List (Mark × Mark))) :
    ∀ (n : Nat) (nodes : Finset α), nodes.card < n →
      ∃ L, subgraphsLoop o G types n nodes = .ok L ∧ (∀ x, (∃ S ∈ L, x ∈ S) ↔ x ∈ nodes) ∧ L.Pairwise Disjoint ∧
        ((∀ x ∈ nodes, ∀ y ∈ nodes, G.Nbr types x y → G.Nbr types y x) →
          ∀ S ∈ L, ∀ x ∈ S, ∀ y ∈ nodes, G.Nbr types x y → y ∈ S) := by
  intro n
  induction n with
  | zero => intro nodes h; omega
  | succ n ih =>
    intro nodes hc
    cases hpop : popSet o n nodes with
    | none =>
      refine ⟨[], by simp [subgraphsLoop, hpop], fun x => ?_, List.Pairwise.nil, by simp⟩
      rw [Dag.popSet_none hpop]; simp
    | some p =>
      obtain ⟨i, rest⟩ := p
      obtain ⟨hi, rfl⟩ := popSet_eq_some hpop
      obtain ⟨r, h1, h2⟩ := findReachableSet_spec o G i (nodes.erase i) types
      have hrsub : r ⊆ nodes.erase i := fun y hy => tg_mem ((h2 y).mp hy)
      have hcard : (nodes.erase i \ r).card < n := by
        have := Finset.card_le_card (Finset.sdiff_subset (s := nodes.erase i) (t := r))
        rw [Finset.card_erase_of_mem hi] at this
        have := Finset.card_pos.mpr ⟨i, hi⟩
        omega
      obtain ⟨L, g1, g2, g3, g4⟩ := ih (nodes.erase i \ r) hcard
      have hrest : ∀ S ∈ L, ∀ x ∈ S, x ≠ i ∧ x ∈ nodes ∧ x ∉ r := by
        intro S hS x hx
        have := (g2 x).mp ⟨S, hS, hx⟩
        simp only [Finset.mem_sdiff, Finset.mem_erase] at this
        tauto
      have hclosed : ∀ x ∈ insert i r, ∀ y ∈ nodes, G.Nbr types x y → y ∈ insert i r := by
        intro x hx y hy hxy
        by_cases hyi : y = i
        · rw [hyi]; exact Finset.mem_insert_self _ _
        · have hst : G.Nbr types x y ∧ y ∈ nodes.erase i := ⟨hxy, Finset.mem_erase.mpr ⟨hyi, hy⟩⟩
          refine Finset.mem_insert_of_mem ((h2 y).mpr ?_)
          rcases Finset.mem_insert.mp hx with rfl | hx
          · exact .single hst
          · exact ((h2 x).mp hx).tail hst
      refine ⟨insert i r :: L, by simp only [subgraphsLoop, hpop, h1, g1, bind, Except.bind]; rfl, ?_, ?_, ?_⟩
      · intro x
        simp only [List.mem_cons, exists_eq_or_imp, g2, Finset.mem_insert, Finset.mem_sdiff, Finset.mem_erase]
        constructor
        · rintro ((rfl | h) | h)
          · exact hi
          · exact Finset.mem_of_mem_erase (hrsub h)
          · exact h.1.2
        · intro h
          by_cases hx : x = i
          · exact Or.inl (Or.inl hx)
          · by_cases hr : x ∈ r
            · exact Or.inl (Or.inr hr)
            · exact Or.inr ⟨⟨hx, h⟩, hr⟩
      · refine List.pairwise_cons.mpr ⟨fun S hS => ?_, g3⟩
        rw [Finset.disjoint_left]
        intro x hx hxS
        obtain ⟨e1, -, e3⟩ := hrest S hS x hxS
        exact (Finset.mem_insert.mp hx).elim e1 e3
      · intro hs S hS x hx y hy hxy
        rcases List.mem_cons.mp hS with rfl | hS
        · exact hclosed x hx y hy hxy
        · obtain ⟨e1, e2, e3⟩ := hrest S hS x hx
          refine g4 (fun x hx y hy => hs x (Finset.mem_of_mem_erase (Finset.mem_sdiff.mp hx).1) y
            (Finset.mem_of_mem_erase (Finset.mem_sdiff.mp hy).1)) S hS x hx y ?_ hxy
          by_contra hn
          have hyi : y ∈ insert i r := by
            simp only [Finset.mem_sdiff, Finset.mem_erase, not_and, not_not] at hn
            rw [Finset.mem_insert]
            by_cases h : y = i
            · exact Or.inl h
            · exact Or.inr (hn ⟨h, hy⟩)
          exact (Finset.mem_insert.mp (hclosed y hyi x e2 (hs x e2 y hy hxy))).elim e1 e3

/-- The last set of the partial topological order has no directed edges inside, or each of its nodes has a child in it. -/
theorem partialTopoFuel_last (o : SetOrder α) (G : MG α) :
    ∀ (n : Nat) (en : Finset α) (gs : List (Finset α)), partialTopoFuel o G n en = .ok gs →
      ∀ g, gs.getLast? = some g → (∀ a ∈ g, ∀ b ∈ g, ¬ G.Arrow a b) ∨ ∀ a ∈ g, ∃ b ∈ g, G.Arrow a b := by
  intro n
  induction n with
  | zero => intro en gs h; simp [partialTopoFuel] at h
  | succ n ih =>
    intro en gs h g hg
    simp only [partialTopoFuel] at h
    by_cases h0 : en.card = 0
    · rw [if_pos h0] at h; cases h; simp at hg
    · rw [if_neg h0] at h
      have hps' := fun x => mem_foldl_parents G en x (o.iter () en) ∅
      simp only [Finset.notMem_empty, false_or, o.mem] at hps'
      generalize (o.iter () en).foldl (fun acc v => acc ∪ (G.parents v ∩ en)) ∅ = ps at hps' h
      by_cases hl : (en \ ps).card = 0
      · simp only [hl, if_true] at h
        cases h
        simp only [List.getLast?_singleton, Option.some.injEq] at hg
        subst hg
        rw [Finset.card_eq_zero, Finset.sdiff_eq_empty_iff_subset] at hl
        refine Or.inr (fun a ha => ?_)
        obtain ⟨-, v, hv, hav⟩ := (hps' a).mp ha
        exact ⟨v, hl hv, hav⟩
      · simp only [hl, if_false] at h
        obtain ⟨high, h1, h2⟩ := py_bind_ok h
        cases h2
        cases high with
        | cons b bs =>
          rw [List.getLast?_cons_cons] at hg
          exact ih ps _ h1 g hg
        | nil =>
          simp only [List.getLast?_singleton, Option.some.injEq] at hg
          subst hg
          have hcard := Finset.card_sdiff_add_card_eq_card (fun x hx => ((hps' x).mp hx).1 : ps ⊆ en)
          obtain ⟨gs', e1, e2, -⟩ : ∃ gs', partialTopoFuel o G n ps = .ok gs' ∧ (∀ x, x ∈ ps ↔ ∃ g ∈ gs', x ∈ g) ∧
              True := by
            by_cases hlt : ps.card < n
            · obtain ⟨gs', e1, e2, -⟩ := partialTopoFuel_spec o G n ps hlt
              exact ⟨gs', e1, e2, trivial⟩
            · exfalso
              cases n with
              | zero => simp [partialTopoFuel] at h1
              | succ n =>
                rw [partialTopoFuel] at h1
                by_cases hp0 : ps.card = 0
                · omega
                · rw [if_neg hp0] at h1
                  dsimp only at h1
                  split_ifs at h1
                  · cases h1
                  · obtain ⟨_, _, h3⟩ := py_bind_ok h1
                    cases h3
          rw [h1] at e1
          cases e1
          refine Or.inl (fun a ha b hb hab => ?_)
          have := (e2 a).mp ((hps' a).mpr ⟨(Finset.mem_sdiff.mp ha).1, b, (Finset.mem_sdiff.mp hb).1, hab⟩)
          simp at this

/-- `H` arises from `G` by directing undirected edges towards nodes of `en` (possibly at both ends). -/
structure Ori (en : Finset α) (G H : MG α) : Prop where
  wf : H.PdagWF
  nodes : H.nodes = G.nodes
  adj : ∀ a b, H.PAdj a b ↔ G.PAdj a b
  keep : ∀ a b, G.Arrow a b → H.Arrow a b
  und : ∀ a b, H.Und a b → G.Und a b
  new : ∀ a b, H.Arrow a b → G.Arrow a b ∨ (G.Und a b ∧ b ∈ en)

omit [DecidableEq α] in
theorem Ori.refl {en : Finset α} {G : MG α} (hG : G.PdagWF) : Ori en G G :=
  ⟨hG, rfl, fun _ _ => Iff.rfl, fun _ _ h => h, fun _ _ h => h, fun _ _ h => Or.inl h⟩

omit [DecidableEq α] in
theorem Ori.trans {en : Finset α} {G H K : MG α} (h : Ori en G H) (h' : Ori en H K) : Ori en G K :=
  ⟨h'.wf, h'.nodes.trans h.nodes, fun a b => (h'.adj a b).trans (h.adj a b), fun a b x => h'.keep a b (h.keep a b x),
    fun a b x => h.und a b (h'.und a b x), fun a b x => (h'.new a b x).elim (h.new a b)
      (fun y => Or.inr ⟨h.und _ _ y.1, y.2⟩)⟩

/-- Directing one edge that was undirected at the start. -/
theorem Ori.orient {en : Finset α} {G H : MG α} (hG : G.PdagWF) (h : Ori en G H) {x z : α} (hx : G.Und x z)
    (hz : z ∈ en) : Ori en G (H.orientEdge x z) where
  wf := by
    have hm := hG.mem _ _ _ hx
    refine orientEdge_wf h.wf (by rintro rfl; exact hG.irrefl _ _ hx) ?_ ?_ <;> rw [h.nodes]
    · exact hm.1
    · exact hm.2
  nodes := h.nodes
  adj := fun a b => (orientEdge_padj ((h.adj _ _).mpr (Or.inr (Or.inr (Or.inl hx)))) a b).trans (h.adj a b)
  keep := fun a b x => orientEdge_arrow.mpr (Or.inl (h.keep a b x))
  und := fun a b x => h.und a b (orientEdge_und.mp x).1
  new := by
    intro a b x
    rcases orientEdge_arrow.mp x with x | ⟨rfl, rfl⟩
    · exact h.new a b x
    · exact Or.inr ⟨hx, hz⟩

end MG

namespace Rai
variable {α : Type} [LinearOrder α]
open Pc (Witness firstIndep firstIndep_spec)

/-- `a` is a potential parent of `b`: `a --> b` or `a --- b`. -/
def Pot (G : MG α) (a b : α) : Prop := G.Arrow a b ∨ G.Und a b

omit [LinearOrder α] in
theorem padj_iff_pot {G : MG α} {a b : α} : G.PAdj a b ↔ Pot G a b ∨ Pot G b a := by
  simp only [MG.PAdj, Pot]; tauto

omit [LinearOrder α] in
theorem padj_of_pot {G H : MG α} (h : ∀ a b, Pot G a b → Pot H a b) (a b : α) (hp : G.PAdj a b) : H.PAdj a b :=
  padj_iff_pot.mpr ((padj_iff_pot.mp hp).imp (h a b) (h b a))

theorem mem_potParents {G : MG α} {v w x : α} : x ∈ potParents G v w ↔ Pot G x v ∧ x ≠ w := by
  simp [potParents, MG.parents, MG.und, Pot, MG.Arrow, MG.Und]

/-- Invariant of the learner. -/
structure Inv (ci : CITest α) (N : Finset α) (st : PcState α) : Prop where
  nodes : st.graph.nodes = N
  wf : st.graph.PdagWF
  noBi : ∀ a b, st.graph.Arrow a b → ¬ st.graph.Arrow b a
  key : ∀ i ∈ N, ∀ j ∈ N, i ≠ j → ∃ S, st.sep.get i j = .ok S
  witness : ∀ i ∈ N, ∀ j ∈ N, i ≠ j → ¬ st.graph.PAdj i j → ∃ S, st.sep.get i j = .ok S ∧ Witness ci N i j S

theorem init_inv (o : SetOrder α) (ci : CITest α) (N : Finset α) : Inv ci N (init o N) := by
  refine ⟨rfl, MG.pdagComplete_wf N, fun a b h => absurd h MG.pdagComplete_arrow, ?_, ?_⟩
  · intro i hi j hj hne
    exact ⟨∅, by simp [init, SepSet.get_init, hi, hj, hne]⟩
  · intro i hi j hj hne hn
    exact absurd (Or.inr (Or.inr (Or.inl (MG.pdagComplete_und.mpr ⟨hi, hj, hne⟩)))) hn

theorem deleteEdge_padj {G : MG α} {i j a b : α} :
    (G.pdagDeleteEdge i j).PAdj a b ↔ G.PAdj a b ∧ ¬ ((a = i ∧ b = j) ∨ (a = j ∧ b = i)) := by
  simp only [MG.PAdj, MG.deleteEdge_arrow, MG.deleteEdge_und]
  tauto

theorem mem_condSets (o : SetOrder α) {src : MG α} (hsrc : src.PdagWF) {order : Nat} {a b : α} {z : List α}
    (h : z ∈ condSets o src order a b) :
    a ∉ z ∧ b ∉ z ∧ (∀ x ∈ z, x ∈ src.nodes) ∧ z.length = order := by
  rw [condSets, mem_uniqueElems, List.mem_append, mem_combs, mem_combs] at h
  have key : ∀ u v, z.Sublist (o.iter (order, a, b) (potParents src u v)) →
      u ∉ z ∧ v ∉ z ∧ ∀ x ∈ z, x ∈ src.nodes := by
    intro u v hs
    have hm : ∀ x ∈ z, (x ∈ src.g u .arrow ∨ x ∈ src.g u .tail) ∧ x ≠ v := by
      intro x hx
      have := (o.mem _ _ _).mp (hs.subset hx)
      simpa [potParents, MG.parents, MG.und] using this
    refine ⟨fun h => ?_, fun h => (hm _ h).2 rfl, fun x hx => ?_⟩
    · rcases (hm _ h).1 with h | h <;> exact hsrc.irrefl _ _ h
    · rcases (hm x hx).1 with h | h <;> exact (hsrc.mem _ _ _ h).1
  rcases h.1 with h | h
  · obtain ⟨h1, h2, h3⟩ := key a b h.1; exact ⟨h1, h2, h3, h.2⟩
  · obtain ⟨h1, h2, h3⟩ := key b a h.1; exact ⟨h2, h1, h3, h.2⟩

/-- Every set of `order` potential parents of one end is among the conditioning sets of the pair. -/
theorem exists_condSet (o : SetOrder α) {src : MG α} {order : Nat} {a b : α} {S : Finset α}
    (hS : ((∀ s ∈ S, Pot src s a) ∧ b ∉ S) ∨ ((∀ s ∈ S, Pot src s b) ∧ a ∉ S)) (hc : S.card = order) :
    ∃ z ∈ condSets o src order a b, z.toFinset = S := by
  have key : ∀ u v, (∀ s ∈ S, Pot src s u) → v ∉ S →
      ∃ z, z ∈ combs order (o.iter (order, a, b) (potParents src u v)) ∧ z.toFinset = S := by
    intro u v h1 h2
    refine ⟨(o.iter (order, a, b) (potParents src u v)).filter (· ∈ S), ?_, ?_⟩
    · rw [mem_combs]
      refine ⟨List.filter_sublist, ?_⟩
      rw [← hc, ← List.toFinset_card_of_nodup (List.Nodup.filter _ (o.nodup _ _))]
      congr 1
      ext x
      simp only [List.mem_toFinset, List.mem_filter, o.mem, decide_eq_true_eq, and_iff_right_iff_imp]
      exact fun hx => mem_potParents.mpr ⟨h1 x hx, fun h => h2 (h ▸ hx)⟩
    · ext x
      simp only [List.mem_toFinset, List.mem_filter, o.mem, decide_eq_true_eq, and_iff_right_iff_imp]
      exact fun hx => mem_potParents.mpr ⟨h1 x hx, fun h => h2 (h ▸ hx)⟩
  rcases hS with h | h
  · obtain ⟨z, h1, h2⟩ := key a b h.1 h.2
    exact ⟨z, by rw [condSets, mem_uniqueElems, List.mem_append]; exact ⟨Or.inl h1, List.not_mem_nil⟩, h2⟩
  · obtain ⟨z, h1, h2⟩ := key b a h.1 h.2
    exact ⟨z, by rw [condSets, mem_uniqueElems, List.mem_append]; exact ⟨Or.inr h1, List.not_mem_nil⟩, h2⟩

/-- The pair was tested with each set of `order` potential parents (in `G`) of one of its ends. -/
def Tried (ci : CITest α) (G : MG α) (order : Nat) (i j : α) : Prop :=
  ∀ S : Finset α, S.card = order → ((∀ s ∈ S, Pot G s i) ∧ j ∉ S) ∨ ((∀ s ∈ S, Pot G s j) ∧ i ∉ S) →
    ∃ l k, l.toFinset = S ∧ (ci k i j l = false ∨ ci k j i l = false)

theorem Tried.mono {ci : CITest α} {G H : MG α} {order : Nat} {i j : α} (h : Tried ci G order i j)
    (hp : ∀ a b, Pot H a b → Pot G a b) : Tried ci H order i j := fun S hc hS =>
  h S hc (hS.imp (fun h => ⟨fun s hs => hp _ _ (h.1 s hs), h.2⟩) (fun h => ⟨fun s hs => hp _ _ (h.1 s hs), h.2⟩))

theorem Tried.symm {ci : CITest α} {G : MG α} {order : Nat} {i j : α} (h : Tried ci G order i j) :
    Tried ci G order j i := fun S hc hS => by
  obtain ⟨l, k, h1, h2⟩ := h S hc hS.symm
  exact ⟨l, k, h1, h2.symm⟩

/-- One pair. -/
theorem testPair_spec (o : SetOrder α) {ci : CITest α} {N : Finset α} {src : MG α} (hsrc : src.PdagWF)
    (hsn : src.nodes = N) (order : Nat) {st : PcState α} (hst : Inv ci N st)
    (hsub : ∀ a b, Pot st.graph a b → Pot src a b) {x y a b : α}
    (hab : (a = x ∧ b = y) ∨ (a = y ∧ b = x)) (hx : x ∈ N) (hy : y ∈ N) (hxy : x ≠ y) :
    ∃ st', testPair o ci src order st x y a b = .ok st' ∧ Inv ci N st' ∧
      (∀ c d, Pot st'.graph c d → Pot st.graph c d) ∧ (st'.graph.PAdj x y → Tried ci st'.graph order x y) := by
  suffices hsuff : ∃ st', testPair o ci src order st x y a b = .ok st' ∧ Inv ci N st' ∧
      (∀ c d, Pot st'.graph c d → Pot st.graph c d) ∧
      (st'.graph.PAdj x y → ∀ z ∈ condSets o src order a b, ∃ k, ci k x y z = false) by
    obtain ⟨st', h1, h2, h3, h4⟩ := hsuff
    refine ⟨st', h1, h2, h3, fun hp => Tried.mono (G := src) ?_ (fun c d h => hsub c d (h3 c d h))⟩
    intro S hc hS
    obtain ⟨z, hz, rfl⟩ := exists_condSet o (a := a) (b := b) (by
      rcases hab with ⟨rfl, rfl⟩ | ⟨rfl, rfl⟩
      · exact hS
      · exact hS.symm) hc
    obtain ⟨k, hk⟩ := h4 hp z hz
    exact ⟨z, k, rfl, Or.inl hk⟩
  obtain ⟨t, ht, ht'⟩ := MG.isConnected_spec hsrc hxy
  cases t with
  | false =>
    refine ⟨st, by simp only [testPair, ht]; rfl, hst, fun _ _ h => h, fun h => ?_⟩
    exact absurd (ht'.mpr (padj_of_pot hsub x y h)) (by simp)
  | true =>
    obtain ⟨f1, f2⟩ := firstIndep_spec ci x y (condSets o src order a b) st.calls
    cases hf : firstIndep ci x y (condSets o src order a b) st.calls with
    | mk r k =>
      rw [hf] at f1 f2
      cases r with
      | none =>
        exact ⟨{ st with calls := k }, by simp only [testPair, ht]; simp [bind, Except.bind, hf]; rfl,
          ⟨hst.nodes, hst.wf, hst.noBi, hst.key, hst.witness⟩, fun _ _ h => h, fun _ => f2 rfl⟩
      | some z =>
        obtain ⟨hz, k', hk'⟩ := f1 z rfl
        obtain ⟨z1, z2, z3, -⟩ := mem_condSets o hsrc hz
        rw [hsn] at z3
        have hz' : x ∉ z ∧ y ∉ z := by
          rcases hab with ⟨rfl, rfl⟩ | ⟨rfl, rfl⟩
          · exact ⟨z1, z2⟩
          · exact ⟨z2, z1⟩
        have hw : Witness ci N x y z.toFinset := ⟨z, k', rfl, Or.inl hk', hz'.1, hz'.2, z3⟩
        refine ⟨⟨st.graph.pdagDeleteEdge x y, st.sep.set x y z.toFinset, k⟩,
          by simp only [testPair, ht]; simp [bind, Except.bind, hf]; rfl,
          ⟨hst.nodes, MG.deleteEdge_wf hst.wf x y, fun c d h h' => hst.noBi c d (MG.deleteEdge_arrow.mp h).1
            (MG.deleteEdge_arrow.mp h').1, ?_, ?_⟩, fun c d h => h.imp (fun h => (MG.deleteEdge_arrow.mp h).1)
              (fun h => (MG.deleteEdge_und.mp h).1), ?_⟩
        · intro c hc d hd hcd
          simp only [SepSet.get_set]
          split
          · exact ⟨_, rfl⟩
          · exact hst.key c hc d hd hcd
        · intro c hc d hd hcd hn
          simp only [SepSet.get_set]
          split
          · rename_i h
            refine ⟨_, rfl, ?_⟩
            rcases h with ⟨rfl, rfl⟩ | ⟨rfl, rfl⟩
            · exact hw
            · exact hw.symm
          · rename_i h
            refine hst.witness c hc d hd hcd (fun hu => hn (deleteEdge_padj.mpr ⟨hu, fun h' => h ?_⟩))
            rcases h' with ⟨rfl, rfl⟩ | ⟨rfl, rfl⟩
            · exact Or.inl ⟨rfl, rfl⟩
            · exact Or.inr ⟨rfl, rfl⟩
        · intro h
          exact absurd (Or.inl ⟨rfl, rfl⟩) (deleteEdge_padj.mp h).2

/-- What the steps of the recursion guarantee: the invariant, and that there are no new potential parents. -/
def Good (ci : CITest α) (N : Finset α) (st st' : PcState α) : Prop :=
  Inv ci N st' ∧ ∀ a b, Pot st'.graph a b → Pot st.graph a b

theorem Good.trans {ci : CITest α} {N : Finset α} {st st' st'' : PcState α} (h : Good ci N st st')
    (h' : Good ci N st' st'') : Good ci N st st'' := ⟨h'.1, fun a b x => h.2 a b (h'.2 a b x)⟩

theorem refineExogenous_spec (o : SetOrder α) {ci : CITest α} {N : Finset α} (overwrite : Bool) {en ex : Finset α}
    (hen : en ⊆ N) (hex : ex ⊆ N) (hd : Disjoint en ex) (order : Nat) {st : PcState α} (hst : Inv ci N st) :
    ∃ st', refineExogenous o ci overwrite en ex order st = .ok st' ∧ Good ci N st st' ∧
      ∀ e ∈ ex, ∀ v ∈ en, st'.graph.PAdj e v → Tried ci st'.graph order e v := by
  obtain ⟨st', h1, h2, h3⟩ := foldlM_ok_inv (f := fun (s : PcState α) v => (o.iter (order, v) ex).foldlM (fun s e =>
    testPair o ci (if overwrite then s.graph else st.graph) order s e v v e) s)
    (fun done s => Good ci N st s ∧ ∀ e ∈ ex, ∀ v ∈ done, s.graph.PAdj e v → Tried ci s.graph order e v)
    (o.iter order en) [] st ⟨⟨hst, fun _ _ h => h⟩, by simp⟩ (by
      rintro done v s hv ⟨hs, hs'⟩
      obtain ⟨s', h1, h2, h3, h4⟩ := foldlM_ok_inv (f := fun (s : PcState α) e =>
        testPair o ci (if overwrite then s.graph else st.graph) order s e v v e)
        (fun dn s' => Good ci N st s' ∧ (∀ a b, Pot s'.graph a b → Pot s.graph a b) ∧
          ∀ e ∈ dn, s'.graph.PAdj e v → Tried ci s'.graph order e v)
        (o.iter (order, v) ex) [] s ⟨hs, fun _ _ h => h, by simp⟩ (by
          rintro dn e s1 he ⟨g1, g2, g3⟩
          have hv' := (o.mem _ _ _).mp hv
          have he' := (o.mem _ _ _).mp he
          obtain ⟨s', h1, h2, h3, h4⟩ := testPair_spec o (src := if overwrite then s1.graph else st.graph)
            (by split; exacts [g1.1.wf, hst.wf]) (by split; exacts [g1.1.nodes, hst.nodes]) order g1.1
            (by split; exacts [fun _ _ h => h, g1.2]) (a := v) (b := e) (Or.inr ⟨rfl, rfl⟩) (hex he') (hen hv')
            (fun h => Finset.disjoint_left.mp hd hv' (h ▸ he'))
          refine ⟨s', h1, g1.trans ⟨h2, h3⟩, fun a b h => g2 a b (h3 a b h), fun e' hm ha => ?_⟩
          rcases List.mem_append.mp hm with hm | hm
          · exact (g3 e' hm (padj_of_pot h3 _ _ ha)).mono h3
          · obtain rfl := List.mem_singleton.mp hm
            exact h4 ha)
      refine ⟨s', h1, h2, fun e he v' hm ha => ?_⟩
      rcases List.mem_append.mp hm with hm | hm
      · exact (hs' e he v' hm (padj_of_pot h3 _ _ ha)).mono h3
      · obtain rfl := List.mem_singleton.mp hm
        exact h4 e (by simpa [o.mem] using he) ha)
  exact ⟨st', h1, h2, fun e he v hv ha => h3 e he v (by simpa [o.mem] using hv) ha⟩

theorem refineEndogenous_spec (o : SetOrder α) {ci : CITest α} {N : Finset α} (overwrite : Bool) {en : Finset α}
    (hen : en ⊆ N) (order : Nat) {st : PcState α} (hst : Inv ci N st) :
    ∃ st', refineEndogenous o ci overwrite en order st = .ok st' ∧ Good ci N st st' ∧
      ∀ i ∈ en, ∀ j ∈ en, st'.graph.PAdj i j → Tried ci st'.graph order i j := by
  obtain ⟨st', h1, h2, h3⟩ := foldlM_ok_inv (f := fun (s : PcState α) (ij : α × α) =>
    testPair o ci (if overwrite then s.graph else st.graph) order s ij.1 ij.2 ij.1 ij.2)
    (fun done s => Good ci N st s ∧ ∀ ij ∈ done, s.graph.PAdj ij.1 ij.2 → Tried ci s.graph order ij.1 ij.2)
    (pairs (o.iter order en)) [] st ⟨⟨hst, fun _ _ h => h⟩, by simp⟩ (by
      rintro done ⟨i, j⟩ s hij ⟨hs, hs'⟩
      obtain ⟨s', h1, h2, h3, h4⟩ := testPair_spec o (src := if overwrite then s.graph else st.graph)
        (by split; exacts [hs.1.wf, hst.wf]) (by split; exacts [hs.1.nodes, hst.nodes]) order hs.1
        (by split; exacts [fun _ _ h => h, hs.2]) (x := i) (y := j) (a := i) (b := j) (Or.inl ⟨rfl, rfl⟩)
        (hen ((o.mem _ _ _).mp (mem_pairs_left hij))) (hen ((o.mem _ _ _).mp (mem_pairs_right hij)))
        (mem_pairs_ne (o.nodup _ _) hij)
      refine ⟨s', h1, hs.trans ⟨h2, h3⟩, ?_⟩
      intro ij hm ha
      rcases List.mem_append.mp hm with hm | hm
      · exact (hs' ij hm (padj_of_pot h3 _ _ ha)).mono h3
      · obtain rfl := List.mem_singleton.mp hm
        exact h4 ha)
  refine ⟨st', h1, h2, fun i hi j hj ha => ?_⟩
  have hne : i ≠ j := by
    rintro rfl
    rcases ha with h | h | h | h <;> exact h2.1.wf.irrefl _ _ h
  rcases mem_pairs_or ((o.mem order _ _).mpr hi) ((o.mem order _ _).mpr hj) hne with h | h
  · exact h3 _ (List.mem_append_right _ h) ha
  · exact (h3 _ (List.mem_append_right _ h) ha.symm).symm

theorem orientNew_spec (o : SetOrder α) (sep : SepSet α) (en : Finset α) {G : MG α} (hG : G.PdagWF)
    (hkey : ∀ i ∈ G.nodes, ∀ j ∈ G.nodes, i ≠ j → ∃ S, sep.get i j = .ok S) :
    ∃ G', orientNew o sep en G = .ok G' ∧ MG.Ori en G G' := by
  refine foldlM_ok_inv (f := fun (H : MG α) z => (pairs (o.iter z (G.und z))).foldlM (fun (H : MG α) (xy : α × α) => do
      if ← H.isConnected xy.1 xy.2 then return H
      let S ← sep.get xy.1 xy.2
      if z ∉ S then return (H.orientEdge xy.1 z).orientEdge xy.2 z
      else return H) H) (fun _ H => MG.Ori en G H) (o.iter 0 en) [] G (MG.Ori.refl hG) ?_
  intro _ z H hz hH
  refine foldlM_ok_inv (f := fun (H : MG α) (xy : α × α) => do
      if ← H.isConnected xy.1 xy.2 then return H
      let S ← sep.get xy.1 xy.2
      if z ∉ S then return (H.orientEdge xy.1 z).orientEdge xy.2 z
      else return H) (fun _ H => MG.Ori en G H) (pairs (o.iter z (G.und z))) [] H hH ?_
  rintro _ ⟨x, y⟩ K hxy hK
  have hz' := (o.mem _ _ _).mp hz
  have hx : G.Und x z := (o.mem _ _ _).mp (mem_pairs_left hxy)
  have hy : G.Und y z := (o.mem _ _ _).mp (mem_pairs_right hxy)
  have hne := mem_pairs_ne (o.nodup _ _) hxy
  obtain ⟨S, hS⟩ := hkey x (hG.mem _ _ _ hx).1 y (hG.mem _ _ _ hy).1 hne
  obtain ⟨b, hb, -⟩ := MG.isConnected_spec hK.wf hne
  cases b with
  | true => exact ⟨K, by simp only [hb]; rfl, hK⟩
  | false =>
    by_cases hzS : z ∈ S
    · exact ⟨K, by simp [hb, hS, bind, Except.bind, hzS]; rfl, hK⟩
    · exact ⟨(K.orientEdge x z).orientEdge y z, by simp [hb, hS, bind, Except.bind, hzS]; rfl,
        (hK.orient hG hx hz').orient hG hy hz'⟩

theorem orientWithParent_spec (o : SetOrder α) (sep : SepSet α) (en : Finset α) {G : MG α} (hG : G.PdagWF)
    (hkey : ∀ i ∈ G.nodes, ∀ j ∈ G.nodes, i ≠ j → ∃ S, sep.get i j = .ok S) :
    ∃ G', orientWithParent o sep en G = .ok G' ∧ MG.Ori en G G' := by
  refine foldlM_ok_inv (f := fun (H : MG α) z => (o.iter (z, 0) (G.und z)).foldlM (fun (H : MG α) x =>
      (o.iter (z, 1) (G.parents z)).foldlM (fun (H : MG α) y => do
        if ← H.isConnected x y then return H
        let S ← sep.get x y
        if z ∉ S then return H.orientEdge x z
        else return H) H) H) (fun _ H => MG.Ori en G H) (o.iter 1 en) [] G (MG.Ori.refl hG) ?_
  intro _ z H hz hH
  refine foldlM_ok_inv (f := fun (H : MG α) x => (o.iter (z, 1) (G.parents z)).foldlM (fun (H : MG α) y => do
        if ← H.isConnected x y then return H
        let S ← sep.get x y
        if z ∉ S then return H.orientEdge x z
        else return H) H) (fun _ H => MG.Ori en G H) (o.iter (z, 0) (G.und z)) [] H hH ?_
  intro _ x H hx hH
  refine foldlM_ok_inv (f := fun (H : MG α) y => do
        if ← H.isConnected x y then return H
        let S ← sep.get x y
        if z ∉ S then return H.orientEdge x z
        else return H) (fun _ H => MG.Ori en G H) (o.iter (z, 1) (G.parents z)) [] H hH ?_
  intro _ y K hy hK
  have hz' := (o.mem _ _ _).mp hz
  have hx' : G.Und x z := (o.mem _ _ _).mp hx
  have hy' : G.Arrow y z := (o.mem _ _ _).mp hy
  have hne : x ≠ y := by rintro rfl; exact hG.excl _ _ hy' hx'
  obtain ⟨S, hS⟩ := hkey x (hG.mem _ _ _ hx').1 y (hG.mem _ _ _ hy').1 hne
  obtain ⟨b, hb, -⟩ := MG.isConnected_spec hK.wf hne
  cases b with
  | true => exact ⟨K, by simp only [hb]; rfl, hK⟩
  | false =>
    by_cases hzS : z ∈ S
    · exact ⟨K, by simp [hb, hS, bind, Except.bind, hzS]; rfl, hK⟩
    · exact ⟨K.orientEdge x z, by simp [hb, hS, bind, Except.bind, hzS]; rfl, hK.orient hG hx' hz'⟩

theorem maximallyOrientEdges_spec (o : SetOrder α) {ci : CITest α} {N : Finset α} (en : Finset α) {st : PcState α}
    (hst : Inv ci N st) :
    ∃ st', maximallyOrientEdges o en st = .ok st' ∧ Good ci N st st' ∧
      ∀ a b, st'.graph.PAdj a b ↔ st.graph.PAdj a b := by
  have hkey : ∀ i ∈ st.graph.nodes, ∀ j ∈ st.graph.nodes, i ≠ j → ∃ S, st.sep.get i j = .ok S := by
    rw [hst.nodes]; exact hst.key
  obtain ⟨G1, h1, o1⟩ := orientNew_spec o st.sep en hst.wf hkey
  obtain ⟨G2, h2, o2⟩ := orientWithParent_spec o st.sep en o1.wf (by rw [o1.nodes]; exact hkey)
  have o3 := o1.trans o2
  obtain ⟨G3, h3, h4, -⟩ := MG.maximallyOrient_spec o (rules := [1, 2, 3, 4]) (by simp) G2.nodes o3.wf
  have hr := MG.steps_refines h4 o3.wf
  have hw := MG.steps_wf h4 o3.wf
  obtain ⟨c1, c2, c3, c4⟩ := MG.convertBidirected_on o hw en
  have hadj : ∀ a b, (G3.convertBidirected o en).PAdj a b ↔ st.graph.PAdj a b := by
    intro a b
    rw [← o3.adj, ← hr.adj]
    simp only [MG.PAdj, c3, c4]
    tauto
  have hbi : ∀ a b, G3.Arrow a b → G3.Arrow b a → a ∈ en ∧ b ∈ en := by
    intro a b hab hba
    have e1 : G2.Arrow a b := (hr.new a b hab).elim id (fun h => absurd hba h.2)
    have e2 : G2.Arrow b a := (hr.new b a hba).elim id (fun h => absurd hab h.2)
    rcases o3.new a b e1 with f1 | f1 <;> rcases o3.new b a e2 with f2 | f2
    · exact absurd f2 (hst.noBi _ _ f1)
    · exact absurd (hst.wf.symm _ _ f2.1) (hst.wf.excl _ _ f1)
    · exact absurd (hst.wf.symm _ _ f1.1) (hst.wf.excl _ _ f2)
    · exact ⟨f2.2, f1.2⟩
  have hpot : ∀ a b, Pot (G3.convertBidirected o en) a b → Pot st.graph a b := by
    have h32 : ∀ a b, Pot G3 a b → Pot G2 a b := fun a b h => h.elim (fun h => (hr.new a b h).imp id And.left)
      (fun h => Or.inr (hr.und a b h))
    intro a b h
    have h2 : Pot G2 a b := h32 a b (h.elim (fun h => Or.inl ((c3 a b).mp h).1)
      (fun h => ((c4 a b).mp h).elim Or.inr (fun h => Or.inl h.1)))
    exact h2.elim (fun h => (o3.new a b h).imp id And.left) (fun h => Or.inr (o3.und a b h))
  refine ⟨{ st with graph := G3.convertBidirected o en }, ?_, ⟨⟨?_, c1, ?_, hst.key, ?_⟩, hpot⟩, hadj⟩
  · simp only [maximallyOrientEdges, orientVStructures, h1, h2, h3, bind, Except.bind]; rfl
  · exact c2.trans (hr.nodes.trans (o3.nodes.trans hst.nodes))
  · intro a b h h'
    rw [c3] at h h'
    exact h.2 ⟨h'.1, hbi a b h.1 h'.1⟩
  · intro i hi j hj hij hn
    exact hst.witness i hi j hj hij (fun h => hn ((hadj i j).mpr h))

theorem refineAndOrient_spec (o : SetOrder α) {ci : CITest α} {N : Finset α} (overwrite : Bool) {en ex : Finset α}
    (hen : en ⊆ N) (hex : ex ⊆ N) (hd : Disjoint en ex) (order : Nat) {st : PcState α} (hst : Inv ci N st) :
    ∃ st', refineAndOrient o ci overwrite en ex order st = .ok st' ∧ Good ci N st st' ∧
      ∀ i ∈ en ∪ ex, ∀ j ∈ en, st'.graph.PAdj i j → Tried ci st'.graph order i j := by
  obtain ⟨s1, h1, g1, t1⟩ := refineExogenous_spec o overwrite hen hex hd order hst
  obtain ⟨s2, h2, g2, -⟩ := maximallyOrientEdges_spec o en g1.1
  obtain ⟨s3, h3, g3, t3⟩ := refineEndogenous_spec o overwrite hen order g2.1
  obtain ⟨s4, h4, g4, -⟩ := maximallyOrientEdges_spec o en g3.1
  have g14 := (g2.trans g3).trans g4
  refine ⟨s4, ?_, g1.trans g14, fun i hi j hj h => ?_⟩
  · rw [refineAndOrient, py_bind h1, py_bind h2, py_bind h3, h4]
  · rcases Finset.mem_union.mp hi with hi | hi
    · exact (t3 i hi j hj (padj_of_pot g4.2 _ _ h)).mono g4.2
    · exact (t1 i hi j hj (padj_of_pot g14.2 _ _ h)).mono g14.2

theorem split_full (o : SetOrder α) {G : MG α} (hG : G.PdagWF) {en : Finset α} (hne : en.Nonempty) :
    ∃ d l, split o G en = .ok (d, l, en \ d) ∧ d ⊆ en ∧ d.Nonempty ∧ (∀ x, (∃ s ∈ l, x ∈ s) ↔ x ∈ en ∧ x ∉ d) ∧
      l.Pairwise Disjoint ∧ (∀ x ∈ d, ∀ y ∈ en, y ∉ d → ¬ G.Arrow x y) ∧
      ((∃ x ∈ en, x ∉ d ∧ ∀ y ∈ en, y ∉ d → ¬ G.Arrow x y) →
        ∀ s ∈ l, ∀ x ∈ s, ∀ y ∈ en, y ∉ d → G.PAdj x y → y ∈ s) := by
  obtain ⟨gs, h1, h2, h3, h4⟩ := MG.partialTopoFuel_spec o G _ en (Nat.lt_succ_self _)
  have hlast := MG.partialTopoFuel_last o G _ en gs h1
  have h1' : G.partialTopo o en = .ok gs := h1
  have hlow : ∃ d, lowestTopologicalSet o G en = .ok d ∧ d ⊆ en ∧ d.Nonempty ∧
      (∀ x ∈ d, ∀ y ∈ en, y ∉ d → ¬ G.Arrow x y) ∧
      ((∃ x ∈ en, x ∉ d ∧ ∀ y ∈ en, y ∉ d → ¬ G.Arrow x y) → ∀ x ∈ en, x ∉ d → ∀ y ∈ en, y ∉ d → ¬ G.Arrow x y) := by
    by_cases hl : gs.length > 1
    · obtain ⟨init, g, rfl⟩ : ∃ init g, gs = init ++ [g] := by
        refine ⟨gs.dropLast, gs.getLast (by rintro rfl; simp at hl), (List.dropLast_append_getLast _).symm⟩
      have hgl : (init ++ [g]).getLastD ∅ = g := by simp
      rw [List.pairwise_append] at h4
      have hinit : ∀ x ∈ en, x ∉ g → ∃ g' ∈ init, x ∈ g' := by
        intro x hx hxg
        obtain ⟨g', hg', hx'⟩ := (h2 x).mp hx
        rcases List.mem_append.mp hg' with hg' | hg'
        · exact ⟨g', hg', hx'⟩
        · rw [List.mem_singleton.mp hg'] at hx'; exact absurd hx' hxg
      have hge : g ⊆ en := fun x hx => (h2 x).mpr ⟨g, by simp, hx⟩
      have hmem : ∀ y, y ∈ en → y ∉ en \ g → y ∈ g := by
        intro y hy hn; by_contra hc; exact hn (Finset.mem_sdiff.mpr ⟨hy, hc⟩)
      refine ⟨en \ g, ?_, Finset.sdiff_subset, ?_, ?_, ?_⟩
      · simp only [lowestTopologicalSet, h1', bind, Except.bind, hl, if_true, hgl]; rfl
      · cases init with
        | nil => simp at hl
        | cons a as =>
          obtain ⟨x, hx⟩ := h3 a (by simp)
          refine ⟨x, Finset.mem_sdiff.mpr ⟨(h2 x).mpr ⟨a, by simp, hx⟩, ?_⟩⟩
          exact Finset.disjoint_left.mp (h4.2.2 a (by simp) g (by simp)).1 hx
      · intro x hx y hy hyn
        rw [Finset.mem_sdiff] at hx
        obtain ⟨g', hg', hx'⟩ := hinit x hx.1 hx.2
        exact (h4.2.2 g' hg' g (by simp)).2 x hx' y (hmem y hy hyn)
      · rintro ⟨x, hx, hxn, hxc⟩
        rcases hlast g (by simp) with hl' | hl'
        · exact fun a ha han b hb hbn => hl' a (hmem a ha han) b (hmem b hb hbn)
        · obtain ⟨b, hb, hab⟩ := hl' x (hmem x hx hxn)
          exact absurd hab (hxc b (hge hb) (by simp [hb]))
    · cases gs with
      | nil =>
        obtain ⟨x, hx⟩ := hne
        exact absurd ((h2 x).mp hx) (by simp)
      | cons g gs =>
        obtain rfl : gs = [] := by
          cases gs with
          | nil => rfl
          | cons _ _ => simp at hl
        have hg : g = en := by ext x; rw [h2 x]; simp
        subst hg
        refine ⟨g, by simp only [lowestTopologicalSet, h1', bind, Except.bind, hl, if_false]; rfl, subset_refl _, hne,
          fun x _ y hy hn => absurd hy hn, fun ⟨x, hx, hn, _⟩ => absurd hx hn⟩
  obtain ⟨d, hd, hd', hdn, hda, hdc⟩ := hlow
  obtain ⟨l, g1, g2, g3, g4⟩ := MG.subgraphsLoop_ok o G none ((en \ d).card + 1) (en \ d) (Nat.lt_succ_self _)
  have g1' : G.findUnconnectedSubgraphs o (en \ d) none = .ok l := g1
  refine ⟨d, l, by rw [split, py_bind hd]; exact py_bind g1' _, hd', hdn, fun x => by rw [g2, Finset.mem_sdiff], g3, hda,
    fun hex => ?_⟩
  have hno := hdc hex
  have hnbr : ∀ x ∈ en \ d, ∀ y ∈ en \ d, (G.Nbr none x y ↔ G.PAdj x y) := by
    intro x hx y hy
    rw [Finset.mem_sdiff] at hx hy
    have n1 := hno x hx.1 hx.2 y hy.1 hy.2
    have n2 := hno y hy.1 hy.2 x hx.1 hx.2
    simp only [MG.Nbr, hG.types, MG.At, MG.PAdj, n1, n2, false_or]
    constructor
    · rintro ⟨m, rfl | rfl, h⟩
      · exact Or.inr h
      · exact absurd h n2
    · rintro (h | h)
      · exact ⟨_, Or.inl rfl, hG.symm _ _ h⟩
      · exact ⟨_, Or.inl rfl, h⟩
  intro s hs x hx y hy hyn hxy
  have hxe : x ∈ en \ d := (g2 x).mp ⟨s, hs, hx⟩
  have hye : y ∈ en \ d := Finset.mem_sdiff.mpr ⟨hy, hyn⟩
  exact g4 (fun a ha b hb hab => (hnbr b hb a ha).mpr ((hnbr a ha b hb).mp hab).symm) s hs x hx y hye
    ((hnbr x hxe y hye).mpr hxy)

theorem split_spec (o : SetOrder α) {G : MG α} (hG : G.PdagWF) {en : Finset α} (hne : en.Nonempty) :
    ∃ d l, split o G en = .ok (d, l, en \ d) ∧ d ⊆ en ∧ ∀ s ∈ l, s ⊆ en \ d := by
  obtain ⟨d, l, h1, h2, -, h3, -⟩ := split_full o hG hne
  exact ⟨d, l, h1, h2, fun s hs x hx => Finset.mem_sdiff.mpr ((h3 x).mp ⟨s, hs, hx⟩)⟩

theorem exitCond_of_le {ci : CITest α} {N : Finset α} {st : PcState α} (hst : Inv ci N st) (en : Finset α)
    {order : Nat} (h : N.card ≤ order) : exitCond st.graph en order = true := by
  simp only [exitCond, decide_eq_true_eq]
  intro v hv
  have h1 : (st.graph.parents v ∪ st.graph.und v).card = (st.graph.parents v).card + (st.graph.und v).card :=
    Finset.card_union_of_disjoint (Finset.disjoint_left.mpr (fun a ha ha' => hst.wf.excl _ _ ha ha'))
  have h2 : st.graph.parents v ∪ st.graph.und v ⊆ N := by
    intro x hx
    rw [← hst.nodes]
    rcases Finset.mem_union.mp hx with hx | hx <;> exact (hst.wf.mem _ _ _ hx).1
  have := Finset.card_le_card h2
  rw [MG.fanIn, ← h1]
  omega

theorem learnRecursively_spec (o : SetOrder α) {ci : CITest α} {N : Finset α} (overwrite : Bool) :
    ∀ (n : Nat) (en ex : Finset α) (order : Nat) (st : PcState α), N.card + 1 ≤ n + order → en ⊆ N → ex ⊆ N →
      Disjoint en ex → Inv ci N st → 0 < n →
      ∃ st', learnRecursively o ci overwrite n en ex order st = .ok st' ∧ Good ci N st st' := by
  intro n
  induction n with
  | zero => intro en ex order st _ _ _ _ _ h; omega
  | succ n ih =>
    intro en ex order st hn hen hex hd hst _
    rw [learnRecursively]
    by_cases he : exitCond st.graph en order = true
    · exact ⟨st, by simp [he], hst, fun _ _ h => h⟩
    · have hlt : order < N.card := by
        by_contra hc
        exact he (exitCond_of_le hst en (by omega))
      have hne : en.Nonempty := by
        rw [Finset.nonempty_iff_ne_empty]
        rintro rfl
        exact he (by simp [exitCond])
      obtain ⟨s1, h1, g1, -⟩ := refineAndOrient_spec o overwrite hen hex hd order hst
      obtain ⟨d, l, h2, hdn, hl⟩ := split_spec o g1.1.wf hne
      obtain ⟨s2, h3, g2⟩ := foldlM_ok_inv
        (f := fun (s : PcState α) s' => learnRecursively o ci overwrite n s' ex (order + 1) s)
        (fun _ s => Good ci N s1 s) l [] s1 ⟨g1.1, fun _ _ h => h⟩ (by
          intro _ x s hx hs
          obtain ⟨s', e1, e2⟩ := ih x ex (order + 1) s (by omega)
            ((hl x hx).trans (Finset.sdiff_subset.trans hen)) hex
            (Finset.disjoint_of_subset_left ((hl x hx).trans Finset.sdiff_subset) hd) hs.1 (by omega)
          exact ⟨s', e1, hs.trans e2⟩)
      obtain ⟨s3, h4, g3⟩ := ih d (en \ d ∪ ex) (order + 1) s2 (by omega) (hdn.trans hen)
        (Finset.union_subset (Finset.sdiff_subset.trans hen) hex)
        (Finset.disjoint_union_right.mpr ⟨Finset.disjoint_sdiff, Finset.disjoint_of_subset_left hdn hd⟩) g2.1 (by omega)
      refine ⟨s3, ?_, (g1.trans g2).trans g3⟩
      simp only [he, if_false, Bool.false_eq_true]
      rw [py_bind h1, py_bind h2]
      exact (py_bind h3 _).trans h4

/-- The complete recursion from the initial state: in addition, marginally independent pairs are not adjacent. -/
theorem learnRecursively_init (o : SetOrder α) (ci : CITest α) (N : Finset α) (overwrite : Bool) :
    ∃ st', learnRecursively o ci overwrite (N.card + 1) N ∅ 0 (init o N) = .ok st' ∧ Inv ci N st' ∧
      ∀ i j, st'.graph.PAdj i j → ∃ k, ci k i j [] = false ∨ ci k j i [] = false := by
  rw [learnRecursively]
  have hmem : ∀ {st : PcState α}, Inv ci N st → ∀ i j, st.graph.PAdj i j → i ∈ N ∧ j ∈ N ∧ i ≠ j := by
    intro st hst i j h
    rw [← hst.nodes]
    have hne : i ≠ j := by rintro rfl; rcases h with h | h | h | h <;> exact hst.wf.irrefl _ _ h
    rcases h with h | h | h | h <;> have := hst.wf.mem _ _ _ h <;> exact ⟨by tauto, by tauto, hne⟩
  by_cases he : exitCond (init o N).graph N 0 = true
  · refine ⟨init o N, by simp [he], init_inv o ci N, ?_⟩
    intro i j h
    obtain ⟨hi, hj, hij⟩ := hmem (init_inv o ci N) i j h
    simp only [exitCond, decide_eq_true_eq] at he
    refine absurd ?_ (he j hj)
    have : i ∈ (init o N).graph.und j := MG.pdagComplete_und.mpr ⟨hi, hj, hij⟩
    have := Finset.card_pos.mpr ⟨i, this⟩
    rw [MG.fanIn]; omega
  · have hst := init_inv o ci N
    have hne : N.Nonempty := by
      rw [Finset.nonempty_iff_ne_empty]
      rintro rfl
      exact he (by simp [exitCond])
    obtain ⟨s1, h1, g1, t1⟩ := refineAndOrient_spec o overwrite (subset_refl N) (Finset.empty_subset N)
      (Finset.disjoint_empty_right _) 0 hst
    obtain ⟨d, l, h2, hdn, hl⟩ := split_spec o g1.1.wf hne
    obtain ⟨s2, h3, g2⟩ := foldlM_ok_inv
      (f := fun (s : PcState α) s' => learnRecursively o ci overwrite N.card s' ∅ (0 + 1) s)
      (fun _ s => Good ci N s1 s) l [] s1 ⟨g1.1, fun _ _ h => h⟩ (by
        intro _ x s hx hs
        obtain ⟨s', e1, e2⟩ := learnRecursively_spec o overwrite N.card x ∅ (0 + 1) s (by omega)
          ((hl x hx).trans Finset.sdiff_subset) (Finset.empty_subset N) (Finset.disjoint_empty_right _) hs.1
          (Finset.card_pos.mpr hne)
        exact ⟨s', e1, hs.trans e2⟩)
    obtain ⟨s3, h4, g3⟩ := learnRecursively_spec o overwrite N.card d (N \ d ∪ ∅) (0 + 1) s2 (by omega) hdn
      (by rw [Finset.union_empty]; exact Finset.sdiff_subset)
      (by rw [Finset.union_empty]; exact Finset.disjoint_sdiff) g2.1 (Finset.card_pos.mpr hne)
    refine ⟨s3, ?_, g3.1, fun i j h => ?_⟩
    · simp only [he, if_false, Bool.false_eq_true]
      rw [py_bind h1, py_bind h2]
      exact (py_bind h3 _).trans h4
    · obtain ⟨hi, hj, -⟩ := hmem g3.1 i j h
      obtain ⟨l, k, hl, hk⟩ := t1 i (by simpa using hi) j hj (padj_of_pot (g2.trans g3).2 _ _ h) ∅ rfl
        (Or.inl ⟨by simp, by simp⟩)
      rw [List.toFinset_eq_empty_iff] at hl
      subst hl
      exact ⟨k, hk⟩

/-! ### The final orientation -/

theorem skeleton_spec (o : SetOrder α) {G : MG α} (hG : G.PdagWF) :
    ∃ P, (o.iter 0 G.nodes).foldlM (fun P v => P.pdagAddEdges (G.parents v ∪ G.und v) v .tail) (MG.pdagEmpty G.nodes) =
        .ok P ∧ P.PdagWF ∧ P.nodes = G.nodes ∧ (∀ a b, ¬ P.Arrow a b) ∧ ∀ a b, P.Und a b ↔ G.PAdj a b := by
  obtain ⟨P, h1, h2, h3, h4, h5⟩ := foldlM_ok_inv
    (f := fun (P : MG α) v => P.pdagAddEdges (G.parents v ∪ G.und v) v .tail)
    (fun done P => P.nodes = G.nodes ∧ P.types = [.tail, .arrow] ∧
      (∀ a b, P.Und a b ↔ (b ∈ done ∧ (G.Arrow a b ∨ G.Und a b)) ∨ (a ∈ done ∧ (G.Arrow b a ∨ G.Und b a))) ∧
      ∀ v m, m ≠ .tail → P.g v m = ∅)
    (o.iter 0 G.nodes) [] (MG.pdagEmpty G.nodes)
    ⟨rfl, rfl, by simp [MG.Und, MG.pdagEmpty, MG.empty], by simp [MG.pdagEmpty, MG.empty]⟩ (by
      rintro done v P hv ⟨i1, i2, i3, i4⟩
      obtain ⟨P', p1, p2, p3, p4, p5⟩ := MG.pdagAddEdges_tail P (G.parents v ∪ G.und v) v
      refine ⟨P', p1, p2.trans i1, p3.trans i2, fun a b => ?_, fun w m hm => (p5 w m hm).trans (i4 w m hm)⟩
      rw [p4, i3]
      simp only [Finset.mem_union, List.mem_append, List.mem_singleton]
      constructor
      · rintro ((⟨h, h'⟩ | ⟨h, h'⟩) | ⟨rfl, h⟩ | ⟨rfl, h⟩)
        · exact Or.inl ⟨Or.inl h, h'⟩
        · exact Or.inr ⟨Or.inl h, h'⟩
        · exact Or.inl ⟨Or.inr rfl, h⟩
        · exact Or.inr ⟨Or.inr rfl, h⟩
      · rintro (⟨h | rfl, h'⟩ | ⟨h | rfl, h'⟩)
        · exact Or.inl (Or.inl ⟨h, h'⟩)
        · exact Or.inr (Or.inl ⟨rfl, h'⟩)
        · exact Or.inl (Or.inr ⟨h, h'⟩)
        · exact Or.inr (Or.inr ⟨rfl, h'⟩))
  have hund : ∀ a b, P.Und a b ↔ G.PAdj a b := by
    intro a b
    rw [h4]
    simp only [List.nil_append, o.mem, MG.PAdj]
    constructor
    · rintro (⟨-, h | h⟩ | ⟨-, h | h⟩) <;> simp [h]
    · rintro (h | h | h | h)
      · exact Or.inl ⟨(hG.mem _ _ _ h).2, Or.inl h⟩
      · exact Or.inr ⟨(hG.mem _ _ _ h).2, Or.inl h⟩
      · exact Or.inl ⟨(hG.mem _ _ _ h).2, Or.inr h⟩
      · exact Or.inr ⟨(hG.mem _ _ _ h).2, Or.inr h⟩
  have hmemG : ∀ a b, G.PAdj a b → a ∈ G.nodes ∧ b ∈ G.nodes ∧ a ≠ b := by
    intro a b h
    have hne : a ≠ b := by rintro rfl; rcases h with h | h | h | h <;> exact hG.irrefl _ _ h
    rcases h with h | h | h | h <;> have := hG.mem _ _ _ h <;> exact ⟨by tauto, by tauto, hne⟩
  have hmem : ∀ a b m, a ∈ P.g b m → G.PAdj a b := by
    intro a b m h
    cases m with
    | tail => exact (hund a b).mp h
    | arrow => rw [h5 _ _ (by simp)] at h; simp at h
    | circle => rw [h5 _ _ (by simp)] at h; simp at h
  refine ⟨P, h1, ⟨?_, ?_, ?_, ?_, ?_⟩, h2, ?_, hund⟩
  · intro m; rw [h3]; simp
  · intro a b m h
    rw [h2]
    have := hmemG _ _ (hmem a b m h)
    exact ⟨this.1, this.2.1⟩
  · intro a m h; exact (hmemG _ _ (hmem a a m h)).2.2 rfl
  · intro a b h; exact (hund b a).mpr ((hund a b).mp h).symm
  · intro a b h; rw [h5 _ _ (by simp)] at h; simp at h
  · intro a b h; rw [MG.Arrow, h5 _ _ (by simp)] at h; simp at h

theorem colliders_spec (o : SetOrder α) {G P : MG α} (hG : G.PdagWF) (hP : P.PdagWF)
    (hno : ∀ a b, ¬ P.Arrow a b) (hu : ∀ a b, P.Und a b ↔ G.PAdj a b) :
    ∃ P', (o.iter 1 G.nodes).foldlM (fun P v =>
        (pairs (o.iter v (G.parents v))).foldlM (fun P ij => do
          if !(← G.isConnected ij.1 ij.2) then return (P.orientEdge ij.1 v).orientEdge ij.2 v
          else return P) P) P = .ok P' ∧ MG.Ori G.nodes P P' ∧
      ∀ a b, P'.Arrow a b ↔ ∃ c, G.PUCol a b c := by
  obtain ⟨P', h1, h2, h3⟩ := foldlM_ok_inv
    (f := fun (P : MG α) v => (pairs (o.iter v (G.parents v))).foldlM (fun (P : MG α) (ij : α × α) => do
          if !(← G.isConnected ij.1 ij.2) then return (P.orientEdge ij.1 v).orientEdge ij.2 v
          else return P) P)
    (fun done H => MG.Ori G.nodes P H ∧ ∀ a b, H.Arrow a b ↔ b ∈ done ∧ ∃ c, G.PUCol a b c)
    (o.iter 1 G.nodes) [] P ⟨MG.Ori.refl hP, by simp [hno]⟩ (by
      rintro done v H hv ⟨hH, hH'⟩
      obtain ⟨K, k1, k2, k3⟩ := foldlM_ok_inv
        (f := fun (P : MG α) (ij : α × α) => do
          if !(← G.isConnected ij.1 ij.2) then return (P.orientEdge ij.1 v).orientEdge ij.2 v
          else return P)
        (fun dn K => MG.Ori G.nodes P K ∧ ∀ a b, K.Arrow a b ↔ H.Arrow a b ∨
          (b = v ∧ ∃ c, ((a, c) ∈ dn ∨ (c, a) ∈ dn) ∧ ¬ G.PAdj a c))
        (pairs (o.iter v (G.parents v))) [] H ⟨hH, by simp⟩ (by
          rintro dn ⟨x, y⟩ K hxy ⟨hK, hK'⟩
          have hx : G.Arrow x v := (o.mem _ _ _).mp (mem_pairs_left hxy)
          have hy : G.Arrow y v := (o.mem _ _ _).mp (mem_pairs_right hxy)
          have hne := mem_pairs_ne (o.nodup _ _) hxy
          obtain ⟨t, ht, ht'⟩ := MG.isConnected_spec hG hne
          have hsplit : ∀ a b, (b = v ∧ ∃ c, ((a, c) ∈ dn ++ [(x, y)] ∨ (c, a) ∈ dn ++ [(x, y)]) ∧ ¬ G.PAdj a c) ↔
              (b = v ∧ ∃ c, ((a, c) ∈ dn ∨ (c, a) ∈ dn) ∧ ¬ G.PAdj a c) ∨ (b = v ∧ (a = x ∨ a = y) ∧ ¬ G.PAdj x y) := by
            intro a b
            constructor
            · rintro ⟨rfl, c, h1, h2⟩
              simp only [List.mem_append, List.mem_singleton, Prod.mk.injEq] at h1
              rcases h1 with (h1 | ⟨rfl, rfl⟩) | (h1 | ⟨rfl, rfl⟩)
              · exact Or.inl ⟨rfl, c, Or.inl h1, h2⟩
              · exact Or.inr ⟨rfl, Or.inl rfl, h2⟩
              · exact Or.inl ⟨rfl, c, Or.inr h1, h2⟩
              · exact Or.inr ⟨rfl, Or.inr rfl, fun h => h2 h.symm⟩
            · rintro (⟨rfl, c, h1, h2⟩ | ⟨rfl, rfl | rfl, h2⟩)
              · exact ⟨rfl, c, h1.imp (List.mem_append_left _) (List.mem_append_left _), h2⟩
              · exact ⟨rfl, y, Or.inl (by simp), h2⟩
              · exact ⟨rfl, x, Or.inr (by simp), fun h => h2 h.symm⟩
          cases t with
          | true =>
            refine ⟨K, by simp only [ht]; rfl, hK, fun a b => ?_⟩
            rw [hK', hsplit]
            have : ¬ (b = v ∧ (a = x ∨ a = y) ∧ ¬ G.PAdj x y) := fun h => h.2.2 (ht'.mp rfl)
            simp only [this, or_false]
          | false =>
            have hn' : ¬ G.PAdj x y := by rw [← ht']; simp
            have hv' := (o.mem _ _ _).mp hv
            refine ⟨(K.orientEdge x v).orientEdge y v, by simp only [ht]; rfl,
              (hK.orient hP ((hu _ _).mpr (Or.inl hx)) hv').orient hP ((hu _ _).mpr (Or.inl hy)) hv', fun a b => ?_⟩
            rw [MG.orientEdge_arrow, MG.orientEdge_arrow, hK', hsplit]
            constructor
            · rintro (((h | h) | ⟨rfl, rfl⟩) | ⟨rfl, rfl⟩)
              · exact Or.inl h
              · exact Or.inr (Or.inl h)
              · exact Or.inr (Or.inr ⟨rfl, Or.inl rfl, hn'⟩)
              · exact Or.inr (Or.inr ⟨rfl, Or.inr rfl, hn'⟩)
            · rintro (h | h | ⟨rfl, rfl | rfl, _⟩)
              · exact Or.inl (Or.inl (Or.inl h))
              · exact Or.inl (Or.inl (Or.inr h))
              · exact Or.inl (Or.inr ⟨rfl, rfl⟩)
              · exact Or.inr ⟨rfl, rfl⟩)
      refine ⟨K, k1, k2, fun a b => ?_⟩
      rw [k3, hH']
      simp only [List.nil_append, List.mem_append, List.mem_singleton]
      constructor
      · rintro (h | ⟨rfl, c, h1 | h1, h2⟩)
        · exact ⟨Or.inl h.1, h.2⟩
        · exact ⟨Or.inr rfl, c, (o.mem _ _ _).mp (mem_pairs_left h1), (o.mem _ _ _).mp (mem_pairs_right h1),
            mem_pairs_ne (o.nodup _ _) h1, h2⟩
        · exact ⟨Or.inr rfl, c, (o.mem _ _ _).mp (mem_pairs_right h1), (o.mem _ _ _).mp (mem_pairs_left h1),
            (mem_pairs_ne (o.nodup _ _) h1).symm, h2⟩
      · rintro ⟨hd | rfl, h⟩
        · exact Or.inl ⟨hd, h⟩
        · obtain ⟨c, c1, c2, c3, c4⟩ := h
          exact Or.inr ⟨rfl, c, mem_pairs_or ((o.mem _ _ _).mpr c1) ((o.mem _ _ _).mpr c2) c3, c4⟩)
  refine ⟨P', h1, h2, fun a b => (h3 a b).trans ⟨fun h => h.2, fun h => ⟨?_, h⟩⟩⟩
  obtain ⟨c, c1, -⟩ := h
  simpa [o.mem] using (hG.mem _ _ _ c1).2

/-- The final step: the graph `P` has the adjacencies of `G` and exactly the unshielded colliders of `G` directed; the
result is its closure under rules 1 to 3. -/
theorem reOrientSkeleton_spec (o : SetOrder α) {G : MG α} (hG : G.PdagWF)
    (hbi : ∀ a b, G.Arrow a b → ¬ G.Arrow b a) :
    ∃ G' P, reOrientSkeleton o G = .ok G' ∧ G'.PdagWF ∧ G'.nodes = G.nodes ∧ (∀ a b, G'.PAdj a b ↔ G.PAdj a b) ∧
      (∀ a b, G'.Arrow a b → ¬ G'.Arrow b a) ∧ P.PdagWF ∧ MG.Refines P G' ∧
      (∀ a b, P.Arrow a b ↔ ∃ c, G.PUCol a b c) ∧ ReflTransGen (MG.Step [1, 2, 3]) P G' ∧
      ∀ r, r = 1 ∨ r = 2 ∨ r = 3 → ∀ x y, ¬ G'.RulePattern r x y := by
  obtain ⟨P0, h1, w1, n1, a1, u1⟩ := skeleton_spec o hG
  obtain ⟨P1, h2, o2, a2⟩ := colliders_spec o hG w1 a1 u1
  obtain ⟨P2, h3, h4, h5⟩ := MG.maximallyOrient_spec o (rules := [1, 2, 3]) (by simp) P1.nodes o2.wf
  have hr := MG.steps_refines h4 o2.wf
  have hw := MG.steps_wf h4 o2.wf
  refine ⟨P2, P1, ?_, hw, hr.nodes.trans (o2.nodes.trans n1), fun a b => ?_, fun a b hab hba => ?_, o2.wf, hr, a2, h4, ?_⟩
  · rw [reOrientSkeleton, py_bind h1]
    exact (py_bind h2 _).trans h3
  · rw [hr.adj, o2.adj, MG.PAdj]
    simp only [a1, u1, false_or]
    exact ⟨fun h => h.elim id (fun h => h.symm), Or.inl⟩
  · have e1 : P1.Arrow a b := (hr.new a b hab).elim id (fun h => absurd hba h.2)
    have e2 : P1.Arrow b a := (hr.new b a hba).elim id (fun h => absurd hab h.2)
    obtain ⟨c, c1, -⟩ := (a2 a b).mp e1
    obtain ⟨d, d1, -⟩ := (a2 b a).mp e2
    exact hbi a b c1 d1
  · rintro r hr' x y hp
    have hy : y ∈ P1.nodes := by
      rw [← hr.nodes]; exact (hw.mem _ _ _ hp.und).2
    exact h5 r (by simpa using hr') y hy x hp

theorem learnStructure_spec (o : SetOrder α) (ci : CITest α) (N : Finset α) (overwrite : Bool) :
    ∃ st' P, learnStructure o ci overwrite (init o N) = .ok st' ∧ Inv ci N st' ∧
      (∀ i j, st'.graph.PAdj i j → ∃ k, ci k i j [] = false ∨ ci k j i [] = false) ∧
      P.PdagWF ∧ MG.Refines P st'.graph ∧ (∀ a b, P.Arrow a b → ∃ c, P.PUCol a b c) ∧
      (∀ a b, P.Arrow a b → ¬ P.Arrow b a) ∧ ReflTransGen (MG.Step [1, 2, 3]) P st'.graph ∧
      ∀ r, r = 1 ∨ r = 2 ∨ r = 3 → ∀ x y, ¬ st'.graph.RulePattern r x y := by
  obtain ⟨s1, h1, g1, t1⟩ := learnRecursively_init o ci N overwrite
  obtain ⟨G2, h2, h3, -⟩ := MG.maximallyOrient_spec o (rules := [1, 2, 3]) (by simp) s1.graph.nodes g1.wf
  have hr := MG.steps_refines h3 g1.wf
  have hw := MG.steps_wf h3 g1.wf
  have hbi : ∀ a b, G2.Arrow a b → ¬ G2.Arrow b a := by
    intro a b hab hba
    have e1 := (hr.new a b hab).elim id (fun h => absurd hba h.2)
    have e2 := (hr.new b a hba).elim id (fun h => absurd hab h.2)
    exact g1.noBi a b e1 e2
  obtain ⟨G3, P, h4, w4, n4, a4, b4, wP, rP, aP, sP, cP⟩ := reOrientSkeleton_spec o hw hbi
  have hadj : ∀ a b, G3.PAdj a b ↔ s1.graph.PAdj a b := fun a b => (a4 a b).trans (hr.adj a b)
  refine ⟨{ s1 with graph := G3 }, P, ?_, ⟨n4.trans (hr.nodes.trans g1.nodes), w4, b4, g1.key, ?_⟩, ?_, wP, rP, ?_, ?_,
    sP, cP⟩
  · have h1' : learnRecursively o ci overwrite ((init o N).graph.nodes.card + 1) (init o N).graph.nodes ∅ 0 (init o N) =
      .ok s1 := h1
    rw [learnStructure, py_bind h1', py_bind h2, py_bind h4]
    rfl
  · intro i hi j hj hij hn
    exact g1.witness i hi j hj hij (fun h => hn ((hadj i j).mpr h))
  · exact fun i j h => t1 i j ((hadj i j).mp h)
  · intro a b h
    obtain ⟨c, hc⟩ := (aP a b).mp h
    refine ⟨c, h, (aP c b).mpr ⟨a, hc.2.1, hc.1, hc.2.2.1.symm, fun h => hc.2.2.2 h.symm⟩, hc.2.2.1, ?_⟩
    rw [← rP.adj, a4]
    exact hc.2.2.2
  · intro a b h h'
    obtain ⟨c, hc⟩ := (aP a b).mp h
    obtain ⟨d, hd⟩ := (aP b a).mp h'
    exact hbi a b hc.1 hd.1

end Rai
end Verif
