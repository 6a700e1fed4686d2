import Verif.Lemmas.RenameScore
import Verif.Props.PagEssential
import Verif.Props.VermaPearl
import Verif.Props.Perf
import Verif.Props.Score

/-!
# C97: with perfect independence information the names and the order of the variables do not matter
-/

namespace Verif
open MG

section
variable {α β : Type} [LinearOrder α] [LinearOrder β] {f : α → β} {g : β → α} {D : Dag α} {E : Dag β}

/-- C97 (d-separation): the same query about the renamed DAG has the same answer. -/
theorem C97_dsep (o : SetOrder α) (o' : SetOrder β) (h : Dag.Renamed f g D E) (hD : D.WF) (hE : E.WF) (hac : D.Acyclic) {i j : α}
    (hi : i ∈ D.nodes) (hj : j ∈ D.nodes) {Z : Finset α} (hZ : Z ⊆ D.nodes) :
    E.dsep o' (f i) (f j) (Z.image f) = D.dsep o i j Z := by
  have hacE := h.acyclic hE hac
  obtain ⟨b, b1, b2⟩ := Dag.dsep_aug o hD hac hi hj hZ
  obtain ⟨c, c1, c2⟩ := Dag.dsep_aug o' hE hacE (h.mapf i hi) (h.mapf j hj) (Z := Z.image f) (fun x hx => by
    obtain ⟨z, hz, rfl⟩ := Finset.mem_image.mp hx
    exact h.mapf z (hZ hz))
  rw [b1, c1]
  rw [← Dag.moralConn_iff hac] at b2
  rw [← Dag.moralConn_iff hacE, h.moralConn_iff hD hE hZ hi hj] at c2
  congr 1
  rw [Bool.eq_iff_iff, b2, c2]

/-- C97 (CPDAG): the CPDAG of the renamed DAG is the renamed CPDAG. -/
theorem C97_cpdag (o : SetOrder α) (o' : SetOrder β) (h : Dag.Renamed f g D E) (hD : D.WF) (hE : E.WF) (hac : D.Acyclic) :
    ∃ P Q, D.convertToCpdag o [1, 2, 3] (MG.pdagEmpty D.nodes) = .ok P ∧ E.convertToCpdag o' [1, 2, 3] (MG.pdagEmpty E.nodes) = .ok Q ∧
      ∀ a ∈ D.nodes, ∀ b ∈ D.nodes, (Q.Arrow (f a) (f b) ↔ P.Arrow a b) ∧ (Q.Und (f a) (f b) ↔ P.Und a b) := by
  have hacE := h.acyclic hE hac
  obtain ⟨P, p1, p2, -⟩ := C14_essential o (rules := [1, 2, 3]) (by simp) hD hac
  obtain ⟨Q, q1, q2, -⟩ := C14_essential o' (rules := [1, 2, 3]) (by simp) hE hacE
  obtain ⟨P', p1', p3, -, p4, -⟩ := C13_cpdag o (rules := [1, 2, 3]) (by simp) hD hac
  obtain ⟨Q', q1', q3, -, q4, -⟩ := C13_cpdag o' (rules := [1, 2, 3]) (by simp) hE hacE
  rw [p1] at p1'; cases p1'
  rw [q1] at q1'; cases q1'
  refine ⟨P, Q, p1, q1, fun a ha b hb => ?_⟩
  have e1 : Q.Arrow (f a) (f b) ↔ P.Arrow a b := by rw [p2, q2, h.compelled hD hE ha hb]
  have e2 : Q.Arrow (f b) (f a) ↔ P.Arrow b a := by rw [p2, q2, h.compelled hD hE hb ha]
  have key : ∀ {γ : Type} [LinearOrder γ] {G : MG γ}, G.PdagWF → ∀ x y, G.Und x y ↔ G.PAdj x y ∧ ¬ G.Arrow x y ∧ ¬ G.Arrow y x := by
    intro γ _ G hG x y
    constructor
    · intro hu
      exact ⟨Or.inr (Or.inr (Or.inl hu)), fun h' => hG.excl _ _ h' hu, fun h' => hG.excl _ _ h' (hG.symm _ _ hu)⟩
    · rintro ⟨h1 | h1 | h1 | h1, h2, h3⟩
      · exact absurd h1 h2
      · exact absurd h1 h3
      · exact h1
      · exact hG.symm _ _ h1
  refine ⟨e1, ?_⟩
  rw [key p3, key q3, p4, q4, h.adj ha hb, e1, e2]

/-- C97 (PC): with perfect tests, PC finds the same graph under the new names, whatever the order of the names, the iteration orders and
the values of `overwrite_starting_graph`. -/
theorem C97_pc (o : SetOrder α) (o' : SetOrder β) {ci : CITest α} {ci' : CITest β} (overwrite overwrite' : Bool)
    (h : Dag.Renamed f g D E) (hD : D.WF) (hE : E.WF) (hac : D.Acyclic) (hp : Pc.Perfect ci D) (hp' : Pc.Perfect ci' E) :
    ∃ st st', Pc.learnStructure o ci overwrite (Pc.init o D.nodes) = .ok st ∧
      Pc.learnStructure o' ci' overwrite' (Pc.init o' E.nodes) = .ok st' ∧
      ∀ a ∈ D.nodes, ∀ b ∈ D.nodes, (st'.graph.Arrow (f a) (f b) ↔ st.graph.Arrow a b) ∧
        (st'.graph.Und (f a) (f b) ↔ st.graph.Und a b) := by
  obtain ⟨P, Q, h1, h2, h3⟩ := C97_cpdag o o' h hD hE hac
  obtain ⟨st, P', k1, k2, -, k3, k4⟩ := C23_pc_cpdag o o overwrite hD hac hp
  obtain ⟨st', Q', l1, l2, -, l3, l4⟩ := C23_pc_cpdag o' o' overwrite' hE (h.acyclic hE hac) hp'
  rw [h1] at k2; cases k2
  rw [h2] at l2; cases l2
  exact ⟨st, st', k1, l1, fun a ha b hb => by rw [k3, k4, l3, l4]; exact h3 a ha b hb⟩

/-- C97 (FCI, all nodes observed): the same adjacencies and the same arrowheads, whatever the options. -/
theorem C97_fci (o : SetOrder α) (o' : SetOrder β) {ci : CITest α} {ci' : CITest β} (selection tails selection' tails' : Bool)
    (h : Dag.Renamed f g D E) (hD : D.WF) (hE : E.WF) (hac : D.Acyclic) (hp : Pc.Perfect ci D) (hp' : Pc.Perfect ci' E) :
    ∃ st st', Fci.learnStructure o ci selection tails D.nodes = .ok (st, false) ∧
      Fci.learnStructure o' ci' selection' tails' E.nodes = .ok (st', false) ∧
      ∀ a ∈ D.nodes, ∀ b ∈ D.nodes, (st'.graph.MAdj (f a) (f b) ↔ st.graph.MAdj a b) ∧
        (st'.graph.At (f a) (f b) .arrow ↔ st.graph.At a b .arrow) := by
  obtain ⟨st, k1, k2, k3⟩ := C90_fci o selection tails hD hac hp
  obtain ⟨st', l1, l2, l3⟩ := C90_fci o' selection' tails' hE (h.acyclic hE hac) hp'
  exact ⟨st, st', k1, l1, fun a ha b hb => by
    rw [k2, l2, k3, l3, h.adj ha hb, h.compelled hD hE ha hb]
    exact ⟨Iff.rfl, Iff.rfl⟩⟩

/-- C97 (`find_true_pag`, all nodes observed, at most two parents per node). -/
theorem C97_true_pag (o : SetOrder α) (o' : SetOrder β) (h : Dag.Renamed f g D E) (hD : D.WF) (hE : E.WF) (hac : D.Acyclic)
    (hdeg : ∀ v, (D.par v).card ≤ 2) :
    ∃ G G', findTruePag o D D.nodes = .ok G ∧ findTruePag o' E E.nodes = .ok G' ∧
      ∀ a ∈ D.nodes, ∀ b ∈ D.nodes, (G'.MAdj (f a) (f b) ↔ G.MAdj a b) ∧ (G'.At (f a) (f b) .arrow ↔ G.At a b .arrow) := by
  obtain ⟨G, k1, k2, k3⟩ := C90_true_pag o hD hac hdeg
  have hdeg' : ∀ v, (E.par v).card ≤ 2 := by
    intro v
    have hsub : E.par v ⊆ (D.par (g v)).image f := by
      intro u hu
      have hm := hE u v hu
      refine Finset.mem_image.mpr ⟨g u, h.symm.edge' hE hu, h.right u hm.1⟩
    exact (Finset.card_le_card hsub).trans (Finset.card_image_le.trans (hdeg _))
  obtain ⟨G', l1, l2, l3⟩ := C90_true_pag o' hE (h.acyclic hE hac) hdeg'
  exact ⟨G, G', k1, l1, fun a ha b hb => by
    rw [k2, l2, k3, l3, h.adj ha hb, h.compelled hD hE ha hb]
    exact ⟨Iff.rfl, Iff.rfl⟩⟩

/-- C97 (distance): the structural Hamming distance, and each of its parts, is the same for the renamed graphs. -/
theorem C97_distance (o : SetOrder α) (o' : SetOrder β) {T C : MG α} {T' C' : MG β} (hT : T.PdagWF) (hC : C.PdagWF) (hbC : C.NoBi)
    (hT' : T'.PdagWF) (hC' : C'.PdagWF) (hbC' : C'.NoBi) (hn : C.nodes = T.nodes) (rT : MG.Renamed f T T') (rC : MG.Renamed f C C') :
    Perf.shd o' T' C' = Perf.shd o T C := by
  obtain ⟨⟨a, b, c, d, e⟩, h, h1, h2, h3, h4, h5⟩ := C54_parts o hT hC hbC hn.le
  obtain ⟨⟨a', b', c', d', e'⟩, h', h1', h2', h3', h4', h5'⟩ := C54_parts o' hT' hC' hbC' (by rw [rC.nodes, rT.nodes, hn])
  have aT : ∀ x ∈ C.nodes, ∀ y ∈ C.nodes, T'.Arrow (f x) (f y) ↔ T.Arrow x y := fun x hx y hy => rT.arrow x (hn ▸ hx) y (hn ▸ hy)
  have uT : ∀ x ∈ C.nodes, ∀ y ∈ C.nodes, T'.Und (f x) (f y) ↔ T.Und x y := fun x hx y hy => rT.und x (hn ▸ hx) y (hn ▸ hy)
  have pT : ∀ x ∈ C.nodes, ∀ y ∈ C.nodes, T'.PAdj (f x) (f y) ↔ T.PAdj x y := fun x hx y hy => by
    simp only [MG.PAdj, aT x hx y hy, aT y hy x hx, uT x hx y hy, uT y hy x hx]
  have pC : ∀ x ∈ C.nodes, ∀ y ∈ C.nodes, C'.PAdj (f x) (f y) ↔ C.PAdj x y := fun x hx y hy => by
    simp only [MG.PAdj, rC.arrow x hx y hy, rC.arrow y hy x hx, rC.und x hx y hy, rC.und y hy x hx]
  rw [rC.nodes] at h1' h2' h3' h4' h5'
  rw [cnt_image (Q := fun a b => C.PAdj a b ∧ ¬ T.PAdj a b) rC.inj (fun x hx y hy => by rw [pT x hx y hy, pC x hx y hy])] at h1'
  rw [cnt_image (Q := fun a b => T.PAdj a b ∧ ¬ C.PAdj a b) rC.inj (fun x hx y hy => by rw [pT x hx y hy, pC x hx y hy])] at h2'
  rw [cnt_image (Q := fun a b => (C.Arrow a b ∨ C.Arrow b a) ∧ T.Und a b) rC.inj
    (fun x hx y hy => by rw [uT x hx y hy, rC.arrow x hx y hy, rC.arrow y hy x hx])] at h3'
  rw [cnt_image (Q := fun a b => C.Und a b ∧ (T.Arrow a b ∨ T.Arrow b a)) rC.inj
    (fun x hx y hy => by rw [aT x hx y hy, aT y hy x hx, rC.und x hx y hy])] at h4'
  rw [cnt_image (Q := fun a b => (C.Arrow a b ∧ T.Arrow b a) ∨ (C.Arrow b a ∧ T.Arrow a b)) rC.inj
    (fun x hx y hy => by rw [aT x hx y hy, aT y hy x hx, rC.arrow x hx y hy, rC.arrow y hy x hx])] at h5'
  simp only at h1 h2 h3 h4 h5 h1' h2' h3' h4' h5'
  rw [h, h', show a = a' by omega, show b = b' by omega, show c = c' by omega, show d = d' by omega, show e = e' by omega]

/-- C97 (skeleton accuracy): all five numbers, and the ZeroDivisionError, are the same for the renamed graphs. -/
theorem C97_accuracy (o : SetOrder α) (o' : SetOrder β) {S : Finset α} {connT connC : α → α → Py Bool} {QT QC : α → α → Prop}
    {connT' connC' : β → β → Py Bool} {QT' QC' : β → β → Prop} (hf : ∀ a ∈ S, ∀ b ∈ S, f a = f b → a = b)
    (hT : Answers S connT QT) (hC : Answers S connC QC)
    (hT' : Answers (S.image f) connT' QT') (hC' : Answers (S.image f) connC' QC')
    (rT : ∀ a ∈ S, ∀ b ∈ S, QT' (f a) (f b) ↔ QT a b) (rC : ∀ a ∈ S, ∀ b ∈ S, QC' (f a) (f b) ↔ QC a b) :
    Perf.skeletonAccuracy o' (S.image f) connT' connC' = Perf.skeletonAccuracy o S connT connC := by
  obtain ⟨p1, p2⟩ := C61_skeleton o hT hC
  obtain ⟨q1, q2⟩ := C61_skeleton o' hT' hC'
  have key : ((∃ a ∈ S.image f, ∃ b ∈ S.image f, a ≠ b ∧ QC' a b ∧ QT' a b) ∧ ∃ a ∈ S.image f, ∃ b ∈ S.image f, a ≠ b ∧ ¬ QC' a b) ↔
      ((∃ a ∈ S, ∃ b ∈ S, a ≠ b ∧ QC a b ∧ QT a b) ∧ ∃ a ∈ S, ∃ b ∈ S, a ≠ b ∧ ¬ QC a b) := by
    have gen : ∀ (Q : α → α → Prop) (Q' : β → β → Prop), (∀ a ∈ S, ∀ b ∈ S, Q' (f a) (f b) ↔ Q a b) →
        ((∃ a ∈ S.image f, ∃ b ∈ S.image f, a ≠ b ∧ Q' a b) ↔ ∃ a ∈ S, ∃ b ∈ S, a ≠ b ∧ Q a b) := by
      intro Q Q' hQ
      constructor
      · rintro ⟨x, hx, y, hy, hxy, h⟩
        obtain ⟨a, ha, rfl⟩ := Finset.mem_image.mp hx
        obtain ⟨b, hb, rfl⟩ := Finset.mem_image.mp hy
        exact ⟨a, ha, b, hb, fun e => hxy (congrArg f e), (hQ a ha b hb).mp h⟩
      · rintro ⟨a, ha, b, hb, hab, h⟩
        exact ⟨f a, Finset.mem_image_of_mem f ha, f b, Finset.mem_image_of_mem f hb, fun e => hab (hf a ha b hb e), (hQ a ha b hb).mpr h⟩
    rw [gen (fun a b => QC a b ∧ QT a b) (fun a b => QC' a b ∧ QT' a b) (fun a ha b hb => by rw [rT a ha b hb, rC a ha b hb]),
      gen (fun a b => ¬ QC a b) (fun a b => ¬ QC' a b) (fun a ha b hb => by rw [rC a ha b hb])]
  by_cases hp : (∃ a ∈ S, ∃ b ∈ S, a ≠ b ∧ QC a b ∧ QT a b) ∧ ∃ a ∈ S, ∃ b ∈ S, a ≠ b ∧ ¬ QC a b
  · obtain ⟨⟨r1, r2, r3, r4, r5⟩, a0, -, a1, a2, a3, a4, a5⟩ := p1 hp
    obtain ⟨⟨s1, s2, s3, s4, s5⟩, b0, -, b1, b2, b3, b4, b5⟩ := q1 (key.mpr hp)
    rw [cnt_image (Q := fun a b => QC a b ∧ QT a b) hf (fun a ha b hb => by rw [rT a ha b hb, rC a ha b hb])] at b1 b2 b3
    rw [cnt_image (Q := QT) hf rT] at b1 b3
    rw [cnt_image (Q := QC) hf rC] at b2 b3 b5
    rw [cnt_image (Q := fun a b => ¬ QC a b ∧ QT a b) hf (fun a ha b hb => by rw [rT a ha b hb, rC a ha b hb]),
      cnt_image (Q := fun a b => ¬ QC a b) hf (fun a ha b hb => by rw [rC a ha b hb])] at b4
    rw [cnt_image (Q := fun a b => QC a b ∧ ¬ QT a b) hf (fun a ha b hb => by rw [rT a ha b hb, rC a ha b hb])] at b5
    simp only at a1 a2 a3 a4 a5 b1 b2 b3 b4 b5
    rw [a0, b0, a1, a2, a3, a4, a5, b1, b2, b3, b4, b5]
  · rw [(p2 hp).1, (q2 (fun h => hp (key.mp h))).1]

/-- C97 (score): the BDeu score of the renamed DAG on the data with renamed columns and rearranged records is the same. -/
theorem C97_score (o o' : SetOrder Nat) (L : ℝ → ℝ) {f g : Nat → Nat} {D E : Dag Nat} {data data' : List (List Int)}
    {sizes sizes' : List Int} {ρ : List Int → List Int} (h : Dag.Renamed f g D E) (hD : D.WF) (hE : E.WF) (hac : D.Acyclic)
    (hd : ∀ r ∈ data, InSizes r sizes) (hd' : ∀ r ∈ data', InSizes r sizes')
    (hp : ∀ s ∈ sizes, 0 < s) (hp' : ∀ s ∈ sizes', 0 < s)
    (hn : ∀ v ∈ D.nodes, v < sizes.length) (hn' : ∀ v ∈ E.nodes, v < sizes'.length)
    (hs : ∀ v ∈ D.nodes, sizes'.getD (f v) 0 = sizes.getD v 0)
    (hρ : ∀ r ∈ data, ∀ v ∈ D.nodes, (ρ r)[f v]? = r[v]?) (hrec : data'.Perm (data.map ρ)) :
    Score.scoreBdeu o' L (some E) data' sizes' none = Score.scoreBdeu o L (some D) data sizes none := by
  rw [C62_formula o L hD hac hd hp hn none (Finset.Subset.refl _),
    C62_formula o' L hE (h.acyclic hE hac) hd' hp' hn' none (Finset.Subset.refl _), Option.getD_none, Option.getD_none,
    Score.bdeu_renamed L h hD hE hs hρ hrec]

end

/-! The hypotheses are met: `0 → 1 → 2 ← 3` with the new names `10 - v`, which reverse the order. -/

/-- `exVp` with the new names. -/
def exNamed : Dag Nat := ⟨{7, 8, 9, 10}, fun v => [∅, {10}, {9, 7}, ∅].getD (10 - v) ∅⟩

theorem exNamed_lt (a b : Nat) (h : a ∈ exNamed.par b) : a < 11 ∧ b < 11 := by
  by_cases hb : b < 11
  · exact ⟨(by decide : ∀ b < 11, ∀ a ∈ exNamed.par b, a < 11) b hb a h, hb⟩
  · have : 10 - b = 0 := by omega
    simp [exNamed, this] at h

theorem exNamed_wf : exNamed.WF := fun a b h => by
  have hl := exNamed_lt a b h
  exact (by decide : ∀ a < 11, ∀ b < 11, a ∈ exNamed.par b → a ∈ exNamed.nodes ∧ b ∈ exNamed.nodes) a hl.1 b hl.2 h

theorem exNamed_renamed : Dag.Renamed (fun v => 10 - v) (fun v => 10 - v) exVp exNamed where
  mapf := by decide
  mapg := by decide
  left := by decide
  right := by decide
  edge := (by decide : ∀ a ∈ exVp.nodes, ∀ b ∈ exVp.nodes, 10 - a ∈ exNamed.par (10 - b) ↔ a ∈ exVp.par b)

/-- The theorems apply; the query `0 ⊥ 3 ∣ 1` becomes `10 ⊥ 7 ∣ 9`. -/
example : exNamed.dsep ascending 10 7 {9} = exVp.dsep descending 0 3 {1} :=
  C97_dsep descending ascending exNamed_renamed exVp_wf exNamed_wf exVp_acyclic (i := 0) (j := 3) (Z := {1})
    (by decide) (by decide) (by decide)

example : exVp.dsep descending 0 3 {1} = .ok true := by decide

example := C97_cpdag descending ascending exNamed_renamed exVp_wf exNamed_wf exVp_acyclic

example := C97_pc descending ascending true false exNamed_renamed exVp_wf exNamed_wf exVp_acyclic
  (C22_dsep_oracle descending exVp_wf exVp_acyclic)
  (C22_dsep_oracle ascending exNamed_wf (exNamed_renamed.acyclic exNamed_wf exVp_acyclic))

example := C97_fci descending ascending true false false true exNamed_renamed exVp_wf exNamed_wf exVp_acyclic
  (C22_dsep_oracle descending exVp_wf exVp_acyclic)
  (C22_dsep_oracle ascending exNamed_wf (exNamed_renamed.acyclic exNamed_wf exVp_acyclic))

example := C97_true_pag descending ascending exNamed_renamed exVp_wf exNamed_wf exVp_acyclic
  (fun v => by rcases v with _ | _ | _ | _ | v <;> first | decide | simp [exVp])

/-- The graphs of the example of C54 with the new names `3 - v`. -/
example : Perf.shd descending (MG.ofEdges {0, 1, 2, 3} [(3, 1), (2, 1)] [(1, 0)] : MG Nat)
    (MG.ofEdges {0, 1, 2, 3} [(1, 3), (1, 0)] [(3, 2)]) = Perf.shd ascending exTrue exTested := by
  have w1 : (MG.ofEdges {0, 1, 2, 3} [(3, 1), (2, 1)] [(1, 0)] : MG Nat).PdagWF := MG.ofEdges_wf (by decide)
  have w2 : (MG.ofEdges {0, 1, 2, 3} [(1, 3), (1, 0)] [(3, 2)] : MG Nat).PdagWF := MG.ofEdges_wf (by decide)
  refine C97_distance (f := fun v => 3 - v) ascending descending exTrue_wf exTested_wf (MG.noBi_of exTested_wf.mem (by decide +kernel))
    w1 w2 (MG.noBi_of w2.mem (by decide +kernel)) (by decide) ⟨by decide, by decide, ?_, ?_⟩ ⟨by decide, by decide, ?_, ?_⟩
  all_goals first | unfold MG.Arrow; decide +kernel | unfold MG.Und; decide +kernel

/-- The theorem on accuracy applies to the same graphs. -/
example := C97_accuracy (f := fun v => 3 - v) ascending descending (S := {0, 1, 2, 3}) (by decide)
  (C61_answers.1 exTrue _ exTrue_wf (by decide)) (C61_answers.1 exTested _ exTested_wf (by decide))
  (C61_answers.1 (MG.ofEdges {0, 1, 2, 3} [(3, 1), (2, 1)] [(1, 0)] : MG Nat) _ (MG.ofEdges_wf (by decide)) (by decide))
  (C61_answers.1 (MG.ofEdges {0, 1, 2, 3} [(1, 3), (1, 0)] [(3, 2)] : MG Nat) _ (MG.ofEdges_wf (by decide)) (by decide))
  (by unfold MG.PAdj MG.Arrow MG.Und; decide +kernel) (by unfold MG.PAdj MG.Arrow MG.Und; decide +kernel)

/-- `exVp` with the new names `3 - v`. -/
def exMirror : Dag Nat := ⟨{0, 1, 2, 3}, fun v => [∅, {0, 2}, {3}, ∅].getD v ∅⟩

theorem exMirror_wf : exMirror.WF := fun a b h => by
  rcases b with _ | _ | _ | _ | b
  · exact absurd h (by simp [exMirror])
  · exact (by decide : ∀ a ∈ exMirror.par 1, a ∈ exMirror.nodes ∧ 1 ∈ exMirror.nodes) a h
  · exact (by decide : ∀ a ∈ exMirror.par 2, a ∈ exMirror.nodes ∧ 2 ∈ exMirror.nodes) a h
  · exact absurd h (by simp [exMirror])
  · exact absurd h (by simp [exMirror])

theorem exMirror_renamed : Dag.Renamed (fun v => 3 - v) (fun v => 3 - v) exVp exMirror where
  mapf := by decide
  mapg := by decide
  left := by decide
  right := by decide
  edge := (by decide : ∀ a ∈ exVp.nodes, ∀ b ∈ exVp.nodes, 3 - a ∈ exMirror.par (3 - b) ↔ a ∈ exVp.par b)

/-- Columns mirrored and the three records rearranged. -/
example (L : ℝ → ℝ) : Score.scoreBdeu descending L (some exMirror) [[1, 2, 0, 1], [0, 1, 1, 0], [1, 0, 0, 0]] [2, 3, 2, 2] none =
    Score.scoreBdeu ascending L (some exVp) [[0, 1, 1, 0], [1, 0, 2, 1], [0, 0, 0, 1]] [2, 2, 3, 2] none :=
  C97_score ascending descending L (ρ := List.reverse) exMirror_renamed exVp_wf exMirror_wf exVp_acyclic
    (by simp [InSizes]) (by simp [InSizes]) (by decide) (by decide) (by decide) (by decide) (by decide) (by decide) (by decide)

end Verif
