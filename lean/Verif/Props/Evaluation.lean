import Verif.Props.VermaPearl
import Verif.Props.Perf
import Verif.Props.Score

/-!
# C96: the measures of the library judge a learned graph rightly
-/

namespace Verif
open Perf

section
variable {α : Type} [LinearOrder α]

/-- C96 (distance): the structural Hamming distance of the CPDAGs of two DAGs over the same nodes is zero exactly when the DAGs answer
every d-separation query alike. -/
theorem C96_distance (o o' o'' : SetOrder α) {D H : Dag α} (hD : D.WF) (hac : D.Acyclic) (hH : H.WF) (hacH : H.Acyclic)
    (hn : H.nodes = D.nodes) :
    ∃ P Q r, D.convertToCpdag o [1, 2, 3] (MG.pdagEmpty D.nodes) = .ok P ∧
      H.convertToCpdag o' [1, 2, 3] (MG.pdagEmpty H.nodes) = .ok Q ∧ shd o'' P Q = .ok r ∧
      (r.total = 0 ↔ ∀ i j Z, D.dsep o i j Z = H.dsep o' i j Z) := by
  obtain ⟨P, Q, h1, h2, h3⟩ := C91_cpdag o o' hD hac hH hacH hn
  obtain ⟨P', p1, p2, p3, -, -, -, p4⟩ := C13_cpdag o (rules := [1, 2, 3]) (by simp) hD hac
  obtain ⟨Q', q1, q2, q3, -, -, -, q4⟩ := C13_cpdag o' (rules := [1, 2, 3]) (by simp) hH hacH
  rw [h1] at p1; cases p1
  rw [h2] at q1; cases q1
  obtain ⟨r, r1, r2⟩ := C54_zero o'' p2 q2 p4 q4 (by rw [p3, q3, hn])
  exact ⟨P, Q, r, h1, h2, r1, r2.trans h3⟩

/-- C96 (PC, distance): the distance between the graph that PC learns with a perfect test for `D` and the CPDAG of a DAG `H` over the same
nodes is zero exactly when `H` answers every d-separation query as `D` does; it is zero for `D` itself. -/
theorem C96_pc_distance (o o' o'' : SetOrder α) {ci : CITest α} (overwrite : Bool) {D H : Dag α} (hD : D.WF) (hac : D.Acyclic)
    (hp : Pc.Perfect ci D) (hH : H.WF) (hacH : H.Acyclic) (hn : H.nodes = D.nodes) :
    ∃ st Q r, Pc.learnStructure o ci overwrite (Pc.init o D.nodes) = .ok st ∧
      H.convertToCpdag o' [1, 2, 3] (MG.pdagEmpty H.nodes) = .ok Q ∧ shd o'' st.graph Q = .ok r ∧
      (r.total = 0 ↔ ∀ i j Z, D.dsep o i j Z = H.dsep o' i j Z) := by
  obtain ⟨P, Q, h1, h2, h3⟩ := C91_cpdag o o' hD hac hH hacH hn
  obtain ⟨st, P', g1, g2, g3⟩ := C23_pc_cpdag o o overwrite hD hac hp
  rw [h1] at g2; cases g2
  obtain ⟨-, st', -, s1, s2, s3, -, s4, -⟩ := C21_structure o ci overwrite D.nodes
  rw [g1] at s1; cases s1
  obtain ⟨Q', q1, q2, q3, -, -, -, q4⟩ := C13_cpdag o' (rules := [1, 2, 3]) (by simp) hH hacH
  rw [h2] at q1; cases q1
  obtain ⟨r, r1, r2⟩ := C54_zero o'' s3 q2 s4 q4 (by rw [s2, q3, hn])
  refine ⟨st, Q, r, g1, h2, r1, r2.trans (Iff.trans ?_ h3)⟩
  obtain ⟨e1, e2, e3⟩ := g3
  constructor
  · rintro ⟨f1, f2, f3⟩
    exact ⟨e1.symm.trans f1, fun a b => (e2 a b).symm.trans (f2 a b), fun a b => (e3 a b).symm.trans (f3 a b)⟩
  · rintro ⟨f1, f2, f3⟩
    exact ⟨e1.trans f1, fun a b => (e2 a b).trans (f2 a b), fun a b => (e3 a b).trans (f3 a b)⟩

/-- A graph with the adjacencies of the true graph has a perfect accuracy if the true graph has an edge and a non-edge; otherwise the
accuracy is not defined and the function raises ZeroDivisionError. -/
theorem accuracy_of_same {S : Finset α} (o : SetOrder α) {conn : α → α → Py Bool} {Q : α → α → Prop} {D : Dag α}
    (hS : S ⊆ D.nodes) (hT : Answers S conn Q) (hQ : ∀ a b, Q a b ↔ D.Adj a b) :
    (((∃ a ∈ S, ∃ b ∈ S, a ≠ b ∧ D.Adj a b) ∧ ∃ a ∈ S, ∃ b ∈ S, a ≠ b ∧ ¬ D.Adj a b) →
      skeletonAccuracy o S conn D.isConnected = .ok ⟨1, 1, 1, 0, 0⟩) ∧
    (¬ ((∃ a ∈ S, ∃ b ∈ S, a ≠ b ∧ D.Adj a b) ∧ ∃ a ∈ S, ∃ b ∈ S, a ≠ b ∧ ¬ D.Adj a b) →
      skeletonAccuracy o S conn D.isConnected = .error .zeroDivision) := by
  obtain rfl : Q = D.Adj := by funext a b; exact propext (hQ a b)
  obtain ⟨g1, g2⟩ := C61_skeleton o hT (C61_answers.2.2.1 D S hS)
  simp only [and_self] at g1 g2
  refine ⟨fun h => ?_, fun h => (g2 h).1⟩
  obtain ⟨r, e, -, e1, e2, e3, e4, e5⟩ := g1 h
  obtain ⟨⟨p1, -⟩, -, -, -, -, -, -⟩ := C61_skeleton_range o hT (C61_answers.2.2.1 D S hS) e
  rw [e1] at p1
  have hc : (cnt S D.Adj : ℚ) ≠ 0 := by
    intro h0
    rw [h0] at p1
    simp at p1
  have z1 : cnt S (fun a b => ¬ D.Adj a b ∧ D.Adj a b) = 0 := cnt_eq_zero.mpr (fun a _ b _ _ h => h.1 h.2)
  have z2 : cnt S (fun a b => D.Adj a b ∧ ¬ D.Adj a b) = 0 := cnt_eq_zero.mpr (fun a _ b _ _ h => h.2 h.1)
  rw [e]
  obtain ⟨a, b, c, d, f⟩ := r
  simp only at e1 e2 e3 e4 e5
  rw [z1] at e4
  rw [z2] at e5
  rw [div_self hc] at e1 e2
  have : 2 * (cnt S D.Adj : ℚ) / (cnt S D.Adj + cnt S D.Adj) = 1 := by
    rw [← two_mul]; exact div_self (mul_ne_zero two_ne_zero hc)
  rw [this] at e3
  simp [e1, e2, e3, e4, e5]

/-- C96 (PC, accuracy): with a perfect test for `D` the accuracy of the skeleton that PC learns is precision = recall = F1 = 1 and
FPR = FNR = 0 if `D` has an edge and a non-adjacent pair; otherwise the accuracy function raises ZeroDivisionError for the perfect
result. -/
theorem C96_pc_accuracy (o o' : SetOrder α) {ci : CITest α} (overwrite : Bool) {D : Dag α} (hD : D.WF) (hac : D.Acyclic)
    (hp : Pc.Perfect ci D) :
    ∃ st, Pc.learnStructure o ci overwrite (Pc.init o D.nodes) = .ok st ∧
      (((∃ a ∈ D.nodes, ∃ b ∈ D.nodes, a ≠ b ∧ D.Adj a b) ∧ ∃ a ∈ D.nodes, ∃ b ∈ D.nodes, a ≠ b ∧ ¬ D.Adj a b) →
        skeletonAccuracy o' D.nodes st.graph.connK D.isConnected = .ok ⟨1, 1, 1, 0, 0⟩) ∧
      (¬ ((∃ a ∈ D.nodes, ∃ b ∈ D.nodes, a ≠ b ∧ D.Adj a b) ∧ ∃ a ∈ D.nodes, ∃ b ∈ D.nodes, a ≠ b ∧ ¬ D.Adj a b) →
        skeletonAccuracy o' D.nodes st.graph.connK D.isConnected = .error .zeroDivision) := by
  obtain ⟨st, h1, h2, -⟩ := Pc.learnStructure_perfect o overwrite hD hac hp
  exact ⟨st, h1, accuracy_of_same o' (Finset.Subset.refl _) (C61_answers.1 st.graph D.nodes h2.wf h2.nodes.ge) h2.adj⟩

/-- C96 (FCI, accuracy): the same for FCI when all nodes are observed. -/
theorem C96_fci_accuracy (o o' : SetOrder α) {ci : CITest α} (selection tails : Bool) {D : Dag α} (hD : D.WF) (hac : D.Acyclic)
    (hp : Pc.Perfect ci D) :
    ∃ st found, Fci.learnStructure o ci selection tails D.nodes = .ok (st, found) ∧
      (((∃ a ∈ D.nodes, ∃ b ∈ D.nodes, a ≠ b ∧ D.Adj a b) ∧ ∃ a ∈ D.nodes, ∃ b ∈ D.nodes, a ≠ b ∧ ¬ D.Adj a b) →
        skeletonAccuracy o' D.nodes st.graph.connK D.isConnected = .ok ⟨1, 1, 1, 0, 0⟩) ∧
      (¬ ((∃ a ∈ D.nodes, ∃ b ∈ D.nodes, a ≠ b ∧ D.Adj a b) ∧ ∃ a ∈ D.nodes, ∃ b ∈ D.nodes, a ≠ b ∧ ¬ D.Adj a b) →
        skeletonAccuracy o' D.nodes st.graph.connK D.isConnected = .error .zeroDivision) := by
  obtain ⟨st, h1, h2, -⟩ := C49_fci_dag o selection tails hD hac hp
  obtain ⟨-, st', found, -, g1, g2, g3, -⟩ := C49_fci o ci selection tails D.nodes
  rw [h1] at g1; cases g1
  exact ⟨st, false, h1, accuracy_of_same o' (Finset.Subset.refl _) (C61_answers.2.1 st.graph D.nodes g2 g3.ge) h2⟩

/-- C96 (PAGs): a tested PAG over the nodes of the true PAG gets F1 = 1 and orientation correctness 1 exactly when it has the same marks,
provided that the true PAG has an edge and a non-adjacent pair; neither of the two numbers is enough alone (an extra edge does not
change the second, a wrong mark does not change the first). -/
theorem C96_pag (o : SetOrder α) {T C : MG α} (hT : T.Proper) (hC : C.Proper) (hnd : C.types.Nodup) (ht : ∀ m ∈ C.types, m ∈ T.types)
    (hn : C.nodes = T.nodes) :
    (∃ acc q, pagAccuracy o T C = .ok (acc, q) ∧ acc.f1 = 1 ∧ q = 1) ↔
      (∀ a b m, T.At a b m ↔ C.At a b m) ∧ (∃ a b, C.MAdj a b) ∧ ∃ a ∈ C.nodes, ∃ b ∈ C.nodes, a ≠ b ∧ ¬ C.MAdj a b := by
  have aT := C61_answers.2.1 T C.nodes hT hn.le
  have aC := C61_answers.2.1 C C.nodes hC (Finset.Subset.refl _)
  obtain ⟨k1, k2⟩ := C61_orientation_ok o hT hC hnd ht hn.le
  constructor
  · rintro ⟨acc, q, h1, h2, h3⟩
    obtain ⟨g1, -, -, -, g2⟩ := C61_orientation o hC hnd ht hn.le h1
    obtain ⟨-, -, -, -, -, -, f1⟩ := C61_skeleton_range o aT aC g1
    have hs := f1.mp h2
    have hm := g2.mp h3
    have hdeg : (∃ a b, C.MAdj a b ∧ T.MAdj a b) ∧ ∃ a ∈ C.nodes, ∃ b ∈ C.nodes, a ≠ b ∧ ¬ C.MAdj a b := by
      by_contra hc
      rw [k2 hc] at h1
      cases h1
    refine ⟨fun a b m => ⟨fun h => ?_, hm a b m⟩, ⟨_, _, hdeg.1.choose_spec.choose_spec.1⟩, hdeg.2⟩
    have hab := hT.mem a b m h
    have hne : a ≠ b := by rintro rfl; exact hT.irrefl _ _ h
    have hadj := (hs a (hn ▸ hab.1) b (hn ▸ hab.2) hne).mp (Or.inl ⟨m, h⟩)
    obtain ⟨m', h'⟩ : ∃ m', C.At a b m' := by
      rcases hadj with h' | ⟨m', h'⟩
      · exact h'
      · exact hC.both _ _ _ h'
    rw [hT.one a b m m' h (hm a b m' h')]
    exact h'
  · rintro ⟨he, ⟨a, b, hab⟩, hna⟩
    have hadj : ∀ a b, T.MAdj a b ↔ C.MAdj a b := fun a b => by simp only [MG.MAdj, he]
    obtain ⟨⟨acc, q⟩, h1⟩ := k1 ⟨⟨a, b, hab, (hadj a b).mpr hab⟩, hna⟩
    obtain ⟨g1, -, -, -, g2⟩ := C61_orientation o hC hnd ht hn.le h1
    obtain ⟨-, -, -, -, -, -, f1⟩ := C61_skeleton_range o aT aC g1
    exact ⟨acc, q, h1, f1.mpr (fun a _ b _ _ => hadj a b), g2.mpr (fun a b m h => (he a b m).mpr h)⟩

/-- C96 (PC, extension): `convert_to_dag` turns the graph that PC learns with a perfect test for `D` into a DAG that answers every
d-separation query as `D` does. -/
theorem C96_pc_extension (o o' o'' : SetOrder α) {ci : CITest α} (overwrite : Bool) {D : Dag α} (hD : D.WF) (hac : D.Acyclic)
    (hp : Pc.Perfect ci D) :
    ∃ st E, Pc.learnStructure o ci overwrite (Pc.init o D.nodes) = .ok st ∧
      st.graph.convertToDag o' (Dag.empty st.graph.nodes) = .ok (E, true) ∧ D.Equivalent E ∧
      ∀ i j Z, D.dsep o i j Z = E.dsep o'' i j Z := by
  obtain ⟨st, P, g1, g2, e1, e2, e3⟩ := C23_pc_cpdag o o overwrite hD hac hp
  obtain ⟨P', p1, p2, p3, p4, p5, p6, p7⟩ := C13_cpdag o (rules := [1, 2, 3]) (by simp) hD hac
  rw [g2] at p1; cases p1
  obtain ⟨-, st', -, s1, s2, s3, -, s4, -⟩ := C21_structure o ci overwrite D.nodes
  rw [g1] at s1; cases s1
  have hadj : ∀ a b, st.graph.PAdj a b ↔ D.Adj a b := by
    intro a b
    rw [← p4]
    simp only [MG.PAdj, e2, e3]
  have huc : ∀ a b c, st.graph.PUCol a b c ↔ D.UCol a b c := by
    intro a b c
    rw [← p5]
    simp only [MG.PUCol, e2, hadj, p4]
  obtain ⟨E, flag, c1, c2⟩ := C19_complete o' s3
  obtain rfl : flag = true := c2.mpr ⟨D, s2.symm, hD, hac, fun a b => (hadj a b).symm, fun a b h => p6 a b ((e2 a b).mp h),
    fun a b c h => (huc a b c).mpr h⟩
  have hE := C18_sound o' s3 c1
  have heq : D.Equivalent E := by
    refine ⟨hE.nodes.trans s2, hE.wf, hE.acyclic, fun a b => (hE.adj a b).trans (hadj a b), fun a b c => ⟨fun h => ?_, fun h => ?_⟩⟩
    · exact (huc a b c).mp (hE.ucol a b c h)
    · have h' := (huc a b c).mpr h
      exact ⟨hE.dir _ _ h'.1, hE.dir _ _ h'.2.1, h'.2.2.1, fun h'' => h'.2.2.2 ((hE.adj _ _).mp h'')⟩
  exact ⟨st, E, g1, c1, heq, C91_dsep o o'' hD hac heq⟩

/-- C96 (any learner): whatever graph was learned, if its distance to the CPDAG of `D` is zero, then its consistent extensions are the
DAGs that are Markov equivalent to `D` (and keep its directed edges). -/
theorem C96_zero_extension (o o'' : SetOrder α) {D : Dag α} (hD : D.WF) (hac : D.Acyclic) {G : MG α} (hG : G.PdagWF) (hb : G.NoBi)
    (hn : G.nodes = D.nodes) :
    ∃ P r, D.convertToCpdag o [1, 2, 3] (MG.pdagEmpty D.nodes) = .ok P ∧ shd o'' G P = .ok r ∧
      (r.total = 0 → ∀ E, G.Extension E ↔ D.Equivalent E ∧ ∀ a b, G.Arrow a b → E.Edge a b) := by
  obtain ⟨P, p1, p2, p3, p4, p5, p6, p7⟩ := C13_cpdag o (rules := [1, 2, 3]) (by simp) hD hac
  obtain ⟨r, r1, r2⟩ := C54_zero o'' hG p2 hb p7 (by rw [hn, p3])
  refine ⟨P, r, p1, r1, fun h0 E => ?_⟩
  obtain ⟨e1, e2, e3⟩ := r2.mp h0
  have hadj : ∀ a b, G.PAdj a b ↔ D.Adj a b := by
    intro a b
    rw [← p4]
    simp only [MG.PAdj, e2, e3]
  have huc : ∀ a b c, G.PUCol a b c ↔ D.UCol a b c := by
    intro a b c
    rw [← p5]
    simp only [MG.PUCol, e2, hadj, p4]
  constructor
  · intro hE
    refine ⟨⟨hE.nodes.trans hn, hE.wf, hE.acyclic, fun a b => (hE.adj a b).trans (hadj a b), fun a b c => ⟨fun h => ?_, fun h => ?_⟩⟩,
      hE.dir⟩
    · exact (huc a b c).mp (hE.ucol a b c h)
    · have h' := (huc a b c).mpr h
      exact ⟨hE.dir _ _ h'.1, hE.dir _ _ h'.2.1, h'.2.2.1, fun h'' => h'.2.2.2 ((hE.adj _ _).mp h'')⟩
  · rintro ⟨hE, hd⟩
    exact ⟨hE.nodes.trans hn.symm, hE.wf, hE.acyclic, fun a b => (hE.adj a b).trans (hadj a b).symm, hd,
      fun a b c h => (huc a b c).mpr ((hE.ucol a b c).mp h)⟩

end

section
variable {data : List (List Int)} {sizes : List Int}
open Score

/-- C96 (PC, score): the DAG that `convert_to_dag` makes of the graph learned by PC with a perfect test for `D` has, on every data set, the
BDeu score of `D`. -/
theorem C96_pc_score (o o' o'' o₃ : SetOrder Nat) (L : ℝ → ℝ) {ci : CITest Nat} (overwrite : Bool) {D : Dag Nat} (hD : D.WF)
    (hac : D.Acyclic) (hp : Pc.Perfect ci D) (hd : ∀ r ∈ data, InSizes r sizes) (hs : ∀ s ∈ sizes, 0 < s)
    (hn : ∀ v ∈ D.nodes, v < sizes.length) :
    ∃ st E, Pc.learnStructure o ci overwrite (Pc.init o D.nodes) = .ok st ∧
      st.graph.convertToDag o' (Dag.empty st.graph.nodes) = .ok (E, true) ∧
      scoreBdeu o'' L (some E) data sizes none = scoreBdeu o₃ L (some D) data sizes none := by
  obtain ⟨st, E, h1, h2, h3, -⟩ := C96_pc_extension o o' o overwrite hD hac hp
  exact ⟨st, E, h1, h2, (C62_equivalent o₃ o'' L hD hac h3 hd hs hn).symm⟩

/-- C96 (threshold search): if for one of the thresholds the learned graph is the one that PC learns with a perfect test for `D`, then the
score recorded for it is the BDeu score of `D`, and the score of the returned threshold is not less. -/
theorem C96_search {τ : Type} (o o' : SetOrder Nat) (L : ℝ → ℝ) {learn : List τ → τ → Py (MG Nat)} {ths : List τ} {best : Option τ}
    {scores : List (WithBot ℝ)} (h : searchThreshold o L learn data sizes ths = .ok (best, scores)) {ci : CITest Nat} (overwrite : Bool)
    {D : Dag Nat} (hD : D.WF) (hac : D.Acyclic) (hp : Pc.Perfect ci D) (hd : ∀ r ∈ data, InSizes r sizes) (hs : ∀ s ∈ sizes, 0 < s)
    (hn : ∀ v ∈ D.nodes, v < sizes.length) {st : PcState Nat}
    (hst : Pc.learnStructure o' ci overwrite (Pc.init o' D.nodes) = .ok st) {i : Nat} {th : τ} (hi : ths[i]? = some th)
    (hl : learn (ths.take i) th = .ok st.graph) :
    scores[i]? = some ((bdeu L data sizes D D.nodes : ℝ) : WithBot ℝ) ∧
      ∃ (k : Nat) (th' : τ) (s : WithBot ℝ), best = some th' ∧ ths[k]? = some th' ∧ scores[k]? = some s ∧
        ((bdeu L data sizes D D.nodes : ℝ) : WithBot ℝ) ≤ s := by
  obtain ⟨b1, b2, -, b3⟩ := C57_best o L h
  have hlt : i < scores.length := by
    rw [b1]
    exact (List.getElem?_eq_some_iff.mp hi).1
  obtain ⟨P, p1, D', flag, p2, p3⟩ := b2 i th scores[i] hi (List.getElem?_eq_getElem hlt)
  rw [hl] at p1
  cases p1
  obtain ⟨st', E, e1, e2, e3⟩ := C96_pc_score o' o o o L overwrite hD hac hp hd hs hn
  rw [hst] at e1
  cases e1
  rw [e2] at p2
  cases p2
  rw [if_pos rfl, e3, C62_formula o L hD hac hd hs hn none (Finset.Subset.refl _)] at p3
  have hsc : scores[i]? = some ((bdeu L data sizes D D.nodes : ℝ) : WithBot ℝ) := by
    rw [List.getElem?_eq_getElem hlt]
    exact congrArg some (Except.ok.inj p3).symm
  refine ⟨hsc, ?_⟩
  obtain ⟨k, th', s, k1, k2, k3, k4, -⟩ := b3 (by rintro rfl; simp at hi)
  exact ⟨k, th', s, k1, k2, k3, k4 _ (List.mem_of_getElem? hsc)⟩

/-! The hypotheses are met: `0 → 1 → 2 ← 3` and the equivalent `0 ← 1 → 2 ← 3`, with the d-separation test. -/
theorem exVp_perfect : Pc.Perfect (Pc.dsepTest ascending exVp) exVp := C22_dsep_oracle ascending exVp_wf exVp_acyclic

example := C96_distance ascending descending ascending exVp_wf exVp_acyclic exVp_equivalent.wf exVp'_acyclic rfl
example := C96_pc_distance ascending descending ascending true exVp_wf exVp_acyclic exVp_perfect exVp_equivalent.wf exVp'_acyclic rfl
example := C96_pc_extension ascending descending ascending true exVp_wf exVp_acyclic exVp_perfect
example : (∃ a ∈ exVp.nodes, ∃ b ∈ exVp.nodes, a ≠ b ∧ exVp.Adj a b) ∧ ∃ a ∈ exVp.nodes, ∃ b ∈ exVp.nodes, a ≠ b ∧ ¬ exVp.Adj a b :=
  ⟨⟨0, by decide, 1, by decide, by decide, Or.inl (by decide : 0 ∈ exVp.par 1)⟩, 0, by decide, 2, by decide, by decide,
    fun h => (by decide : ¬ (0 ∈ exVp.par 2 ∨ 2 ∈ exVp.par 0)) h⟩
example := C96_pc_accuracy ascending descending true exVp_wf exVp_acyclic exVp_perfect
example : exPagTrue.Proper ∧ exPagTested.Proper ∧ exPagTrue.types.Nodup ∧ (∀ m ∈ exPagTrue.types, m ∈ exPagTested.types) ∧
    exPagTrue.nodes = exPagTested.nodes := ⟨MG.ofMarks_proper (by decide), MG.ofMarks_proper (by decide), by decide, by decide, rfl⟩
example := C96_fci_accuracy ascending descending false true exVp_wf exVp_acyclic exVp_perfect
/-- The distance is not always zero: the graph with the edge `0 → 1` and without it. -/
example : (do
    let G ← (MG.pdagEmpty ({0, 1} : Finset Nat)).addEdge 0 1 .tail .arrow
    shd ascending G (MG.pdagEmpty {0, 1})).map Shd.total = .ok 1 := by
  decide +kernel
example (L : ℝ → ℝ) := C96_pc_score (data := [[0, 1, 1, 0]]) (sizes := [2, 2, 2, 2]) ascending descending ascending ascending L true
  exVp_wf exVp_acyclic exVp_perfect (by intro r hr; obtain rfl : r = _ := by simpa using hr
                                        simp [InSizes]) (by decide) (by decide)

end
end Verif
