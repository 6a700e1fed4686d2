import Verif.Lemmas.Perf
import Verif.Lemmas.PdsEdit
import Verif.Lemmas.Cpdag
import Verif.Props.Pdag
import Verif.Props.PdsTree
import Verif.Lemmas.OrdMarks

/-! # Properties C54 and C61: comparison of a learned graph with the true one -/

namespace Verif
variable {α : Type} [DecidableEq α]
open Perf

/-! ## Structural Hamming distance -/

/-- C54 (parts): the five numbers count the (unordered) pairs of nodes with a missing edge, an extra edge, a missing head, an
extra head and a reversed head. `cnt` counts ordered pairs. -/
theorem C54_parts (o : SetOrder α) {T C : MG α} (hT : T.PdagWF) (hC : C.PdagWF) (hb : C.NoBi) (hn : C.nodes ⊆ T.nodes) :
    ∃ r, shd o T C = .ok r ∧
      2 * r.edgeMissing = cnt C.nodes (fun a b => C.PAdj a b ∧ ¬ T.PAdj a b) ∧
      2 * r.edgeExtra = cnt C.nodes (fun a b => T.PAdj a b ∧ ¬ C.PAdj a b) ∧
      2 * r.headMissing = cnt C.nodes (fun a b => (C.Arrow a b ∨ C.Arrow b a) ∧ T.Und a b) ∧
      2 * r.headExtra = cnt C.nodes (fun a b => C.Und a b ∧ (T.Arrow a b ∨ T.Arrow b a)) ∧
      2 * r.headReversed = cnt C.nodes (fun a b => (C.Arrow a b ∧ T.Arrow b a) ∨ (C.Arrow b a ∧ T.Arrow a b)) :=
  shd_spec o hT hC hb hn

/-- C54 (total): the distance is the number of pairs of nodes whose edges differ. -/
theorem C54_total (o : SetOrder α) {T C : MG α} (hT : T.PdagWF) (hC : C.PdagWF) (hbT : T.NoBi) (hbC : C.NoBi)
    (hn : C.nodes ⊆ T.nodes) :
    ∃ r, shd o T C = .ok r ∧ 2 * r.total = cnt C.nodes (fun a b => ¬ MG.SameEdge T C a b) :=
  shd_total o hT hC hbT hbC hn

/-- C54 (zero): for PDAGs on the same nodes, the distance is zero exactly when the graphs are equal. -/
theorem C54_zero (o : SetOrder α) {T C : MG α} (hT : T.PdagWF) (hC : C.PdagWF) (hbT : T.NoBi) (hbC : C.NoBi)
    (hn : T.nodes = C.nodes) :
    ∃ r, shd o T C = .ok r ∧ (r.total = 0 ↔ MG.Same T C) := by
  obtain ⟨r, h, h1⟩ := shd_total o hT hC hbT hbC hn.ge
  refine ⟨r, h, ?_⟩
  have h0 : r.total = 0 ↔ cnt C.nodes (fun a b => ¬ MG.SameEdge T C a b) = 0 := by omega
  rw [h0, cnt_eq_zero]
  constructor
  · intro hs
    have key : ∀ a b, MG.SameEdge T C a b ∨ ((¬ T.Arrow a b ∧ ¬ C.Arrow a b) ∧ (¬ T.Und a b ∧ ¬ C.Und a b)) := by
      intro a b
      by_cases hab : a = b
      · subst hab
        exact Or.inr ⟨⟨fun h => hT.irrefl _ _ h, fun h => hC.irrefl _ _ h⟩, fun h => hT.irrefl _ _ h, fun h => hC.irrefl _ _ h⟩
      by_cases hm : a ∈ C.nodes ∧ b ∈ C.nodes
      · exact Or.inl (not_not.mp (hs a hm.1 b hm.2 hab))
      · right
        have hT' : ∀ m, a ∉ T.g b m := fun m h => hm (hn ▸ hT.mem _ _ _ h)
        have hC' : ∀ m, a ∉ C.g b m := fun m h => hm (hC.mem _ _ _ h)
        exact ⟨⟨hT' _, hC' _⟩, hT' _, hC' _⟩
    refine ⟨hn, fun a b => ?_, fun a b => ?_⟩
    · rcases key a b with h | h
      · exact h.1
      · exact ⟨fun h' => absurd h' h.1.1, fun h' => absurd h' h.1.2⟩
    · rcases key a b with h | h
      · exact h.2.2
      · exact ⟨fun h' => absurd h' h.2.1, fun h' => absurd h' h.2.2⟩
  · intro hs a _ b _ _ hns
    exact hns ⟨hs.arrow a b, hs.arrow b a, hs.und a b⟩

/-- C54 (exchange): exchanging the graphs swaps missing and extra parts and keeps the distance. -/
theorem C54_exchange (o o' : SetOrder α) {T C : MG α} (hT : T.PdagWF) (hC : C.PdagWF) (hbT : T.NoBi) (hbC : C.NoBi)
    (hn : T.nodes = C.nodes) :
    ∃ r r', shd o T C = .ok r ∧ shd o' C T = .ok r' ∧ r'.edgeMissing = r.edgeExtra ∧ r'.edgeExtra = r.edgeMissing ∧
      r'.headMissing = r.headExtra ∧ r'.headExtra = r.headMissing ∧ r'.headReversed = r.headReversed ∧ r'.total = r.total := by
  obtain ⟨r, h, h1, h2, h3, h4, h5⟩ := shd_spec o hT hC hbC hn.ge
  obtain ⟨r', h', h1', h2', h3', h4', h5'⟩ := shd_spec o' hC hT hbT hn.le
  rw [hn] at h1' h2' h3' h4' h5'
  have e1 : cnt C.nodes (EM C T) = cnt C.nodes (EX T C) := rfl
  have e2 : cnt C.nodes (EX C T) = cnt C.nodes (EM T C) := rfl
  have e3 : cnt C.nodes (HM C T) = cnt C.nodes (HX T C) := cnt_congr fun a _ b _ _ => and_comm
  have e4 : cnt C.nodes (HX C T) = cnt C.nodes (HM T C) := cnt_congr fun a _ b _ _ => and_comm
  have e5 : cnt C.nodes (HR C T) = cnt C.nodes (HR T C) := cnt_congr fun a _ b _ _ => by
    simp only [HR]
    rw [or_comm, and_comm, @and_comm (T.Arrow a b)]
  refine ⟨r, r', h, h', by omega, by omega, by omega, by omega, by omega, ?_⟩
  simp only [Shd.total]
  omega

/-- C54 (order): the distance does not depend on the order in which the nodes are visited. -/
theorem C54_order (o o' : SetOrder α) {T C : MG α} (hT : T.PdagWF) (hC : C.PdagWF) (hb : C.NoBi) (hn : C.nodes ⊆ T.nodes) :
    shd o T C = shd o' T C := by
  obtain ⟨⟨a, b, c, d, e⟩, h, h1, h2, h3, h4, h5⟩ := shd_spec o hT hC hb hn
  obtain ⟨⟨a', b', c', d', e'⟩, h', h1', h2', h3', h4', h5'⟩ := shd_spec o' hT hC hb hn
  simp only at h1 h2 h3 h4 h5 h1' h2' h3' h4' h5'
  rw [h, h', show a = a' by omega, show b = b' by omega, show c = c' by omega, show d = d' by omega, show e = e' by omega]

/-- C54 (triangle): the distance to a third graph is at most the sum of the distances. -/
theorem C54_triangle (o : SetOrder α) {A B C : MG α} (hA : A.PdagWF) (hB : B.PdagWF) (hC : C.PdagWF) (bA : A.NoBi) (bB : B.NoBi)
    (bC : C.NoBi) (nA : A.nodes = C.nodes) (nB : B.nodes = C.nodes) :
    ∃ r₁ r₂ r₃, shd o A B = .ok r₁ ∧ shd o B C = .ok r₂ ∧ shd o A C = .ok r₃ ∧ r₃.total ≤ r₁.total + r₂.total := by
  obtain ⟨r₁, h₁, e₁⟩ := shd_total o hA hB bA bB (nB.trans nA.symm).le
  obtain ⟨r₂, h₂, e₂⟩ := shd_total o hB hC bB bC nB.ge
  obtain ⟨r₃, h₃, e₃⟩ := shd_total o hA hC bA bC nA.ge
  refine ⟨r₁, r₂, r₃, h₁, h₂, h₃, ?_⟩
  rw [nB] at e₁
  have hle : cnt C.nodes (fun a b => ¬ MG.SameEdge A C a b) ≤
      cnt C.nodes (fun a b => ¬ MG.SameEdge A B a b ∨ (¬ MG.SameEdge B C a b ∧ MG.SameEdge A B a b)) := by
    refine cnt_le fun a b h => ?_
    by_cases h1 : MG.SameEdge A B a b
    · refine Or.inr ⟨fun h2 => h ⟨h1.1.trans h2.1, h1.2.1.trans h2.2.1, h1.2.2.trans h2.2.2⟩, h1⟩
    · exact Or.inl h1
  rw [cnt_add (fun a b h h' => h h'.2)] at hle
  have hle' : cnt C.nodes (fun a b => ¬ MG.SameEdge B C a b ∧ MG.SameEdge A B a b) ≤
      cnt C.nodes (fun a b => ¬ MG.SameEdge B C a b) := cnt_le fun a b h => h.1
  omega

/-- C54 (missing node): if a node of the true graph is missing from the tested one, a `KeyError` is raised. -/
theorem C54_missing_node (o : SetOrder α) {T C : MG α} (hT : T.PdagWF) (hC : C.PdagWF) (hb : C.NoBi) {v w : α} (hv : v ∈ C.nodes)
    (hv' : v ∉ T.nodes) (hw : w ∈ C.nodes) (hvw : w ≠ v) : shd o T C = .error .keyError :=
  shd_err o hT hv hv' hw hvw hC hb

/-- Two PDAGs. -/
def exTrue : MG Nat := MG.ofEdges {0, 1, 2, 3} [(0, 2), (1, 2)] [(2, 3)]
def exTested : MG Nat := MG.ofEdges {0, 1, 2, 3} [(2, 0), (2, 3)] [(0, 1)]

theorem exTrue_wf : exTrue.PdagWF := MG.ofEdges_wf (by decide)
theorem exTested_wf : exTested.PdagWF := MG.ofEdges_wf (by decide)

omit [DecidableEq α] in
theorem MG.noBi_of {G : MG α} (hm : ∀ a b m, a ∈ G.g b m → a ∈ G.nodes ∧ b ∈ G.nodes)
    (h : ∀ a ∈ G.nodes, ∀ b ∈ G.nodes, a ∈ G.g b .arrow → b ∉ G.g a .arrow) : G.NoBi :=
  fun a b h1 => h a (hm _ _ _ h1).1 b (hm _ _ _ h1).2 h1

example : exTrue.PdagWF ∧ exTested.PdagWF ∧ exTrue.NoBi ∧ exTested.NoBi ∧ exTested.nodes = exTrue.nodes ∧
    shd ascending exTested exTrue = .ok ⟨1, 1, 0, 1, 1⟩ ∧ shd descending exTrue exTested = .ok ⟨1, 1, 1, 0, 1⟩ :=
  ⟨exTrue_wf, exTested_wf, MG.noBi_of exTrue_wf.mem (by decide +kernel), MG.noBi_of exTested_wf.mem (by decide +kernel), rfl,
    by decide +kernel, by decide +kernel⟩

/-- The hypotheses of `C54_missing_node` are met. -/
example : shd ascending (MG.ofEdges {0, 1, 2} [] [(0, 1)]) exTrue = .error .keyError :=
  C54_missing_node ascending (MG.ofEdges_wf (by decide)) exTrue_wf (MG.noBi_of exTrue_wf.mem (by decide +kernel)) (v := 3)
    (by decide) (by decide) (w := 0) (by decide) (by decide)

/-- C54, without the restriction on bi-directed edges: false. With a bi-directed edge in the true graph, the distance to a
different graph can be zero, and it depends on the order of the nodes. -/
theorem C54_bidirected_fails :
    ∃ T C : MG Nat, T.PdagWF ∧ C.PdagWF ∧ T.NoBi ∧ T.nodes = C.nodes ∧ ¬ MG.Same T C ∧
      shd ascending T C = .ok ⟨0, 0, 0, 0, 0⟩ ∧ shd descending T C = .ok ⟨0, 0, 0, 0, 1⟩ := by
  have hw : (MG.ofEdges {0, 1} [(0, 1)] [] : MG Nat).PdagWF := MG.ofEdges_wf (by decide)
  refine ⟨MG.ofEdges {0, 1} [(0, 1)] [], MG.ofEdges {0, 1} [(0, 1), (1, 0)] [], hw, MG.ofEdges_wf (by decide),
    MG.noBi_of hw.mem (by decide +kernel), rfl, ?_, by decide +kernel, by decide +kernel⟩
  intro h
  have := (h.arrow 1 0).mpr (by show 1 ∈ _; decide +kernel)
  revert this
  show ¬ 1 ∈ _
  decide +kernel

/-- C54, with more nodes in the tested graph: edges at the additional nodes are not counted, so the distance can be zero although
the graphs differ. -/
theorem C54_extra_nodes_ignored :
    ∃ T C : MG Nat, T.PdagWF ∧ C.PdagWF ∧ T.NoBi ∧ C.NoBi ∧ C.nodes ⊆ T.nodes ∧ T.Arrow 1 2 ∧ ¬ C.Arrow 1 2 ∧
      shd ascending T C = .ok ⟨0, 0, 0, 0, 0⟩ := by
  have hw : (MG.ofEdges {0, 1, 2} [(0, 1), (1, 2)] [] : MG Nat).PdagWF := MG.ofEdges_wf (by decide)
  have hw' : (MG.ofEdges {0, 1} [(0, 1)] [] : MG Nat).PdagWF := MG.ofEdges_wf (by decide)
  exact ⟨_, _, hw, hw', MG.noBi_of hw.mem (by decide +kernel), MG.noBi_of hw'.mem (by decide +kernel), by decide,
    by show 1 ∈ _; decide +kernel, by show ¬ 1 ∈ _; decide +kernel, by decide +kernel⟩

/-! ## Skeleton measures -/

/-- C61 (classes of graphs): every class of graphs answers its adjacency. -/
theorem C61_answers :
    (∀ (G : MG α) (S : Finset α), G.PdagWF → S ⊆ G.nodes → Answers S G.connK G.PAdj) ∧
    (∀ (G : MG α) (S : Finset α), G.Proper → S ⊆ G.nodes → Answers S G.connK G.MAdj) ∧
    (∀ (D : Dag α) (S : Finset α), S ⊆ D.nodes → Answers S D.isConnected D.Adj) ∧
    (∀ (A : UGraph α) (S : Finset α), S ⊆ A.nodes → Answers S A.isConnected (fun a b => b ∈ A.adj a ∨ a ∈ A.adj b)) := by
  refine ⟨fun G S hG hS => ⟨?_, fun i hi j hj hij => hG.connK (hS hi) (hS hj) hij⟩,
    fun G S hG hS => ⟨fun a b h => h.symm, fun i hi j hj hij => ?_⟩,
    fun D S hS => ⟨fun a b h => h.symm, fun i hi j hj _ => D.isConnected_spec (hS hi) (hS hj)⟩,
    fun A S hS => ⟨fun a b h => h.symm, fun i hi j hj _ => ?_⟩⟩
  · rintro a b (h | h | h)
    · exact Or.inr (Or.inl h)
    · exact Or.inl h
    · exact Or.inr (Or.inr h.symm)
  · rw [MG.connK_eq (hS hi) (hS hj)]
    exact MG.proper_isConnected hG.type hij
  · obtain ⟨b, h1, h2⟩ := A.isConnected_ok (hS hi) (hS hj)
    exact ⟨b, h1, h2.trans or_comm⟩

section Skel
variable {S : Finset α} {connT connC : α → α → Py Bool} {QT QC : α → α → Prop}

/-- C61 (skeleton measures): precision, recall, F1, false-positive rate and false-negative rate of the adjacencies of the tested
graph, if the graphs have a common adjacency and the true graph is not complete; otherwise a `ZeroDivisionError`. -/
theorem C61_skeleton (o : SetOrder α) (hT : Answers S connT QT) (hC : Answers S connC QC) :
    (((∃ a ∈ S, ∃ b ∈ S, a ≠ b ∧ QC a b ∧ QT a b) ∧ ∃ a ∈ S, ∃ b ∈ S, a ≠ b ∧ ¬ QC a b) →
      ∃ r, skeletonAccuracy o S connT connC = .ok r ∧ skeletonFnrFpr o S connT connC = .ok (r.fpr, r.fnr) ∧
        r.precision = (cnt S (fun a b => QC a b ∧ QT a b) : ℚ) / cnt S QT ∧
        r.recall = (cnt S (fun a b => QC a b ∧ QT a b) : ℚ) / cnt S QC ∧
        r.f1 = 2 * (cnt S (fun a b => QC a b ∧ QT a b) : ℚ) / (cnt S QT + cnt S QC) ∧
        r.fpr = (cnt S (fun a b => ¬ QC a b ∧ QT a b) : ℚ) / cnt S (fun a b => ¬ QC a b) ∧
        r.fnr = (cnt S (fun a b => QC a b ∧ ¬ QT a b) : ℚ) / cnt S QC) ∧
    (¬ ((∃ a ∈ S, ∃ b ∈ S, a ≠ b ∧ QC a b ∧ QT a b) ∧ ∃ a ∈ S, ∃ b ∈ S, a ≠ b ∧ ¬ QC a b) →
      skeletonAccuracy o S connT connC = .error .zeroDivision ∧ skeletonFnrFpr o S connT connC = .error .zeroDivision) := by
  obtain ⟨c, h, h1, h2, h3, h4, h5⟩ := counts_spec o hT hC
  obtain ⟨g1, g2⟩ := ratios_spec h5
  have eT : cnt S QT = 2 * c.fp + 2 * c.tp := by
    rw [h1, h3, ← cnt_add (fun a b h h' => h.1 h'.1)]
    refine cnt_congr fun a _ b _ _ => ?_
    by_cases q : QC a b <;> simp [q]
  have eC : cnt S QC = 2 * c.tp + 2 * c.fn := by
    rw [h1, h2, ← cnt_add (fun a b h h' => h'.2 h.2)]
    refine cnt_congr fun a _ b _ _ => ?_
    by_cases q : QT a b <;> simp [q]
  have eN : cnt S (fun a b => ¬ QC a b) = 2 * c.fp + 2 * c.tn := by
    rw [h3, h4, ← cnt_add (fun a b h h' => h'.2 h.2)]
    refine cnt_congr fun a _ b _ _ => ?_
    by_cases q : QT a b <;> simp [q]
  have z1 : c.tp = 0 ↔ ¬ ∃ a ∈ S, ∃ b ∈ S, a ≠ b ∧ QC a b ∧ QT a b := by
    have : c.tp = 0 ↔ cnt S (fun a b => QC a b ∧ QT a b) = 0 := by omega
    rw [this, cnt_eq_zero]
    exact ⟨fun h ⟨a, ha, b, hb, hab, q⟩ => h a ha b hb hab q, fun h a ha b hb hab q => h ⟨a, ha, b, hb, hab, q⟩⟩
  have z2 : c.fp + c.tn = 0 ↔ ¬ ∃ a ∈ S, ∃ b ∈ S, a ≠ b ∧ ¬ QC a b := by
    have : c.fp + c.tn = 0 ↔ cnt S (fun a b => ¬ QC a b) = 0 := by omega
    rw [this, cnt_eq_zero]
    exact ⟨fun h ⟨a, ha, b, hb, hab, q⟩ => h a ha b hb hab q, fun h a ha b hb hab q => h ⟨a, ha, b, hb, hab, q⟩⟩
  constructor
  · rintro ⟨hp1, hp2⟩
    have hr : skeletonAccuracy o S connT connC = .ok _ := (py_bind h _).trans (g2 (fun e => z1.mp e hp1) (fun e => z2.mp e hp2))
    refine ⟨_, hr, py_bind hr _, ?_, ?_, ?_, ?_, ?_⟩
    · rw [← h1, eT]; push_cast; rw [← mul_add, mul_div_mul_left _ _ two_ne_zero]
    · rw [← h1, eC]; push_cast; rw [← mul_add, mul_div_mul_left _ _ two_ne_zero]
    · rw [← h1, eT, eC]; push_cast; rw [← mul_add, ← mul_add, ← mul_add, mul_div_mul_left _ _ two_ne_zero]
    · rw [← h3, eN]; push_cast; rw [← mul_add, mul_div_mul_left _ _ two_ne_zero]
    · rw [← h2, eC]; push_cast; rw [← mul_add, mul_div_mul_left _ _ two_ne_zero]
  · intro hn
    have he : skeletonAccuracy o S connT connC = .error .zeroDivision := by
      refine (py_bind h _).trans (g1 ?_)
      rw [z1, z2]
      exact not_and_or.mp hn
    refine ⟨he, ?_⟩
    rw [skeletonFnrFpr, he]
    rfl

/-- C61 (range): the measures are between 0 and 1, recall and false-negative rate add to 1, and F1 is 1 exactly when the graphs
have the same adjacencies. -/
theorem C61_skeleton_range (o : SetOrder α) (hT : Answers S connT QT) (hC : Answers S connC QC) {r : SkelAcc}
    (hr : skeletonAccuracy o S connT connC = .ok r) :
    (0 < r.precision ∧ r.precision ≤ 1) ∧ (0 < r.recall ∧ r.recall ≤ 1) ∧ (0 < r.f1 ∧ r.f1 ≤ 1) ∧ (0 ≤ r.fpr ∧ r.fpr ≤ 1) ∧
      (0 ≤ r.fnr ∧ r.fnr < 1) ∧ r.recall + r.fnr = 1 ∧ (r.f1 = 1 ↔ ∀ a ∈ S, ∀ b ∈ S, a ≠ b → (QT a b ↔ QC a b)) := by
  obtain ⟨g1, g2⟩ := C61_skeleton o hT hC
  by_cases hp : (∃ a ∈ S, ∃ b ∈ S, a ≠ b ∧ QC a b ∧ QT a b) ∧ ∃ a ∈ S, ∃ b ∈ S, a ≠ b ∧ ¬ QC a b
  swap
  · rw [(g2 hp).1] at hr; cases hr
  obtain ⟨r', e, -, e1, e2, e3, e4, e5⟩ := g1 hp
  rw [hr] at e
  cases e
  have eT : cnt S QT = cnt S (fun a b => QC a b ∧ QT a b) + cnt S (fun a b => ¬ QC a b ∧ QT a b) := by
    rw [← cnt_add (fun a b h h' => h'.1 h.1)]
    refine cnt_congr fun a _ b _ _ => ?_
    by_cases q : QC a b <;> simp [q]
  have eC : cnt S QC = cnt S (fun a b => QC a b ∧ QT a b) + cnt S (fun a b => QC a b ∧ ¬ QT a b) := by
    rw [← cnt_add (fun a b h h' => h'.2 h.2)]
    refine cnt_congr fun a _ b _ _ => ?_
    by_cases q : QT a b <;> simp [q]
  have eN : cnt S (fun a b => ¬ QC a b ∧ QT a b) ≤ cnt S (fun a b => ¬ QC a b) := cnt_le fun a b h => h.1
  have hpos : cnt S (fun a b => QC a b ∧ QT a b) ≠ 0 := by
    obtain ⟨a, ha, b, hb, hab, q⟩ := hp.1
    exact fun h => cnt_eq_zero.mp h a ha b hb hab q
  have hneg : cnt S (fun a b => ¬ QC a b) ≠ 0 := by
    obtain ⟨a, ha, b, hb, hab, q⟩ := hp.2
    exact fun h => cnt_eq_zero.mp h a ha b hb hab q
  have hsame : (∀ a ∈ S, ∀ b ∈ S, a ≠ b → (QT a b ↔ QC a b)) ↔
      cnt S (fun a b => ¬ QC a b ∧ QT a b) + cnt S (fun a b => QC a b ∧ ¬ QT a b) = 0 := by
    rw [Nat.add_eq_zero_iff, cnt_eq_zero, cnt_eq_zero]
    constructor
    · intro h
      exact ⟨fun a ha b hb hab q => q.1 ((h a ha b hb hab).mp q.2), fun a ha b hb hab q => q.2 ((h a ha b hb hab).mpr q.1)⟩
    · intro h a ha b hb hab
      exact ⟨fun q => not_not.mp fun q' => h.1 a ha b hb hab ⟨q', q⟩, fun q => not_not.mp fun q' => h.2 a ha b hb hab ⟨q, q'⟩⟩
  rw [hsame, e1, e2, e3, e4, e5, eT, eC]
  generalize cnt S (fun a b => QC a b ∧ QT a b) = x at *
  generalize cnt S (fun a b => ¬ QC a b ∧ QT a b) = y at *
  generalize cnt S (fun a b => QC a b ∧ ¬ QT a b) = z at *
  generalize cnt S (fun a b => ¬ QC a b) = w at *
  have hx : (0 : ℚ) < x := by exact_mod_cast Nat.pos_of_ne_zero hpos
  have hw : (0 : ℚ) < w := by exact_mod_cast Nat.pos_of_ne_zero hneg
  have hy : (0 : ℚ) ≤ y := Nat.cast_nonneg y
  have hz : (0 : ℚ) ≤ z := Nat.cast_nonneg z
  have hyw : (y : ℚ) ≤ w := by exact_mod_cast eN
  push_cast
  refine ⟨⟨by positivity, (div_le_one (by positivity)).mpr (by linarith)⟩,
    ⟨by positivity, (div_le_one (by positivity)).mpr (by linarith)⟩,
    ⟨by positivity, (div_le_one (by positivity)).mpr (by linarith)⟩,
    ⟨by positivity, (div_le_one (by positivity)).mpr (by linarith)⟩,
    ⟨by positivity, (div_lt_one (by positivity)).mpr (by linarith)⟩, ?_, ?_⟩
  · rw [← add_div, div_self (by positivity)]
  · rw [div_eq_one_iff_eq (by positivity)]
    constructor
    · intro h
      have : (y : ℚ) + z = 0 := by linarith
      exact_mod_cast this
    · intro h
      have : (y : ℚ) + z = 0 := by exact_mod_cast h
      linarith

end Skel

/-- The hypotheses are met, and the values are the expected ones. -/
example : (skeletonAccuracy ascending exTrue.nodes exTested.connK exTrue.connK).map
    (fun r => (r.precision, r.recall, r.f1, r.fpr, r.fnr)) = .ok (2/3, 2/3, 2/3, 1/3, 1/3) := by
  decide +kernel

/-- C61 (zero division): the measures of a graph without edges are an error, although recall and rates are defined. -/
theorem C61_skeleton_empty :
    skeletonAccuracy ascending exTrue.nodes (MG.ofEdges {0, 1, 2, 3} [] [] : MG Nat).connK exTrue.connK = .error .zeroDivision := by
  have hT := C61_answers.1 (MG.ofEdges {0, 1, 2, 3} [] [] : MG Nat) exTrue.nodes (MG.ofEdges_wf (by decide)) (by decide)
  have hC := C61_answers.1 exTrue exTrue.nodes exTrue_wf (by decide)
  refine ((C61_skeleton ascending hT hC).2 ?_).1
  rintro ⟨⟨a, _, b, _, _, _, h⟩, _⟩
  simp [MG.PAdj, MG.Arrow, MG.Und, MG.ofEdges] at h

/-! ## Orientation of PAGs -/

/-- C61 (orientation): the orientation correctness is the fraction of the edge marks of the true graph that the tested graph has
too. It is between 0 and 1, and is 1 exactly when the tested graph has all of them. -/
theorem C61_orientation (o : SetOrder α) {T C : MG α} (hC : C.Proper) (hnd : C.types.Nodup)
    (ht : ∀ m ∈ C.types, m ∈ T.types) (hn : C.nodes ⊆ T.nodes) {acc : SkelAcc} {q : ℚ} (hr : pagAccuracy o T C = .ok (acc, q)) :
    skeletonAccuracy o C.nodes T.connK C.connK = .ok acc ∧
    q = (cnt C.nodes (fun a b => ∃ m, C.At a b m ∧ T.At a b m) : ℚ) / cnt C.nodes (fun a b => ∃ m, C.At a b m) ∧
    0 ≤ q ∧ q ≤ 1 ∧ (q = 1 ↔ ∀ a b m, C.At a b m → T.At a b m) := by
  have hadj : cnt C.nodes C.MAdj = cnt C.nodes (fun a b => ∃ m, C.At a b m) := cnt_congr fun a _ b _ _ => by
    refine ⟨fun h => ?_, fun h => Or.inl h⟩
    rcases h with h | ⟨m, h⟩
    · exact h
    · exact hC.both _ _ _ h
  rw [pagAccuracy, py_bind (orient_spec o hC hnd ht hn), hadj] at hr
  obtain ⟨a', ha, hr⟩ := py_bind_ok hr
  obtain ⟨q', hq, hr⟩ := py_bind_ok hr
  cases hr
  refine ⟨ha, ?_⟩
  rw [pyDiv] at hq
  by_cases h0 : ((cnt C.nodes (fun a b => ∃ m, C.At a b m) : ℕ) : ℚ) = 0
  · rw [if_pos h0] at hq; cases hq
  rw [if_neg h0] at hq
  cases hq
  have h0' : (0 : ℚ) < (cnt C.nodes (fun a b => ∃ m, C.At a b m) : ℕ) := lt_of_le_of_ne (Nat.cast_nonneg _) (Ne.symm h0)
  have hsplit : cnt C.nodes (fun a b => ∃ m, C.At a b m) = cnt C.nodes (fun a b => ∃ m, C.At a b m ∧ T.At a b m) +
      cnt C.nodes (fun a b => (∃ m, C.At a b m) ∧ ¬ ∃ m, C.At a b m ∧ T.At a b m) := by
    rw [← cnt_add (fun a b h h' => h'.2 h)]
    refine cnt_congr fun a _ b _ _ => ⟨fun h => ?_, ?_⟩
    · by_cases h' : ∃ m, C.At a b m ∧ T.At a b m
      · exact Or.inl h'
      · exact Or.inr ⟨h, h'⟩
    · rintro (⟨m, h, _⟩ | h)
      · exact ⟨m, h⟩
      · exact h.1
  refine ⟨rfl, div_nonneg (Nat.cast_nonneg _) (Nat.cast_nonneg _), ?_, ?_⟩
  · rw [div_le_one h0', hsplit]
    push_cast
    have := Nat.cast_nonneg (α := ℚ) (cnt C.nodes (fun a b => (∃ m, C.At a b m) ∧ ¬ ∃ m, C.At a b m ∧ T.At a b m))
    linarith
  · rw [div_eq_one_iff_eq h0, Nat.cast_inj]
    have : cnt C.nodes (fun a b => ∃ m, C.At a b m ∧ T.At a b m) = cnt C.nodes (fun a b => ∃ m, C.At a b m) ↔
        cnt C.nodes (fun a b => (∃ m, C.At a b m) ∧ ¬ ∃ m, C.At a b m ∧ T.At a b m) = 0 := by omega
    rw [this, cnt_eq_zero]
    constructor
    · intro h a b m hm
      obtain ⟨ha, hb⟩ := hC.mem a b m hm
      have hab : a ≠ b := by rintro rfl; exact hC.irrefl _ _ hm
      by_contra hT'
      refine h a ha b hb hab ⟨⟨m, hm⟩, ?_⟩
      rintro ⟨m', h1, h2⟩
      rw [hC.one a b m' m h1 hm] at h2
      exact hT' h2
    · rintro h a _ b _ _ ⟨⟨m, hm⟩, h2⟩
      exact h2 ⟨m, hm, h a b m hm⟩

/-- C61 (orientation, when): the measures of a PAG are defined exactly when the skeleton measures are. -/
theorem C61_orientation_ok (o : SetOrder α) {T C : MG α} (hT : T.Proper) (hC : C.Proper) (hnd : C.types.Nodup)
    (ht : ∀ m ∈ C.types, m ∈ T.types) (hn : C.nodes ⊆ T.nodes) :
    (((∃ a b, C.MAdj a b ∧ T.MAdj a b) ∧ ∃ a ∈ C.nodes, ∃ b ∈ C.nodes, a ≠ b ∧ ¬ C.MAdj a b) →
      ∃ r, pagAccuracy o T C = .ok r) ∧
    (¬ ((∃ a b, C.MAdj a b ∧ T.MAdj a b) ∧ ∃ a ∈ C.nodes, ∃ b ∈ C.nodes, a ≠ b ∧ ¬ C.MAdj a b) →
      pagAccuracy o T C = .error .zeroDivision) := by
  have aT := C61_answers.2.1 T C.nodes hT hn
  have aC := C61_answers.2.1 C C.nodes hC (Finset.Subset.refl _)
  obtain ⟨g1, g2⟩ := C61_skeleton o aT aC
  have hmem : ∀ a b, C.MAdj a b → a ∈ C.nodes ∧ b ∈ C.nodes ∧ a ≠ b := by
    rintro a b (⟨m, h⟩ | ⟨m, h⟩)
    · exact ⟨(hC.mem a b m h).1, (hC.mem a b m h).2, by rintro rfl; exact hC.irrefl _ _ h⟩
    · exact ⟨(hC.mem b a m h).2, (hC.mem b a m h).1, by rintro rfl; exact hC.irrefl _ _ h⟩
  have e : (∃ a b, C.MAdj a b ∧ T.MAdj a b) ↔ ∃ a ∈ C.nodes, ∃ b ∈ C.nodes, a ≠ b ∧ C.MAdj a b ∧ T.MAdj a b :=
    ⟨fun ⟨a, b, h⟩ => ⟨a, (hmem a b h.1).1, b, (hmem a b h.1).2.1, (hmem a b h.1).2.2, h⟩, fun ⟨a, _, b, _, _, h⟩ => ⟨a, b, h⟩⟩
  rw [pagAccuracy, py_bind (orient_spec o hC hnd ht hn), e]
  constructor
  · intro h
    obtain ⟨r, hr, -⟩ := g1 h
    simp only
    rw [py_bind hr, pyDiv, if_neg]
    · exact ⟨_, rfl⟩
    · obtain ⟨a, ha, b, hb, hab, h', _⟩ := h.1
      rw [Nat.cast_eq_zero, cnt_eq_zero]
      exact fun h => h a ha b hb hab h'
  · intro h
    rw [(g2 h).1]
    rfl

/-- Two PAGs: `0 o→ 2 ←o 1`, `2 → 3` against `0 o→ 2 o-o 1`, `2 ↔ 3`. -/
def exPagTrue : MG Nat := .ofMarks {0, 1, 2, 3} MG.pagTypes [(0, 2, .arrow), (2, 0, .circle), (1, 2, .arrow), (2, 1, .circle),
  (2, 3, .arrow), (3, 2, .tail)]
def exPagTested : MG Nat := .ofMarks {0, 1, 2, 3} MG.pagTypes [(0, 2, .arrow), (2, 0, .circle), (1, 2, .circle), (2, 1, .circle),
  (2, 3, .arrow), (3, 2, .arrow)]

example : exPagTrue.Proper ∧ exPagTested.Proper ∧ exPagTrue.types.Nodup ∧ exPagTrue.types = exPagTested.types ∧
    (pagAccuracy ascending exPagTested exPagTrue).map (fun r => (r.1.precision, r.2)) = .ok (1, 2/3) :=
  ⟨MG.ofMarks_proper (by decide +kernel), MG.ofMarks_proper (by decide +kernel), by decide, rfl, by decide +kernel⟩

end Verif
