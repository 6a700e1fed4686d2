import Verif.Lemmas.Fci

/-!
# FCI: the whole algorithm; oracles
-/

namespace Verif
open Relation
variable {α : Type}

namespace Dag
variable [DecidableEq α] {D : Dag α}

theorem toMg_arrow {a b : α} : D.toMg.At a b .arrow ↔ D.Edge a b := Iff.rfl

theorem toMg_tail (hD : D.WF) {a b : α} : D.toMg.At a b .tail ↔ D.Edge b a := by
  simp only [toMg, MG.At, Finset.mem_filter, Edge]
  exact ⟨fun h => h.2, fun h => ⟨(hD _ _ h).2, h⟩⟩

theorem toMg_circle {a b : α} : ¬ D.toMg.At a b .circle := by simp [toMg, MG.At]

theorem toMg_adj (hD : D.WF) {a b : α} : D.toMg.MAdj a b ↔ D.Adj a b := by
  constructor
  · rintro (⟨m, h⟩ | ⟨m, h⟩) <;> cases m
    · exact Or.inr ((toMg_tail hD).mp h)
    · exact Or.inl h
    · exact absurd h toMg_circle
    · exact Or.inl ((toMg_tail hD).mp h)
    · exact Or.inr h
    · exact absurd h toMg_circle
  · rintro (h | h)
    · exact Or.inl ⟨.arrow, h⟩
    · exact Or.inr ⟨.arrow, h⟩

theorem toMg_par (hD : D.WF) {a b : α} : D.toMg.Par a b ↔ D.Edge a b :=
  ⟨fun h => h.1, fun h => ⟨h, (toMg_tail hD).mpr h⟩⟩

theorem toMg_ancestral (hD : D.WF) (hac : D.Acyclic) : D.toMg.Ancestral := by
  refine ⟨⟨?_, ?_, ?_, ?_, ?_⟩, fun _ _ => toMg_circle, ?_, ?_⟩
  · intro a b m _; cases m <;> simp [toMg]
  · intro a b m h
    cases m
    · exact (hD _ _ ((toMg_tail hD).mp h)).symm
    · exact hD _ _ h
    · exact absurd h toMg_circle
  · intro a m h
    cases m
    · exact Dag.irrefl hac _ ((toMg_tail hD).mp h)
    · exact Dag.irrefl hac _ h
    · exact toMg_circle h
  · intro a b m m' h h'
    have key : ¬ (D.Edge a b ∧ D.Edge b a) := fun h => Dag.not_edge_of_edge hac h.1 h.2
    cases m <;> cases m' <;> first | rfl | exact absurd h toMg_circle | exact absurd h' toMg_circle | skip
    · exact absurd ⟨h', (toMg_tail hD).mp h⟩ key
    · exact absurd ⟨h, (toMg_tail hD).mp h'⟩ key
  · intro a b m h
    cases m
    · exact ⟨.arrow, (toMg_tail hD).mp h⟩
    · exact ⟨.tail, (toMg_tail hD).mpr h⟩
    · exact absurd h toMg_circle
  · intro a b h h'
    have : TransGen D.Edge b a := TransGen.mono (fun _ _ h => (toMg_par hD).mp h) _ _ h'
    exact hac b (this.tail h)
  · intro a b c h1 h2 _
    exact Dag.not_edge_of_edge hac ((toMg_tail hD).mp h1) ((toMg_tail hD).mp h2)

theorem toMg_msep (hD : D.WF) {i j : α} {Z : Finset α} : D.toMg.MSep i j Z ↔ D.DSeparated i j Z := by
  refine not_congr (exists_congr fun l => ?_)
  have hadj : D.toMg.MAdj = D.Adj := by funext a b; exact propext (toMg_adj hD)
  have hpar : D.toMg.Par = D.Edge := by funext a b; exact propext (toMg_par hD)
  constructor
  · rintro ⟨h1, h2, h3, h4, h5, h6⟩
    rw [hadj] at h4
    rw [hpar] at h5
    exact ⟨h1, h2, h3, h4, h5, h6⟩
  · rintro ⟨h1, h2, h3, h4, h5, h6⟩
    refine ⟨h1, h2, h3, ?_, ?_, h6⟩
    · rw [hadj]; exact h4
    · rw [hpar]; exact h5

end Dag

variable [LinearOrder α]
namespace Fci
open MG

theorem SkInv.sup {ci : CITest α} {G M : MG α} {sep : SepSet α} (hM : M.Proper) (hp : MPerfect ci M)
    (h : SkInv ci M.nodes G sep) {a b : α} (hab : M.MAdj a b) : G.MAdj a b := by
  by_contra hn
  have hne := hM.ne hab
  have hmem := hM.mem_adj hab
  obtain ⟨S, -, l, k, rfl, h2, h3, h4, h5⟩ := h.witness a hmem.1 b hmem.2 hne hn
  rcases h2 with h2 | h2
  · exact ((hp k a b l hmem.1 hmem.2 hne h3 h4 h5).mp h2).not_adj hM hab
  · exact ((hp k b a l hmem.2 hmem.1 hne.symm h4 h3 h5).mp h2).not_adj hM hab.symm

theorem SkInv.sepIn {ci : CITest α} {G M : MG α} {sep : SepSet α} (hp : MPerfect ci M)
    (h : SkInv ci M.nodes G sep) (hadj : ∀ a b, G.MAdj a b ↔ M.MAdj a b) : SepIn sep.get M := by
  intro i hi j hj hij hn S hS
  obtain ⟨S', h1, l, k, rfl, h2, h3, h4, h5⟩ := h.witness i hi j hj hij (fun h => hn ((hadj _ _).mp h))
  rw [hS] at h1
  cases h1
  rcases h2 with h2 | h2
  · exact (hp k i j l hi hj hij h3 h4 h5).mp h2
  · exact ((hp k j i l hj hi hij.symm h4 h3 h5).mp h2).symm

theorem learnStructure_spec (o : SetOrder α) (ci : CITest α) (selection tails : Bool) (N : Finset α) :
    ∃ pc st found, Pc.learnSkeleton o ci true (Pc.init o N) = .ok pc ∧
      learnStructure o ci selection tails N = .ok (st, found) ∧ SkInv ci N st.graph st.sep ∧
      (∀ a b, st.graph.MAdj a b → pc.graph.Und a b) ∧
      (found = true ↔ ∃ a b, pc.graph.Und a b ∧ ¬ st.graph.MAdj a b) ∧
      (∀ x y, st.graph.MAdj x y → ∃ P : Finset α, (∀ v, pc.graph.Und x v → v ∈ P) ∧ ∀ S ⊆ P \ {y}, Dep ci x y S) ∧
      ∀ M, Ancestral M → M.nodes = N → (∀ a b, st.graph.MAdj a b ↔ M.MAdj a b) → SepIn st.sep.get M →
        ArrowsOk st.graph M ∧ (TailsOk tails M → Compatible st.graph M) := by
  obtain ⟨pc, st, p1, p2, p3, p4, p5⟩ := pcSkeleton_spec o ci N
  obtain ⟨G1, g1, g2, -⟩ := pagVStructures_spec o st.sep p3.proper p3.all_types p3.keyG
  have hi1 := p3.same g2.same
  obtain ⟨st', found, r1, r2, r3, r4, r5⟩ := refine_spec o (st := { st with graph := G1 }) hi1
  obtain ⟨H, k1, k2, -, k4⟩ := reorient_spec o st'.sep r2.proper r2.types r2.keyG
  obtain ⟨K, l1, l2, l3, l4⟩ := finalRules_spec o st'.sep selection tails k2.proper (k2.types.trans r2.types)
  have hs := k2.trans l2
  have hpc : ∀ a b, G1.MAdj a b ↔ pc.graph.Und a b := fun a b => (g2.adj a b).trans (p5 a b)
  refine ⟨pc, { st' with graph := K }, found, p1, ?_, r2.same hs, ?_, ?_, ?_, ?_⟩
  · rw [learnStructure, py_bind p2, py_bind g1, py_bind r1]
    simp only
    rw [py_bind k1, py_bind l1]
    rfl
  · intro a b h
    exact (hpc a b).mp (r3 a b ((hs.adj a b).mp h))
  · rw [r4]
    simp only [hpc, hs.adj]
  · intro x y h
    obtain ⟨P, q1, q2⟩ := r5 x y ((hs.adj x y).mp h)
    refine ⟨P, fun v hv => ?_, q2⟩
    have hx := (g2.proper.mem_adj ((hpc _ _).mpr hv))
    obtain ⟨P', q3, -, q4, -⟩ := C48_set o g2.proper (root := x) hx.1
    rw [show G1.createPdsSet o x = .ok P from q1] at q3
    cases q3
    exact q4 v hx.2 ((hpc _ _).mpr hv)
  · intro M hM hn hadj hsep
    have hadj' : ∀ a b, st'.graph.MAdj a b ↔ M.MAdj a b := fun a b => (hs.adj a b).symm.trans (hadj a b)
    have hC := k4 M hM (hn.trans r2.nodes.symm) hadj' hsep
    exact ⟨hC.arrowsOk.congr l3, l4 M hM hC⟩

end Fci
end Verif
