import Verif.Lemmas.RaiNoCollider
import Verif.Props.Rai
import Verif.Props.Pc

/-!
# C66: RAI finds the CPDAG of every DAG without unshielded colliders
-/

namespace Verif
open Relation
variable {α : Type} [LinearOrder α]

/-- A part of "RAI finds the CPDAG" that holds for graphs of all sizes and densities: if parents of a common child are always adjacent, then with
a test that answers d-separation the result is the CPDAG, whatever the iteration orders. Missing (false in general, see `C66_fails`): graphs with
unshielded colliders. -/
theorem C66_no_collider_partial (o o' : SetOrder α) {ci : CITest α} (overwrite : Bool) {D : Dag α} (hD : D.WF) (hac : D.Acyclic)
    (hp : ∀ k i j l, i ∈ D.nodes → j ∈ D.nodes → i ≠ j → i ∉ l → j ∉ l → (∀ x ∈ l, x ∈ D.nodes) →
      (ci k i j l = true ↔ D.DSeparated i j l.toFinset))
    (hm : ∀ a b c, D.Edge a b → D.Edge c b → a ≠ c → D.Adj a c) :
    ∃ st P, Rai.learnStructure o ci overwrite (Rai.init o D.nodes) = .ok st ∧
      D.convertToCpdag o' [1, 2, 3] (MG.pdagEmpty D.nodes) = .ok P ∧ st.graph.Same P ∧
      (∀ a b, st.graph.PAdj a b ↔ D.Adj a b) ∧ ∀ a b, ¬ st.graph.Arrow a b := by
  have hm' : D.NoUCol := fun a b c h => h.2.2.2 (hm a b c h.1 h.2.1 h.2.2.1)
  obtain ⟨st, h1, h2, h3, h4, h5⟩ := Rai.learnStructure_plain hm' hac hD hp o overwrite
  obtain ⟨P, g1, g2, g3⟩ := Dag.convertToCpdag_spec o' (rules := [1, 2, 3]) (by simp) hD hac
  have hder : ∀ a b, ¬ D.Der a b := by
    intro a b h
    induction h with
    | vs h => exact hm' _ _ _ h
    | r1 _ _ _ _ _ ih => exact ih
    | r2 _ _ _ ih _ => exact ih
    | r3 _ _ _ _ _ _ _ _ ih _ => exact ih
  have hP : ∀ a b, ¬ P.Arrow a b := fun a b h => hder a b (g2.der a b h)
  have hpat : MG.Pat D st.graph := ⟨h3, h2, h4, fun a b h => absurd h (h5 a b)⟩
  refine ⟨st, P, h1, g1, ⟨h3.trans g2.nodes.symm, fun a b => ⟨fun h => absurd h (h5 a b), fun h => absurd h (hP a b)⟩, fun a b => ?_⟩, h4, h5⟩
  rw [← hpat.undOf, ← g2.undOf]
  simp only [Dag.UndOf, h5, hP]

/-- … so RAI and PC return the same graph. -/
theorem C66_no_collider_pc_partial (o o' : SetOrder α) {ci : CITest α} (overwrite overwrite' : Bool) {D : Dag α} (hD : D.WF) (hac : D.Acyclic)
    (hp : ∀ k i j l, i ∈ D.nodes → j ∈ D.nodes → i ≠ j → i ∉ l → j ∉ l → (∀ x ∈ l, x ∈ D.nodes) →
      (ci k i j l = true ↔ D.DSeparated i j l.toFinset))
    (hm : ∀ a b c, D.Edge a b → D.Edge c b → a ≠ c → D.Adj a c) :
    ∃ st st', Rai.learnStructure o ci overwrite (Rai.init o D.nodes) = .ok st ∧
      Pc.learnStructure o' ci overwrite' (Pc.init o' D.nodes) = .ok st' ∧ st.graph.Same st'.graph := by
  obtain ⟨st, P, h1, h2, h3, -⟩ := C66_no_collider_partial o o overwrite hD hac hp hm
  obtain ⟨st', P', g1, g2, g3⟩ := C23_pc_cpdag o' o overwrite' hD hac hp
  rw [h2] at g2
  cases g2
  exact ⟨st, st', h1, g1, h3.nodes.trans g3.nodes.symm, fun a b => (h3.arrow a b).trans (g3.arrow a b).symm,
    fun a b => (h3.und a b).trans (g3.und a b).symm⟩

/-- Two triangles with a common edge and a further node: `0 → 1`, `0 → 2`, `1 → 2`, `1 → 3`, `2 → 3`, `3 → 4`. -/
def exTriangles : Dag Nat := ⟨{0, 1, 2, 3, 4}, fun v => [∅, {0}, {0, 1}, {1, 2}, {3}].getD v ∅⟩

theorem exTriangles_lt {a b : Nat} (h : exTriangles.Edge a b) : b < 5 := by
  by_contra hn
  have : exTriangles.par b = ∅ := by
    rcases b with _ | _ | _ | _ | _ | b <;> first | omega | rfl
  rw [Dag.Edge, this] at h
  simp at h

theorem exTriangles_wf : exTriangles.WF := by
  have key : ∀ b < 5, ∀ a ∈ exTriangles.par b, a ∈ exTriangles.nodes ∧ b ∈ exTriangles.nodes := by decide
  exact fun a b h => key b (exTriangles_lt h) a h

theorem exTriangles_acyclic : exTriangles.Acyclic := by
  obtain ⟨b, h1, h2⟩ := Dag.isAcyclic_spec ascending exTriangles_wf
  have : Dag.isAcyclic ascending exTriangles = .ok true := by decide +kernel
  rw [this] at h1
  cases h1
  exact h2.mp rfl

/-- (example) The hypotheses are met; 0 and 3 are not adjacent and need two conditioning variables. -/
example : (∃ st, Rai.learnStructure ascending (Pc.dsepTest ascending exTriangles) true (Rai.init ascending exTriangles.nodes) = .ok st ∧
    (∀ a b, st.graph.PAdj a b ↔ exTriangles.Adj a b) ∧ ∀ a b, ¬ st.graph.Arrow a b) ∧
    ¬ exTriangles.Adj 0 3 ∧ ¬ exTriangles.DSeparated 0 3 {1} ∧ exTriangles.DSeparated 0 3 {1, 2} := by
  have ho := C22_dsep_oracle ascending exTriangles_wf exTriangles_acyclic
  refine ⟨?_, by simp only [Dag.Adj, Dag.Edge]; decide, fun h => ?_, ?_⟩
  · have key : ∀ b < 5, ∀ a ∈ exTriangles.par b, ∀ c ∈ exTriangles.par b, a ≠ c → a ∈ exTriangles.par c ∨ c ∈ exTriangles.par a := by decide
    obtain ⟨st, P, h1, -, -, h2, h3⟩ := C66_no_collider_partial ascending ascending true exTriangles_wf exTriangles_acyclic ho
      (fun a b c h1 h2 => key b (exTriangles_lt h1) a h1 c h2)
    exact ⟨st, h1, h2, h3⟩
  · have := (ho 0 0 3 [1] (by decide) (by decide) (by decide) (by decide) (by decide) (by decide)).mpr h
    revert this
    decide +kernel
  · exact (ho 0 0 3 [1, 2] (by decide) (by decide) (by decide) (by decide) (by decide) (by decide)).mp (by decide +kernel)

end Verif
