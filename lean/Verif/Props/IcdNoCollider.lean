import Verif.Lemmas.IcdNoCollider
import Verif.Props.IcdDeg
import Verif.Props.RaiNoCollider

/-!
# C74: ICD on DAGs without latent nodes and without unshielded colliders
-/

namespace Verif
open Relation MG
variable {α : Type} [LinearOrder α]

/-- C74 for ICD without latent nodes, with all options, for graphs of all sizes and densities in which parents of a common child are
adjacent: the edges are those of the DAG, and every mark is a circle, as every edge has both directions in the equivalence class. -/
theorem C74_icd_no_collider_partial (o : SetOrder α) {ci : CITest α} (opts : IcdOpts) {D : Dag α} (hD : D.WF) (hac : D.Acyclic)
    (hp : Pc.PerfectOn ci D D.nodes) (hm : ∀ a b c, D.Edge a b → D.Edge c b → a ≠ c → D.Adj a c) :
    ∃ st', Icd.learnStructure o ci opts (Icd.init o D.nodes) = .ok st' ∧ st'.graph.Proper ∧ st'.graph.nodes = D.nodes ∧
      (∀ a b, st'.graph.MAdj a b ↔ D.Adj a b) ∧ ∀ a b m, st'.graph.At a b m → m = .circle := by
  have hm' : D.NoUCol := fun a b c h => h.2.2.2 (hm a b c h.1 h.2.1 h.2.2.1)
  obtain ⟨-, st', g1, k1, k2, k3, -⟩ := C74_icd_partial (opts := opts) hac hp (.refl : Icd.Reachable o ci opts D.nodes (Icd.init o D.nodes))
  obtain ⟨h1, h2⟩ := Icd.loop_ninv hm' hac hD hp o opts _ (Icd.init_ninv o ci D) rfl (Icd.init_inv o ci D.nodes) g1
  refine ⟨st', g1, k1, k2, fun a b => ⟨h2 a b, fun h => ?_⟩, h1⟩
  refine k3 a (h.elim (fun h => (hD _ _ h).1) (fun h => (hD _ _ h).2)) b (h.elim (fun h => (hD _ _ h).2) (fun h => (hD _ _ h).1)) ?_
    (.of_adj hac h)
  rintro rfl
  rcases h with h | h <;> exact hac _ (.single h)

/-- C74, the documented claim about iterations, for these graphs and all values of `r`: after any number of calls of
`learn_structure_iteration`, the graph after the call that reports `r` is `r`-representing. False in general (`C74_representing_fails`). -/
theorem C74_representing_no_collider_partial (o : SetOrder α) {ci : CITest α} (opts : IcdOpts) {D : Dag α} (hD : D.WF) (hac : D.Acyclic)
    (hp : Pc.PerfectOn ci D D.nodes) (hm : ∀ a b c, D.Edge a b → D.Edge c b → a ≠ c → D.Adj a c) {st st' : IcdState α} {d : Bool} {r : Nat}
    (hst : ReflTransGen (fun s s' => ∃ d r, Icd.iteration o ci opts s = .ok (s', d, r)) (Icd.init o D.nodes) st)
    (hrun : Icd.iteration o ci opts st = .ok (st', d, r)) : D.Representing D.nodes r st'.graph := by
  have hm' : D.NoUCol := fun a b c h => h.2.2.2 (hm a b c h.1 h.2.1 h.2.2.1)
  have hdone : ∀ {s : IcdState α} {x}, Icd.iteration o ci opts s = .ok x → s.done = false := by
    intro s x h
    cases hd : s.done with
    | false => rfl
    | true => rw [Icd.iteration, hd] at h; cases h
  obtain ⟨n, hn, hi⟩ : ∃ n, Icd.NInv ci D n st ∧ Fci.SkInv ci D.nodes st.graph st.sep := by
    clear hrun
    induction hst with
    | refl => exact ⟨0, Icd.init_ninv o ci D, Icd.init_inv o ci D.nodes⟩
    | tail _ h ih =>
      obtain ⟨d, r, h⟩ := h
      obtain ⟨n, hn, hi⟩ := ih
      obtain ⟨s, e, i1, -, i3, i4, -⟩ := hn.next hm' hac hD hp o opts (hdone h) hi
      rw [h] at i1
      cases i1
      exact ⟨_, i4, i3⟩
  obtain ⟨s, e, i1, -, i3, i4, -⟩ := hn.next hm' hac hD hp o opts (hdone hrun) hi
  rw [hrun] at i1
  cases i1
  exact i4.representing hac hp

/-- C74 for `find_true_pag` with all nodes observed. -/
theorem C74_no_collider_partial (o : SetOrder α) {D : Dag α} (hD : D.WF) (hac : D.Acyclic)
    (hm : ∀ a b c, D.Edge a b → D.Edge c b → a ≠ c → D.Adj a c) :
    ∃ G, findTruePag o D D.nodes = .ok G ∧ G.Proper ∧ G.nodes = D.nodes ∧ (∀ a b, G.MAdj a b ↔ D.Adj a b) ∧
      ∀ a b m, G.At a b m → m = .circle := by
  obtain ⟨st, h1, h2⟩ := C74_icd_no_collider_partial o ⟨false, true, true⟩ hD hac (Pc.dsepTest_perfectOn o hD hac (Finset.Subset.refl _)) hm
  exact ⟨st.graph, by rw [findTruePag, h1]; rfl, h2⟩

/-- The hypotheses of the theorems are met; in this graph no bound on the number of parents is used. -/
example : (∃ G, findTruePag ascending exTriangles exTriangles.nodes = .ok G ∧ (∀ a b, G.MAdj a b ↔ exTriangles.Adj a b) ∧
    ∀ a b m, G.At a b m → m = .circle) ∧
    ∃ st, Icd.iteration ascending (Pc.dsepTest ascending exTriangles) ⟨true, true, true⟩ (Icd.init ascending exTriangles.nodes) =
      .ok (st, false, 0) ∧ exTriangles.Representing exTriangles.nodes 0 st.graph := by
  have key : ∀ b < 5, ∀ a ∈ exTriangles.par b, ∀ c ∈ exTriangles.par b, a ≠ c → a ∈ exTriangles.par c ∨ c ∈ exTriangles.par a := by decide
  have hm : ∀ a b c, exTriangles.Edge a b → exTriangles.Edge c b → a ≠ c → exTriangles.Adj a c :=
    fun a b c h1 h2 => key b (exTriangles_lt h1) a h1 c h2
  obtain ⟨G, h1, -, -, h2, h3⟩ := C74_no_collider_partial ascending exTriangles_wf exTriangles_acyclic hm
  have hp := Pc.dsepTest_perfectOn ascending exTriangles_wf exTriangles_acyclic (Finset.Subset.refl _)
  obtain ⟨st, d, i1, -, -, -, -, i2, -⟩ := Icd.iteration_spec ascending ⟨true, true, true⟩
    (Icd.init_inv ascending (Pc.dsepTest ascending exTriangles) exTriangles.nodes) rfl
  obtain rfl : d = false := i2 rfl
  exact ⟨⟨G, h1, h2, h3⟩, st, i1, C74_representing_no_collider_partial ascending _ exTriangles_wf exTriangles_acyclic hp hm .refl i1⟩

end Verif
