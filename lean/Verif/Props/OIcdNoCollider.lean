import Verif.Lemmas.OIcdNoColliderRun
import Verif.Props.OIcdDeg
import Verif.Props.RaiNoCollider

/-!
# C81: ordered ICD on DAGs without latent nodes and unshielded colliders
-/

namespace Verif
open Relation MG
variable {α : Type} [LinearOrder α]

/-- C81 without latent nodes, for a DAG in which any two parents of a node are adjacent: started on a new object, with a causal order and
a test that answers d-separation in the DAG, and no more parents than `max_cond_size`, both variants find all edges and direct them. There
is no bound on the number of parents. -/
theorem C81_no_collider_partial (o : SetOrder α) {ci : CITest α} {opts : OIcdOpts α} {D : Dag α} (hD : D.WF) (hac : D.Acyclic)
    (ho : D.CausalOrder D.nodes opts.order) (hp : Pc.PerfectOn ci D D.nodes) (isLocal : Bool)
    (hcol : ∀ a b c, D.Edge a b → D.Edge c b → a ≠ c → D.Adj a c)
    (hm : ∀ m, opts.maxCond = some m → ∀ v, (D.par v).card ≤ m) :
    ∃ st', OIcd.learnStructure o ci opts isLocal ⟨MG.complete D.nodes pagTypes .circle, SepSet.init o D.nodes, 0, ∅⟩ = .ok st' ∧
      st'.graph.Proper ∧ st'.graph.nodes = D.nodes ∧ (∀ a b, st'.graph.MAdj a b ↔ D.Adj a b) ∧
      (∀ a b, st'.graph.At a b .arrow ↔ D.Edge a b) ∧ ∀ a b, st'.graph.At a b .tail → D.Edge b a := by
  have hcol' : D.NoUCol := fun a b c h => h.2.2.2 (hcol a b c h.1 h.2.1 h.2.2.1)
  refine OIcd.observed_of o hD hac ho hp isLocal fun st' h1 => ?_
  have hfull : ∀ a b, Before opts.order a b → (MG.complete D.nodes pagTypes .circle).MAdj a b := fun a b h =>
    Or.inl ⟨.circle, complete_at.mpr ⟨(ho.isOrder.mem a).mp h.mem_left, (ho.isOrder.mem b).mp h.mem_right, h.ne ho.isOrder.nodup, rfl⟩⟩
  cases isLocal with
  | true =>
    exact OIcd.learnLocal_nc o hcol' hD hac ho hp hm
      (OIcd.init_inv o ci D.nodes opts.order ho.isOrder (1 + opts.order.length)) (by omega) (by omega) rfl hfull h1
  | false =>
    exact OIcd.learnGlobal_nc o hcol' hD hac ho hp hm
      (OIcd.init_inv o ci D.nodes opts.order ho.isOrder (1 + OIcd.sizeBound opts)) (by omega) (by omega) rfl hfull h1

/-! ## Example -/

theorem exTriangles_edge {a b : Nat} (h : exTriangles.Edge a b) : a < b :=
  (by decide : ∀ b < 5, ∀ a ∈ exTriangles.par b, a < b) b (exTriangles_lt h) a h

theorem exTriangles_order : exTriangles.CausalOrder exTriangles.nodes [0, 1, 2, 3, 4] := by
  refine ⟨⟨by decide, fun v => by simp [exTriangles]⟩, fun a ha b hb hab hp => ?_⟩
  have key : ∀ a ∈ exTriangles.nodes, ∀ b ∈ exTriangles.nodes, a < b → Before [0, 1, 2, 3, 4] a b := by decide
  refine key a ha b hb ?_
  rcases reflTransGen_iff_eq_or_transGen.mp hp with e | h'
  · exact absurd e.symm hab
  · exact exDeg_path (fun _ _ h => exTriangles_edge h) h'

/-- Hypotheses are met: two triangles with a common edge, and `max_cond_size` 2. -/
example (isLocal : Bool) : ∃ st', OIcd.learnStructure ascending (Pc.dsepTest ascending exTriangles) ⟨[0, 1, 2, 3, 4], true, true, some 2⟩ isLocal
      ⟨MG.complete exTriangles.nodes pagTypes .circle, SepSet.init ascending exTriangles.nodes, 0, ∅⟩ = .ok st' ∧
    st'.graph.At 1 3 .arrow ∧ ¬ st'.graph.MAdj 0 3 := by
  have key : ∀ b < 5, ∀ a ∈ exTriangles.par b, ∀ c ∈ exTriangles.par b, a ≠ c → a ∈ exTriangles.par c ∨ c ∈ exTriangles.par a := by decide
  have hm : ∀ v, (exTriangles.par v).card ≤ 2 := fun v => by
    by_cases h : v < 5
    · exact (by decide : ∀ v < 5, (exTriangles.par v).card ≤ 2) v h
    · have : exTriangles.par v = ∅ := by
        rcases v with _ | _ | _ | _ | _ | v <;> first | omega | rfl
      simp [this]
  obtain ⟨st', h1, -, -, h2, h3, -⟩ := C81_no_collider_partial ascending exTriangles_wf exTriangles_acyclic
    (opts := ⟨[0, 1, 2, 3, 4], true, true, some 2⟩) exTriangles_order
    (Pc.dsepTest_perfectOn ascending exTriangles_wf exTriangles_acyclic (Finset.Subset.refl _)) isLocal
    (fun a b c h1 h2 => key b (exTriangles_lt h1) a h1 c h2) (fun m h v => by cases h; exact hm v)
  refine ⟨st', h1, (h3 1 3).mpr ?_, fun h => ?_⟩
  · show 1 ∈ exTriangles.par 3
    decide
  · exact absurd ((h2 0 3).mp h) (by simp only [Dag.Adj, Dag.Edge]; decide)

end Verif
