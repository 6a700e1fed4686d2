import Verif.Props.NoColliderLatent
import Verif.Props.OIcdNoCollider

/-!
# Property C92: ordered ICD with hidden variables and without unshielded colliders
-/

namespace Verif
open Relation MG
variable {α : Type} [LinearOrder α]

/-- The observed part of a DAG without unshielded colliders, with the edges directed by a causal order of the observed nodes. -/
theorem OIcd.observed_order {D : Dag α} (o : SetOrder α) (hm : ∀ a b c, D.Edge a b → D.Edge c b → a ≠ c → D.Adj a c) (hD : D.WF)
    (hac : D.Acyclic) {O : Finset α} (hO : O ⊆ D.nodes) {order : List α} (ho : D.CausalOrder O order) {ci : CITest α}
    (hp : Pc.PerfectOn ci D O) :
    ∃ H : Dag α, H.nodes = O ∧ H.WF ∧ H.Acyclic ∧ (∀ a b c, H.Edge a b → H.Edge c b → a ≠ c → H.Adj a c) ∧ Pc.PerfectOn ci H H.nodes ∧
      H.CausalOrder O order ∧ ∀ a b, H.Edge a b ↔ Before order a b ∧ D.Insep O a b := by
  have hi := ho.isOrder
  obtain ⟨st, s1, s2, s3⟩ := C92_icd o (ci := ci) ⟨false, true, true⟩ hD hac hO hp hm
  obtain ⟨-, st', g1, -, -, -, g4⟩ := C74_icd_partial (opts := ⟨false, true, true⟩) hac hp
    (.refl : Icd.Reachable o ci ⟨false, true, true⟩ O (Icd.init o O))
  rw [s1] at g1
  obtain rfl : st = st' := by simpa using g1
  obtain ⟨-, hfound, -⟩ := g4 fun a b h => ((s2 a b).mp h).2.2.2
  obtain ⟨H', rfl, k2, k3, k4, k5, k6⟩ := Dag.NoUCol.observed (fun a b c h => h.2.2.2 (hm a b c h.1 h.2.1 h.2.2.1)) hD hac hO hp
  have hedge : ∀ a b, (Dag.directed H'.nodes order st.graph).Edge a b ↔ Before order a b ∧ D.Insep H'.nodes a b := by
    intro a b
    rw [Dag.directed_edge hi]
    exact ⟨fun h => ⟨h.1, ((s2 a b).mp h.2).2.2.2⟩, fun h => ⟨h.1, (s2 a b).mpr
      ⟨(hi.mem a).mp h.1.mem_left, (hi.mem b).mp h.1.mem_right, h.1.ne hi.nodup, h.2⟩⟩⟩
  have hadj : ∀ a b, (Dag.directed H'.nodes order st.graph).Adj a b ↔ H'.Adj a b := by
    intro a b
    rw [k6, Dag.Adj, hedge, hedge]
    constructor
    · rintro (⟨h1, h2⟩ | ⟨h1, h2⟩)
      · exact ⟨(hi.mem a).mp h1.mem_left, (hi.mem b).mp h1.mem_right, h1.ne hi.nodup, h2⟩
      · exact ⟨(hi.mem a).mp h1.mem_right, (hi.mem b).mp h1.mem_left, (h1.ne hi.nodup).symm, h2.symm hac⟩
    · rintro ⟨h1, h2, h3, h4⟩
      rcases Before.total ((hi.mem a).mpr h1) ((hi.mem b).mpr h2) h3 with h | h
      · exact Or.inl ⟨h, h4⟩
      · exact Or.inr ⟨h, h4.symm hac⟩
  have hback : ∀ a b, Before order a b → ¬ D.DPath b a := fun a b h hp =>
    Before.asymm hi.nodup h (ho.anc b ((hi.mem b).mp h.mem_right) a ((hi.mem a).mp h.mem_left) (h.ne hi.nodup).symm hp)
  have hcol : ∀ a b c, (Dag.directed H'.nodes order st.graph).Edge a b → (Dag.directed H'.nodes order st.graph).Edge c b → a ≠ c →
      (Dag.directed H'.nodes order st.graph).Adj a c := by
    intro a b c h1 h2 hne
    rw [hedge] at h1 h2
    have ha := (hi.mem a).mp h1.1.mem_left
    have hb := (hi.mem b).mp h1.1.mem_right
    have hc := (hi.mem c).mp h2.1.mem_left
    rw [hadj, k6]
    refine ⟨ha, hc, hne, ?_⟩
    by_contra hn
    have := (hfound a ha b hb c hc (h1.1.ne hi.nodup) (h2.1.ne hi.nodup) hne h1.2 h2.2 hn (hback a b h1.1) (hback c b h2.1)).1
    exact absurd (s3 a b _ this) (by decide)
  have hwf : (Dag.directed H'.nodes order st.graph).WF := fun a b h =>
    ⟨(hi.mem a).mp ((hedge a b).mp h).1.mem_left, (hi.mem b).mp ((hedge a b).mp h).1.mem_right⟩
  have hacy := Dag.directed_acyclic (G := st.graph) hi
  refine ⟨Dag.directed H'.nodes order st.graph, rfl, hwf, hacy, hcol, ?_, Dag.directed_order hi, hedge⟩
  refine Pc.Perfect.equivalent k2 k3 k5 ⟨rfl, hwf, hacy, hadj, fun a b c => ⟨fun h => ?_, fun h => ?_⟩⟩
  · exact absurd (hcol a b c h.1 h.2.1 h.2.2.1) h.2.2.2
  · exact absurd (k4 a b c h.1 h.2.1 h.2.2.1) h.2.2.2

/-- C92 (ordered ICD). If in the true DAG two parents of a common child are always adjacent, then for every set of observed variables,
every causal order of them and every test that answers d-separation among them, both variants find, from a new object, exactly the
inseparable pairs, and put an arrowhead at the later node of every edge and nowhere else. `max_cond_size`, if given, must be at least the
number of earlier nodes that are inseparable from a node. -/
theorem C92_ordered_icd (o : SetOrder α) {ci : CITest α} {opts : OIcdOpts α} {D : Dag α} (hD : D.WF) (hac : D.Acyclic)
    {O : Finset α} (hO : O ⊆ D.nodes) (ho : D.CausalOrder O opts.order) (hp : Pc.PerfectOn ci D O) (isLocal : Bool)
    (hcol : ∀ a b c, D.Edge a b → D.Edge c b → a ≠ c → D.Adj a c)
    (hm : ∀ m, opts.maxCond = some m → ∀ v, ∀ S ⊆ O, (∀ u ∈ S, Before opts.order u v ∧ D.Insep O u v) → S.card ≤ m) :
    ∃ st', OIcd.learnStructure o ci opts isLocal ⟨MG.complete O pagTypes .circle, SepSet.init o O, 0, ∅⟩ = .ok st' ∧
      (∀ a b, st'.graph.MAdj a b ↔ a ∈ O ∧ b ∈ O ∧ a ≠ b ∧ D.Insep O a b) ∧
      (∀ a b, st'.graph.At a b .arrow ↔ Before opts.order a b ∧ D.Insep O a b) ∧
      ∀ a b, st'.graph.At a b .tail → st'.graph.At b a .arrow := by
  have hi := ho.isOrder
  obtain ⟨H, rfl, h2, h3, h4, h5, h6, h7⟩ := OIcd.observed_order o hcol hD hac hO ho hp
  obtain ⟨st', k1, -, -, k4, k5, k6⟩ := C81_no_collider_partial o h2 h3 h6 h5 isLocal h4 fun m hmc v =>
    hm m hmc v (H.par v) (fun u hu => (h2 u v hu).1) (fun u hu => (h7 u v).mp hu)
  refine ⟨st', k1, fun a b => ?_, fun a b => (k5 a b).trans (h7 a b), fun a b h => (k5 b a).mpr (k6 a b h)⟩
  rw [k4, Dag.Adj, h7, h7]
  constructor
  · rintro (⟨h1, h2⟩ | ⟨h1, h2⟩)
    · exact ⟨(hi.mem a).mp h1.mem_left, (hi.mem b).mp h1.mem_right, h1.ne hi.nodup, h2⟩
    · exact ⟨(hi.mem a).mp h1.mem_right, (hi.mem b).mp h1.mem_left, (h1.ne hi.nodup).symm, h2.symm hac⟩
  · rintro ⟨h1, h2, h3, h4⟩
    rcases Before.total ((hi.mem a).mpr h1) ((hi.mem b).mpr h2) h3 with h | h
    · exact Or.inl ⟨h, h4⟩
    · exact Or.inr ⟨h, h4.symm hac⟩

/-! ## Example -/

/-- Hypotheses are met with a hidden node: 1 is not observed, its neighbours 0, 2 and 3 are inseparable. -/
example (isLocal : Bool) : ∃ st', OIcd.learnStructure ascending (Pc.dsepTest ascending exTriangles) ⟨[0, 2, 3, 4], true, true, none⟩ isLocal
      ⟨MG.complete {0, 2, 3, 4} pagTypes .circle, SepSet.init ascending {0, 2, 3, 4}, 0, ∅⟩ = .ok st' ∧
    ¬ st'.graph.MAdj 0 4 ∧ ∀ a b, st'.graph.At a b .arrow → Before [0, 2, 3, 4] a b := by
  have key : ∀ b < 5, ∀ a ∈ exTriangles.par b, ∀ c ∈ exTriangles.par b, a ≠ c → a ∈ exTriangles.par c ∨ c ∈ exTriangles.par a := by decide
  have hord : exTriangles.CausalOrder {0, 2, 3, 4} [0, 2, 3, 4] := by
    refine ⟨⟨by decide, fun v => by simp⟩, fun a ha b hb hab hp => ?_⟩
    have key : ∀ a ∈ ({0, 2, 3, 4} : Finset Nat), ∀ b ∈ ({0, 2, 3, 4} : Finset Nat), a < b → Before [0, 2, 3, 4] a b := by decide
    refine key a ha b hb ?_
    rcases reflTransGen_iff_eq_or_transGen.mp hp with e | h'
    · exact absurd e.symm hab
    · exact exDeg_path (fun _ _ h => exTriangles_edge h) h'
  obtain ⟨st', h1, h2, h3, -⟩ := C92_ordered_icd ascending exTriangles_wf exTriangles_acyclic (O := {0, 2, 3, 4}) (by decide)
    (opts := ⟨[0, 2, 3, 4], true, true, none⟩) hord
    (Pc.dsepTest_perfectOn ascending exTriangles_wf exTriangles_acyclic (by decide)) isLocal
    (fun a b c h1 h2 => key b (exTriangles_lt h1) a h1 c h2) (fun m h => by cases h)
  refine ⟨st', h1, fun h => ?_, fun a b h => ((h3 a b).mp h).1⟩
  obtain ⟨b, b1, b2⟩ := Dag.dsep_spec ascending exTriangles_wf exTriangles_acyclic (i := 0) (j := 4) (Z := {3}) (by decide) (by decide) (by decide)
    (by decide) (by decide)
  have : exTriangles.dsep ascending 0 4 {3} = .ok true := by decide +kernel
  rw [this] at b1
  cases b1
  exact ((h2 0 4).mp h).2.2.2 {3} (by decide) (by decide) (by decide) (b2.mp rfl)

end Verif
