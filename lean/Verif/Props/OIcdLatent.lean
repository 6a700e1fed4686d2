import Verif.Spec.OIcdLatent
import Verif.Props.IcdOne
import Verif.Props.OrderedIcd

/-!
# C81: ordered ICD with a perfect oracle
-/

namespace Verif
open Relation MG
variable {α : Type} [LinearOrder α]

namespace Dag
variable {D : Dag α} {O : Finset α} {order : List α}

omit [LinearOrder α] in
theorem CausalOrder.mag (h : D.CausalOrder O order) : (D.mag O).OrdMarks order := by
  intro a b m hab hm
  cases m with
  | arrow => rfl
  | circle => exact absurd hm mag_circle
  | tail =>
    obtain ⟨h1, h2, h3, -, h5⟩ := mag_tail.mp hm
    exact absurd (h.anc b h3 a h1 h2.symm h5) (hab.asymm h.isOrder.nodup)

end Dag

/-- C81. Ordered ICD with a test that answers d-separation in a DAG, on a subset of the nodes of the DAG (the others are latent) and a
causal order of them: in every state, no pair that cannot be separated has lost its edge; and if the edges left by `learn_structure`
join only such pairs, then all arrowheads are true, all unshielded colliders are found, and (without the tail rules or without
confounded pairs) all tails are true. Missing: that all edges left join such pairs; this is false (`C81_fails`). -/
theorem C81_partial {o : SetOrder α} {ci : CITest α} {opts : OIcdOpts α} {D : Dag α} (hac : D.Acyclic) {O : Finset α}
    (ho : D.CausalOrder O opts.order) (hp : Pc.PerfectOn ci D O) {st : OIcdState α} (h : OIcd.Reachable o ci opts O st) (isLocal : Bool) :
    (∀ a ∈ O, ∀ b ∈ O, a ≠ b → D.Insep O a b → st.graph.MAdj a b) ∧
      ∃ st', OIcd.learnStructure o ci opts isLocal st = .ok st' ∧ st'.graph.Proper ∧ st'.graph.nodes = O ∧
        (∀ a ∈ O, ∀ b ∈ O, a ≠ b → D.Insep O a b → st'.graph.MAdj a b) ∧
        ((∀ a b, st'.graph.MAdj a b → D.Insep O a b) →
          D.ArrowsTrue st'.graph ∧ D.CollidersFound O st'.graph ∧
            (opts.tails = false ∨ D.NoConfounded O → D.TailsTrue st'.graph)) := by
  obtain ⟨h1, st', h2, h3, h4⟩ := C51_oracle (M := D.mag O) ho.isOrder (Dag.mag_ancestral hac) (Dag.mag_perfect hac hp) h isLocal
  obtain ⟨k1, k2, -⟩ := C51_skeleton ho.isOrder (h.tail (Or.inl ⟨isLocal, h2⟩))
  exact ⟨fun a ha b hb hab h => h1 a b ((Dag.mag_adj hac).mpr ⟨ha, hb, hab, h⟩), st', h2, k1, k2,
    fun a ha b hb hab h => h3 a b ((Dag.mag_adj hac).mpr ⟨ha, hb, hab, h⟩), fun hsub => Dag.latent_of hac (h4 ho.mag) k1 k2 hsub⟩

/-- C81 for DAGs and observed sets in which separable pairs are separated by at most one node: `learn_structure` leaves exactly the right
adjacencies, all arrowheads are true, all unshielded colliders are found, and the tails are true under the conditions of
`C81_partial`; unless `max_cond_size` is 0 and the local variant is used. -/
theorem C81_one_partial {o : SetOrder α} {ci : CITest α} {opts : OIcdOpts α} {D : Dag α} (hac : D.Acyclic) {O : Finset α}
    (ho : D.CausalOrder O opts.order) (hp : Pc.PerfectOn ci D O) (hone : D.OneSep O) {st : OIcdState α}
    (h : OIcd.Reachable o ci opts O st) (isLocal : Bool) (hm : isLocal = true → opts.maxCond ≠ some 0) :
    ∃ st', OIcd.learnStructure o ci opts isLocal st = .ok st' ∧ st'.graph.Proper ∧ st'.graph.nodes = O ∧
      (∀ a b, st'.graph.MAdj a b ↔ a ∈ O ∧ b ∈ O ∧ a ≠ b ∧ D.Insep O a b) ∧
      D.ArrowsTrue st'.graph ∧ D.CollidersFound O st'.graph ∧ (opts.tails = false ∨ D.NoConfounded O → D.TailsTrue st'.graph) := by
  obtain ⟨-, st', h1, k1, k2, k3, k4⟩ := C81_partial hac ho hp h isLocal
  have later : ∀ a b, Before opts.order a b → st'.graph.MAdj a b → D.Insep O a b := by
    intro a b hab hadj
    have ha : a ∈ O := (ho.isOrder.mem a).mp hab.mem_left
    have hb : b ∈ O := (ho.isOrder.mem b).mp hab.mem_right
    have hne := hab.ne ho.isOrder.nodup
    obtain ⟨t0, t1⟩ := C51_tested ho.isOrder h h1 hab hadj
    have h0 : ¬ D.DSeparated b a ∅ := Dag.dep_of hac hp hb ha hne.symm (by simp) (by simp) (by simp) (Or.inr t0)
    by_contra hn
    obtain ⟨S, s1, s2, s3, s4, s5⟩ := hone a ha b hb hne hn
    have s5 := (Dag.dseparated_symm hac).mp s5
    have hz : ∃ z ∈ O, b ≠ z ∧ a ≠ z ∧ D.DSeparated b a {z} := by
      rcases Nat.lt_or_ge S.card 1 with hc | hc
      · rw [Finset.card_eq_zero.mp (by omega : S.card = 0)] at s5
        exact absurd s5 h0
      · obtain ⟨z, rfl⟩ := Finset.card_eq_one.mp (by omega : S.card = 1)
        exact ⟨z, s1 (by simp), fun e => s4 (by simp [e]), fun e => s3 (by simp [e]), s5⟩
    obtain ⟨z, z1, z2, z3, z4, z5, z6⟩ := Dag.DSeparated.closest hac h0 hz
    -- the pair `b`, `z` cannot be separated, so `z` stays a neighbour of `b`
    have hbz : D.Insep O b z := by
      by_contra hn'
      obtain ⟨T, t1, t2, t3, t4, t5⟩ := hone b hb z z1 z2 hn'
      rcases Nat.lt_or_ge T.card 1 with hc | hc
      · rw [Finset.card_eq_zero.mp (by omega : T.card = 0)] at t5
        exact z5 t5
      · obtain ⟨w, rfl⟩ := Finset.card_eq_one.mp (by omega : T.card = 1)
        exact z6 w (t1 (by simp)) (fun e => t3 (by simp [e])) (fun e => t4 (by simp [e])) t5
    -- it is an ancestor of one of the two, so it is before `b`
    have hbef : Before opts.order z b := by
      rcases Dag.anc_of_needed hac z4 h0 with hd | hd
      · exact ho.anc z z1 b hb z2.symm hd
      · exact (ho.anc z z1 a ha z3.symm hd).trans ho.isOrder.nodup hab
    exact Dag.dep_of hac hp hb ha hne.symm (by simpa using z2) (by simpa using z3) (by simpa using z1)
      (Or.inr (t1 hm z hbef (fun e => z3 e.symm) (k3 b hb z z1 z2 hbz))) z4
  have hins : ∀ a b, st'.graph.MAdj a b → D.Insep O a b := by
    intro a b hab
    have hmem : a ∈ O ∧ b ∈ O := by rw [← k2]; exact k1.mem_adj hab
    rcases Before.total ((ho.isOrder.mem a).mpr hmem.1) ((ho.isOrder.mem b).mpr hmem.2) (k1.ne hab) with hb | hb
    · exact later a b hb hab
    · exact (later b a hb hab.symm).symm hac
  refine ⟨st', h1, k1, k2, fun a b => ⟨fun h => ?_, fun h => k3 a h.1 b h.2.1 h.2.2.1 h.2.2.2⟩, k4 hins⟩
  have := k1.mem_adj h
  rw [k2] at this
  exact ⟨this.1, this.2, k1.ne h, hins a b h⟩

/-! ## A polytree with a latent node -/

theorem exPoly_order : exPoly.CausalOrder {0, 1, 3, 4} [0, 4, 1, 3] := by
  refine ⟨⟨by decide, fun v => by simp; tauto⟩, fun a ha b hb hab h => ?_⟩
  have hstep : ∃ c, exPoly.Edge a c ∧ exPoly.DPath c b := by
    rcases ReflTransGen.cases_head h with e | h
    · exact absurd e hab
    · exact h
  obtain ⟨c, h1, h2⟩ := hstep
  have hc : c = b := by
    rcases ReflTransGen.cases_head h2 with e | ⟨d, h3, -⟩
    · exact e
    · have e1 := exPoly_edge h1
      have e2 := exPoly_edge h3
      simp only [List.mem_cons, Prod.mk.injEq, List.not_mem_nil, or_false] at e1 e2
      omega
  subst hc
  have e1 := exPoly_edge h1
  simp only [List.mem_cons, Prod.mk.injEq, List.not_mem_nil, or_false] at e1
  rcases e1 with ⟨rfl, rfl⟩ | ⟨rfl, rfl⟩ | ⟨rfl, rfl⟩ | ⟨rfl, rfl⟩
  · decide
  · simp at ha
  · simp at ha
  · decide

example (isLocal : Bool) := C81_one_partial (o := ascending) (opts := ⟨[0, 4, 1, 3], true, true, none⟩) exPoly_acyclic exPoly_order
  (Pc.dsepTest_perfectOn ascending exPoly_wf exPoly_acyclic (by decide)) (exPoly_polytree.oneSep _) .refl isLocal (by simp)

/-! ## The witness -/

/-- The DAG `0 → 1 → 4`, `0 → 3 ← 2` with the confounders `5` of `1`, `2` and `6` of `2`, `4`. -/
def exB : Dag Nat := ⟨{0, 1, 2, 3, 4, 5, 6}, fun v => [∅, {0, 5}, {5, 6}, {0, 2}, {1, 6}, ∅, ∅].getD v ∅⟩

theorem exB_wf : exB.WF := by
  intro a b h
  have hb : b < 7 := by
    by_contra hn
    have : exB.par b = ∅ := by
      rcases b with _ | _ | _ | _ | _ | _ | _ | b <;> first | omega | rfl
    rw [this] at h
    simp at h
  have key : ∀ b < 7, ∀ a ∈ exB.par b, a ∈ exB.nodes ∧ b ∈ exB.nodes := by decide
  exact key b hb a h

theorem exB_acyclic : exB.Acyclic := by
  obtain ⟨b, h1, h2⟩ := Dag.isAcyclic_spec ascending exB_wf
  have : Dag.isAcyclic ascending exB = .ok true := by decide +kernel
  rw [this] at h1
  cases h1
  exact h2.mp rfl

/-- The nodes 0, …, 4 are observed. -/
def exBObs : Finset Nat := {0, 1, 2, 3, 4}

theorem exB_order : exB.CausalOrder exBObs [0, 1, 2, 3, 4] := by
  have hlt : ∀ a b, exB.DPath a b → (if a < 5 then a + 2 else a - 5) ≤ (if b < 5 then b + 2 else b - 5) := by
    intro a b h
    induction h with
    | refl => exact le_rfl
    | @tail c d _ h ih =>
      have : ∀ d ∈ exB.nodes, ∀ c ∈ exB.par d, (if c < 5 then c + 2 else c - 5) ≤ (if d < 5 then d + 2 else d - 5) := by decide
      exact ih.trans (this d (exB_wf c d h).2 c h)
  refine ⟨⟨by decide, fun v => by simp [exBObs]⟩, fun a ha b hb hab h => ?_⟩
  have h1 := hlt a b h
  have key : ∀ a ∈ exBObs, ∀ b ∈ exBObs, a < b → Before [0, 1, 2, 3, 4] a b := by decide
  have small : ∀ a ∈ exBObs, a < 5 := by decide
  rw [if_pos (small a ha), if_pos (small b hb)] at h1
  exact key a ha b hb (by omega)

/-- The d-separation oracle for `exB`. -/
abbrev exBTest : CITest Nat := Pc.dsepTest ascending exB

/-- Default options with the order 0, …, 4. -/
def exBOpts : OIcdOpts Nat := ⟨[0, 1, 2, 3, 4], true, true, none⟩

theorem exB_sep : exB.DSeparated 3 4 {0, 2} :=
  (C22_dsep_oracle ascending exB_wf exB_acyclic 0 3 4 [0, 2] (by decide) (by decide) (by decide) (by decide) (by decide)
    (by decide)).mp (by decide +kernel)

/-- Ordered ICD started on the complete graph over the observed nodes of `exB`. -/
abbrev exBRun (isLocal : Bool) : Py (OIcdState Nat) := OIcd.learnStructure ascending exBTest exBOpts isLocal
  ⟨MG.complete exBObs pagTypes .circle, SepSet.init ascending exBObs, 0, ∅⟩

theorem exB_local : (exBRun true).okWith (fun st => decide (4 ∈ st.graph.g 3 .arrow ∧ 3 ∈ st.graph.g 4 .arrow)) = true := by
  decide +kernel

theorem exB_global : (exBRun false).okWith (fun st => decide (4 ∈ st.graph.g 3 .arrow ∧ 3 ∈ st.graph.g 4 .arrow)) = true := by
  decide +kernel

/-- C81, the disagreement: with a test that answers d-separation in a DAG with two latent variables and a causal order of the observed
nodes, both variants of ordered ICD return a graph with the edge `3 <-> 4`, although `{0, 2}` separates 3 and 4 (and neither is an
ancestor of the other): for a pair only the tree of the node that comes later is searched. -/
theorem C81_fails : exB.WF ∧ exB.Acyclic ∧ exB.CausalOrder exBObs exBOpts.order ∧ Pc.PerfectOn exBTest exB exBObs ∧
    exB.DSeparated 3 4 {0, 2} ∧ ∀ isLocal, ∃ st', exBRun isLocal = .ok st' ∧ st'.graph.At 3 4 .arrow ∧ st'.graph.At 4 3 .arrow := by
  refine ⟨exB_wf, exB_acyclic, exB_order, Pc.dsepTest_perfectOn ascending exB_wf exB_acyclic (by decide), exB_sep, fun isLocal => ?_⟩
  · have h : (exBRun isLocal).okWith (fun st => decide (4 ∈ st.graph.g 3 .arrow ∧ 3 ∈ st.graph.g 4 .arrow)) = true := by
      cases isLocal
      · exact exB_global
      · exact exB_local
    obtain ⟨st', h1, h2⟩ := Py.okWith_iff h
    have h2 := of_decide_eq_true h2
    exact ⟨st', h1, h2.2, h2.1⟩

end Verif
