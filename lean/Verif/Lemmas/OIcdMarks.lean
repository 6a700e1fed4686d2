import Verif.Lemmas.OIcdKeep
import Verif.Lemmas.OIcdRun
import Verif.Lemmas.AnytimeRun
import Verif.Spec.OIcdLatent

/-!
# Ordered ICD: true marks between the passes
-/

namespace Verif
open Relation MG
variable {α : Type} [LinearOrder α] {D : Dag α}

namespace Dag

omit [LinearOrder α] in
theorem Linked.symm (hac : D.Acyclic) {S : Finset α} {u v : α} (h : D.Linked S u v) : D.Linked S v u := by
  have e : D.linkSet S v u = D.linkSet S u v := by
    classical
    ext x
    rw [linkSet_spec, linkSet_spec, Anc, Anc]
    tauto
  rw [Linked, e]
  exact fun h' => h ((dseparated_symm hac).mp h')

omit [LinearOrder α] in
theorem Linked.of_adj (hac : D.Acyclic) {S : Finset α} {u v : α} (h : D.Adj u v) : D.Linked S u v := not_dseparated_of_adj hac h

omit [LinearOrder α] in
theorem SepFacts.symm (hac : D.Acyclic) {G : MG α} {a c : α} {S : Finset α} (h : SepFacts D G a c S) : SepFacts D G c a S where
  left := h.right
  right := h.left
  sep := (dseparated_symm hac).mp h.sep
  anc z hz := (h.anc z hz).imp Or.symm fun h' u hu hA => h' u hu hA.symm
  link u v huv hu hv := h.link u v huv hu.symm hv.symm

variable {O : Finset α} {order : List α}

omit [LinearOrder α] in
theorem CausalOrder.anc_before (ho : D.CausalOrder O order) {a c u : α} (hac : Before order a c) (hu : u ∈ O) (h : D.Anc a c u) :
    u = c ∨ Before order u c := by
  have ha := (ho.isOrder.mem a).mp hac.mem_left
  have hc := (ho.isOrder.mem c).mp hac.mem_right
  rcases h with h | h
  · by_cases e : u = a
    · exact Or.inr (e ▸ hac)
    · exact Or.inr ((ho.anc u hu a ha e h).trans ho.isOrder.nodup hac)
  · by_cases e : u = c
    · exact Or.inl e
    · exact Or.inr (ho.anc u hu c hc e h)

omit [LinearOrder α] in
theorem CausalOrder.not_anc (ho : D.CausalOrder O order) {a b : α} (hab : Before order a b) : ¬ D.DPath b a := fun h =>
  hab.asymm ho.isOrder.nodup (ho.anc b ((ho.isOrder.mem b).mp hab.mem_right) a ((ho.isOrder.mem a).mp hab.mem_left)
    (hab.ne ho.isOrder.nodup).symm h)

/-- Recorded sets separate. -/
theorem sep_of_witness (hac : D.Acyclic) {ci : CITest α} (hp : Pc.PerfectOn ci D O) {i j : α} (hi : i ∈ O) (hj : j ∈ O) (hij : i ≠ j)
    {S : Finset α} (h : Pc.Witness ci O i j S) : S ⊆ O ∧ i ∉ S ∧ j ∉ S ∧ D.DSeparated i j S := by
  obtain ⟨l, k, rfl, h1, h2, h3, h4⟩ := h
  refine ⟨fun x hx => h4 x (by simpa using hx), by simpa using h2, by simpa using h3, ?_⟩
  rcases h1 with h | h
  · exact (hp k i j l hi hj hij h2 h3 h4).mp h
  · exact (dseparated_symm hac).mpr ((hp k j i l hj hi hij.symm h3 h2 h4).mp h)

omit [LinearOrder α] in
/-- A set that is as small as possible consists of ancestors. -/
theorem anc_of_smallest (hac : D.Acyclic) {a c : α} {S : Finset α} (h1 : a ∉ S) (h2 : c ∉ S) (h : D.DSeparated a c S)
    (hS : ∀ T ⊆ S, T.card < S.card → ¬ D.DSeparated a c T) : ∀ z ∈ S, D.Anc a c z := by
  classical
  intro z hz
  by_contra hA
  have hT : ∀ x, x ∈ S.filter (fun x => D.Anc a c x) ↔ x ∈ S ∧ D.Anc a c x := fun x => by simp
  exact hS _ (Finset.filter_subset _ S) (Finset.card_lt_card ⟨Finset.filter_subset _ S, fun h => hA ((hT z).mp (h hz)).2⟩)
    (h.ancestors hac h1 h2 hT)

end Dag

namespace OIcd
variable {O : Finset α} {order : List α} {ci : CITest α} {k : Nat} {T0 T1 : α → Prop} {st : OIcdState α}

/-- The recorded set of a pair that is not adjacent. -/
theorem Inv.sepOf (h : Inv ci O order k T0 T1 st) (hac : D.Acyclic) (ho : D.CausalOrder O order) (hp : Pc.PerfectOn ci D O) {a c : α}
    (hb : Before order a c) (hn : ¬ st.graph.MAdj a c) : ∃ S, st.sep.get a c = .ok S ∧ S ⊆ O ∧ a ∉ S ∧ c ∉ S ∧ D.DSeparated a c S ∧
      (∀ v ∈ S, Before order v c) ∧ S.card ≤ k := by
  have ha := (ho.isOrder.mem a).mp hb.mem_left
  have hc := (ho.isOrder.mem c).mp hb.mem_right
  obtain ⟨S, s1, s2⟩ := h.inv.witness a ha c hc (hb.ne ho.isOrder.nodup) hn
  obtain ⟨S', s3, s4⟩ := h.sets a c hb hn
  rw [s1] at s3
  cases s3
  obtain ⟨p1, p2, p3, p4⟩ := Dag.sep_of_witness hac hp ha hc (hb.ne ho.isOrder.nodup) s2
  exact ⟨S, s1, p1, p2, p3, p4, s4⟩

/-- Pairs that are adjacent in the DAG stay adjacent. -/
theorem Inv.keeps (h : Inv ci O order k T0 T1 st) (hac : D.Acyclic) (hp : Pc.PerfectOn ci D O) {a b : α} (ha : a ∈ O) (hb : b ∈ O)
    (hab : D.Adj a b) : st.graph.MAdj a b := by
  by_contra hn
  have hne : a ≠ b := by
    rintro rfl
    rcases hab with h | h <;> exact hac _ (.single h)
  obtain ⟨S, -, s2⟩ := h.inv.witness a ha b hb hne hn
  exact Dag.not_dseparated_of_adj hac hab (Dag.sep_of_witness hac hp ha hb hne s2).2.2.2

/-- After the tests with one node, pairs with the base node that are still adjacent are not separated by one node or none. -/
theorem Inv.repOne (h : Inv ci O order k T0 T1 st) (hac : D.Acyclic) (ho : D.CausalOrder O order) (hp : Pc.PerfectOn ci D O) {b : α}
    (t0 : T0 b) (t1 : T1 b)
    (hs : ∀ z, Before order z b → ¬ st.graph.MAdj z b → ∃ S, st.sep.get z b = .ok S ∧ S.card ≤ 1) {a : α} (hab : Before order a b)
    (hadj : st.graph.MAdj a b) {S : Finset α} (hS : S ⊆ O) (hc : S.card ≤ 1) (h1 : a ∉ S) (h2 : b ∉ S) : ¬ D.DSeparated a b S := by
  intro hsep
  have ha := (ho.isOrder.mem a).mp hab.mem_left
  have hb := (ho.isOrder.mem b).mp hab.mem_right
  have hne := hab.ne ho.isOrder.nodup
  have h0 : ¬ D.DSeparated b a ∅ := Dag.dep_of hac hp hb ha hne.symm (by simp) (by simp) (by simp) (Or.inr (h.dep0 a b hab t0 hadj))
  have hsep := (Dag.dseparated_symm hac).mp hsep
  have hz : ∃ z ∈ O, b ≠ z ∧ a ≠ z ∧ D.DSeparated b a {z} := by
    rcases Nat.lt_or_ge S.card 1 with h' | h'
    · rw [Finset.card_eq_zero.mp (by omega : S.card = 0)] at hsep
      exact absurd hsep h0
    · obtain ⟨z, rfl⟩ := Finset.card_eq_one.mp (by omega : S.card = 1)
      exact ⟨z, hS (by simp), fun e => h2 (by simp [e]), fun e => h1 (by simp [e]), hsep⟩
  obtain ⟨z, z1, z2, z3, z4, z5, z6⟩ := Dag.DSeparated.closest hac h0 hz
  have hbef : Before order z b := by
    rcases Dag.anc_of_needed hac z4 h0 with hd | hd
    · exact ho.anc z z1 b hb z2.symm hd
    · exact (ho.anc z z1 a ha z3.symm hd).trans ho.isOrder.nodup hab
  have hbz : st.graph.MAdj z b := by
    by_contra hn
    obtain ⟨T, t1, t2⟩ := hs z hbef hn
    obtain ⟨T', u1, u2, u3, u4, u5, -⟩ := h.sepOf hac ho hp hbef hn
    rw [t1] at u1
    cases u1
    have u5 := (Dag.dseparated_symm hac).mp u5
    rcases Nat.lt_or_ge T.card 1 with h' | h'
    · rw [Finset.card_eq_zero.mp (by omega : T.card = 0)] at u5
      exact z5 u5
    · obtain ⟨w, rfl⟩ := Finset.card_eq_one.mp (by omega : T.card = 1)
      exact z6 w (u2 (by simp)) (fun e => u4 (by simp [e])) (fun e => u3 (by simp [e])) u5
  exact Dag.dep_of hac hp hb ha hne.symm (by simpa using z2) (by simpa using z3) (by simpa using z1)
    (Or.inr (h.dep1 a b z hab hbef (fun e => z3 e.symm) t1 hadj hbz.symm)) z4

/-- It suffices to look at ordered pairs. -/
theorem sepOk_of (hac : D.Acyclic) (ho : D.CausalOrder O order) {G : MG α} {sep : SepSet α} (hG : G.Proper) (hn : G.nodes = O)
    (h : ∀ a c, Before order a c → ¬ G.MAdj a c → ∃ S, sep.get a c = .ok S ∧ a ∉ S ∧ c ∉ S ∧ D.DSeparated a c S ∧
      (∀ z ∈ S, D.Anc a c z ∨ ∀ u, G.MAdj z u → D.Anc a c u → D.Adj z u) ∧
      ∀ u v, Before order u v → G.MAdj u v → D.Anc a c u → D.Anc a c v → D.Linked S u v) : SepOk D sep.get G := by
  have hf : ∀ a c, Before order a c → ¬ G.MAdj a c → ∃ S, sep.get a c = .ok S ∧ Dag.SepFacts D G a c S := by
    intro a c hb hna
    obtain ⟨S, s1, s2, s3, s4, s5, s6⟩ := h a c hb hna
    refine ⟨S, s1, s2, s3, s4, s5, fun u v huv hu hv => ?_⟩
    have hm := hG.mem_adj huv
    rw [hn] at hm
    rcases Before.total ((ho.isOrder.mem u).mpr hm.1) ((ho.isOrder.mem v).mpr hm.2) (hG.ne huv) with hb | hb
    · exact s6 u v hb huv hu hv
    · exact (s6 v u hb huv.symm hv hu).symm hac
  refine ⟨fun a c => sep.get_comm a c, fun a ha c hc hne hna => ?_⟩
  rw [hn] at ha hc
  rcases Before.total ((ho.isOrder.mem a).mpr ha) ((ho.isOrder.mem c).mpr hc) hne with hb | hb
  · exact hf a c hb hna
  · obtain ⟨S, s1, s2⟩ := hf c a hb (fun h => hna h.symm)
    exact ⟨S, by rw [SepSet.get_comm]; exact s1, s2.symm hac⟩

/-- The marks written by `orient_graph` are true. -/
theorem orient_true (o : SetOrder α) {opts : OIcdOpts α} (hac : D.Acyclic) (ho : D.CausalOrder O opts.order) (anytime : Bool)
    (h : Fci.SkInv ci O st.graph st.sep) (hs : SepOk D st.sep.get st.graph) {st' : OIcdState α}
    (hrun : orient o opts anytime st = .ok st') :
    D.ArrowsTrue st'.graph ∧ (anytime = true ∨ opts.tails = false → D.TailsTrue st'.graph) := by
  obtain ⟨G1, g1, g2, g3, g4⟩ := reset_spec ho.isOrder.nodup h.proper h.all_types
  have h1 := h.same g2
  have hmark : ∀ a b m, G1.At a b m → (m = .arrow ∧ Before opts.order a b) ∨ m = .circle := by
    intro a b m hab
    have hm := h1.proper.mem _ _ _ hab
    rw [h1.nodes] at hm
    have hne : a ≠ b := by
      rintro rfl
      exact h1.proper.irrefl _ _ hab
    rcases Before.total ((ho.isOrder.mem a).mpr hm.1) ((ho.isOrder.mem b).mpr hm.2) hne with hb | hb
    · exact Or.inl ⟨g3 a b m hb hab, hb⟩
    · exact Or.inr (g4 b a m hab hb)
  have hok : SepOk D st.sep.get G1 := hs.congr g2.nodes g2.adj
  obtain ⟨G2, H, k1, k2, k3, k4⟩ := Fci.orient_marks hac o (rules := [1, 2, 3, 4]) h1.proper h1.all_types h1.keyG hok
    (fun a b hab => by
      rcases hmark a b _ hab with ⟨-, hb⟩ | e
      · exact ho.not_anc hb
      · exact absurd e (by simp))
    (fun a b hab => by
      rcases hmark a b _ hab with ⟨e, -⟩ | e <;> exact absurd e (by simp))
    (by decide) (by decide)
  rw [orient, py_bind g1, py_bind k1, py_bind k2] at hrun
  cases anytime with
  | true =>
    cases hrun
    exact ⟨k4.arrows, fun _ => k4.tails⟩
  | false =>
    obtain ⟨K, l1, l2, l3, -⟩ := Fci.finalRules_spec o st.sep opts.selection opts.tails k3.proper (k3.types.trans h1.types)
    simp only [Bool.false_eq_true, if_false] at hrun
    rw [py_bind l1] at hrun
    cases hrun
    refine ⟨fun a b hab => k4.arrows a b ((l3 a b).mp hab), fun ht => ?_⟩
    rw [ht.resolve_left (by simp)] at l1
    exact (Fci.finalRules_marks hac o k3.proper (k3.types.trans h1.types) (hok.congr k3.nodes k3.adj) k4 l1).tails

/-- The pairs with another later node than `b` are unchanged. -/
structure Keep (order : List α) (b : α) (st st' : OIcdState α) : Prop where
  sub : AdjSub st'.graph st.graph
  keep : ∀ c d, Before order c d → d ≠ b → ¬ st'.graph.MAdj c d → ¬ st.graph.MAdj c d ∧ st'.sep.get c d = st.sep.get c d

theorem Keep.trans {b : α} {s1 s2 s3 : OIcdState α} (h1 : Keep order b s1 s2) (h2 : Keep order b s2 s3) : Keep order b s1 s3 :=
  ⟨h2.sub.trans h1.sub, fun c d hcd hne hn => by
    obtain ⟨k1, k2⟩ := h2.keep c d hcd hne hn
    obtain ⟨k3, k4⟩ := h1.keep c d hcd hne k1
    exact ⟨k3, k2.trans k4⟩⟩

theorem Rec.keepOf {b : α} {C : Finset α → Prop} {s1 s2 : OIcdState α} (h : Rec order b C s1 s2) : Keep order b s1 s2 :=
  ⟨h.1, fun c d hcd hne hn => (h.2 c d hcd hn).resolve_right fun h' => hne h'.1⟩

/-- The recorded set of the pair has at most one element, and one only if necessary. -/
def Small (D : Dag α) (st : OIcdState α) (c d : α) : Prop :=
  ∃ S, st.sep.get c d = .ok S ∧ (S = ∅ ∨ ∃ z, S = {z} ∧ ¬ D.DSeparated c d ∅)

theorem Small.card {c d : α} (h : Small D st c d) : ∃ S, st.sep.get c d = .ok S ∧ S.card ≤ 1 := by
  obtain ⟨S, s1, rfl | ⟨z, rfl, -⟩⟩ := h
  · exact ⟨_, s1, by simp⟩
  · exact ⟨_, s1, by simp⟩

/-- The tests of a base node without conditioning and with one conditioning node. -/
theorem base01 (o : SetOrder α) {opts : OIcdOpts α} (hac : D.Acyclic) (ho : D.CausalOrder O opts.order) (hp : Pc.PerfectOn ci D O)
    (h : Inv ci O opts.order k T0 T1 st) (hk : 1 ≤ k) {i : Nat} {b : α} (hi : opts.order[i]? = some b) {P : α → Prop}
    (hf : Fresh opts.order P st) (hall : ∀ a, Before opts.order a b → st.graph.MAdj a b) :
    ∃ s1 s2, phase0 ci opts.order i st = .ok s1 ∧ orient o opts true s1 = .ok s2 ∧ Inv ci O opts.order k (fun x => x = b ∨ T0 x) T1 s2 ∧
      Fresh opts.order P s2 ∧ Keep opts.order b st s2 ∧ (∀ a, Before opts.order a b → ¬ s2.graph.MAdj a b → s2.sep.get a b = .ok ∅) ∧
      ∃ s3, phase1 o ci opts.order i s2 = .ok s3 ∧ Inv ci O opts.order k (fun x => x = b ∨ T0 x) (fun x => x = b ∨ T1 x) s3 ∧
        Fresh opts.order P s3 ∧ Keep opts.order b st s3 ∧ ∀ a, Before opts.order a b → ¬ s3.graph.MAdj a b → Small D s3 a b := by
  have hd := ho.isOrder.nodup
  obtain ⟨s1, a1, a2, -⟩ := phase0_spec h hd hi
  obtain ⟨a3, a4⟩ := phase0_rec h hd hf hi a1
  obtain ⟨G, b1, b2, -⟩ := orient_spec o hd (fun v hv => (ho.isOrder.mem v).mpr hv) true a2.inv
  have c2 := a2.same b2
  have hf2 : Fresh opts.order P { s1 with graph := G } := fun c d h1 h2 h3 h4 => a4 c d h1 h2 h3 ((b2.adj c d).mp h4)
  have k2 : Keep opts.order b st { s1 with graph := G } := a3.keepOf.trans
    ⟨fun c d h => (b2.adj c d).mp h, fun c d _ _ hn => ⟨fun h => hn ((b2.adj c d).mpr h), rfl⟩⟩
  have m2 : ∀ a, Before opts.order a b → ¬ G.MAdj a b → s1.sep.get a b = .ok ∅ := by
    intro a hab hn
    rcases a3.2 a b hab (fun h => hn ((b2.adj a b).mpr h)) with ⟨g1, -⟩ | ⟨-, -, S, g2, rfl⟩
    · exact absurd (hall a hab) g1
    · exact g2
  obtain ⟨s3, d1, d2, -⟩ := phase1_spec o c2 hd (fun v hv => (ho.isOrder.mem v).mp hv) hi hk
  obtain ⟨d3, d4⟩ := phase1_rec o c2.inv.proper hd hf2 hi d1
  refine ⟨s1, _, a1, b1, c2, hf2, k2, m2, s3, d1, d2, d4, k2.trans d3.keepOf, fun a hab hn => ?_⟩
  rcases d3.2 a b hab hn with ⟨g1, g2⟩ | ⟨-, g1, S, g2, z, rfl⟩
  · exact ⟨∅, g2.trans (m2 a hab g1), Or.inl rfl⟩
  · refine ⟨{z}, g2, Or.inr ⟨z, rfl, ?_⟩⟩
    exact Dag.dep_of hac hp ((ho.isOrder.mem a).mp hab.mem_left) ((ho.isOrder.mem b).mp hab.mem_right) (hab.ne hd) (by simp) (by simp)
      (by simp) (Or.inl (c2.dep0 a b hab (Or.inl rfl) g1))

/-- Members of small recorded sets are ancestors. -/
theorem Small.anc (hac : D.Acyclic) {c d : α} (h : Small D st c d) {S : Finset α} (hS : st.sep.get c d = .ok S)
    (hs : D.DSeparated c d S) : ∀ z ∈ S, D.Anc c d z := by
  obtain ⟨S', s1, h⟩ := h
  rw [hS] at s1
  cases s1
  rcases h with rfl | ⟨z, rfl, h0⟩
  · simp
  · intro w hw
    obtain rfl := Finset.mem_singleton.mp hw
    exact Dag.anc_of_needed hac hs h0

/-- Everything has been tested without conditioning and with one conditioning node. -/
structure AllOne (D : Dag α) (ci : CITest α) (O : Finset α) (order : List α) (k : Nat) (st : OIcdState α) : Prop where
  inv : Inv ci O order k (fun _ => True) (fun _ => True) st
  small : ∀ a b, Before order a b → ¬ st.graph.MAdj a b → Small D st a b

theorem AllOne.representing (h : AllOne D ci O order k st) (hac : D.Acyclic) (ho : D.CausalOrder O order) (hp : Pc.PerfectOn ci D O) :
    D.Representing O 1 st.graph := by
  have key : ∀ a b, Before order a b → (st.graph.MAdj a b ↔ ∀ S ⊆ O, S.card ≤ 1 → a ∉ S → b ∉ S → ¬ D.DSeparated a b S) := by
    intro a b hab
    refine ⟨fun hadj S hS hc h1 h2 => h.inv.repOne hac ho hp trivial trivial (fun z hz hn => (h.small z b hz hn).card) hab hadj hS hc h1 h2,
      fun hall => ?_⟩
    by_contra hn
    obtain ⟨S, s1, s2⟩ := (h.small a b hab hn).card
    obtain ⟨S', p1, p2, p3, p4, p5, -⟩ := h.inv.sepOf hac ho hp hab hn
    rw [s1] at p1
    cases p1
    exact hall S p2 s2 p3 p4 p5
  intro a ha b hb hab
  rcases Before.total ((ho.isOrder.mem a).mpr ha) ((ho.isOrder.mem b).mpr hb) hab with hB | hB
  · exact key a b hB
  · rw [show st.graph.MAdj a b ↔ st.graph.MAdj b a from ⟨MAdj.symm, MAdj.symm⟩, key b a hB]
    exact ⟨fun h S h1 h2 h3 h4 h5 => h S h1 h2 h4 h3 ((Dag.dseparated_symm hac).mp h5),
      fun h S h1 h2 h3 h4 h5 => h S h1 h2 h4 h3 ((Dag.dseparated_symm hac).mp h5)⟩

theorem AllOne.sepOk (h : AllOne D ci O order k st) (hac : D.Acyclic) (ho : D.CausalOrder O order) (hp : Pc.PerfectOn ci D O) :
    SepOk D st.sep.get st.graph := by
  have hr := h.representing hac ho hp
  refine sepOk_of hac ho h.inv.inv.proper h.inv.inv.nodes fun a c hb hn => ?_
  obtain ⟨S, s1, s2⟩ := (h.small a c hb hn).card
  obtain ⟨S', p1, p2, p3, p4, p5, -⟩ := h.inv.sepOf hac ho hp hb hn
  rw [s1] at p1
  cases p1
  refine ⟨S, s1, p3, p4, p5, fun z hz => Or.inl ((h.small a c hb hn).anc hac s1 p5 z hz), fun u v huv hadj _ _ => ?_⟩
  refine (hr u ((ho.isOrder.mem u).mp huv.mem_left) v ((ho.isOrder.mem v).mp huv.mem_right) (huv.ne ho.isOrder.nodup)).mp hadj _
    (fun x hx => p2 (Dag.linkSet_spec.mp hx).1) ((Finset.card_le_card fun x hx => (Dag.linkSet_spec.mp hx).1).trans s2) ?_ ?_
  · exact fun h => (Dag.linkSet_spec.mp h).2.2.1 rfl
  · exact fun h => (Dag.linkSet_spec.mp h).2.2.2 rfl

theorem AllOne.same (h : AllOne D ci O order k st) {G : MG α} (hs : SameSkel G st.graph) : AllOne D ci O order k { st with graph := G } :=
  ⟨h.inv.same hs, fun a b hab hn => h.small a b hab (fun h' => hn ((hs.adj a b).mpr h'))⟩

/-- The nodes with one predecessor have no conditioning node. -/
theorem Inv.all (hd : order.Nodup) (h : Inv ci O order k (fun x => ∃ i, 1 ≤ i ∧ order[i]? = some x) (fun x => ∃ i, 2 ≤ i ∧ order[i]? = some x) st) :
    Inv ci O order k (fun _ => True) (fun _ => True) st := by
  have hT0 : ∀ a b, Before order a b → ∃ i, 1 ≤ i ∧ order[i]? = some b := by
    intro a b hab
    obtain ⟨i, i1, i2⟩ := before_iff.mp hab
    refine ⟨i, ?_, i1⟩
    by_contra hn
    obtain rfl : i = 0 := by omega
    simp at i2
  refine ⟨h.inv, h.done, h.fresh, h.sets, fun _ _ _ _ _ => ⟨trivial, trivial⟩, fun a b hab _ => h.dep0 a b hab (hT0 a b hab),
    fun a b v hab hvb hv _ => h.dep1 a b v hab hvb hv ?_⟩
  obtain ⟨i, i1, i2⟩ := hT0 a b hab
  refine ⟨i, ?_, i2⟩
  by_contra hn
  obtain rfl : i = 1 := by omega
  have ha := (mem_take hd i2).mpr hab
  have hv' := (mem_take hd i2).mpr hvb
  match order, ha, hv' with
  | x :: l, ha, hv' =>
    simp at ha hv'
    exact hv (hv'.trans ha.symm)

/-- The first two passes of the global variant, with the state before the orientation. -/
theorem global01_more (o : SetOrder α) {opts : OIcdOpts α} (hac : D.Acyclic) (ho : D.CausalOrder O opts.order) (hp : Pc.PerfectOn ci D O)
    (h : Inv ci O opts.order k (fun _ => False) (fun _ => False) st) (hk : 1 ≤ k) (hdone : st.done = ∅)
    (hall : ∀ a b, Before opts.order a b → st.graph.MAdj a b) :
    ∃ s1 s2 s3 s4, (pyRange 1 st.graph.nodes.card).foldlM (fun st idx => phase0 ci opts.order idx st) st = .ok s1 ∧
      orient o opts true s1 = .ok s2 ∧
      (pyRange 2 st.graph.nodes.card).foldlM (fun st idx => phase1 o ci opts.order idx st) s2 = .ok s3 ∧
      orient o opts true s3 = .ok s4 ∧ AllOne D ci O opts.order k s4 ∧ Fresh opts.order (fun _ => True) s4 ∧
      D.ArrowsTrue s4.graph ∧ s4.graph.OrdMarks opts.order ∧ AllOne D ci O opts.order k s3 := by
  have hd := ho.isOrder.nodup
  have hcard : st.graph.nodes.card = opts.order.length := by
    rw [h.inv.nodes, ← List.toFinset_card_of_nodup hd]
    congr 1
    ext v
    rw [List.mem_toFinset, ho.isOrder.mem]
  have hlt : ∀ {i x}, opts.order[i]? = some x → i < st.graph.nodes.card := by
    intro i x hi
    rw [hcard]
    exact (List.getElem?_eq_some_iff.mp hi).1
  have comb : ∀ (dn : List Nat) (i : Nat) (b : α), opts.order[i]? = some b → ∀ x,
      (x = b ∨ ∃ j ∈ dn, opts.order[j]? = some x) ↔ ∃ j ∈ dn ++ [i], opts.order[j]? = some x := by
    intro dn i b hb x
    simp only [List.mem_append, List.mem_singleton]
    constructor
    · rintro (rfl | ⟨j, hj, e⟩)
      · exact ⟨i, Or.inr rfl, hb⟩
      · exact ⟨j, Or.inl hj, e⟩
    · rintro ⟨j, hj | rfl, e⟩
      · exact Or.inr ⟨j, hj, e⟩
      · rw [hb] at e
        cases e
        exact Or.inl rfl
  have fin : ∀ (a : Nat) (x : α), (∃ j ∈ pyRange a st.graph.nodes.card, opts.order[j]? = some x) ↔
      ∃ i, a ≤ i ∧ opts.order[i]? = some x := by
    intro a x
    refine exists_congr fun i => ?_
    rw [mem_pyRange]
    exact ⟨fun h => ⟨h.1.1, h.2⟩, fun h => ⟨⟨h.1, hlt h.2⟩, h.2⟩⟩
  have hT0 : ∀ a b, Before opts.order a b → ∃ i, 1 ≤ i ∧ opts.order[i]? = some b := by
    intro a b hab
    obtain ⟨i, i1, i2⟩ := before_iff.mp hab
    refine ⟨i, ?_, i1⟩
    by_contra hn
    obtain rfl : i = 0 := by omega
    simp at i2
  obtain ⟨s1, a1, a2, a3, a4⟩ := foldlM_ok_inv (f := fun st idx => phase0 ci opts.order idx st)
    (fun dn s => Inv ci O opts.order k (fun x => ∃ i ∈ dn, opts.order[i]? = some x) (fun _ => False) s ∧
      Fresh opts.order (fun _ => True) s ∧ ∀ c d, Before opts.order c d → ¬ s.graph.MAdj c d → s.sep.get c d = .ok ∅)
    (pyRange 1 st.graph.nodes.card) [] st ⟨h.congr (by simp) (by simp), fun c d _ _ h => by simp [hdone] at h,
      fun c d hcd hn => absurd (hall c d hcd) hn⟩ (by
      rintro dn i s hi ⟨i1, i2, i3⟩
      rw [mem_pyRange, hcard] at hi
      have hb : opts.order[i]? = some opts.order[i] := List.getElem?_eq_getElem hi.2
      obtain ⟨s', p1, p2, -⟩ := phase0_spec i1 hd hb
      obtain ⟨p3, p4⟩ := phase0_rec i1 hd i2 hb p1
      refine ⟨s', p1, p2.congr (comb dn i _ hb) (fun _ => Iff.rfl), p4, fun c d hcd hn => ?_⟩
      rcases p3.2 c d hcd hn with ⟨g1, g2⟩ | ⟨-, -, S, g2, rfl⟩
      · exact g2.trans (i3 c d hcd g1)
      · exact g2)
  rw [List.nil_append] at a2
  obtain ⟨G, b1, b2, -⟩ := orient_spec o hd (fun v hv => (ho.isOrder.mem v).mpr hv) true a2.inv
  have c2 := (a2.congr (fin 1) (fun _ => Iff.rfl)).same b2
  obtain ⟨s3, d1, d2, d3, d4⟩ := foldlM_ok_inv (f := fun st idx => phase1 o ci opts.order idx st)
    (fun dn s => Inv ci O opts.order k (fun x => ∃ i, 1 ≤ i ∧ opts.order[i]? = some x) (fun x => ∃ i ∈ dn, opts.order[i]? = some x) s ∧
      Fresh opts.order (fun _ => True) s ∧ ∀ c d, Before opts.order c d → ¬ s.graph.MAdj c d → Small D s c d)
    (pyRange 2 st.graph.nodes.card) [] { s1 with graph := G } ⟨c2.congr (by simp) (by simp),
      fun c d h1 h2 h3 h4 => a3 c d h1 h2 h3 ((b2.adj c d).mp h4),
      fun c d hcd hn => ⟨∅, a4 c d hcd (fun h => hn ((b2.adj c d).mpr h)), Or.inl rfl⟩⟩ (by
      rintro dn i s hi ⟨i1, i2, i3⟩
      rw [mem_pyRange, hcard] at hi
      have hb : opts.order[i]? = some opts.order[i] := List.getElem?_eq_getElem hi.2
      obtain ⟨s', p1, p2, -⟩ := phase1_spec o i1 hd (fun v hv => (ho.isOrder.mem v).mp hv) hb hk
      obtain ⟨p3, p4⟩ := phase1_rec o i1.inv.proper hd i2 hb p1
      refine ⟨s', p1, p2.congr (fun _ => Iff.rfl) (comb dn i _ hb), p4, fun c d hcd hn => ?_⟩
      rcases p3.2 c d hcd hn with ⟨g1, g2⟩ | ⟨-, g1, S, g2, z, rfl⟩
      · obtain ⟨S, q1, q2⟩ := i3 c d hcd g1
        exact ⟨S, g2.trans q1, q2⟩
      · refine ⟨{z}, g2, Or.inr ⟨z, rfl, ?_⟩⟩
        exact Dag.dep_of hac hp ((ho.isOrder.mem c).mp hcd.mem_left) ((ho.isOrder.mem d).mp hcd.mem_right) (hcd.ne hd) (by simp) (by simp)
          (by simp) (Or.inl (i1.dep0 c d hcd (hT0 c d hcd) g1)))
  rw [List.nil_append] at d2
  have e3 : AllOne D ci O opts.order k s3 := ⟨(d2.congr (fun _ => Iff.rfl) (fin 2)).all hd, d4⟩
  obtain ⟨H, f1, f2, f3, -⟩ := orient_spec o hd (fun v hv => (ho.isOrder.mem v).mpr hv) true d2.inv
  exact ⟨s1, _, s3, _, a1, b1, d1, f1, e3.same f2, fun c d h1 h2 h3 h4 => d3 c d h1 h2 h3 ((f2.adj c d).mp h4),
    (orient_true o hac ho true d2.inv (e3.sepOk hac ho hp) f1).1, f3, e3⟩

/-- The first two passes of the global variant. -/
theorem global01 (o : SetOrder α) {opts : OIcdOpts α} (hac : D.Acyclic) (ho : D.CausalOrder O opts.order) (hp : Pc.PerfectOn ci D O)
    (h : Inv ci O opts.order k (fun _ => False) (fun _ => False) st) (hk : 1 ≤ k) (hdone : st.done = ∅)
    (hall : ∀ a b, Before opts.order a b → st.graph.MAdj a b) :
    ∃ s1 s2 s3 s4, (pyRange 1 st.graph.nodes.card).foldlM (fun st idx => phase0 ci opts.order idx st) st = .ok s1 ∧
      orient o opts true s1 = .ok s2 ∧
      (pyRange 2 st.graph.nodes.card).foldlM (fun st idx => phase1 o ci opts.order idx st) s2 = .ok s3 ∧
      orient o opts true s3 = .ok s4 ∧ AllOne D ci O opts.order k s4 ∧ Fresh opts.order (fun _ => True) s4 ∧
      D.ArrowsTrue s4.graph ∧ s4.graph.OrdMarks opts.order := by
  obtain ⟨s1, s2, s3, s4, a1, a2, a3, a4, a5, a6, a7, a8, -⟩ := global01_more o hac ho hp h hk hdone hall
  exact ⟨s1, s2, s3, s4, a1, a2, a3, a4, a5, a6, a7, a8⟩

/-- The local variant with at most `m ≤ 1` conditioning nodes, before the last orientation. -/
theorem local01 (o : SetOrder α) {opts : OIcdOpts α} (hac : D.Acyclic) (ho : D.CausalOrder O opts.order) (hp : Pc.PerfectOn ci D O)
    (h : Inv ci O opts.order k (fun _ => False) (fun _ => False) st) (hk : 1 ≤ k) (hdone : st.done = ∅)
    (hall : ∀ a b, Before opts.order a b → st.graph.MAdj a b) {m : Nat} (hm : opts.maxCond = some m) (hm1 : m ≤ 1) :
    ∃ s, (pyRange 1 st.graph.nodes.card).foldlM (fun st idx => nodeConnection o ci opts idx st) st = .ok s ∧
      Inv ci O opts.order k (fun x => ∃ i, 1 ≤ i ∧ opts.order[i]? = some x) (fun x => ∃ i, 2 ≤ i ∧ opts.order[i]? = some x ∧ m = 1) s ∧
      ∀ a b, Before opts.order a b → ¬ s.graph.MAdj a b → Small D s a b ∧ ∃ S, s.sep.get a b = .ok S ∧ S.card ≤ m := by
  have hd := ho.isOrder.nodup
  have hcard : st.graph.nodes.card = opts.order.length := by
    rw [h.inv.nodes, ← List.toFinset_card_of_nodup hd]
    congr 1
    ext v
    rw [List.mem_toFinset, ho.isOrder.mem]
  have key : ∀ n, n ≤ st.graph.nodes.card - 1 → ∃ s, ((List.range n).map (1 + ·)).foldlM (fun st idx => nodeConnection o ci opts idx st) st = .ok s ∧
      Inv ci O opts.order k (fun x => ∃ i, i ≤ n ∧ 1 ≤ i ∧ opts.order[i]? = some x)
        (fun x => ∃ i, i ≤ n ∧ 2 ≤ i ∧ opts.order[i]? = some x ∧ m = 1) s ∧
      Fresh opts.order (fun _ => True) s ∧
      (∀ c d, Before opts.order c d → ¬ s.graph.MAdj c d → d ∈ opts.order.take (n + 1) ∧ Small D s c d ∧ ∃ S, s.sep.get c d = .ok S ∧ S.card ≤ m) := by
    intro n
    induction n with
    | zero =>
      intro _
      refine ⟨st, rfl, h.congr (fun x => ?_) (fun x => ?_), fun c d _ _ h' => by simp [hdone] at h',
        fun c d hcd hn => absurd (hall c d hcd) hn⟩
      · simp only [false_iff]; rintro ⟨i, h1, h2, -⟩; omega
      · simp only [false_iff]; rintro ⟨i, h1, h2, -⟩; omega
    | succ n ih =>
      intro hn
      obtain ⟨s, s1, s2, s3, s4⟩ := ih (by omega)
      have hi : opts.order[n + 1]? = some opts.order[n + 1] := List.getElem?_eq_getElem (by omega)
      obtain ⟨t1, t2, a1, a2, a3, a4, a5, a6, t3, b1, b2, b3, b4, b5⟩ := base01 o hac ho hp s2 hk hi s3 (fun a hab => by
        by_contra hn'
        exact (((mem_take hd hi).mp (s4 a _ hab hn').1).ne hd) rfl)
      have hun : nodeConnection o ci opts (n + 1) s = (do
          let st ← phase0 ci opts.order (n + 1) s
          let st ← orient o opts true st
          if maxSize opts (n + 1) = 0 then return st
          let st ← phase1 o ci opts.order (n + 1) st
          let st ← orient o opts true st
          if maxSize opts (n + 1) = 1 then return st
          nodeSizes o ci opts (n + 1) (maxSize opts (n + 1) - 1) 2 st) := by
        rw [nodeConnection, if_neg (by omega)]
        rfl
      have hms : maxSize opts (n + 1) = min n m := by
        rw [maxSize, hm]
        simp
      have hT0 : ∀ x, (x = opts.order[n + 1] ∨ ∃ i, i ≤ n ∧ 1 ≤ i ∧ opts.order[i]? = some x) ↔
          ∃ i, i ≤ n + 1 ∧ 1 ≤ i ∧ opts.order[i]? = some x := by
        intro x
        constructor
        · rintro (rfl | ⟨i, h1, h2, h3⟩)
          · exact ⟨n + 1, le_rfl, by omega, hi⟩
          · exact ⟨i, by omega, h2, h3⟩
        · rintro ⟨i, h1, h2, h3⟩
          rcases Nat.lt_or_ge n i with hlt | hge
          · obtain rfl : i = n + 1 := by omega
            rw [hi] at h3
            exact Or.inl (Option.some.inj h3).symm
          · exact Or.inr ⟨i, hge, h2, h3⟩
      have grow : ∀ {t : OIcdState α}, Keep opts.order opts.order[n + 1] s t →
          (∀ a, Before opts.order a opts.order[n + 1] → ¬ t.graph.MAdj a opts.order[n + 1] → Small D t a opts.order[n + 1] ∧
            ∃ S, t.sep.get a opts.order[n + 1] = .ok S ∧ S.card ≤ m) →
          ∀ c d, Before opts.order c d → ¬ t.graph.MAdj c d → d ∈ opts.order.take (n + 1 + 1) ∧ Small D t c d ∧
            ∃ S, t.sep.get c d = .ok S ∧ S.card ≤ m := by
        intro t ht hs c d hcd hn'
        by_cases e : d = opts.order[n + 1]
        · subst e
          exact ⟨(mem_take_succ hd hi).mpr (Or.inl rfl), hs c hcd hn'⟩
        · obtain ⟨k1, k2⟩ := ht.keep c d hcd e hn'
          obtain ⟨q1, ⟨S, q2, q3⟩, q4⟩ := s4 c d hcd k1
          exact ⟨(mem_take_succ hd hi).mpr (Or.inr ((mem_take hd hi).mp q1)), ⟨S, k2.trans q2, q3⟩, by rw [k2]; exact q4⟩
      have hfold : ∀ {t}, nodeConnection o ci opts (n + 1) s = .ok t →
          ((List.range (n + 1)).map (1 + ·)).foldlM (fun st idx => nodeConnection o ci opts idx st) st = .ok t := by
        intro t ht
        rw [List.range_succ, List.map_append, List.foldlM_append, py_bind s1]
        simp only [List.map_cons, List.map_nil, List.foldlM_cons, List.foldlM_nil]
        rw [Nat.add_comm 1 n, py_bind ht]
        rfl
      by_cases h0 : maxSize opts (n + 1) = 0
      · refine ⟨t2, hfold ?_, a3.congr hT0 (fun x => ?_), a4, grow a5 fun a hab hn' => ⟨⟨∅, a6 a hab hn', Or.inl rfl⟩, ∅, a6 a hab hn', by simp⟩⟩
        · rw [hun, py_bind a1, py_bind a2, if_pos h0]
          rfl
        · rw [hms] at h0
          constructor
          · rintro ⟨i, h1, h2, h3⟩
            exact ⟨i, by omega, h2, h3⟩
          · rintro ⟨i, h1, h2, h3, rfl⟩
            omega
      · simp only [hms] at h0
        obtain rfl : m = 1 := by omega
        obtain ⟨G, g1, g2, -⟩ := orient_spec o (opts := opts) hd (fun v hv => (ho.isOrder.mem v).mpr hv) true b2.inv
        refine ⟨{ t3 with graph := G }, hfold ?_, (b2.same g2).congr hT0 (fun x => ?_), fun c d h1 h2 h3 h4 => b3 c d h1 h2 h3 ((g2.adj c d).mp h4),
          grow (b4.trans ⟨fun c d h => (g2.adj c d).mp h, fun c d _ _ hn => ⟨fun h => hn ((g2.adj c d).mpr h), rfl⟩⟩) fun a hab hn' => ?_⟩
        · rw [hun, py_bind a1, py_bind a2, if_neg (by omega), py_bind b1, py_bind g1, if_pos (by omega)]
          rfl
        · constructor
          · rintro (rfl | ⟨i, h1, h2, h3⟩)
            · exact ⟨n + 1, le_rfl, by omega, hi, rfl⟩
            · exact ⟨i, by omega, h2, h3⟩
          · rintro ⟨i, h1, h2, h3, -⟩
            rcases Nat.lt_or_ge n i with hlt | hge
            · obtain rfl : i = n + 1 := by omega
              rw [hi] at h3
              exact Or.inl (Option.some.inj h3).symm
            · exact Or.inr ⟨i, hge, h2, h3, rfl⟩
        · have := b5 a hab (fun h => hn' ((g2.adj _ _).mpr h))
          exact ⟨this, this.card⟩
  obtain ⟨s, s1, s2, -, s4⟩ := key _ le_rfl
  have hlt : ∀ {i x}, opts.order[i]? = some x → i ≤ st.graph.nodes.card - 1 := by
    intro i x hi
    have := (List.getElem?_eq_some_iff.mp hi).1
    omega
  refine ⟨s, s1, s2.congr (fun x => ?_) (fun x => ?_), fun a b hab hn => (s4 a b hab hn).2⟩
  · exact exists_congr fun i => ⟨fun h => h.2, fun h => ⟨hlt h.2, h⟩⟩
  · exact exists_congr fun i => ⟨fun h => h.2, fun h => ⟨hlt h.2.1, h⟩⟩

end OIcd
end Verif
