import Verif.Lemmas.OIcdNoCollider

/-!
# Ordered ICD on DAGs without unshielded colliders: the local and the global variant
-/

namespace Verif
open Relation MG
variable {α : Type} [LinearOrder α] {D : Dag α}
namespace OIcd
variable {opts : OIcdOpts α} {order : List α} {ci : CITest α} {k : Nat} {T0 T1 : α → Prop} {st : OIcdState α} {n m : α → Nat}

/-- All arrowheads are where the order puts them. -/
def Plain (order : List α) (G : MG α) : Prop := G.OrdMarks order ∧ ∀ a b, G.At a b .arrow → Before order a b

omit [LinearOrder α] in
theorem Plain.sub {E G : MG α} (h : SubMarks E G) (hG : Plain order G) : Plain order E :=
  ⟨ordMarks_sub h hG.1, fun a b hab => hG.2 a b ((h.marks a b _).mp hab).1⟩

/-- What holds during a run: adjacent pairs with later node `b` are not separated by fewer than `n b` nodes up to `b`, the sets recorded for `b`
have fewer than `m b` nodes, and adjacent pairs that are done are adjacent in the DAG. -/
structure NSt (D : Dag α) (ci : CITest α) (order : List α) (k : Nat) (T0 T1 : α → Prop) (n m : α → Nat) (st : OIcdState α) : Prop where
  inv : Inv ci D.nodes order k T0 T1 st
  tied : ∀ a b, Before order a b → st.graph.MAdj a b → (D.upto order b).Tied (n b) a b
  small : ∀ a b, Before order a b → ¬ st.graph.MAdj a b → ∃ S, st.sep.get a b = .ok S ∧ S.card < m b
  exact : ∀ a b, Before order a b → (b, a) ∈ st.done → st.graph.MAdj a b → D.Adj a b

theorem NSt.same (h : NSt D ci order k T0 T1 n m st) {G : MG α} (hs : SameSkel G st.graph) :
    NSt D ci order k T0 T1 n m { st with graph := G } where
  inv := h.inv.same hs
  tied a b hab hadj := h.tied a b hab ((hs.adj a b).mp hadj)
  small a b hab hn := h.small a b hab (fun h' => hn ((hs.adj a b).mpr h'))
  exact a b hab hd hadj := h.exact a b hab hd ((hs.adj a b).mp hadj)

theorem NSt.mono (h : NSt D ci order k T0 T1 n m st) {n' m' : α → Nat}
    (hn : ∀ a b, Before order a b → st.graph.MAdj a b → n' b ≤ n b ∨ D.Adj a b) (hm : ∀ b, m b ≤ m' b) (hd : order.Nodup) :
    NSt D ci order k T0 T1 n' m' st where
  inv := h.inv
  tied a b hab hadj := by
    rcases hn a b hab hadj with h' | h'
    · exact (h.tied a b hab hadj).mono h'
    · exact Dag.tied_of_adj (Dag.adj_upto h' (hab.asymm hd) (fun h => h.ne hd rfl)) _
  small a b hab hn := by
    obtain ⟨S, s1, s2⟩ := h.small a b hab hn
    exact ⟨S, s1, lt_of_lt_of_le s2 (hm b)⟩
  exact := h.exact

/-- The recorded sets separate in the graph of the remaining edges. -/
theorem NSt.sepOk (h : NSt D ci order k T0 T1 n m st) (hm : D.NoUCol) (hD : D.WF) (hac : D.Acyclic) (ho : D.CausalOrder D.nodes order)
    (hp : Pc.PerfectOn ci D D.nodes) (hnm : ∀ y c, y = c ∨ Before order y c → m c ≤ n y) :
    SepOk (Dag.directed D.nodes order st.graph) st.sep.get st.graph := by
  have hi := ho.isOrder
  have hE := Dag.directed_acyclic (G := st.graph) hi
  have hadj : ∀ {u v}, st.graph.MAdj u v → (Dag.directed D.nodes order st.graph).Adj u v :=
    fun h' => Dag.directed_adj hi h.inv.inv.proper h.inv.inv.nodes h'
  refine sepOk_of hE (Dag.directed_order hi) h.inv.inv.proper h.inv.inv.nodes fun a c hb hna => ?_
  obtain ⟨S, s1, s2, s3, s4, s5, s6, -⟩ := h.inv.sepOf hac ho hp hb hna
  obtain ⟨S', t1, t2⟩ := h.small a c hb hna
  rw [s1] at t1
  cases t1
  refine ⟨S, s1, s3, s4, ?_, fun z _ => Or.inr fun u hzu _ => hadj hzu, fun u v _ huv _ _ => .of_adj hE (hadj huv)⟩
  exact hm.directed_sep hD hac ho hb t2 s3 s6 (fun x y hxy hy hadj => (h.tied x y hxy hadj).mono (hnm y c hy))
    ((hm.upto_dseparated hD hac ho hb s3 s4).mp s5)

theorem NSt.orient (o : SetOrder α) (h : NSt D ci opts.order k T0 T1 n m st) (hm : D.NoUCol) (hD : D.WF) (hac : D.Acyclic)
    (ho : D.CausalOrder D.nodes opts.order) (hp : Pc.PerfectOn ci D D.nodes) (hnm : ∀ y c, y = c ∨ Before opts.order y c → m c ≤ n y) :
    ∃ st', OIcd.orient o opts true st = .ok st' ∧ NSt D ci opts.order k T0 T1 n m st' ∧ Plain opts.order st'.graph ∧
      st'.done = st.done ∧ ∀ a b, st'.graph.MAdj a b ↔ st.graph.MAdj a b := by
  obtain ⟨G, g1, g2, g3, -⟩ := orient_spec o ho.isOrder.nodup (fun v hv => (ho.isOrder.mem v).mpr hv) true h.inv.inv
  have hE := (orient_true o (Dag.directed_acyclic (G := st.graph) ho.isOrder) (Dag.directed_order ho.isOrder) true h.inv.inv
    (h.sepOk hm hD hac ho hp hnm) g1).1
  refine ⟨_, g1, h.same g2, ⟨g3, fun a b hab => ?_⟩, rfl, g2.adj⟩
  have hG := (h.same g2).inv.inv
  have hadj : G.MAdj a b := Or.inl ⟨_, hab⟩
  have hmem := hG.proper.mem_adj hadj
  rw [hG.nodes] at hmem
  refine (Before.total ((ho.isOrder.mem a).mpr hmem.1) ((ho.isOrder.mem b).mpr hmem.2) (hG.proper.ne hadj)).resolve_right fun hb => ?_
  exact hE a b hab (.single ((Dag.directed_edge ho.isOrder).mpr ⟨hb, (g2.adj b a).mp hadj.symm⟩))

/-- Pairs that are not separated by as many nodes as `b` has parents. -/
theorem adj_of_tied (hm : D.NoUCol) (hD : D.WF) (hac : D.Acyclic) (ho : D.CausalOrder D.nodes order) {a b : α} (hab : Before order a b) {r : Nat}
    (ht : (D.upto order b).Tied r a b) (hc : ¬ D.Adj a b → (D.par b).card < r) : D.Adj a b := by
  by_contra hn
  have h1 : a ∉ D.par b := fun h => hn (Or.inl h)
  have h2 : b ∉ D.par b := fun h => hac b (.single h)
  exact (hm.upto_dseparated hD hac ho hab h1 h2).mp (parents_sep hac ho hab hn) (ht _ (hc hn) h1 h2)

/-- Pairs that are not separated by observed nodes. -/
theorem tied_of_dep (hm : D.NoUCol) (hD : D.WF) (hac : D.Acyclic) (ho : D.CausalOrder D.nodes order) {a b : α} (hab : Before order a b) {r : Nat}
    (h : ∀ S ⊆ D.nodes, S.card < r → a ∉ S → b ∉ S → ¬ D.DSeparated a b S) : (D.upto order b).Tied r a b := by
  intro T hT ha hb
  have ha' : a ∉ T ∩ D.nodes := fun h => ha (Finset.mem_inter.mp h).1
  have hb' : b ∉ T ∩ D.nodes := fun h => hb (Finset.mem_inter.mp h).1
  have := h (T ∩ D.nodes) Finset.inter_subset_right (lt_of_le_of_lt (Finset.card_le_card Finset.inter_subset_left) hT) ha' hb'
  rw [hm.upto_dseparated hD hac ho hab ha' hb', not_not] at this
  refine rtg_mono (fun u v huv => ⟨huv.1, fun hv => huv.2 (Finset.mem_inter.mpr ⟨hv, ?_⟩)⟩) this
  exact huv.1.elim (fun h => (hD _ _ (Dag.upto_edge.mp h).1).2) (fun h => (hD _ _ (Dag.upto_edge.mp h).1).1)

/-- A pass with `r` conditioning nodes for the base node `b`. -/
theorem NSt.round (o : SetOrder α) (h : NSt D ci order k T0 T1 n m st) (hm : D.NoUCol) (hD : D.WF) (hac : D.Acyclic)
    (ho : D.CausalOrder D.nodes order) (hp : Pc.PerfectOn ci D D.nodes) (hpl : Plain order st.graph) {i : Nat} {b : α}
    (hi : order[i]? = some b) {r : Nat} (hk : r ≤ k) (ht : T0 b ∧ T1 b) (hn : r ≤ n b) (hmb : m b ≤ r + 1) :
    ∃ st' d, phaseR o ci order r i st = .ok (st', d) ∧
      NSt D ci order k T0 T1 (Function.update n b (r + 1)) (Function.update m b (r + 1)) st' ∧ Plain order st'.graph ∧ Others order b st st' ∧
      (d = true → ∀ a, Before order a b → st'.graph.MAdj a b → D.Adj a b) := by
  have hd := ho.isOrder.nodup
  have hb : b ∈ D.nodes := (ho.isOrder.mem b).mp (List.mem_of_getElem? hi)
  obtain ⟨st', d, C, p1, p2, p3, p4, p5, p6, p7, p8⟩ := phaseR_cands o h.inv hd ho.isOrder.mem hi (r := r) hk ht
  obtain ⟨_, _, q1, -, -, -, q2, -, -⟩ := phaseR_spec o h.inv hd ho.isOrder.mem hi (r := r) hk ht
  rw [p1] at q1
  cases q1
  have hpl' := hpl.sub p3
  have hsmall : ∀ a, Before order a b → ¬ st'.graph.MAdj a b → ∃ S, st'.sep.get a b = .ok S ∧ S.card < r + 1 := by
    intro a hab hna
    rcases p8.2 a b hab hna with ⟨g1, g2⟩ | ⟨-, -, S, g2, g3⟩
    · obtain ⟨S, s1, s2⟩ := h.small a b hab g1
      exact ⟨S, g2.trans s1, lt_of_lt_of_le s2 hmb⟩
    · exact ⟨S, g2, by rw [(p4 S g3).1]; omega⟩
  -- pairs that are hard to separate stay adjacent
  have hkeep : ∀ s, Before order s b → (D.upto order b).Tied (r + 1) s b → st'.graph.MAdj s b := by
    intro s hsb htied
    by_contra hna
    obtain ⟨S, s1, s2⟩ := hsmall s hsb hna
    obtain ⟨S', t1, t2, t3, t4, t5, -⟩ := p2.sepOf hac ho hp hsb hna
    rw [s1] at t1
    cases t1
    exact (hm.upto_dseparated hD hac ho hsb t3 t4).mp t5 (htied S s2 t3 t4)
  -- sets of such nodes are tested
  have htest : ∀ a, Before order a b → (b, a) ∉ st.done → st'.graph.MAdj a b → ∀ T : Finset α, T.card = r → a ∉ T →
      (∀ s ∈ T, Before order s b ∧ (D.upto order b).Tied (r + 1) s b) → ¬ D.DSeparated a b T ∧ (b, a) ∉ st'.done := by
    intro a hab hnd hadj T hT haT hs
    have hadj' : ∀ s ∈ T, st'.graph.MAdj s b := fun s hsT => hkeep s (hs s hsT).1 (hs s hsT).2
    obtain ⟨g1, g2⟩ := p6 a hab hnd hadj T (p5 T hT (fun v hv => (hs v hv).1) (fun v hv => (p3.adj (hadj' v hv)).symm)) ⟨haT, fun v hv => Or.inr (by
      have hvb := (hs v hv).1
      refine pathVia_iff.mpr ⟨hvb.ne hd, .single ⟨⟨hadj' v hv, fun h' => ?_, fun h' => (hpl'.2 b v h').asymm hd hvb⟩, ?_⟩⟩
      · have := hpl'.1 v b _ hvb h'
        simp at this
      · rw [Finset.mem_filter, List.mem_toFinset]
        exact ⟨hvb.mem_right, fun h => h.ne hd rfl⟩)⟩
    exact ⟨Dag.dep_of hac hp ((ho.isOrder.mem a).mp hab.mem_left) hb (hab.ne hd) haT (fun hbT => (hs b hbT).1.ne hd rfl)
      (fun v hv => (ho.isOrder.mem v).mp (hs v hv).1.mem_left) (Or.inl g1), g2⟩
  -- the closest smallest separating set
  have hclose : ∀ a, Before order a b → ¬ D.Adj a b → ∃ S : Finset α, a ∉ S ∧ D.DSeparated a b S ∧ (D.upto order b).Tied S.card a b ∧
      b ∉ S ∧ ∀ s ∈ S, Before order s b ∧ (D.upto order b).Tied (S.card + 1) s b := by
    intro a hab hna
    obtain ⟨S, s1, s2, s3, s4, s5, s6⟩ := (hm.upto hD hac ho b).exists_closest (Dag.upto_acyclic hac b) (Dag.upto_wf hD hac ho b)
      (hab.ne hd).symm (fun h => hna (Dag.upto_adj h).symm)
    refine ⟨S, s3, ?_, s5.symm, s2, fun s hs => ⟨?_, (s6 s hs).symm⟩⟩
    · rw [(hm.upto hD hac ho b).dseparated (Dag.upto_acyclic hac b) s2 s3] at s4
      exact (hm.upto_dseparated hD hac ho hab s3 s2).mpr (fun h => s4 (h.symm s3))
    · have hsn := Dag.mem_upto.mp (s1 hs)
      exact (Before.total ((ho.isOrder.mem s).mpr hsn.1) ((ho.isOrder.mem b).mpr hb) (fun e => s2 (e ▸ hs))).resolve_right hsn.2
  have htied : ∀ a, Before order a b → st'.graph.MAdj a b → (D.upto order b).Tied (r + 1) a b := by
    intro a hab hadj
    by_cases hA : D.Adj a b
    · exact Dag.tied_of_adj (Dag.adj_upto hA (hab.asymm hd) (fun h => h.ne hd rfl)) _
    have hnd : (b, a) ∉ st.done := fun hdn => hA (h.exact a b hab hdn (p3.adj hadj))
    obtain ⟨S, s1, s2, s3, s4, s5⟩ := hclose a hab hA
    rcases Nat.lt_or_ge r S.card with hlt | hge
    · exact s3.mono hlt
    · exfalso
      have hcard : S.card = r := by
        by_contra hne
        exact (hm.upto_dseparated hD hac ho hab s1 s4).mp s2 (h.tied a b hab (p3.adj hadj) S (by omega) s1 s4)
      exact (htest a hab hnd hadj S hcard s1 (hcard ▸ s5)).1 s2
  have hexact : ∀ a, Before order a b → (b, a) ∈ st'.done → st'.graph.MAdj a b → D.Adj a b := by
    intro a hab hdn hadj
    by_contra hA
    have hnd : (b, a) ∉ st.done := fun hdn => hA (h.exact a b hab hdn (p3.adj hadj))
    obtain ⟨S, s1, s2, s3, s4, s5⟩ := hclose a hab hA
    have hge : r + 1 ≤ S.card := by
      by_contra hlt
      exact (hm.upto_dseparated hD hac ho hab s1 s4).mp s2 (htied a hab hadj S (by omega) s1 s4)
    obtain ⟨T, t1, t2⟩ := Finset.exists_subset_card_eq (show r ≤ S.card by omega)
    exact (htest a hab hnd hadj T t2 (fun h => s1 (t1 h)) (fun s hs => ⟨(s5 s (t1 hs)).1, (s5 s (t1 hs)).2.mono (by omega)⟩)).2 hdn
  refine ⟨st', d, p1, ⟨p2, fun a c hac' hadj => ?_, fun a c hac' hna => ?_, fun a c hac' hdn hadj => ?_⟩, hpl', p8.others p7,
    fun hd1 a hab hadj => hexact a hab (q2 hd1 a hab) hadj⟩
  · by_cases hcb : c = b
    · subst hcb
      rw [Function.update_self]
      exact htied a hac' hadj
    · rw [Function.update_of_ne hcb]
      exact h.tied a c hac' (p3.adj hadj)
  · by_cases hcb : c = b
    · subst hcb
      rw [Function.update_self]
      exact hsmall a hac' hna
    · rw [Function.update_of_ne hcb]
      rcases p8.2 a c hac' hna with ⟨g1, g2⟩ | ⟨g1, -⟩
      · obtain ⟨S, s1, s2⟩ := h.small a c hac' g1
        exact ⟨S, g2.trans s1, s2⟩
      · exact absurd g1 hcb
  · by_cases hcb : c = b
    · subst hcb
      exact hexact a hac' hdn hadj
    · exact h.exact a c hac' (p7 c a hcb hdn) (p3.adj hadj)

/-- The passes of the local variant for the base node `b`. -/
theorem nodeSizes_nc (o : SetOrder α) (hm : D.NoUCol) (hD : D.WF) (hac : D.Acyclic) (ho : D.CausalOrder D.nodes opts.order)
    (hp : Pc.PerfectOn ci D D.nodes) {i : Nat} {b : α} (hi : opts.order[i]? = some b) (ht : T0 b ∧ T1 b) :
    ∀ (l r : Nat) (n : α → Nat) (st : OIcdState α), NSt D ci opts.order k T0 T1 n n st → Plain opts.order st.graph → n b = r →
      (∀ y c, Before opts.order y c → n c ≤ n y) → (∀ y, Before opts.order y b → k + 1 ≤ n y) → (∀ y, Before opts.order b y → n y = 0) →
      r + l ≤ k + 1 → (∀ a, Before opts.order a b → ¬ D.Adj a b → (D.par b).card < r + l) →
      ∃ st', nodeSizes o ci opts i l r st = .ok st' ∧ Inv ci D.nodes opts.order k T0 T1 st' ∧ Others opts.order b st st' ∧
        ∀ a, Before opts.order a b → st'.graph.MAdj a b → D.Adj a b := by
  have hd := ho.isOrder.nodup
  intro l
  induction l with
  | zero =>
    intro r n st h _ hr _ _ _ _ hc
    refine ⟨st, rfl, h.inv, ⟨fun _ _ h => h, fun _ _ _ _ h => h, fun _ _ _ h => h⟩, fun a hab hadj => ?_⟩
    exact adj_of_tied hm hD hac ho hab (h.tied a b hab hadj) (fun hn => by have := hc a hab hn; omega)
  | succ l ih =>
    intro r n st h hpl hr hanti hbig hzero hk hc
    rw [nodeSizes, py_bind (nth_ok hi)]
    by_cases hall : (opts.order.take i).all (fun anc => (b, anc) ∈ st.done) = true
    · refine ⟨st, by simp only [if_pos hall]; rfl, h.inv, ⟨fun _ _ h => h, fun _ _ _ _ h => h, fun _ _ _ h => h⟩, fun a hab hadj => ?_⟩
      exact h.exact a b hab (by simpa using List.all_eq_true.mp hall a ((mem_take hd hi).mpr hab)) hadj
    · simp only [if_neg hall]
      obtain ⟨s1, d, p1, p2, p3, p4, -⟩ := h.round o hm hD hac ho hp hpl hi (r := r) (by omega) ht (by omega) (by omega)
      have hanti' : ∀ y c, Before opts.order y c → Function.update n b (r + 1) c ≤ Function.update n b (r + 1) y := by
        intro y c hyc
        by_cases hcb : c = b
        · subst hcb
          rw [Function.update_self, Function.update_of_ne (hyc.ne hd)]
          have := hbig y hyc
          omega
        · rw [Function.update_of_ne hcb]
          by_cases hyb : y = b
          · subst hyb
            rw [hzero c hyc]
            omega
          · rw [Function.update_of_ne hyb]
            exact hanti y c hyc
      obtain ⟨s2, q1, q2, q3, q4, q5⟩ := p2.orient o hm hD hac ho hp (by
        rintro y c (rfl | hyc)
        · exact le_rfl
        · exact hanti' y c hyc)
      obtain ⟨s3, r1, r2, r3, r4⟩ := ih (r + 1) _ s2 q2 q3 (by simp) hanti'
        (fun y hy => by rw [Function.update_of_ne (hy.ne hd)]; exact hbig y hy)
        (fun y hy => by rw [Function.update_of_ne (hy.ne hd).symm]; exact hzero y hy) (by omega)
        (fun a hab hn => by have := hc a hab hn; omega)
      refine ⟨s3, ?_, r2, p4.trans (Others.trans ⟨fun a b h => (q5 a b).mp h, fun c d _ _ h => (q5 c d).mpr h,
        fun c a _ h => by rw [q4] at h; exact h⟩ r3), r4⟩
      rw [py_bind p1]
      simp only
      rw [py_bind q1]
      exact r1

/-- One base node of the local variant. -/
theorem node_local_nc (o : SetOrder α) (hcol : D.NoUCol) (hD : D.WF) (hac : D.Acyclic) (ho : D.CausalOrder D.nodes opts.order)
    (hp : Pc.PerfectOn ci D D.nodes) {b : α} (hm : ∀ m, opts.maxCond = some m → (D.par b).card ≤ m)
    (h : Inv ci D.nodes opts.order k T0 T1 st) {i : Nat} (hi0 : i ≠ 0) (hi : opts.order[i]? = some b) (hk : 1 ≤ k)
    (hk' : maxSize opts i ≤ k)
    (hf : Fresh opts.order (fun d => ¬ Before opts.order d b) st)
    (he : ∀ c d, Before opts.order c d → Before opts.order d b → st.graph.MAdj c d → D.Adj c d)
    (hl : ∀ c d, Before opts.order c d → ¬ Before opts.order d b → st.graph.MAdj c d) :
    ∃ st', nodeConnection o ci opts i st = .ok st' ∧ (∃ T0' T1', Inv ci D.nodes opts.order k T0' T1' st') ∧
      Fresh opts.order (fun d => Before opts.order b d) st' ∧
      (∀ c d, Before opts.order c d → d = b ∨ Before opts.order d b → st'.graph.MAdj c d → D.Adj c d) ∧
      ∀ c d, Before opts.order c d → Before opts.order b d → st'.graph.MAdj c d := by
  have hd := ho.isOrder.nodup
  have hb : b ∈ D.nodes := (ho.isOrder.mem b).mp (List.mem_of_getElem? hi)
  have hun : nodeConnection o ci opts i st = (do
      let st ← phase0 ci opts.order i st
      let st ← orient o opts true st
      if maxSize opts i = 0 then return st
      let st ← phase1 o ci opts.order i st
      let st ← orient o opts true st
      if maxSize opts i = 1 then return st
      nodeSizes o ci opts i (maxSize opts i - 1) 2 st) := by
    rw [nodeConnection, if_neg hi0]
    rfl
  have hsize : ∀ a, Before opts.order a b → ¬ D.Adj a b → (D.par b).card ≤ maxSize opts i := by
    intro a hab hn
    have := parents_card hD hac ho hi hab hn
    rw [maxSize]
    cases hmc : opts.maxCond with
    | none => exact this
    | some m => exact le_min this (hm m hmc)
  -- what is left to show for a state
  have fin : ∀ s, AdjSub s.graph st.graph → (∀ c d, Before opts.order c d → Before opts.order b d → s.graph.MAdj c d) →
      Fresh opts.order (fun d => Before opts.order b d) s →
      (∀ a, Before opts.order a b → s.graph.MAdj a b → D.Adj a b) → Fresh opts.order (fun d => Before opts.order b d) s ∧
      (∀ c d, Before opts.order c d → d = b ∨ Before opts.order d b → s.graph.MAdj c d → D.Adj c d) ∧
      ∀ c d, Before opts.order c d → Before opts.order b d → s.graph.MAdj c d := by
    intro s hs hs' hfs hex
    refine ⟨hfs, fun c d h1 h2 h3 => ?_, hs'⟩
    rcases h2 with rfl | h2
    · exact hex c h1 h3
    · exact he c d h1 h2 (hs _ _ h3)
  have later : ∀ s, Keep opts.order b st s → ∀ c d, Before opts.order c d → Before opts.order b d → s.graph.MAdj c d := by
    intro s hs c d h1 h2
    by_contra hn
    exact (hs.keep c d h1 (h2.ne hd).symm hn).1 (hl c d h1 (h2.asymm hd))
  obtain ⟨s1, s2, a1, a2, a3, a4, a5, a6, s3, b1, b2, b3, b4, b5⟩ := base01 o hac ho hp h hk hi hf
    (fun a hab => hl a b hab (fun h => h.ne hd rfl))
  rw [hun, py_bind a1, py_bind a2]
  by_cases h0 : maxSize opts i = 0
  · simp only [if_pos h0]
    refine ⟨s2, rfl, ⟨_, _, a3⟩, fin s2 a5.sub (later s2 a5) (fun c d h1 => a4 c d (h1.asymm hd)) fun a hab hadj => ?_⟩
    by_contra hn
    have hsep := parents_sep hac ho hab hn
    rw [Finset.card_eq_zero.mp (by have := hsize a hab hn; omega : (D.par b).card = 0)] at hsep
    exact Dag.dep_of hac hp ((ho.isOrder.mem a).mp hab.mem_left) hb (hab.ne hd) (by simp) (by simp) (by simp)
      (Or.inl (a3.dep0 a b hab (Or.inl rfl) hadj)) hsep
  simp only [if_neg h0]
  rw [py_bind b1]
  have one : ∀ a, Before opts.order a b → s3.graph.MAdj a b → (D.upto opts.order b).Tied 2 a b := fun a hab hadj =>
    tied_of_dep hcol hD hac ho hab fun S hS hc h1 h2 => b2.repOne hac ho hp (Or.inl rfl) (Or.inl rfl) (fun z hz hn => (b5 z hz hn).card) hab hadj hS
      (by omega) h1 h2
  have f3 := later s3 b4
  let n : α → Nat := fun x => if x = b then 2 else if Before opts.order x b then k + 1 else 0
  have nb : n b = 2 := if_pos rfl
  have nearly : ∀ x, Before opts.order x b → n x = k + 1 := fun x hx => by
    show (if x = b then 2 else _) = _
    rw [if_neg (hx.ne hd), if_pos hx]
  have nlate : ∀ x, Before opts.order b x → n x = 0 := fun x hx => by
    show (if x = b then 2 else _) = _
    rw [if_neg (hx.ne hd).symm, if_neg (hx.asymm hd)]
  have cases3 : ∀ {c d}, Before opts.order c d → d = b ∨ Before opts.order d b ∨ Before opts.order b d := by
    intro c d hcd
    by_cases e : d = b
    · exact Or.inl e
    · exact Or.inr (Before.total hcd.mem_right ((ho.isOrder.mem b).mpr hb) e)
  have hst : NSt D ci opts.order k (fun x => x = b ∨ T0 x) (fun x => x = b ∨ T1 x) n n s3 := by
    refine ⟨b2, fun c d hcd hadj => ?_, fun c d hcd hn => ?_, fun c d hcd hdn hadj => ?_⟩
    · rcases cases3 hcd with rfl | hdb | hbd
      · rw [nb]
        exact one c hcd hadj
      · exact Dag.tied_of_adj (Dag.adj_upto (he c d hcd hdb (b4.sub _ _ hadj)) (hcd.asymm hd) (fun h => h.ne hd rfl)) _
      · rw [nlate d hbd]
        exact fun T hT => absurd hT (Nat.not_lt_zero _)
    · rcases cases3 hcd with rfl | hdb | hbd
      · obtain ⟨S, s1, s2⟩ := (b5 c hcd hn).card
        exact ⟨S, s1, by rw [nb]; omega⟩
      · obtain ⟨S, s1, -, s2⟩ := b2.sets c d hcd hn
        exact ⟨S, s1, by rw [nearly d hdb]; omega⟩
      · exact absurd (f3 c d hcd hbd) hn
    · rcases cases3 hcd with rfl | hdb | hbd
      · exact absurd hadj (b3 c d (fun h => h.ne hd rfl) hcd hdn)
      · exact he c d hcd hdb (b4.sub _ _ hadj)
      · exact absurd hadj (b3 c d (hbd.asymm hd) hcd hdn)
  have anti : ∀ y c, Before opts.order y c → n c ≤ n y := by
    intro y c hyc
    rcases cases3 hyc with rfl | hcb | hbc
    · rw [nb, nearly y hyc]
      omega
    · rw [nearly y (hyc.trans hd hcb), nearly c hcb]
    · rw [nlate c hbc]
      omega
  obtain ⟨s4, c1, c2, c3, c4, c5⟩ := hst.orient o hcol hD hac ho hp (by
    rintro y c (rfl | hyc)
    · exact le_rfl
    · exact anti y c hyc)
  rw [py_bind c1]
  have fresh4 : Fresh opts.order (fun d => Before opts.order b d) s4 := by
    intro c d h1 h2 h3 h4
    rw [c4] at h3
    exact b3 c d (h1.asymm hd) h2 h3 ((c5 c d).mp h4)
  have fin4 : ∀ s, Others opts.order b s4 s → (∀ a, Before opts.order a b → s.graph.MAdj a b → D.Adj a b) →
      Fresh opts.order (fun d => Before opts.order b d) s ∧
      (∀ c d, Before opts.order c d → d = b ∨ Before opts.order d b → s.graph.MAdj c d → D.Adj c d) ∧
      ∀ c d, Before opts.order c d → Before opts.order b d → s.graph.MAdj c d := fun s hs hex =>
    fin s (fun c d h => b4.sub _ _ ((c5 c d).mp (hs.sub _ _ h))) (fun c d h1 h2 => hs.adj c d h1 (h2.ne hd).symm ((c5 c d).mpr (f3 c d h1 h2)))
      (fun c d h1 h2 h3 h4 => fresh4 c d h1 h2 (hs.done d c (h1.ne hd).symm h3) (hs.sub _ _ h4)) hex
  by_cases h1 : maxSize opts i = 1
  · simp only [if_pos h1]
    refine ⟨s4, rfl, ⟨_, _, c2.inv⟩, fin4 s4 ⟨fun _ _ h => h, fun _ _ _ _ h => h, fun _ _ _ h => h⟩ fun a hab hadj => ?_⟩
    have := c2.tied a b hab hadj
    rw [nb] at this
    exact adj_of_tied hcol hD hac ho hab this (fun hn => by have := hsize a hab hn; omega)
  simp only [if_neg h1]
  obtain ⟨s5, d1, d2, d3, d4⟩ := nodeSizes_nc o hcol hD hac ho hp hi ⟨Or.inl rfl, Or.inl rfl⟩ (maxSize opts i - 1) 2 n s4 c2 c3 nb anti
    (fun y hy => (nearly y hy).ge) nlate (by omega) (fun a hab hn => by have := hsize a hab hn; omega)
  exact ⟨s5, d1, ⟨_, _, d2⟩, fin4 s5 d3 d4⟩

/-- The local variant is exact for DAGs without unshielded colliders. -/
theorem learnLocal_nc (o : SetOrder α) (hcol : D.NoUCol) (hD : D.WF) (hac : D.Acyclic) (ho : D.CausalOrder D.nodes opts.order)
    (hp : Pc.PerfectOn ci D D.nodes) (hm : ∀ m, opts.maxCond = some m → ∀ v, (D.par v).card ≤ m)
    {st' : OIcdState α} (h : Inv ci D.nodes opts.order k T0 T1 st) (hk : 1 ≤ k) (hk' : opts.order.length ≤ k) (hdone : st.done = ∅)
    (hfull : ∀ a b, Before opts.order a b → st.graph.MAdj a b) (hrun : learnLocal o ci opts st = .ok st') :
    ∀ a b, Before opts.order a b → st'.graph.MAdj a b → D.Adj a b :=
  learnLocal_of o ho h hk' hdone hfull (fun h hi0 hi hk' hf he hl => node_local_nc o hcol hD hac ho hp (fun m e => hm m e _) h hi0 hi hk hk' hf he hl)
    hrun

/-- The passes of the global variant. -/
theorem globalSizes_nc (o : SetOrder α) (hm : D.NoUCol) (hD : D.WF) (hac : D.Acyclic) (ho : D.CausalOrder D.nodes opts.order)
    (hp : Pc.PerfectOn ci D D.nodes) (hT : ∀ x, T0 x ∧ T1 x) :
    ∀ (l r : Nat) (d : Bool) (st : OIcdState α), NSt D ci opts.order k T0 T1 (fun _ => r) (fun _ => r) st → Plain opts.order st.graph →
      r + l ≤ k + 1 → (∀ a b, Before opts.order a b → ¬ D.Adj a b → (D.par b).card < r + l) →
      ∃ st', globalSizes o ci opts l r d st = .ok st' ∧ Inv ci D.nodes opts.order k T0 T1 st' ∧
        ∀ a b, Before opts.order a b → st'.graph.MAdj a b → D.Adj a b := by
  classical
  have hd := ho.isOrder.nodup
  intro l
  induction l with
  | zero =>
    intro r d st h _ _ hc
    exact ⟨st, rfl, h.inv, fun a b hab hadj => adj_of_tied hm hD hac ho hab (h.tied a b hab hadj) (fun hn => by have := hc a b hab hn; omega)⟩
  | succ l ih =>
    intro r d st h hpl hk hc
    have hcard : st.graph.nodes.card = opts.order.length := by
      rw [h.inv.inv.nodes, ← List.toFinset_card_of_nodup hd]
      congr 1
      ext v
      rw [List.mem_toFinset, ho.isOrder.mem]
    rw [globalSizes]
    obtain ⟨⟨s, d'⟩, b1, b2, b3, b4⟩ := foldlM_ok_inv (f := fun (acc : OIcdState α × Bool) idx => do
        let (st, d) ← phaseR o ci opts.order r idx acc.1
        return (st, acc.2 && d))
      (fun dn (s : OIcdState α × Bool) => NSt D ci opts.order k T0 T1 (fun x => if ∃ i ∈ dn, opts.order[i]? = some x then r + 1 else r) (fun _ => r + 1) s.1 ∧
        Plain opts.order s.1.graph ∧ (s.2 = true → ∀ b, (∃ i ∈ dn, opts.order[i]? = some b) → ∀ a, Before opts.order a b → s.1.graph.MAdj a b → D.Adj a b))
      (pyRange (r + 1) st.graph.nodes.card) [] (st, d) ⟨h.mono (fun _ _ _ _ => Or.inl (by simp)) (fun _ => by simp) hd, hpl, by simp⟩ (by
        rintro dn i ⟨s, d⟩ hi ⟨i1, i2, i3⟩
        simp only at i1 i2 i3
        rw [mem_pyRange, hcard] at hi
        have hb : opts.order[i]? = some opts.order[i] := List.getElem?_eq_getElem hi.2
        obtain ⟨s', d', p1, p2, p3, p4, p5⟩ := i1.round o hm hD hac ho hp i2 hb (r := r) (by omega) (hT _)
          (by show r ≤ ite _ _ _; split_ifs <;> omega) le_rfl
        have comb : ∀ x, (∃ j ∈ dn ++ [i], opts.order[j]? = some x) ↔ (∃ j ∈ dn, opts.order[j]? = some x) ∨ x = opts.order[i] := by
          intro x
          constructor
          · rintro ⟨j, hj, e⟩
            rw [List.mem_append, List.mem_singleton] at hj
            rcases hj with hj | rfl
            · exact Or.inl ⟨j, hj, e⟩
            · rw [hb] at e
              exact Or.inr (by simpa using e.symm)
          · rintro (⟨j, hj, e⟩ | rfl)
            · exact ⟨j, by simp [hj], e⟩
            · exact ⟨i, by simp, hb⟩
        refine ⟨(s', d && d'), by rw [py_bind p1]; rfl, p2.mono (fun a x _ _ => Or.inl ?_) (fun x => ?_) hd, p3, fun hdd x hx a hax hadj => ?_⟩
        · by_cases hx : x = opts.order[i]
          · rw [hx, Function.update_self]
            split_ifs <;> omega
          · rw [Function.update_of_ne hx]
            simp only [comb, hx, or_false, le_refl]
        · by_cases hx : x = opts.order[i]
          · rw [hx, Function.update_self]
          · rw [Function.update_of_ne hx]
        · simp only [Bool.and_eq_true] at hdd
          rcases (comb x).mp hx with hx | rfl
          · exact i3 hdd.1 x hx a hax (p4.sub _ _ hadj)
          · exact p5 hdd.2 a hax hadj)
    simp only [List.nil_append] at b2 b3 b4
    -- base nodes with few predecessors are finished
    have few : ∀ a b, Before opts.order a b → s.graph.MAdj a b → ¬ (∃ i ∈ pyRange (r + 1) st.graph.nodes.card, opts.order[i]? = some b) → D.Adj a b := by
      intro a b hab hadj hnot
      obtain ⟨i, hi, -⟩ := before_iff.mp hab
      have hlt : i < r + 1 := by
        by_contra hge
        refine hnot ⟨i, ?_, hi⟩
        rw [mem_pyRange, hcard]
        exact ⟨by omega, (List.getElem?_eq_some_iff.mp hi).1⟩
      have ht := b2.tied a b hab hadj
      rw [if_neg hnot] at ht
      refine adj_of_tied hm hD hac ho hab ht fun hn => ?_
      have h1 := parents_card hD hac ho hi hab hn
      have hi0 : i ≠ 0 := by
        rintro rfl
        obtain ⟨j, j1, j2⟩ := before_iff.mp hab
        obtain ⟨j1', j1⟩ := List.getElem?_eq_some_iff.mp j1
        obtain ⟨k1', k1⟩ := List.getElem?_eq_some_iff.mp hi
        have : j = 0 := (List.Nodup.getElem_inj_iff hd).mp (j1.trans k1.symm)
        subst this
        simp at j2
      omega
    rw [py_bind b1]
    simp only
    by_cases hd1 : d' = true
    · refine ⟨s, by rw [if_pos hd1]; rfl, b2.inv, fun a b hab hadj => ?_⟩
      by_cases hex : ∃ i ∈ pyRange (r + 1) st.graph.nodes.card, opts.order[i]? = some b
      · exact b4 hd1 b hex a hab hadj
      · exact few a b hab hadj hex
    · rw [if_neg hd1]
      have hst : NSt D ci opts.order k T0 T1 (fun _ => r + 1) (fun _ => r + 1) s := b2.mono (fun a b hab hadj => by
        by_cases hex : ∃ i ∈ pyRange (r + 1) st.graph.nodes.card, opts.order[i]? = some b
        · exact Or.inl (by rw [if_pos hex])
        · exact Or.inr (few a b hab hadj hex)) (fun _ => le_rfl) hd
      obtain ⟨s2, q1, q2, q3, -, -⟩ := hst.orient o hm hD hac ho hp (fun _ _ _ => le_rfl)
      obtain ⟨s3, r1, r2, r3⟩ := ih (r + 1) d' s2 q2 q3 (by omega) (fun a b hab hn => by have := hc a b hab hn; omega)
      exact ⟨s3, by rw [py_bind q1]; exact r1, r2, r3⟩

/-- The global variant is exact for DAGs without unshielded colliders. -/
theorem learnGlobal_nc (o : SetOrder α) (hcol : D.NoUCol) (hD : D.WF) (hac : D.Acyclic) (ho : D.CausalOrder D.nodes opts.order)
    (hp : Pc.PerfectOn ci D D.nodes) (hm : ∀ m, opts.maxCond = some m → ∀ v, (D.par v).card ≤ m)
    {st' : OIcdState α} (h : Inv ci D.nodes opts.order k (fun _ => False) (fun _ => False) st) (hk : 1 ≤ k)
    (hk2 : sizeBound opts ≤ k) (hdone : st.done = ∅)
    (hfull : ∀ a b, Before opts.order a b → st.graph.MAdj a b) (hrun : learnGlobal o ci opts st = .ok st') :
    ∀ a b, Before opts.order a b → st'.graph.MAdj a b → D.Adj a b := by
  have hd := ho.isOrder.nodup
  have hcard : st.graph.nodes.card = opts.order.length := by
    rw [h.inv.nodes, ← List.toFinset_card_of_nodup hd]
    congr 1
    ext v
    rw [List.mem_toFinset, ho.isOrder.mem]
  obtain ⟨s1, s2, s3, s4, a1, a2, a3, a4, a5, a6, a7, a8, a9⟩ := global01_more o hac ho hp h hk hdone hfull
  have hrep := a9.representing hac ho hp
  obtain ⟨G, g1, g2, -⟩ := orient_spec o hd (fun v hv => (ho.isOrder.mem v).mpr hv) true a9.inv.inv
  rw [a4] at g1
  cases g1
  have hst : NSt D ci opts.order k (fun _ => True) (fun _ => True) (fun _ => 2) (fun _ => 2) s3 := by
    refine ⟨a9.inv, fun a b hab hadj => tied_of_dep hcol hD hac ho hab fun S hS hc h1 h2 => ?_, fun a b hab hn => ?_, fun a b hab hdn hadj => ?_⟩
    · exact (hrep a ((ho.isOrder.mem a).mp hab.mem_left) b ((ho.isOrder.mem b).mp hab.mem_right) (hab.ne hd)).mp hadj S hS (by omega) h1 h2
    · obtain ⟨S, s1, s2⟩ := (a9.small a b hab hn).card
      exact ⟨S, s1, by omega⟩
    · exact absurd ((g2.adj a b).mpr hadj) (a6 a b trivial hab hdn)
  obtain ⟨s4', q1, q2, q3, -, -⟩ := hst.orient o hcol hD hac ho hp (fun _ _ _ => le_rfl)
  rw [a4] at q1
  cases q1
  rw [learnGlobal] at hrun
  simp only at hrun
  rw [py_bind a1, py_bind a2, py_bind a3, py_bind a4] at hrun
  obtain ⟨maxc, m1, m2, m3⟩ : ∃ maxc, (match opts.maxCond with
      | some m => m + 1
      | none => st.graph.nodes.card - 2 + 1) = maxc ∧ maxc - 2 + 2 ≤ k + 1 ∧
      ∀ a b, Before opts.order a b → ¬ D.Adj a b → (D.par b).card + 1 ≤ maxc := by
    refine ⟨_, rfl, ?_, fun a b hab hn => ?_⟩
    · rw [sizeBound] at hk2
      rw [hcard]
      cases hmc : opts.maxCond with
      | none => rw [hmc] at hk2; simp only at hk2 ⊢; omega
      | some m => rw [hmc] at hk2; simp only at hk2 ⊢; omega
    · obtain ⟨i, hi, -⟩ := before_iff.mp hab
      have hlt := (List.getElem?_eq_some_iff.mp hi).1
      have := parents_card hD hac ho hi hab hn
      rw [hcard]
      cases hmc : opts.maxCond with
      | none => simp only; omega
      | some m => have := hm m hmc b; simp only; omega
  obtain ⟨s5, e1, e2, e3⟩ := globalSizes_nc o hcol hD hac ho hp (fun _ => ⟨trivial, trivial⟩) (maxc - 2) 2 true _ q2 q3 (by omega)
    (fun a b hab hn => by have := m3 a b hab hn; omega)
  subst m1
  have hrun := (py_bind e1 (fun st => orient o opts false st)).symm.trans hrun
  obtain ⟨s6, f1, f2, f3, -⟩ := orient_inv o hd ho.isOrder.mem false e2
  rw [f1] at hrun
  cases hrun
  exact fun a b hab hadj => e3 a b hab (f3 _ _ hadj)

end OIcd
end Verif
