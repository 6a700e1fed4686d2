import Verif.Lemmas.OIcdMarks

/-!
# Ordered ICD without latent variables: nodes with few parents
-/

namespace Verif
open Relation MG
variable {α : Type} [LinearOrder α] {D : Dag α}
namespace OIcd
variable {order : List α} {ci : CITest α} {k : Nat} {T0 T1 : α → Prop} {st : OIcdState α}

omit [LinearOrder α] in
theorem possPar_of_edge (ho : D.CausalOrder D.nodes order) {G : MG α} (hG : G.Proper) (hn : G.nodes = D.nodes)
    (h1 : D.ArrowsTrue G) (h2 : G.OrdMarks order) {v w : α} (he : D.Edge v w) (hadj : G.MAdj v w) : G.PossPar v w := by
  have hm := hG.mem_adj hadj
  rw [hn] at hm
  have hb := ho.anc v hm.1 w hm.2 (hG.ne hadj) (.single he)
  refine ⟨hadj, fun h => ?_, fun h => h1 _ _ h (.single he)⟩
  have := h2 v w _ hb h
  simp at this

/-- True ancestors are possible ancestors through earlier nodes. -/
theorem path_of_anc (hD : D.WF) (ho : D.CausalOrder D.nodes order) {G : MG α} (hG : G.Proper) (hn : G.nodes = D.nodes)
    (h1 : D.ArrowsTrue G) (h2 : G.OrdMarks order) (hadj : ∀ a b, D.Edge a b → G.MAdj a b) {v x : α} (hvx : v ≠ x) (h : D.DPath v x) :
    ∃ l, PathVia G.PossPar (order.toFinset.filter (fun y => ¬ Before order x y)) v x l := by
  refine pathVia_iff.mpr ⟨hvx, ?_⟩
  have ht : TransGen D.Edge v x := by
    rcases reflTransGen_iff_eq_or_transGen.mp h with e | h
    · exact absurd e.symm hvx
    · exact h
  have step : ∀ u w, D.Edge u w → D.DPath w x →
      G.PossPar u w ∧ w ∈ order.toFinset.filter (fun y => ¬ Before order x y) := by
    intro u w he hw
    refine ⟨possPar_of_edge ho hG hn h1 h2 he (hadj _ _ he), ?_⟩
    rw [Finset.mem_filter, List.mem_toFinset]
    exact ⟨(ho.isOrder.mem w).mpr (hD _ _ he).2, fun hb => ho.not_anc hb hw⟩
  clear h hvx
  induction ht using TransGen.head_induction_on with
  | single he => exact .single (step _ _ he .refl)
  | head he hr ih => exact .head (step _ _ he hr.to_reflTransGen) ih

/-- The state while the base node `b` is processed, after the tests with one conditioning node. -/
structure Stage (D : Dag α) (ci : CITest α) (order : List α) (k : Nat) (T0 T1 : α → Prop) (b : α) (st : OIcdState α) : Prop where
  inv : Inv ci D.nodes order k T0 T1 st
  t0 : T0 b
  t1 : T1 b
  early : ∀ c d, Before order c d → Before order d b → st.graph.MAdj c d → D.Adj c d
  later : ∀ c d, Before order c d → Before order b d → st.graph.MAdj c d
  fresh : Fresh order (fun d => Before order b d) st
  one : ∀ a, Before order a b → st.graph.MAdj a b → ∀ S ⊆ D.nodes, S.card ≤ 1 → a ∉ S → b ∉ S → ¬ D.DSeparated a b S
  recs : ∀ a, Before order a b → ¬ st.graph.MAdj a b → ∃ S, st.sep.get a b = .ok S ∧ (∀ z ∈ S, D.Anc a b z) ∧
    ∀ u, Before order u b → st.graph.MAdj u b → D.Linked S u b

variable {b : α}

theorem Stage.same (h : Stage D ci order k T0 T1 b st) {G : MG α} (hs : SameSkel G st.graph) :
    Stage D ci order k T0 T1 b { st with graph := G } where
  inv := h.inv.same hs
  t0 := h.t0
  t1 := h.t1
  early c d h1 h2 h3 := h.early c d h1 h2 ((hs.adj c d).mp h3)
  later c d h1 h2 := (hs.adj c d).mpr (h.later c d h1 h2)
  fresh c d h1 h2 h3 h4 := h.fresh c d h1 h2 h3 ((hs.adj c d).mp h4)
  one a h1 h2 := h.one a h1 ((hs.adj a b).mp h2)
  recs a h1 h2 := by
    obtain ⟨S, s1, s2, s3⟩ := h.recs a h1 (fun h' => h2 ((hs.adj a b).mpr h'))
    exact ⟨S, s1, s2, fun u hu hu' => s3 u hu ((hs.adj u b).mp hu')⟩

theorem Stage.sepOk (h : Stage D ci order k T0 T1 b st) (hac : D.Acyclic) (ho : D.CausalOrder D.nodes order)
    (hp : Pc.PerfectOn ci D D.nodes) (hb : b ∈ D.nodes) : SepOk D st.sep.get st.graph := by
  have hd := ho.isOrder.nodup
  refine sepOk_of hac ho h.inv.inv.proper h.inv.inv.nodes fun a c hb' hna => ?_
  have hmem : ∀ {u v}, st.graph.MAdj u v → u ∈ D.nodes ∧ v ∈ D.nodes := by
    intro u v huv
    have := h.inv.inv.proper.mem_adj huv
    rwa [h.inv.inv.nodes] at this
  have hadj : ∀ u v, (v = b ∨ Before order v b) → (u = b ∨ Before order u b) → u ≠ b → v ≠ b → st.graph.MAdj u v → D.Adj u v := by
    intro u v hv hu nu nv huv
    have hm := hmem huv
    rcases Before.total ((ho.isOrder.mem u).mpr hm.1) ((ho.isOrder.mem v).mpr hm.2) (h.inv.inv.proper.ne huv) with hB | hB
    · exact h.early u v hB (hv.resolve_left nv) huv
    · exact (h.early v u hB (hu.resolve_left nu) huv.symm).symm
  obtain ⟨S, s1, s2, s3, s4, s5, s6, -⟩ := h.inv.sepOf hac ho hp hb' hna
  refine ⟨S, s1, s3, s4, s5, ?_⟩
  have hc : c = b ∨ Before order c b := by
    by_cases e : c = b
    · exact Or.inl e
    · exact Or.inr ((Before.total hb'.mem_right ((ho.isOrder.mem b).mpr hb) e).resolve_right fun h' => hna (h.later a c hb' h'))
  rcases hc with rfl | hcb
  · obtain ⟨S', r1, r2, r3⟩ := h.recs a hb' hna
    rw [s1] at r1
    cases r1
    refine ⟨fun z hz => Or.inl (r2 z hz), fun u v huv hadj' hu hv => ?_⟩
    have hm := hmem hadj'
    rcases ho.anc_before hb' hm.2 hv with rfl | hv'
    · exact r3 u huv hadj'
    · exact .of_adj hac (h.early u v huv hv' hadj')
  · have hle : ∀ u, u = c ∨ Before order u c → Before order u b := by
      rintro u (rfl | hu)
      · exact hcb
      · exact hu.trans hd hcb
    refine ⟨fun z hz => Or.inr fun u hzu hA => ?_, fun u v huv hadj' hu hv => ?_⟩
    · have hu := hle u (ho.anc_before hb' (hmem hzu).2 hA)
      have hz' := hle z (Or.inr (s6 z hz))
      exact hadj z u (Or.inr hu) (Or.inr hz') (hz'.ne hd) (hu.ne hd) hzu
    · have hu' := hle v (ho.anc_before hb' (hmem hadj').2 hv)
      exact .of_adj hac (h.early u v huv hu' hadj')

/-- The marks after `orient_graph`. -/
theorem Stage.orient (o : SetOrder α) {opts : OIcdOpts α} (h : Stage D ci opts.order k T0 T1 b st) (hac : D.Acyclic)
    (ho : D.CausalOrder D.nodes opts.order) (hp : Pc.PerfectOn ci D D.nodes) (hb : b ∈ D.nodes) :
    ∃ st', OIcd.orient o opts true st = .ok st' ∧ Stage D ci opts.order k T0 T1 b st' ∧ D.ArrowsTrue st'.graph ∧
      st'.graph.OrdMarks opts.order ∧ st'.done = st.done ∧ AdjSub st'.graph st.graph := by
  obtain ⟨G, g1, g2, g3, -⟩ := orient_spec o ho.isOrder.nodup (fun v hv => (ho.isOrder.mem v).mpr hv) true h.inv.inv
  exact ⟨_, g1, h.same g2, (orient_true o hac ho true h.inv.inv (h.sepOk hac ho hp hb) g1).1, g3, rfl, fun a b h' => (g2.adj a b).mp h'⟩

omit [LinearOrder α] in
/-- The marks of a graph with fewer edges. -/
theorem arrowsTrue_sub {E G : MG α} (h : SubMarks E G) (hG : D.ArrowsTrue G) : D.ArrowsTrue E :=
  fun a b hab => hG a b ((h.marks a b _).mp hab).1

omit [LinearOrder α] in
theorem ordMarks_sub {E G : MG α} (h : SubMarks E G) (hG : G.OrdMarks order) : E.OrdMarks order :=
  fun a b m hb hab => hG a b m hb ((h.marks a b _).mp hab).1

/-- A pass with `r` conditioning nodes for the base node `b`: all sets of `r` parents of `b` are tested for the pairs that stay adjacent. -/
theorem round_tests (o : SetOrder α) (hD : D.WF) (hac : D.Acyclic) (ho : D.CausalOrder D.nodes order) (hp : Pc.PerfectOn ci D D.nodes)
    (h : Inv ci D.nodes order k T0 T1 st) (ht : T0 b ∧ T1 b) (h1 : D.ArrowsTrue st.graph) (h2 : st.graph.OrdMarks order) {i : Nat}
    (hi : order[i]? = some b) {r : Nat} (hk : r ≤ k) :
    ∃ st' d, ∃ C : Finset α → Prop, phaseR o ci order r i st = .ok (st', d) ∧ Inv ci D.nodes order k T0 T1 st' ∧
      SubMarks st'.graph st.graph ∧ (∀ T, C T → T.card = r ∧ ∀ v ∈ T, Before order v b) ∧
      (∀ a, Before order a b → (b, a) ∉ st.done → st'.graph.MAdj a b →
        (∀ T, C T → a ∉ T → (∀ v ∈ T, D.Anc a b v) → ¬ D.DSeparated a b T) ∧
        ∀ T ⊆ D.par b, T.card = r → a ∉ T → ¬ D.DSeparated a b T ∧ (b, a) ∉ st'.done) ∧
      (∀ c a, c ≠ b → (c, a) ∈ st'.done → (c, a) ∈ st.done) ∧ Rec order b C st st' := by
  have hd := ho.isOrder.nodup
  obtain ⟨st', d, C, p1, p2, p3, p4, p5, p6, p7, p8⟩ := phaseR_cands o h hd ho.isOrder.mem hi (r := r) hk ht
  refine ⟨st', d, C, p1, p2, p3, p4, ?_, p7, p8⟩
  have hb : b ∈ D.nodes := (ho.isOrder.mem b).mp (List.mem_of_getElem? hi)
  have hpath : ∀ {v x}, v ≠ x → D.DPath v x →
      ∃ l, PathVia st'.graph.PossPar (order.toFinset.filter (fun y => ¬ Before order x y)) v x l :=
    path_of_anc hD ho p2.inv.proper p2.inv.nodes (arrowsTrue_sub p3 h1) (ordMarks_sub p3 h2)
      (fun a b hab => p2.keeps hac hp (hD _ _ hab).1 (hD _ _ hab).2 (Or.inl hab))
  intro a hab hnd hadj
  have ha : a ∈ D.nodes := (ho.isOrder.mem a).mp hab.mem_left
  have key : ∀ T, C T → a ∉ T → (∀ v ∈ T, D.Anc a b v) → ¬ D.DSeparated a b T ∧ (b, a) ∉ st'.done := by
    intro T hC haT hA
    obtain ⟨c1, c2⟩ := p4 T hC
    obtain ⟨q1, q2⟩ := p6 a hab hnd hadj T hC ⟨haT, fun v hv => (hA v hv).imp
      (hpath (fun e => haT (e ▸ hv))) (hpath ((c2 v hv).ne hd))⟩
    exact ⟨Dag.dep_of hac hp ha hb (hab.ne hd) haT (fun hbT => (c2 b hbT).ne hd rfl)
      (fun v hv => (ho.isOrder.mem v).mp (c2 v hv).mem_left) (Or.inl q1), q2⟩
  refine ⟨fun T hC haT hA => (key T hC haT hA).1, fun T hT hc haT => ?_⟩
  have hE : ∀ v ∈ T, D.Edge v b := fun v hv => hT hv
  have hB : ∀ v ∈ T, Before order v b := fun v hv => ho.anc v (hD _ _ (hE v hv)).1 b hb (by
    rintro rfl
    exact hac _ (.single (hE _ hv))) (.single (hE v hv))
  exact key T (p5 T hc hB fun v hv => (h.keeps hac hp (hD _ _ (hE v hv)).1 hb (Or.inl (hE v hv))).symm) haT
    (fun v hv => Or.inr (.single (hE v hv)))

/-- A pass with two conditioning nodes. -/
theorem Stage.round (o : SetOrder α) (hD : D.WF) (hac : D.Acyclic) (ho : D.CausalOrder D.nodes order) (hp : Pc.PerfectOn ci D D.nodes)
    (h : Stage D ci order k T0 T1 b st) (hf : ∀ a, Before order a b → (b, a) ∈ st.done → ¬ st.graph.MAdj a b)
    (h1 : D.ArrowsTrue st.graph) (h2 : st.graph.OrdMarks order) {i : Nat} (hi : order[i]? = some b) (hk : 2 ≤ k) :
    ∃ st' d, phaseR o ci order 2 i st = .ok (st', d) ∧ Stage D ci order k T0 T1 b st' ∧ AdjSub st'.graph st.graph ∧
      ∀ a, Before order a b → st'.graph.MAdj a b → ∀ T ⊆ D.par b, T.card = 2 → a ∉ T → ¬ D.DSeparated a b T ∧ (b, a) ∉ st'.done := by
  have hd := ho.isOrder.nodup
  have hb : b ∈ D.nodes := (ho.isOrder.mem b).mp (List.mem_of_getElem? hi)
  obtain ⟨st', d, C, p1, p2, p3, p4, p5, p6, p7⟩ := round_tests o hD hac ho hp h.inv ⟨h.t0, h.t1⟩ h1 h2 hi hk
  have hsub : ∀ {c d}, st'.graph.MAdj c d → st.graph.MAdj c d := fun h' => p3.adj h'
  have p5' := fun a hab hadj => p5 a hab (fun hdn => hf a hab hdn (hsub hadj)) hadj
  have one : ∀ a, Before order a b → st'.graph.MAdj a b → ∀ S ⊆ D.nodes, S.card ≤ 1 → a ∉ S → b ∉ S → ¬ D.DSeparated a b S :=
    fun a hab hadj => h.one a hab (hsub hadj)
  refine ⟨st', d, p1, ⟨p2, h.t0, h.t1, fun c d h1 h2 h3 => h.early c d h1 h2 (hsub h3), fun c d h1 h2 => ?_, fun c d h1 h2 h3 h4 => ?_,
    one, fun a hab hna => ?_⟩, fun _ _ h => hsub h, fun a hab hadj => (p5' a hab hadj).2⟩
  · by_contra hn
    rcases p7.2 c d h1 hn with ⟨q, -⟩ | ⟨q, -⟩
    · exact q (h.later c d h1 h2)
    · exact h2.ne hd q.symm
  · exact h.fresh c d h1 h2 (p6 d c (h1.ne hd).symm h3) (hsub h4)
  · have hsep := p2.sepOf hac ho hp hab hna
    rcases p7.2 a b hab hna with ⟨q1, q2⟩ | ⟨-, q1, S, q2, q3⟩
    · obtain ⟨S, s1, s2, s3⟩ := h.recs a hab q1
      exact ⟨S, q2.trans s1, s2, fun u hu hu' => s3 u hu (hsub hu')⟩
    · obtain ⟨S', s1, s2, s3, s4, s5, s6, -⟩ := hsep
      rw [q2] at s1
      cases s1
      obtain ⟨c1, -⟩ := p4 S q3
      have hA : ∀ z ∈ S, D.Anc a b z := Dag.anc_of_smallest hac s3 s4 s5 (fun T hT hc hs => h.one a hab q1 T (hT.trans s2) (by omega)
        (fun h => s3 (hT h)) (fun h => s4 (hT h)) hs)
      refine ⟨S, q2, hA, fun u hu hadj => ?_⟩
      have hls : D.linkSet S u b ⊆ S := fun x hx => (Dag.linkSet_spec.mp hx).1
      have hu1 : u ∉ D.linkSet S u b := fun h => (Dag.linkSet_spec.mp h).2.2.1 rfl
      have hb1 : b ∉ D.linkSet S u b := fun h => (Dag.linkSet_spec.mp h).2.2.2 rfl
      rcases Nat.lt_or_ge (D.linkSet S u b).card 2 with hc | hc
      · exact one u hu hadj _ (hls.trans s2) (by omega) hu1 hb1
      · have e : D.linkSet S u b = S := Finset.eq_of_subset_of_card_le hls (by omega)
        rw [Dag.Linked, e]
        rw [e] at hu1
        exact (p5' u hu hadj).1 S q3 hu1 (fun v hv => (Dag.linkSet_spec.mp (e.symm ▸ hv)).2.1)

end OIcd
end Verif
