import Verif.Lemmas.OIcdDeg

/-!
# Ordered ICD without latent variables: the local and the global variant
-/

namespace Verif
open Relation MG
variable {α : Type} [LinearOrder α] {D : Dag α}
namespace OIcd
variable {opts : OIcdOpts α} {ci : CITest α} {k : Nat} {T0 T1 : α → Prop} {st : OIcdState α} {b : α}

/-- The pairs with other later nodes keep their adjacency, and are not marked. -/
structure Others (order : List α) (b : α) (st st' : OIcdState α) : Prop where
  sub : AdjSub st'.graph st.graph
  adj : ∀ c d, Before order c d → d ≠ b → st.graph.MAdj c d → st'.graph.MAdj c d
  done : ∀ c a, c ≠ b → (c, a) ∈ st'.done → (c, a) ∈ st.done

omit [LinearOrder α] in
theorem Others.trans {order : List α} {s1 s2 s3 : OIcdState α} (h1 : Others order b s1 s2) (h2 : Others order b s2 s3) :
    Others order b s1 s3 :=
  ⟨h2.sub.trans h1.sub, fun c d hcd hne h => h2.adj c d hcd hne (h1.adj c d hcd hne h), fun c a hne h => h1.done c a hne (h2.done c a hne h)⟩

omit [LinearOrder α] in
theorem Others.same {order : List α} {G : MG α} (h : SameSkel G st.graph) : Others order b st { st with graph := G } :=
  ⟨fun c d h' => (h.adj c d).mp h', fun c d _ _ h' => (h.adj c d).mpr h', fun _ _ _ h' => h'⟩

theorem Rec.others {order : List α} {C : Finset α → Prop} {st' : OIcdState α} (h : Rec order b C st st')
    (hdn : ∀ c a, c ≠ b → (c, a) ∈ st'.done → (c, a) ∈ st.done) : Others order b st st' :=
  ⟨h.1, fun c d hcd hne hadj => by
    by_contra hn
    rcases h.2 c d hcd hn with ⟨g, -⟩ | ⟨g, -⟩
    · exact g hadj
    · exact hne g, hdn⟩

theorem nodeSizes_others (o : SetOrder α) {N : Finset α} (ho : IsOrder opts.order N) {i : Nat}
    (hi : opts.order[i]? = some b) (ht : T0 b ∧ T1 b) :
    ∀ (n r : Nat) (st : OIcdState α), r + n ≤ k + 1 → Inv ci N opts.order k T0 T1 st →
      ∃ st', nodeSizes o ci opts i n r st = .ok st' ∧ Inv ci N opts.order k T0 T1 st' ∧ Others opts.order b st st' := by
  intro n
  induction n with
  | zero => exact fun r st _ h => ⟨st, rfl, h, fun _ _ h => h, fun _ _ _ _ h => h, fun _ _ _ h => h⟩
  | succ n ih =>
    intro r st hr h
    rw [nodeSizes, py_bind (nth_ok hi)]
    by_cases hall : (opts.order.take i).all (fun anc => (b, anc) ∈ st.done) = true
    · exact ⟨st, by simp only [if_pos hall]; rfl, h, fun _ _ h => h, fun _ _ _ _ h => h, fun _ _ _ h => h⟩
    · simp only [if_neg hall]
      obtain ⟨s1, d, C, p1, p2, -, -, -, -, p7, p8⟩ := phaseR_cands o h ho.nodup ho.mem hi (r := r) (by omega) ht
      obtain ⟨G, q1, q2, -⟩ := orient_spec o ho.nodup (fun v hv => (ho.mem v).mpr hv) true p2.inv
      obtain ⟨s3, r1, r2, r3⟩ := ih (r + 1) { s1 with graph := G } (by omega) (p2.same q2)
      refine ⟨s3, ?_, r2, ((p8.others p7).trans (.same q2)).trans r3⟩
      rw [py_bind p1]
      simp only
      rw [py_bind q1]
      exact r1

omit [LinearOrder α] in
/-- The parents of a node separate it from earlier nodes. -/
theorem parents_sep (hac : D.Acyclic) {order : List α} (ho : D.CausalOrder D.nodes order) {a b : α} (hab : Before order a b)
    (hn : ¬ D.Adj a b) : D.DSeparated a b (D.par b) :=
  (Dag.dseparated_symm hac).mp (Dag.dseparated_parents hac (hab.ne ho.isOrder.nodup).symm (fun h => hn h.symm) (ho.not_anc hab))

theorem parents_card (hD : D.WF) (hac : D.Acyclic) {order : List α} (ho : D.CausalOrder D.nodes order) {i : Nat}
    (hi : order[i]? = some b) {a : α} (hab : Before order a b) (hn : ¬ D.Adj a b) : (D.par b).card ≤ i - 1 := by
  have hd := ho.isOrder.nodup
  have hsub : D.par b ⊆ ((order.take i).toFinset.erase a) := by
    intro v hv
    have he : D.Edge v b := hv
    rw [Finset.mem_erase, List.mem_toFinset, mem_take hd hi]
    refine ⟨?_, ho.anc v (hD _ _ he).1 b (hD _ _ he).2 ?_ (.single he)⟩
    · rintro rfl
      exact hn (Or.inl he)
    · rintro rfl
      exact hac _ (.single he)
  have h1 := Finset.card_le_card hsub
  rw [Finset.card_erase_of_mem (by rw [List.mem_toFinset, mem_take hd hi]; exact hab),
    List.toFinset_card_of_nodup (hd.sublist (List.take_sublist i order)), List.length_take] at h1
  omega

/-- One base node of the local variant. -/
theorem node_local (o : SetOrder α) (hD : D.WF) (hac : D.Acyclic) (ho : D.CausalOrder D.nodes opts.order)
    (hp : Pc.PerfectOn ci D D.nodes) (hdeg : (D.par b).card ≤ 3) (hm : ∀ m, opts.maxCond = some m → (D.par b).card ≤ m)
    (h : Inv ci D.nodes opts.order k T0 T1 st) {i : Nat} (hi0 : i ≠ 0) (hi : opts.order[i]? = some b) (hk : 3 ≤ k)
    (hk' : maxSize opts i ≤ k)
    (hf : Fresh opts.order (fun d => ¬ Before opts.order d b) st)
    (he : ∀ c d, Before opts.order c d → Before opts.order d b → st.graph.MAdj c d → D.Adj c d)
    (hl : ∀ c d, Before opts.order c d → ¬ Before opts.order d b → st.graph.MAdj c d) :
    ∃ st', nodeConnection o ci opts i st = .ok st' ∧ (∃ T0' T1', Inv ci D.nodes opts.order k T0' T1' st') ∧
      Fresh opts.order (fun d => Before opts.order b d) st' ∧
      (∀ c d, Before opts.order c d → d = b ∨ Before opts.order d b → st'.graph.MAdj c d → D.Adj c d) ∧
      ∀ c d, Before opts.order c d → Before opts.order b d → st'.graph.MAdj c d := by
  have hd := ho.isOrder.nodup
  have hb : b ∈ D.nodes := (ho.isOrder.mem b).mp (List.mem_of_getElem? hi)
  have hun : nodeConnection o ci opts i st = (do
      let st ← phase0 ci opts.order i st
      let st ← orient o opts true st
      if maxSize opts i = 0 then return st
      let st ← phase1 o ci opts.order i st
      let st ← orient o opts true st
      if maxSize opts i = 1 then return st
      nodeSizes o ci opts i (maxSize opts i - 1) 2 st) := by
    rw [nodeConnection, if_neg hi0]
    rfl
  have hsize : ∀ a, Before opts.order a b → ¬ D.Adj a b → (D.par b).card ≤ maxSize opts i := by
    intro a hab hn
    have := parents_card hD hac ho hi hab hn
    rw [maxSize]
    cases hmc : opts.maxCond with
    | none => exact this
    | some m => exact le_min this (hm m hmc)
  -- what is left to show for a state
  have fin : ∀ s, Keep opts.order b st s → Fresh opts.order (fun d => ¬ Before opts.order d b) s →
      (∀ a, Before opts.order a b → s.graph.MAdj a b → D.Adj a b) → Fresh opts.order (fun d => Before opts.order b d) s ∧
      (∀ c d, Before opts.order c d → d = b ∨ Before opts.order d b → s.graph.MAdj c d → D.Adj c d) ∧
      ∀ c d, Before opts.order c d → Before opts.order b d → s.graph.MAdj c d := by
    intro s hs hfs hex
    refine ⟨fun c d h1 => hfs c d (h1.asymm hd), fun c d h1 h2 h3 => ?_, fun c d h1 h2 => ?_⟩
    · rcases h2 with rfl | h2
      · exact hex c h1 h3
      · exact he c d h1 h2 (hs.sub _ _ h3)
    · by_contra hn
      exact (hs.keep c d h1 (h2.ne hd).symm hn).1 (hl c d h1 (h2.asymm hd))
  obtain ⟨s1, s2, a1, a2, a3, a4, a5, a6, s3, b1, b2, b3, b4, b5⟩ := base01 o hac ho hp h (by omega) hi hf
    (fun a hab => hl a b hab (fun h => h.ne hd rfl))
  rw [hun, py_bind a1, py_bind a2]
  by_cases h0 : maxSize opts i = 0
  · simp only [if_pos h0]
    refine ⟨s2, rfl, ⟨_, _, a3⟩, fin s2 a5 a4 fun a hab hadj => ?_⟩
    by_contra hn
    have hsep := parents_sep hac ho hab hn
    rw [Finset.card_eq_zero.mp (by have := hsize a hab hn; omega : (D.par b).card = 0)] at hsep
    exact Dag.dep_of hac hp ((ho.isOrder.mem a).mp hab.mem_left) hb (hab.ne hd) (by simp) (by simp) (by simp)
      (Or.inl (a3.dep0 a b hab (Or.inl rfl) hadj)) hsep
  simp only [if_neg h0]
  rw [py_bind b1]
  have one : ∀ a, Before opts.order a b → s3.graph.MAdj a b → ∀ S ⊆ D.nodes, S.card ≤ 1 → a ∉ S → b ∉ S → ¬ D.DSeparated a b S :=
    fun a hab hadj S hS hc h1 h2 => b2.repOne hac ho hp (Or.inl rfl) (Or.inl rfl) (fun z hz hn => (b5 z hz hn).card) hab hadj hS hc h1 h2
  obtain ⟨f1, f2, f3⟩ : Fresh opts.order (fun d => Before opts.order b d) s3 ∧
      (∀ c d, Before opts.order c d → Before opts.order d b → s3.graph.MAdj c d → D.Adj c d) ∧
      ∀ c d, Before opts.order c d → Before opts.order b d → s3.graph.MAdj c d := by
    refine ⟨fun c d h1 => b3 c d (h1.asymm hd), fun c d h1 h2 h3 => he c d h1 h2 (b4.sub _ _ h3), fun c d h1 h2 => ?_⟩
    by_contra hn
    exact (b4.keep c d h1 (h2.ne hd).symm hn).1 (hl c d h1 (h2.asymm hd))
  have hst : Stage D ci opts.order k (fun x => x = b ∨ T0 x) (fun x => x = b ∨ T1 x) b s3 := by
    refine ⟨b2, Or.inl rfl, Or.inl rfl, f2, f3, f1, one, fun a hab hn => ?_⟩
    obtain ⟨S, s1, p1, p2, p3, p4, -⟩ := b2.sepOf hac ho hp hab hn
    obtain ⟨S', q1, q2⟩ := (b5 a hab hn).card
    rw [s1] at q1
    cases q1
    refine ⟨S, s1, (b5 a hab hn).anc hac s1 p4, fun u hu hadj => one u hu hadj _ (fun x hx => p1 (Dag.linkSet_spec.mp hx).1) ?_ ?_ ?_⟩
    · exact (Finset.card_le_card fun x hx => (Dag.linkSet_spec.mp hx).1).trans q2
    · exact fun h => (Dag.linkSet_spec.mp h).2.2.1 rfl
    · exact fun h => (Dag.linkSet_spec.mp h).2.2.2 rfl
  obtain ⟨s4, c1, c2, c3, c4, c5, c6⟩ := hst.orient o hac ho hp hb
  have hf4 : ∀ a, Before opts.order a b → (b, a) ∈ s4.done → ¬ s4.graph.MAdj a b := by
    intro a hab hdn hadj
    rw [c5] at hdn
    exact b3 a b (fun h => h.ne hd rfl) hab hdn (c6 _ _ hadj)
  rw [py_bind c1]
  -- nodes with at most one parent
  have few : ∀ s : OIcdState α, AdjSub s.graph s4.graph → (D.par b).card ≤ 1 → ∀ a, Before opts.order a b → s.graph.MAdj a b → D.Adj a b := by
    intro s hs hc a hab hadj
    by_contra hn
    exact one a hab (c6 _ _ (hs _ _ hadj)) (D.par b) (fun x hx => (hD x b hx).1) hc (fun hx => hn (Or.inl hx))
      (fun hx => hac b (.single hx)) (parents_sep hac ho hab hn)
  -- the state after this is known up to the pairs with the base node
  have fin4 : ∀ s, Others opts.order b s4 s → (∀ a, Before opts.order a b → s.graph.MAdj a b → D.Adj a b) →
      Fresh opts.order (fun d => Before opts.order b d) s ∧
      (∀ c d, Before opts.order c d → d = b ∨ Before opts.order d b → s.graph.MAdj c d → D.Adj c d) ∧
      ∀ c d, Before opts.order c d → Before opts.order b d → s.graph.MAdj c d := by
    intro s hs hex
    refine ⟨fun c d h1 h2 h3 h4 => c2.fresh c d h1 h2 (hs.done d c (h1.ne hd).symm h3) (hs.sub _ _ h4), fun c d h1 h2 h3 => ?_,
      fun c d h1 h2 => hs.adj c d h1 (h2.ne hd).symm (c2.later c d h1 h2)⟩
    rcases h2 with rfl | h2
    · exact hex c h1 h3
    · exact c2.early c d h1 h2 (hs.sub _ _ h3)
  have rfl4 : Others opts.order b s4 s4 := ⟨fun _ _ h => h, fun _ _ _ _ h => h, fun _ _ _ h => h⟩
  by_cases h1 : maxSize opts i = 1
  · simp only [if_pos h1]
    refine ⟨s4, rfl, ⟨_, _, c2.inv⟩, fin4 s4 rfl4 fun a hab hadj => ?_⟩
    by_contra hn
    exact hn (few s4 (fun _ _ h => h) (by have := hsize a hab hn; omega) a hab hadj)
  simp only [if_neg h1]
  obtain ⟨n, hn⟩ : ∃ n, maxSize opts i - 1 = n + 1 := ⟨maxSize opts i - 2, by omega⟩
  rw [hn, nodeSizes, py_bind (nth_ok hi)]
  by_cases hall : (opts.order.take i).all (fun anc => (b, anc) ∈ s4.done) = true
  · simp only [if_pos hall]
    refine ⟨s4, rfl, ⟨_, _, c2.inv⟩, fin4 s4 rfl4 fun a hab hadj => absurd hadj (hf4 a hab ?_)⟩
    simpa using List.all_eq_true.mp hall a ((mem_take hd hi).mpr hab)
  simp only [if_neg hall]
  obtain ⟨s5, e, d1, d2, d3, d4⟩ := c2.round o hD hac ho hp hf4 c3 c4 hi (by omega)
  obtain ⟨_, _, _, d1', -, -, -, -, -, d5, d6⟩ := phaseR_cands o c2.inv hd ho.isOrder.mem hi (r := 2) (by omega) ⟨c2.t0, c2.t1⟩
  rw [d1] at d1'
  cases d1'
  have o5 : Others opts.order b s4 s5 := d6.others d5
  obtain ⟨s6, g1, g2, g3, g4, g5, g6⟩ := d2.orient o hac ho hp hb
  have o6 : Others opts.order b s4 s6 := o5.trans ⟨g6, fun c d h1 h2 h3 => by
    have hs := orient_spec o (opts := opts) hd (fun v hv => (ho.isOrder.mem v).mpr hv) true d2.inv.inv
    obtain ⟨G, q1, q2, -⟩ := hs
    rw [g1] at q1
    cases q1
    exact (q2.adj c d).mpr h3, fun c a _ h => by rw [g5] at h; exact h⟩
  rw [py_bind d1]
  simp only
  rw [py_bind g1]
  -- nodes with at most two parents
  have two : ∀ s : OIcdState α, AdjSub s.graph s6.graph → (D.par b).card ≤ 2 → ∀ a, Before opts.order a b → s.graph.MAdj a b → D.Adj a b := by
    intro s hs hc a hab hadj
    rcases Nat.lt_or_ge (D.par b).card 2 with hc' | hc'
    · exact few s (hs.trans o6.sub) (by omega) a hab hadj
    · by_contra hn
      exact (d4 a hab (g6 _ _ (hs _ _ hadj)) (D.par b) (Finset.Subset.refl _) (by omega) (fun hx => hn (Or.inl hx))).1
        (parents_sep hac ho hab hn)
  -- pairs with a node with three parents are not done
  have open3 : (D.par b).card = 3 → ∀ a, Before opts.order a b → ¬ D.Adj a b → s6.graph.MAdj a b → (b, a) ∉ s6.done := by
    intro hc a hab hn hadj
    obtain ⟨T, t1, t2⟩ := Finset.exists_subset_card_eq (s := D.par b) (n := 2) (by omega)
    rw [g5]
    exact (d4 a hab (g6 _ _ hadj) T t1 t2 (fun hx => hn (Or.inl (t1 hx)))).2
  cases n with
  | zero =>
    refine ⟨s6, rfl, ⟨_, _, g2.inv⟩, fin4 s6 o6 fun a hab hadj => ?_⟩
    by_contra hn'
    exact hn' (two s6 (fun _ _ h => h) (by have := hsize a hab hn'; omega) a hab hadj)
  | succ n =>
    by_cases hall6 : (opts.order.take i).all (fun anc => (b, anc) ∈ s6.done) = true
    · refine ⟨s6, ?_, ⟨_, _, g2.inv⟩, fin4 s6 o6 fun a hab hadj => ?_⟩
      · rw [nodeSizes, py_bind (nth_ok hi)]
        simp only [if_pos hall6]
        rfl
      · by_contra hn'
        rcases Nat.lt_or_ge (D.par b).card 3 with hc | hc
        · exact hn' (two s6 (fun _ _ h => h) (by omega) a hab hadj)
        · refine open3 (by omega) a hab hn' hadj ?_
          simpa using List.all_eq_true.mp hall6 a ((mem_take hd hi).mpr hab)
    · obtain ⟨s7, e7, C7, k1, k2, k3, -, k5, k6, k7⟩ := round_tests o hD hac ho hp g2.inv ⟨g2.t0, g2.t1⟩ g3 g4 hi (r := 3) hk
      obtain ⟨G, q1, q2, -⟩ := orient_spec o (opts := opts) hd (fun v hv => (ho.isOrder.mem v).mpr hv) true k2.inv
      obtain ⟨s9, r1, r2, r3⟩ := nodeSizes_others o ho.isOrder hi ⟨g2.t0, g2.t1⟩ n 4 { s7 with graph := G } (by omega) (k2.same q2)
      have o7 := (k7.others k6).trans ((Others.same q2).trans r3)
      refine ⟨s9, ?_, ⟨_, _, r2⟩, fin4 s9 (o6.trans o7) fun a hab hadj => ?_⟩
      · rw [nodeSizes, py_bind (nth_ok hi)]
        simp only [if_neg hall6]
        rw [py_bind k1]
        simp only
        rw [py_bind q1]
        exact r1
      · by_contra hn'
        rcases Nat.lt_or_ge (D.par b).card 3 with hc | hc
        · exact hn' (two s9 o7.sub (by omega) a hab hadj)
        · have h7 : s7.graph.MAdj a b := (q2.adj a b).mp (r3.sub _ _ hadj)
          exact ((k5 a hab (open3 (by omega) a hab hn' (o7.sub _ _ hadj)) h7).2 (D.par b) (Finset.Subset.refl _) (by omega)
            (fun hx => hn' (Or.inl hx))).1 (parents_sep hac ho hab hn')

/-- The local variant is exact if its steps are. -/
theorem learnLocal_of (o : SetOrder α) (ho : D.CausalOrder D.nodes opts.order)
    {st' : OIcdState α} (h : Inv ci D.nodes opts.order k T0 T1 st) (hk' : opts.order.length ≤ k) (hdone : st.done = ∅)
    (hfull : ∀ a b, Before opts.order a b → st.graph.MAdj a b)
    (hstep : ∀ {U0 U1 : α → Prop} {s : OIcdState α} {i : Nat} {b : α}, Inv ci D.nodes opts.order k U0 U1 s → i ≠ 0 →
      opts.order[i]? = some b → maxSize opts i ≤ k → Fresh opts.order (fun d => ¬ Before opts.order d b) s →
      (∀ c d, Before opts.order c d → Before opts.order d b → s.graph.MAdj c d → D.Adj c d) →
      (∀ c d, Before opts.order c d → ¬ Before opts.order d b → s.graph.MAdj c d) →
      ∃ st', nodeConnection o ci opts i s = .ok st' ∧ (∃ T0' T1', Inv ci D.nodes opts.order k T0' T1' st') ∧
        Fresh opts.order (fun d => Before opts.order b d) st' ∧
        (∀ c d, Before opts.order c d → d = b ∨ Before opts.order d b → st'.graph.MAdj c d → D.Adj c d) ∧
        ∀ c d, Before opts.order c d → Before opts.order b d → st'.graph.MAdj c d)
    (hrun : learnLocal o ci opts st = .ok st') : ∀ a b, Before opts.order a b → st'.graph.MAdj a b → D.Adj a b := by
  have hd := ho.isOrder.nodup
  have hcard : st.graph.nodes.card = opts.order.length := by
    rw [h.inv.nodes, ← List.toFinset_card_of_nodup hd]
    congr 1
    ext v
    rw [List.mem_toFinset, ho.isOrder.mem]
  have key : ∀ n, n ≤ st.graph.nodes.card - 1 → ∃ s, ((List.range n).map (1 + ·)).foldlM (fun st idx => nodeConnection o ci opts idx st) st = .ok s ∧
      (∃ T0 T1, Inv ci D.nodes opts.order k T0 T1 s) ∧ Fresh opts.order (fun d => d ∉ opts.order.take (n + 1)) s ∧
      (∀ c d, Before opts.order c d → d ∈ opts.order.take (n + 1) → s.graph.MAdj c d → D.Adj c d) ∧
      ∀ c d, Before opts.order c d → d ∉ opts.order.take (n + 1) → s.graph.MAdj c d := by
    intro n
    induction n with
    | zero =>
      intro _
      refine ⟨st, rfl, ⟨_, _, h⟩, fun c d _ _ h' => by simp [hdone] at h', fun c d hcd h1 => ?_, fun c d hcd _ => hfull c d hcd⟩
      exfalso
      obtain ⟨j, j1, j2⟩ := before_iff.mp hcd
      obtain ⟨i, i1, i2⟩ := List.mem_take_iff_getElem.mp h1
      obtain ⟨j1', j1⟩ := List.getElem?_eq_some_iff.mp j1
      have : i = j := (List.Nodup.getElem_inj_iff hd).mp (i2.trans j1.symm)
      have : j = 0 := by omega
      subst this
      simp at j2
    | succ n ih =>
      intro hn
      obtain ⟨s, s1, ⟨U0, U1, s2⟩, s3, s4, s5⟩ := ih (by omega)
      have hi : opts.order[n + 1]? = some opts.order[n + 1] := List.getElem?_eq_getElem (by omega)
      obtain ⟨s', p1, p2, p3, p4, p5⟩ := hstep s2 (by omega) hi
        (by rw [maxSize]; cases opts.maxCond <;> simp only <;> omega)
        (fun c d h1 => s3 c d (fun h' => h1 ((mem_take hd hi).mp h')))
        (fun c d h1 h2 => s4 c d h1 ((mem_take hd hi).mpr h2)) (fun c d h1 h2 => s5 c d h1 (fun h' => h2 ((mem_take hd hi).mp h')))
      have hout : ∀ {c d}, Before opts.order c d → d ∉ opts.order.take (n + 1 + 1) → Before opts.order opts.order[n + 1] d := by
        intro c d hcd hd'
        rw [mem_take_succ hd hi, not_or] at hd'
        exact (Before.total (List.getElem_mem _) hcd.mem_right (Ne.symm hd'.1)).resolve_right hd'.2
      refine ⟨s', ?_, p2, fun c d h1 h2 h3 h4 => p3 c d (hout h2 h1) h2 h3 h4, fun c d h1 h2 => p4 c d h1 ((mem_take_succ hd hi).mp h2),
        fun c d h1 h2 => p5 c d h1 (hout h1 h2)⟩
      rw [List.range_succ, List.map_append, List.foldlM_append, py_bind s1]
      simp only [List.map_cons, List.map_nil, List.foldlM_cons, List.foldlM_nil]
      rw [Nat.add_comm 1 n, py_bind p1]
      rfl
  obtain ⟨s, s1, ⟨U0, U1, s2⟩, -, s4, -⟩ := key _ le_rfl
  rw [learnLocal, pyRange, py_bind s1] at hrun
  obtain ⟨G, g1, g2, -⟩ := orient_spec o hd (fun v hv => (ho.isOrder.mem v).mpr hv) false s2.inv
  rw [g1] at hrun
  cases hrun
  intro a b hab hadj
  refine s4 a b hab ?_ ((g2.adj a b).mp hadj)
  rw [List.take_of_length_le (by omega)]
  exact hab.mem_right

/-- The local variant is exact for DAGs with at most three parents per node. -/
theorem learnLocal_exact (o : SetOrder α) (hD : D.WF) (hac : D.Acyclic) (ho : D.CausalOrder D.nodes opts.order)
    (hp : Pc.PerfectOn ci D D.nodes) (hdeg : ∀ v, (D.par v).card ≤ 3) (hm : ∀ m, opts.maxCond = some m → ∀ v, (D.par v).card ≤ m)
    {st' : OIcdState α} (h : Inv ci D.nodes opts.order k T0 T1 st) (hk : 3 ≤ k) (hk' : opts.order.length ≤ k) (hdone : st.done = ∅)
    (hfull : ∀ a b, Before opts.order a b → st.graph.MAdj a b) (hrun : learnLocal o ci opts st = .ok st') :
    ∀ a b, Before opts.order a b → st'.graph.MAdj a b → D.Adj a b :=
  learnLocal_of o ho h hk' hdone hfull (fun h hi0 hi hk' hf he hl => node_local o hD hac ho hp (hdeg _) (fun m e => hm m e _) h hi0 hi hk hk' hf he hl)
    hrun

/-- The global variant is exact for DAGs with at most two parents per node. -/
theorem learnGlobal_exact (o : SetOrder α) (hD : D.WF) (hac : D.Acyclic) (ho : D.CausalOrder D.nodes opts.order)
    (hp : Pc.PerfectOn ci D D.nodes) (hdeg : ∀ v, (D.par v).card ≤ 2) (hm : ∀ m, opts.maxCond = some m → ∀ v, (D.par v).card ≤ m)
    {st' : OIcdState α} (h : Inv ci D.nodes opts.order k (fun _ => False) (fun _ => False) st) (hk : 2 ≤ k)
    (hk2 : sizeBound opts ≤ k) (hdone : st.done = ∅)
    (hfull : ∀ a b, Before opts.order a b → st.graph.MAdj a b) (hrun : learnGlobal o ci opts st = .ok st') :
    ∀ a b, Before opts.order a b → st'.graph.MAdj a b → D.Adj a b := by
  have hd := ho.isOrder.nodup
  have hcard : ∀ {s : OIcdState α} {U0 U1 : α → Prop}, Inv ci D.nodes opts.order k U0 U1 s → s.graph.nodes.card = opts.order.length := by
    intro s U0 U1 h
    rw [h.inv.nodes, ← List.toFinset_card_of_nodup hd]
    congr 1
    ext v
    rw [List.mem_toFinset, ho.isOrder.mem]
  obtain ⟨s1, s2, s3, s4, a1, a2, a3, a4, a5, a6, a7, a8⟩ := global01 o hac ho hp h (by omega) hdone hfull
  have hrep := a5.representing hac ho hp
  -- nodes with at most one parent
  have few : ∀ s : OIcdState α, AdjSub s.graph s4.graph → ∀ a b, Before opts.order a b → (D.par b).card ≤ 1 → s.graph.MAdj a b → D.Adj a b := by
    intro s hs a b hab hc hadj
    by_contra hn
    exact (hrep a ((ho.isOrder.mem a).mp hab.mem_left) b ((ho.isOrder.mem b).mp hab.mem_right) (hab.ne hd)).mp (hs _ _ hadj)
      (D.par b) (fun x hx => (hD x b hx).1) hc (fun hx => hn (Or.inl hx)) (fun hx => hac b (.single hx)) (parents_sep hac ho hab hn)
  rw [learnGlobal] at hrun
  simp only at hrun
  rw [py_bind a1, py_bind a2, py_bind a3, py_bind a4] at hrun
  obtain ⟨maxc, m1, m2, m3⟩ : ∃ maxc, (match opts.maxCond with
      | some m => m + 1
      | none => st.graph.nodes.card - 2 + 1) = maxc ∧ maxc - 2 + 2 ≤ k + 1 ∧
      ∀ a b, Before opts.order a b → ¬ D.Adj a b → (D.par b).card + 1 ≤ maxc := by
    refine ⟨_, rfl, ?_, fun a b hab hn => ?_⟩
    · rw [sizeBound] at hk2
      rw [hcard h]
      cases hmc : opts.maxCond with
      | none => rw [hmc] at hk2; simp only at hk2 ⊢; omega
      | some m => rw [hmc] at hk2; simp only at hk2 ⊢; omega
    · obtain ⟨i, hi, -⟩ := before_iff.mp hab
      have hlt := (List.getElem?_eq_some_iff.mp hi).1
      have := parents_card hD hac ho hi hab hn
      rw [hcard h]
      cases hmc : opts.maxCond with
      | none => simp only; omega
      | some m => have := hm m hmc b; simp only; omega
  have hT : ∀ (i : Nat) (x : α), 3 ≤ i → opts.order[i]? = some x → True ∧ True := fun _ _ _ _ => ⟨trivial, trivial⟩
  obtain ⟨s5, e1, e2⟩ : ∃ s5, globalSizes o ci opts (maxc - 2) 2 true s4 = .ok s5 ∧
      (∃ U0 U1, Inv ci D.nodes opts.order k U0 U1 s5) ∧ ∀ a b, Before opts.order a b → s5.graph.MAdj a b → D.Adj a b := by
    rcases Nat.lt_or_ge maxc 3 with hlt | hge
    · rw [show maxc - 2 = 0 by omega]
      refine ⟨s4, rfl, ⟨_, _, a5.inv⟩, fun a b hab hadj => ?_⟩
      by_contra hn
      exact hn (few s4 (fun _ _ h => h) a b hab (by have := m3 a b hab hn; omega) hadj)
    · obtain ⟨n, hn⟩ : ∃ n, maxc - 2 = n + 1 := ⟨maxc - 3, by omega⟩
      rw [hn, globalSizes]
      obtain ⟨⟨s, d⟩, b1, b2, b3, -, b4⟩ := foldlM_ok_inv (f := fun (acc : OIcdState α × Bool) idx => do
          let (st, d) ← phaseR o ci opts.order 2 idx acc.1
          return (st, acc.2 && d))
        (fun dn s => Inv ci D.nodes opts.order k (fun _ => True) (fun _ => True) s.1 ∧ SubMarks s.1.graph s4.graph ∧
          (∀ a b, Before opts.order a b → (∀ i ∈ dn, opts.order[i]? ≠ some b) → (b, a) ∈ s.1.done → (b, a) ∈ s4.done) ∧
          ∀ a b, Before opts.order a b → (∃ i ∈ dn, opts.order[i]? = some b) → s.1.graph.MAdj a b → D.Adj a b)
        (pyRange (2 + 1) s4.graph.nodes.card) [] (s4, true) ⟨a5.inv, SubMarks.refl a5.inv.inv.proper, fun _ _ _ _ h => h, by simp⟩ (by
          rintro dn i ⟨s, d⟩ hi ⟨i1, i2, i3, i4⟩
          simp only at i1 i2 i3 i4
          rw [mem_pyRange, hcard a5.inv] at hi
          have hb : opts.order[i]? = some opts.order[i] := List.getElem?_eq_getElem hi.2
          obtain ⟨s', d', C, p1, p2, p3, -, p5, p6, p7⟩ := round_tests o hD hac ho hp i1 ⟨trivial, trivial⟩ (arrowsTrue_sub i2 a7)
            (ordMarks_sub i2 a8) hb (r := 2) hk
          refine ⟨(s', d && d'), by rw [py_bind p1]; rfl, p2, p3.trans i2, fun a b hab hnin hdn => ?_, fun a b hab hin hadj => ?_⟩
          · have hne : b ≠ opts.order[i] := by
              rintro rfl
              exact hnin i (by simp) hb
            exact i3 a b hab (fun j hj => hnin j (by simp [hj])) (p6 b a hne hdn)
          · by_cases hex : ∃ j ∈ dn, opts.order[j]? = some b
            · exact i4 a b hab hex (p3.adj hadj)
            · obtain ⟨j, hj, e⟩ := hin
              rw [List.mem_append, List.mem_singleton] at hj
              rcases hj with hj | rfl
              · exact absurd ⟨j, hj, e⟩ hex
              · rw [hb] at e
                simp only [Option.some.injEq] at e
                subst e
                rcases Nat.lt_or_ge (D.par opts.order[j]).card 2 with hc | hc
                · exact few s (fun _ _ h => i2.adj h) a _ hab (by omega) (p3.adj hadj)
                · by_contra hn
                  refine ((p5 a hab (fun hdn => ?_) hadj).2 (D.par opts.order[j]) (Finset.Subset.refl _)
                    (le_antisymm (hdeg _) hc) (fun hx => hn (Or.inl hx))).1 (parents_sep hac ho hab hn)
                  exact a6 a _ trivial hab (i3 a _ hab (fun j' hj' e => hex ⟨j', hj', e⟩) hdn) (i2.adj (p3.adj hadj)))
      simp only at b2 b3 b4
      have hex : ∀ a b, Before opts.order a b → s.graph.MAdj a b → D.Adj a b := by
        intro a b hab hadj
        rcases Nat.lt_or_ge (D.par b).card 2 with hc | hc
        · exact few s (fun _ _ h => b3.adj h) a b hab (by omega) hadj
        · by_contra hn'
          obtain ⟨i, hi, -⟩ := before_iff.mp hab
          have hc' := parents_card hD hac ho hi hab hn'
          refine hn' (b4 a b hab ⟨i, ?_, hi⟩ hadj)
          rw [List.nil_append, mem_pyRange, hcard a5.inv]
          exact ⟨by omega, (List.getElem?_eq_some_iff.mp hi).1⟩
      rw [py_bind b1]
      simp only
      by_cases hd1 : d = true
      · exact ⟨s, by rw [if_pos hd1]; rfl, ⟨_, _, b2⟩, hex⟩
      · rw [if_neg hd1]
        obtain ⟨s6, c1, c2, c3, -⟩ := orient_inv o hd ho.isOrder.mem true b2
        obtain ⟨s7, d1, d2, d3⟩ := globalSizes_spec o hd ho.isOrder.mem hT n (2 + 1) d s6 (by omega) (by omega) c2
        exact ⟨s7, by rw [py_bind c1]; exact d1, ⟨_, _, d2⟩, fun a b hab hadj => hex a b hab (c3 _ _ (d3 _ _ hadj))⟩
  obtain ⟨⟨U0, U1, e2⟩, e3⟩ := e2
  subst m1
  have hrun := (py_bind e1 (fun st => orient o opts false st)).symm.trans hrun
  obtain ⟨s6, f1, f2, f3, -⟩ := orient_inv o hd ho.isOrder.mem false e2
  rw [f1] at hrun
  cases hrun
  exact fun a b hab hadj => e3 a b hab (f3 _ _ hadj)

end OIcd
end Verif
