import Verif.Lemmas.OIcdRun
import Verif.Lemmas.FciSound

/-!
# Ordered ICD: runs that remove no edge
-/

namespace Verif
open Relation
variable {α : Type} [LinearOrder α]

/-- The DAG with all edges along the order. -/
def ordDag (order : List α) : Dag α := ⟨order.toFinset, fun b => order.toFinset.filter (fun a => Before order a b)⟩

theorem ordDag_edge {order : List α} {a b : α} : (ordDag order).Edge a b ↔ Before order a b := by
  simp only [ordDag, Dag.Edge, Finset.mem_filter, List.mem_toFinset]
  exact ⟨fun h => h.2, fun h => ⟨h.mem_left, h⟩⟩

theorem ordDag_wf (order : List α) : (ordDag order).WF := by
  intro a b h
  have h' := ordDag_edge.mp h
  exact ⟨List.mem_toFinset.mpr h'.mem_left, List.mem_toFinset.mpr h'.mem_right⟩

theorem ordDag_acyclic {order : List α} (hd : order.Nodup) : (ordDag order).Acyclic := by
  have : ∀ a b, TransGen (ordDag order).Edge a b → Before order a b := by
    intro a b h
    induction h with
    | single h => exact ordDag_edge.mp h
    | tail _ h ih => exact ih.trans hd (ordDag_edge.mp h)
  exact fun v h => (this v v h).ne hd rfl

namespace OIcd
open MG

variable {ci : CITest α} {N : Finset α} {opts : OIcdOpts α} {k : Nat} {T0 T1 : α → Prop} {st : OIcdState α}

omit [LinearOrder α] in
theorem AdjSub.complete {G G' : MG α} (h : AdjSub G G') (hn : G.nodes = G'.nodes) (hc : G.Complete) : G'.Complete :=
  fun a ha b hb hab => h a b (hc a (hn ▸ ha) b (hn ▸ hb) hab)

/-- Without nonadjacent pairs, only the marks given by the order are set. -/
theorem orient_complete (o : SetOrder α) (hd : opts.order.Nodup) (hm : ∀ v, v ∈ opts.order ↔ v ∈ N) {anytime : Bool}
    (h : Inv ci N opts.order k T0 T1 st) {st' : OIcdState α} (hs : orient o opts anytime st = .ok st')
    (hc : st'.graph.Complete) {a b : α} (hab : Before opts.order a b) : st'.graph.PossPar a b := by
  obtain ⟨s0, e1, e2, -, -, -, e3, e4⟩ := orient_inv o hd hm anytime h
  rw [e1] at hs
  cases hs
  have hN : ∀ v, v ∈ N ↔ v ∈ st'.graph.nodes := fun v => by rw [e2.inv.nodes]
  have hadj : ∀ a b, st'.graph.MAdj a b ↔ (ordDag opts.order).toMg.MAdj a b := by
    intro a b
    rw [Dag.toMg_adj (ordDag_wf _), Dag.Adj, ordDag_edge, ordDag_edge]
    constructor
    · intro h'
      obtain ⟨h1, h2⟩ := e2.inv.proper.adj_mem h'
      have h3 := e2.inv.proper.ne h'
      exact Before.total ((hm a).mpr ((hN a).mpr h1)) ((hm b).mpr ((hN b).mpr h2)) h3
    · rintro (h' | h')
      · exact hc a ((hN a).mp ((hm a).mp h'.mem_left)) b ((hN b).mp ((hm b).mp h'.mem_right)) (h'.ne hd)
      · exact hc a ((hN a).mp ((hm a).mp h'.mem_right)) b ((hN b).mp ((hm b).mp h'.mem_left)) (Ne.symm (h'.ne hd))
  have harr := (e4 (ordDag opts.order).toMg (Dag.toMg_ancestral (ordDag_wf _) (ordDag_acyclic hd))
    (by ext v; simp only [Dag.toMg, ordDag, List.mem_toFinset, hm]) hadj (by
      intro i hi j hj hij hn
      simp only [Dag.toMg, ordDag, List.mem_toFinset] at hi hj
      refine absurd ((Dag.toMg_adj (ordDag_wf _)).mpr ?_) hn
      rw [Dag.Adj, ordDag_edge, ordDag_edge]
      exact Before.total hi hj hij) (by
      intro a b m hab' hat
      cases m with
      | arrow => rfl
      | tail => exact absurd (ordDag_edge.mp ((Dag.toMg_tail (ordDag_wf _)).mp hat)) (hab'.asymm hd)
      | circle => exact absurd hat Dag.toMg_circle)).1
  refine ⟨(hadj a b).mpr ((Dag.toMg_adj (ordDag_wf _)).mpr (Or.inl (ordDag_edge.mpr hab))), fun h' => ?_, fun h' => ?_⟩
  · cases e3 a b _ hab h'
  · exact hab.asymm hd (ordDag_edge.mp (harr.arrow b a h'))

theorem phaseR_complete (o : SetOrder α) (hd : opts.order.Nodup) (hm : ∀ v, v ∈ opts.order ↔ v ∈ N)
    (h : Inv ci N opts.order k T0 T1 st) {i r : Nat} {b : α} (hi : opts.order[i]? = some b) (hk : r ≤ k) (hr : r + 1 ≤ i)
    (ht : T0 b ∧ T1 b) (hg : ∀ a b, Before opts.order a b → st.graph.PossPar a b)
    (hcl : ∀ a, Before opts.order a b → (b, a) ∉ st.done) {st' : OIcdState α} {d : Bool}
    (hs : phaseR o ci opts.order r i st = .ok (st', d)) (hc : st'.graph.Complete) :
    d = false ∧ (∀ a, Before opts.order a b → (b, a) ∉ st'.done) ∧ (∀ a b, Before opts.order a b → st'.graph.PossPar a b) ∧
      ∀ a T, Before opts.order a b → a ∉ T → (∀ v ∈ T, Before opts.order v b) → T.card = r → Fci.Dep ci a b T := by
  obtain ⟨s0, d', e1, e2, e3, e4, e5, e6, e7⟩ := phaseR_spec o h hd hm hi hk ht
  rw [e1] at hs
  cases hs
  have hN : ∀ v, v ∈ N ↔ v ∈ st'.graph.nodes := fun v => by rw [e2.inv.nodes]
  have hadj : ∀ a b, Before opts.order a b → st'.graph.MAdj a b := fun a b h' =>
    hc a ((hN a).mp ((hm a).mp h'.mem_left)) b ((hN b).mp ((hm b).mp h'.mem_right)) (h'.ne hd)
  have hg' : ∀ a b, Before opts.order a b → st'.graph.PossPar a b := fun a b h' =>
    ⟨hadj a b h', fun h1 => (hg a b h').2.1 ((e3.marks _ _ _).mp h1).1, fun h1 => (hg a b h').2.2 ((e3.marks _ _ _).mp h1).1⟩
  have hnbr : ∀ a T, Before opts.order a b → a ∉ T → (∀ v ∈ T, Before opts.order v b) → T.card = r →
      OrdNbr opts.order st'.graph a b r T := fun a T hab haT hT hcard =>
    { size := hcard
      left := haT
      before := hT
      nbr := fun v hv => (hadj v b (hT v hv)).symm
      anc := fun v hv => Or.inr ⟨[v, b],
        { nodup := by simpa using (hT v hv).ne hd
          first := rfl
          last := rfl
          long := le_refl _
          chain := by simpa using hg' v b (hT v hv)
          allowed := by
            intro x hx
            simp only [List.tail_cons, List.mem_singleton] at hx
            subst hx
            rw [Finset.mem_filter, List.mem_toFinset]
            exact ⟨hab.mem_right, fun h' => h'.ne hd rfl⟩ }⟩ }
  have hex : ∀ a, Before opts.order a b → ∃ T : Finset α, a ∉ T ∧ (∀ v ∈ T, Before opts.order v b) ∧ T.card = r := by
    intro a hab
    have hcard : ((opts.order.take i).toFinset.erase a).card = i - 1 := by
      rw [Finset.card_erase_of_mem (List.mem_toFinset.mpr ((mem_take hd hi).mpr hab)),
        List.toFinset_card_of_nodup (hd.sublist (List.take_sublist _ _)), List.length_take]
      have := (List.getElem?_eq_some_iff.mp hi).1
      congr 1
      omega
    obtain ⟨T, t1, t2⟩ := Finset.exists_subset_card_eq (s := (opts.order.take i).toFinset.erase a) (n := r) (by omega)
    refine ⟨T, fun h' => ?_, fun v hv => ?_, t2⟩
    · simpa using t1 h'
    · have := t1 hv
      rw [Finset.mem_erase, List.mem_toFinset, mem_take hd hi] at this
      exact this.2
  have hcl' : ∀ a, Before opts.order a b → (b, a) ∉ st'.done := by
    intro a hab
    obtain ⟨T, t1, t2, t3⟩ := hex a hab
    exact (e6 a hab (hcl a hab) (hadj a b hab) T (hnbr a T hab t1 t2 t3)).2
  refine ⟨?_, hcl', hg', fun a T hab haT hT hcard => (e6 a hab (hcl a hab) (hadj a b hab) T (hnbr a T hab haT hT hcard)).1⟩
  cases d with
  | false => rfl
  | true =>
    obtain ⟨a, ha⟩ : ∃ a, Before opts.order a b := by
      have h0 : 0 < opts.order.length := by
        have := (List.getElem?_eq_some_iff.mp hi).1
        omega
      refine ⟨opts.order[0], (mem_take hd hi).mp ?_⟩
      rw [List.mem_take_iff_getElem]
      exact ⟨0, by omega, rfl⟩
    exact absurd (e5 rfl a ha) (hcl' a ha)

theorem nodeSizes_complete (o : SetOrder α) (hd : opts.order.Nodup) (hm : ∀ v, v ∈ opts.order ↔ v ∈ N) {i : Nat} {b : α}
    (hi : opts.order[i]? = some b) (ht : T0 b ∧ T1 b) :
    ∀ (n r : Nat) (st : OIcdState α), r + n ≤ k + 1 → r + n ≤ i → Inv ci N opts.order k T0 T1 st →
      (∀ a b, Before opts.order a b → st.graph.PossPar a b) → (∀ a, Before opts.order a b → (b, a) ∉ st.done) →
      ∀ st', nodeSizes o ci opts i n r st = .ok st' → st'.graph.Complete →
        ∀ a T, Before opts.order a b → a ∉ T → (∀ v ∈ T, Before opts.order v b) → r ≤ T.card → T.card < r + n →
          Fci.Dep ci a b T := by
  intro n
  induction n with
  | zero => intro r st _ _ _ _ _ st' _ _ a T _ _ _ h1 h2; omega
  | succ n ih =>
    intro r st hr hri h hg hcl st' hs hc a T hab haT hT h1 h2
    rw [nodeSizes, py_bind (nth_ok hi)] at hs
    have hall : ¬ (opts.order.take i).all (fun anc => (b, anc) ∈ st.done) = true := by
      intro hall
      exact hcl a hab (by simpa using List.all_eq_true.mp hall a ((mem_take hd hi).mpr hab))
    simp only [if_neg hall] at hs
    obtain ⟨s1, d, p1, p2, p3, -⟩ := phaseR_spec o h hd hm hi (r := r) (by omega) ht
    obtain ⟨s2, q1, q2, q3, q4, -⟩ := orient_inv o hd hm true p2
    obtain ⟨s3, r1, r2, r3⟩ := nodeSizes_spec o hd hm hi ht n (r + 1) s2 (by omega) q2
    rw [py_bind p1] at hs
    simp only at hs
    rw [py_bind q1, r1] at hs
    cases hs
    have hc2 : s2.graph.Complete := r3.complete (r2.inv.nodes.trans q2.inv.nodes.symm) hc
    have hc1 : s1.graph.Complete := q3.complete (q2.inv.nodes.trans p2.inv.nodes.symm) hc2
    obtain ⟨f1, f2, f3, f4⟩ := phaseR_complete o hd hm h hi (by omega) (by omega) ht hg hcl p1 hc1
    by_cases he : T.card = r
    · exact f4 a T hab haT hT he
    · exact ih (r + 1) s2 (by omega) (by omega) q2 (fun a b hab => orient_complete o hd hm p2 q1 hc2 hab)
        (by rw [q4]; exact f2) st' r1 hc a T hab haT hT (by omega) (by omega)

/-- A pair that is done is not adjacent, or its base node is done. -/
theorem Inv.clean (h : Inv ci N opts.order k T0 T1 st) (hd : opts.order.Nodup) (hm : ∀ v, v ∈ opts.order ↔ v ∈ N)
    (hc : st.graph.Complete) {b : α} (hb : ¬ T1 b) {a : α} (hab : Before opts.order a b) : (b, a) ∉ st.done := by
  intro hdn
  have hN : ∀ v, v ∈ N ↔ v ∈ st.graph.nodes := fun v => by rw [h.inv.nodes]
  exact hb (h.kept a b hab hdn (hc a ((hN a).mp ((hm a).mp hab.mem_left)) b ((hN b).mp ((hm b).mp hab.mem_right)) (hab.ne hd))).2

theorem nodeConnection_complete (o : SetOrder α) (hd : opts.order.Nodup) (hm : ∀ v, v ∈ opts.order ↔ v ∈ N) {i : Nat} {b : α}
    (hi0 : i ≠ 0) (hi : opts.order[i]? = some b) (hk : maxSize opts i ≤ k) (h : Inv ci N opts.order k T0 T1 st) (hb : ¬ T1 b)
    {st' : OIcdState α} (hs : nodeConnection o ci opts i st = .ok st') (hc : st'.graph.Complete) :
    ∀ a T, Before opts.order a b → a ∉ T → (∀ v ∈ T, Before opts.order v b) → 2 ≤ T.card → T.card ≤ maxSize opts i →
      Fci.Dep ci a b T := by
  intro a T hab haT hT h2 hmx
  have hun : nodeConnection o ci opts i st = (do
      let st ← phase0 ci opts.order i st
      let st ← orient o opts true st
      if maxSize opts i = 0 then return st
      let st ← phase1 o ci opts.order i st
      let st ← orient o opts true st
      if maxSize opts i = 1 then return st
      nodeSizes o ci opts i (maxSize opts i - 1) 2 st) := by
    rw [nodeConnection, if_neg hi0]
    rfl
  rw [hun] at hs
  have hlt : maxSize opts i ≤ i - 1 := by
    rw [maxSize]
    cases opts.maxCond with
    | none => exact le_refl _
    | some m => exact min_le_left _ _
  obtain ⟨s1, a1, a2, a3⟩ := phase0_spec h hd hi
  obtain ⟨s2, b1, b2, b3, -⟩ := orient_inv o hd hm true a2
  obtain ⟨s3, c1, c2, c3, c4⟩ := phase1_spec o b2 hd (fun v hv => (hm v).mp hv) hi (by omega)
  obtain ⟨s4, d1, d2, d3, d4, -⟩ := orient_inv o hd hm true c2
  obtain ⟨s5, f1, f2, f3⟩ := nodeSizes_spec o hd hm hi (T0 := fun x => x = b ∨ T0 x) (T1 := fun x => x = b ∨ T1 x)
    ⟨Or.inl rfl, Or.inl rfl⟩ (maxSize opts i - 1) 2 s4 (by omega) d2
  rw [py_bind a1, py_bind b1, if_neg (by omega), py_bind c1, py_bind d1, if_neg (by omega), f1] at hs
  cases hs
  have hc4 : s4.graph.Complete := f3.complete (f2.inv.nodes.trans d2.inv.nodes.symm) hc
  have hc3 : s3.graph.Complete := d3.complete (d2.inv.nodes.trans c2.inv.nodes.symm) hc4
  exact nodeSizes_complete o hd hm hi (T0 := fun x => x = b ∨ T0 x) (T1 := fun x => x = b ∨ T1 x) ⟨Or.inl rfl, Or.inl rfl⟩
    (maxSize opts i - 1) 2 s4 (by omega) (by omega) d2 (fun a b hab => orient_complete o hd hm c2 d1 hc4 hab)
    (fun a hab => by rw [d4]; exact c4.clean hd hm hc3 hb hab) st' f1 hc a T hab haT hT h2 (by omega)

theorem learnLocal_complete (o : SetOrder α) (hd : opts.order.Nodup) (hm : ∀ v, v ∈ opts.order ↔ v ∈ N)
    (hk : sizeBound opts ≤ k) (h : Inv ci N opts.order k T0 T1 st) (hT : ∀ x, ¬ T1 x)
    {st' : OIcdState α} (hs : learnLocal o ci opts st = .ok st') (hc : st'.graph.Complete) :
    ∀ a b T, Before opts.order a b → a ∉ T → (∀ v ∈ T, Before opts.order v b) → 2 ≤ T.card → T.card ≤ sizeBound opts →
      Fci.Dep ci a b T := by
  have hcard : st.graph.nodes.card = opts.order.length := by
    rw [h.inv.nodes, ← List.toFinset_card_of_nodup hd]
    congr 1
    ext v
    rw [List.mem_toFinset, hm]
  have key : ∀ (l : List Nat) (U0 U1 : α → Prop) (s s' : OIcdState α),
      (∀ i ∈ l, i ≠ 0 ∧ ∀ b, opts.order[i]? = some b → ¬ U1 b) → l.Nodup → (∀ i ∈ l, i < opts.order.length) →
      Inv ci N opts.order k U0 U1 s →
      l.foldlM (fun st idx => nodeConnection o ci opts idx st) s = .ok s' →
      (∃ V0 V1, Inv ci N opts.order k V0 V1 s') ∧ AdjSub s'.graph s.graph ∧ (s'.graph.Complete → ∀ i ∈ l, ∀ b, opts.order[i]? = some b →
        ∀ a T, Before opts.order a b → a ∉ T → (∀ v ∈ T, Before opts.order v b) → 2 ≤ T.card → T.card ≤ maxSize opts i →
          Fci.Dep ci a b T) := by
    intro l
    induction l with
    | nil =>
      intro U0 U1 s s' _ _ _ hI hrun
      cases hrun
      exact ⟨⟨_, _, hI⟩, fun _ _ h => h, by simp⟩
    | cons i l ih =>
      intro U0 U1 s s' hU hnd hl hI hrun
      have hil := hl i (by simp)
      have hb : opts.order[i]? = some opts.order[i] := List.getElem?_eq_getElem hil
      have hki : maxSize opts i ≤ k := by
        refine le_trans ?_ hk
        rw [maxSize, sizeBound]
        cases opts.maxCond with
        | none => simp only; omega
        | some m => simp only; omega
      obtain ⟨s1, p1, p2, p3⟩ := nodeConnection_spec o hd hm (hU i (by simp)).1 hb hki hI
      rw [List.foldlM_cons, py_bind p1] at hrun
      rw [List.nodup_cons] at hnd
      obtain ⟨⟨V0, V1, r1⟩, r2, r3⟩ := ih _ _ s1 s' (fun j hj => ⟨(hU j (by simp [hj])).1, fun b hb' => by
          rintro (⟨e, -⟩ | h')
          · rw [e] at hb'
            have hjl := hl j (by simp [hj])
            have := hd.getElem_inj_iff.mp ((List.getElem?_eq_some_iff.mp hb').2)
            subst this
            exact hnd.1 hj
          · exact (hU j (by simp [hj])).2 b hb' h'⟩) hnd.2 (fun j hj => hl j (by simp [hj])) p2 hrun
      refine ⟨⟨V0, V1, r1⟩, r2.trans p3, fun hcs j hj b hbj => ?_⟩
      rcases List.mem_cons.mp hj with rfl | hj
      · rw [hb] at hbj
        cases hbj
        exact nodeConnection_complete o hd hm (hU j (by simp)).1 hb hki hI ((hU j (by simp)).2 _ hb) p1
          (r2.complete (r1.inv.nodes.trans p2.inv.nodes.symm) hcs)
      · exact r3 hcs j hj b hbj
  rw [learnLocal] at hs
  obtain ⟨s1, h1, hs⟩ := py_bind_ok hs
  obtain ⟨⟨V0, V1, r1⟩, r2, r3⟩ := key (pyRange 1 st.graph.nodes.card) T0 T1 st s1 (fun i hi => by
      rw [mem_pyRange] at hi
      exact ⟨by omega, fun b _ => hT b⟩) (by
      rw [pyRange]
      exact List.nodup_range.map (fun a b h => by simpa using h)) (fun i hi => by
      rw [mem_pyRange, hcard] at hi
      exact hi.2) h h1
  obtain ⟨s2, b1, b2, b3, -⟩ := orient_inv o hd hm false r1
  rw [b1] at hs
  cases hs
  intro a b T hab haT hT' h2 hsz
  obtain ⟨i, hi⟩ := List.getElem?_of_mem hab.mem_right
  have hil := (List.getElem?_eq_some_iff.mp hi).1
  have hTi : T.card ≤ i - 1 := by
    have hsub : T ⊆ (opts.order.take i).toFinset.erase a := fun v hv => by
      rw [Finset.mem_erase, List.mem_toFinset, mem_take hd hi]
      exact ⟨fun e => haT (e ▸ hv), hT' v hv⟩
    have := Finset.card_le_card hsub
    rw [Finset.card_erase_of_mem (List.mem_toFinset.mpr ((mem_take hd hi).mpr hab)),
      List.toFinset_card_of_nodup (hd.sublist (List.take_sublist _ _)), List.length_take] at this
    omega
  refine r3 (b3.complete (b2.inv.nodes.trans r1.inv.nodes.symm) hc) i (by rw [mem_pyRange, hcard]; omega) b hi a T hab haT hT' h2 ?_
  rw [maxSize]
  rw [sizeBound] at hsz
  cases hmc : opts.maxCond with
  | none => exact hTi
  | some m => rw [hmc] at hsz; exact le_min hTi hsz

/-- One round of the global variant. -/
theorem round_complete (o : SetOrder α) (hd : opts.order.Nodup) (hm : ∀ v, v ∈ opts.order ↔ v ∈ N) {r : Nat} (hr : 2 ≤ r)
    (hk : r ≤ k) (hT : ∀ i x, 3 ≤ i → opts.order[i]? = some x → T0 x ∧ T1 x) :
    ∀ (l : List Nat) (s s' : OIcdState α) (d d' : Bool), (∀ i ∈ l, r + 1 ≤ i ∧ i < opts.order.length) →
      Inv ci N opts.order k T0 T1 s → (∀ a b, Before opts.order a b → s.graph.PossPar a b) →
      (∀ a b, Before opts.order a b → (b, a) ∉ s.done) →
      l.foldlM (fun (acc : OIcdState α × Bool) idx => do
        let (st, d) ← phaseR o ci opts.order r idx acc.1
        return (st, acc.2 && d)) (s, d) = .ok (s', d') →
      Inv ci N opts.order k T0 T1 s' ∧ AdjSub s'.graph s.graph ∧ (s'.graph.Complete →
        (l ≠ [] → d' = false) ∧ (l = [] → d' = d) ∧ (∀ a b, Before opts.order a b → (b, a) ∉ s'.done) ∧
        ∀ i ∈ l, ∀ b, opts.order[i]? = some b →
          ∀ a T, Before opts.order a b → a ∉ T → (∀ v ∈ T, Before opts.order v b) → T.card = r → Fci.Dep ci a b T) := by
  intro l
  induction l with
  | nil =>
    intro s s' d d' _ hI _ hcl hrun
    cases hrun
    exact ⟨hI, fun _ _ h => h, fun _ => ⟨by simp, by simp, hcl, by simp⟩⟩
  | cons i l ih =>
    intro s s' d d' hl hI hg hcl hrun
    have hil := hl i (by simp)
    have hb : opts.order[i]? = some opts.order[i] := List.getElem?_eq_getElem hil.2
    have ht := hT i _ (by omega) hb
    obtain ⟨s1, d1, p1, p2, p3, p4, p5, p6, p7⟩ := phaseR_spec o hI hd hm hb hk ht
    rw [List.foldlM_cons, py_bind (show _ = Except.ok (s1, d && d1) by rw [py_bind p1]; rfl)] at hrun
    -- the marks and the clean list are only known if the graph is complete
    by_cases hc1 : s1.graph.Complete
    · obtain ⟨f1, f2, f3, f4⟩ := phaseR_complete o hd hm hI hb hk hil.1 ht hg (fun a hab => hcl a _ hab) p1 hc1
      have hcl1 : ∀ a b, Before opts.order a b → (b, a) ∉ s1.done := by
        intro a b hab
        by_cases hbb : b = opts.order[i]
        · rw [hbb]; rw [hbb] at hab; exact f2 a hab
        · exact fun h' => hcl a b hab (p7 b a hbb h')
      obtain ⟨r1, r2, r3⟩ := ih s1 s' (d && d1) d' (fun j hj => hl j (by simp [hj])) p2 f3 hcl1 hrun
      refine ⟨r1, r2.trans (fun _ _ h => p3.adj h), fun hcs => ?_⟩
      obtain ⟨t1, t2, t3, t4⟩ := r3 hcs
      refine ⟨fun _ => ?_, by simp, t3, fun j hj b hbj => ?_⟩
      · by_cases hl0 : l = []
        · rw [t2 hl0, f1, Bool.and_false]
        · exact t1 hl0
      · rcases List.mem_cons.mp hj with rfl | hj
        · rw [hb] at hbj
          cases hbj
          exact f4
        · exact t4 j hj b hbj
    · have hrest : ∃ s2 d2, l.foldlM (fun (acc : OIcdState α × Bool) idx => do
          let (st, d) ← phaseR o ci opts.order r idx acc.1
          return (st, acc.2 && d)) (s1, d && d1) = .ok (s2, d2) ∧ Inv ci N opts.order k T0 T1 s2 ∧ AdjSub s2.graph s1.graph := by
        obtain ⟨⟨s2, d2⟩, a1, a2, a3⟩ := foldlM_ok_inv (f := fun (acc : OIcdState α × Bool) idx => do
            let (st, d) ← phaseR o ci opts.order r idx acc.1
            return (st, acc.2 && d))
          (fun dn s => Inv ci N opts.order k T0 T1 s.1 ∧ AdjSub s.1.graph s1.graph) l [] (s1, d && d1) ⟨p2, fun _ _ h => h⟩ (by
            rintro dn j ⟨s, d⟩ hj ⟨i1, i2⟩
            have hjl := hl j (by simp [hj])
            have hbj : opts.order[j]? = some opts.order[j] := List.getElem?_eq_getElem hjl.2
            obtain ⟨s', d', p1, p2, p3, -⟩ := phaseR_spec o i1 hd hm hbj (r := r) hk (hT j _ (by omega) hbj)
            exact ⟨(s', d && d'), by rw [py_bind p1]; rfl, p2, AdjSub.trans (fun _ _ h => p3.adj h) i2⟩)
        exact ⟨s2, d2, a1, a2, a3⟩
      obtain ⟨s2, d2, r1, r2, r3⟩ := hrest
      rw [r1] at hrun
      cases hrun
      exact ⟨r2, r3.trans (fun _ _ h => p3.adj h), fun hcs => absurd (r3.complete (r2.inv.nodes.trans p2.inv.nodes.symm) hcs) hc1⟩

theorem globalSizes_complete (o : SetOrder α) (hd : opts.order.Nodup) (hm : ∀ v, v ∈ opts.order ↔ v ∈ N)
    (hT : ∀ i x, 3 ≤ i → opts.order[i]? = some x → T0 x ∧ T1 x) :
    ∀ (n r : Nat) (d : Bool) (st st' : OIcdState α), 2 ≤ r → r + n ≤ k + 1 → Inv ci N opts.order k T0 T1 st →
      (∀ a b, Before opts.order a b → st.graph.PossPar a b) → (∀ a b, Before opts.order a b → (b, a) ∉ st.done) →
      globalSizes o ci opts n r d st = .ok st' → st'.graph.Complete →
      ∀ a b T, Before opts.order a b → a ∉ T → (∀ v ∈ T, Before opts.order v b) → r ≤ T.card → T.card < r + n →
        Fci.Dep ci a b T := by
  intro n
  induction n with
  | zero => intro r d st st' _ _ _ _ _ _ _ a b T _ _ _ h1 h2; omega
  | succ n ih =>
    intro r d st st' hr hk h hg hcl hs hc a b T hab haT hT' h1 h2
    have hcard : st.graph.nodes.card = opts.order.length := by
      rw [h.inv.nodes, ← List.toFinset_card_of_nodup hd]
      congr 1
      ext v
      rw [List.mem_toFinset, hm]
    obtain ⟨i, hi⟩ := List.getElem?_of_mem hab.mem_right
    have hil := (List.getElem?_eq_some_iff.mp hi).1
    have hTi : T.card ≤ i - 1 := by
      have hsub : T ⊆ (opts.order.take i).toFinset.erase a := fun v hv => by
        rw [Finset.mem_erase, List.mem_toFinset, mem_take hd hi]
        exact ⟨fun e => haT (e ▸ hv), hT' v hv⟩
      have := Finset.card_le_card hsub
      rw [Finset.card_erase_of_mem (List.mem_toFinset.mpr ((mem_take hd hi).mpr hab)),
        List.toFinset_card_of_nodup (hd.sublist (List.take_sublist _ _)), List.length_take] at this
      omega
    have hir : i ∈ pyRange (r + 1) st.graph.nodes.card := by rw [mem_pyRange, hcard]; omega
    rw [globalSizes] at hs
    obtain ⟨⟨s1, d1⟩, e1, hs⟩ := py_bind_ok hs
    simp only at hs
    obtain ⟨r1, r2, r3⟩ := round_complete o hd hm hr (by omega) hT _ st s1 d d1 (fun j hj => by
      rw [mem_pyRange, hcard] at hj; exact hj) h hg hcl e1
    by_cases hd1 : d1 = true
    · rw [if_pos hd1] at hs
      cases hs
      have := (r3 hc).1 (List.ne_nil_of_mem hir)
      rw [hd1] at this
      cases this
    · rw [if_neg hd1] at hs
      obtain ⟨s2, b1, b2, b3, b4, -⟩ := orient_inv o hd hm true r1
      rw [py_bind b1] at hs
      obtain ⟨s3, c1, c2, c3⟩ := globalSizes_spec o hd hm hT n (r + 1) d1 s2 (by omega) (by omega) b2
      have hc2 : s2.graph.Complete := by
        rw [c1] at hs
        cases hs
        exact c3.complete (c2.inv.nodes.trans b2.inv.nodes.symm) hc
      have hc1 : s1.graph.Complete := b3.complete (b2.inv.nodes.trans r1.inv.nodes.symm) hc2
      obtain ⟨-, -, t3, t4⟩ := r3 hc1
      by_cases he : T.card = r
      · exact t4 i hir b hi a T hab haT hT' he
      · exact ih (r + 1) d1 s2 st' (by omega) (by omega) b2 (fun a b hab => orient_complete o hd hm r1 b1 hc2 hab)
          (by rw [b4]; exact t3) hs hc a b T hab haT hT' (by omega) (by omega)

theorem learnGlobal_complete (o : SetOrder α) (hd : opts.order.Nodup) (hm : ∀ v, v ∈ opts.order ↔ v ∈ N)
    (hk : max 1 (sizeBound opts) ≤ k) (h : Inv ci N opts.order k T0 T1 st) (hT1 : ∀ x, ¬ T1 x)
    {st' : OIcdState α} (hs : learnGlobal o ci opts st = .ok st') (hc : st'.graph.Complete) :
    ∀ a b T, Before opts.order a b → a ∉ T → (∀ v ∈ T, Before opts.order v b) → 2 ≤ T.card → T.card ≤ sizeBound opts →
      Fci.Dep ci a b T := by
  have hcard : st.graph.nodes.card = opts.order.length := by
    rw [h.inv.nodes, ← List.toFinset_card_of_nodup hd]
    congr 1
    ext v
    rw [List.mem_toFinset, hm]
  have comb : ∀ (dn : List Nat) (i : Nat) (b : α) (T : α → Prop), opts.order[i]? = some b → ∀ x,
      (x = b ∨ (∃ j ∈ dn, opts.order[j]? = some x) ∨ T x) ↔ ((∃ j ∈ dn ++ [i], opts.order[j]? = some x) ∨ T x) := by
    intro dn i b T hb x
    simp only [List.mem_append, List.mem_singleton]
    constructor
    · rintro (rfl | ⟨j, hj, e⟩ | h)
      · exact Or.inl ⟨i, Or.inr rfl, hb⟩
      · exact Or.inl ⟨j, Or.inl hj, e⟩
      · exact Or.inr h
    · rintro (⟨j, hj | rfl, e⟩ | h)
      · exact Or.inr (Or.inl ⟨j, hj, e⟩)
      · rw [hb] at e
        cases e
        exact Or.inl rfl
      · exact Or.inr (Or.inr h)
  obtain ⟨s1, a1, a2, a3⟩ := foldlM_ok_inv (f := fun st idx => phase0 ci opts.order idx st)
    (fun dn s => Inv ci N opts.order k (fun x => (∃ i ∈ dn, opts.order[i]? = some x) ∨ T0 x) T1 s ∧ AdjSub s.graph st.graph)
    (pyRange 1 st.graph.nodes.card) [] st ⟨h.congr (by simp) (by simp), fun _ _ h => h⟩ (by
      rintro dn i s hi ⟨i1, i2⟩
      rw [mem_pyRange, hcard] at hi
      have hb : opts.order[i]? = some opts.order[i] := List.getElem?_eq_getElem hi.2
      obtain ⟨s', p1, p2, p3⟩ := phase0_spec i1 hd hb
      exact ⟨s', p1, p2.congr (comb dn i _ T0 hb) (fun _ => Iff.rfl), AdjSub.trans (fun _ _ h => p3.adj h) i2⟩)
  obtain ⟨s2, b1, b2, b3, -⟩ := orient_inv o hd hm true a2
  have hn2 : s2.graph.nodes = st.graph.nodes := b2.inv.nodes.trans h.inv.nodes.symm
  obtain ⟨s3, c1, c2, c3⟩ := foldlM_ok_inv (f := fun st idx => phase1 o ci opts.order idx st)
    (fun dn s => Inv ci N opts.order k (fun x => (∃ i ∈ [] ++ pyRange 1 st.graph.nodes.card, opts.order[i]? = some x) ∨ T0 x)
      (fun x => (∃ i ∈ dn, opts.order[i]? = some x) ∨ T1 x) s ∧
      Inv ci N opts.order k (fun x => (∃ i ∈ [] ++ pyRange 1 st.graph.nodes.card, opts.order[i]? = some x) ∨ T0 x) T1 s)
    (pyRange 2 st.graph.nodes.card) [] s2 ⟨b2.congr (by simp) (by simp), b2⟩ (by
      rintro dn i s hi ⟨i1, i2⟩
      rw [mem_pyRange, hcard] at hi
      have hb : opts.order[i]? = some opts.order[i] := List.getElem?_eq_getElem hi.2
      obtain ⟨s', p1, p2, p3, -⟩ := phase1_spec o i1 hd (fun v hv => (hm v).mp hv) hb (by omega)
      obtain ⟨s'', q1, -, -, q4⟩ := phase1_spec o i2 hd (fun v hv => (hm v).mp hv) hb (by omega)
      rw [p1] at q1
      cases q1
      exact ⟨s', p1, p2.congr (fun _ => Iff.rfl) (comb dn i _ T1 hb), q4⟩)
  obtain ⟨s4, d1, d2, d3, d4, -⟩ := orient_inv o hd hm true c2
  rw [learnGlobal] at hs
  simp only at hs
  rw [py_bind a1, py_bind b1, py_bind c1, py_bind d1] at hs
  have hT : ∀ i x, 3 ≤ i → opts.order[i]? = some x →
      ((∃ i ∈ [] ++ pyRange 1 st.graph.nodes.card, opts.order[i]? = some x) ∨ T0 x) ∧
        ((∃ i ∈ [] ++ pyRange 2 st.graph.nodes.card, opts.order[i]? = some x) ∨ T1 x) := by
    intro i x hi e
    have hil := (List.getElem?_eq_some_iff.mp e).1
    exact ⟨Or.inl ⟨i, by rw [List.nil_append, mem_pyRange, hcard]; omega, e⟩,
      Or.inl ⟨i, by rw [List.nil_append, mem_pyRange, hcard]; omega, e⟩⟩
  intro a b T hab haT hT' h2 hsz
  generalize hmaxc : (match opts.maxCond with
    | some m => m + 1
    | none => st.graph.nodes.card - 2 + 1) = maxc
  have hmax : sizeBound opts + 1 = maxc := by
    rw [sizeBound]
    cases hmc : opts.maxCond with
    | none => rw [hmc] at hmaxc; simp only at hmaxc ⊢; omega
    | some m => rw [hmc] at hmaxc; simp only at hmaxc ⊢; omega
  obtain ⟨s5, e1, e2, e3⟩ := globalSizes_spec (k := k) o hd hm hT (maxc - 2) 2 true s4 (by omega) (by omega) d2
  obtain ⟨s6, f1, f2, f3, -⟩ := orient_inv o hd hm false e2
  subst hmaxc
  have hs' := ((py_bind e1 _).trans f1).symm.trans hs
  cases hs'
  have hc5 := f3.complete (f2.inv.nodes.trans e2.inv.nodes.symm) hc
  have hc4 := e3.complete (e2.inv.nodes.trans d2.inv.nodes.symm) hc5
  have hc3 := d3.complete (d2.inv.nodes.trans c3.inv.nodes.symm) hc4
  exact globalSizes_complete (k := k) o hd hm hT _ 2 true s4 s5 (by omega) (by omega) d2
    (fun a b hab => orient_complete o hd hm c2 d1 hc4 hab) (fun a b hab => by rw [d4]; exact c3.clean hd hm hc3 (hT1 b) hab)
    e1 hc5 a b T hab haT hT' h2 (by omega)

end OIcd
end Verif
