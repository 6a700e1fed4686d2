import Verif.Lemmas.OIcdOrient

/-!
# Ordered ICD: the skeleton
-/

namespace Verif
open Relation
variable {α : Type} [LinearOrder α]
namespace OIcd
open MG PdsTree

omit [LinearOrder α] in
theorem mem_take {order : List α} (hd : order.Nodup) {i : Nat} {a b : α} (hi : order[i]? = some b) :
    a ∈ order.take i ↔ Before order a b := by
  constructor
  · exact fun h => before_iff.mpr ⟨i, hi, h⟩
  · intro h
    obtain ⟨j, h1, h2⟩ := before_iff.mp h
    have : i = j := by
      obtain ⟨hi', hi⟩ := List.getElem?_eq_some_iff.mp hi
      obtain ⟨hj', hj⟩ := List.getElem?_eq_some_iff.mp h1
      exact (List.Nodup.getElem_inj_iff hd).mp (hi.trans hj.symm)
    rw [this]
    exact h2

omit [LinearOrder α] in
theorem mem_take_succ {order : List α} (hd : order.Nodup) {i : Nat} {a b : α} (hi : order[i]? = some b) :
    a ∈ order.take (i + 1) ↔ a = b ∨ Before order a b := by
  rw [List.take_add_one, hi, List.mem_append, mem_take hd hi]
  simp [or_comm]

omit [LinearOrder α] in
theorem nth_ok {order : List α} {i : Nat} {a : α} (h : order[i]? = some a) : nth order i = .ok a := by
  rw [nth, h]

/-- What holds for the skeleton at any time. `T0`: the nodes for which all pairs have been tested without conditioning; `T1`: the
nodes for which all pairs have been tested with one neighbour. -/
structure Inv (ci : CITest α) (N : Finset α) (order : List α) (k : Nat) (T0 T1 : α → Prop) (st : OIcdState α) : Prop where
  inv : Fci.SkInv ci N st.graph st.sep
  done : ∀ a b, Before order a b → ¬ st.graph.MAdj a b → (b, a) ∈ st.done
  fresh : ∀ a b, Before order a b → (b, a) ∉ st.done → st.sep.get a b = .ok ∅
  sets : ∀ a b, Before order a b → ¬ st.graph.MAdj a b → ∃ S, st.sep.get a b = .ok S ∧ (∀ v ∈ S, Before order v b) ∧ S.card ≤ k
  kept : ∀ a b, Before order a b → (b, a) ∈ st.done → st.graph.MAdj a b → T0 b ∧ T1 b
  dep0 : ∀ a b, Before order a b → T0 b → st.graph.MAdj a b → Fci.Dep ci a b ∅
  dep1 : ∀ a b v, Before order a b → Before order v b → v ≠ a → T1 b → st.graph.MAdj a b → st.graph.MAdj b v →
    Fci.Dep ci a b {v}

variable {ci : CITest α} {N : Finset α} {order : List α} {k : Nat} {T0 T1 : α → Prop} {st : OIcdState α}

theorem Inv.same (h : Inv ci N order k T0 T1 st) {G : MG α} (hs : SameSkel G st.graph) :
    Inv ci N order k T0 T1 { st with graph := G } where
  inv := h.inv.same hs
  done a b hab hn := h.done a b hab (fun h' => hn ((hs.adj _ _).mpr h'))
  fresh := h.fresh
  sets a b hab hn := h.sets a b hab (fun h' => hn ((hs.adj _ _).mpr h'))
  kept a b hab hd hadj := h.kept a b hab hd ((hs.adj _ _).mp hadj)
  dep0 a b hab ht hadj := h.dep0 a b hab ht ((hs.adj _ _).mp hadj)
  dep1 a b v hab hvb hv ht hadj hadj' := h.dep1 a b v hab hvb hv ht ((hs.adj _ _).mp hadj) ((hs.adj _ _).mp hadj')

theorem Inv.calls (h : Inv ci N order k T0 T1 st) (n : Nat) : Inv ci N order k T0 T1 { st with calls := n } :=
  ⟨h.inv, h.done, h.fresh, h.sets, h.kept, h.dep0, h.dep1⟩

/-- Deletion of an edge, with a separating set that is legal. -/
theorem Inv.delete (h : Inv ci N order k T0 T1 st) (hd : order.Nodup) {a b : α} (hab : Before order a b) {sep : SepSet α}
    {S : Finset α} (hS : sep.get a b = .ok S)
    (hsep : ∀ c d, ¬ ((a = c ∧ b = d) ∨ (a = d ∧ b = c)) → sep.get c d = st.sep.get c d)
    (hw : Pc.Witness ci N a b S) (hb : ∀ v ∈ S, Before order v b) (hk : S.card ≤ k) (n : Nat) :
    Inv ci N order k T0 T1 ⟨st.graph.deleteEdge a b, sep, n, insert (b, a) st.done⟩ := by
  have hne := hab.ne hd
  have hadj : ∀ c d, (st.graph.deleteEdge a b).MAdj c d ↔ st.graph.MAdj c d ∧ ¬ ((c = a ∧ d = b) ∨ (c = b ∧ d = a)) :=
    fun c d => Fci.deleteEdge_adj h.inv.proper
  have hsub : ∀ {c d}, (st.graph.deleteEdge a b).MAdj c d → st.graph.MAdj c d := fun h' => ((hadj _ _).mp h').1
  have hget : ∀ c d, Before order c d → ¬ (c = a ∧ d = b) → sep.get c d = st.sep.get c d := by
    intro c d hcd hn
    refine hsep c d ?_
    rintro (⟨rfl, rfl⟩ | ⟨rfl, rfl⟩)
    · exact hn ⟨rfl, rfl⟩
    · exact hcd.asymm hd hab
  have hn : ∀ c d, Before order c d → ¬ (st.graph.deleteEdge a b).MAdj c d → ¬ (c = a ∧ d = b) → ¬ st.graph.MAdj c d := by
    intro c d hcd hn hne' h'
    refine hn ((hadj _ _).mpr ⟨h', ?_⟩)
    rintro (h' | ⟨rfl, rfl⟩)
    · exact hne' h'
    · exact hcd.asymm hd hab
  refine ⟨?_, ?_, ?_, ?_, ?_, ?_, ?_⟩
  · obtain ⟨d1, d2, -⟩ := deleteEdge_spec h.inv.proper.type (i := a) (j := b)
    refine ⟨h.inv.proper.deleteEdge a b, d1.trans h.inv.nodes, d2.trans h.inv.types, ?_, ?_⟩
    · intro c hc d hd' hcd
      by_cases he : (a = c ∧ b = d) ∨ (a = d ∧ b = c)
      · rcases he with ⟨rfl, rfl⟩ | ⟨rfl, rfl⟩
        · exact ⟨S, hS⟩
        · exact ⟨S, by rw [SepSet.get_comm]; exact hS⟩
      · rw [hsep c d he]
        exact h.inv.key c hc d hd' hcd
    · intro c hc d hd' hcd hn'
      by_cases he : (a = c ∧ b = d) ∨ (a = d ∧ b = c)
      · rcases he with ⟨rfl, rfl⟩ | ⟨rfl, rfl⟩
        · exact ⟨S, hS, hw⟩
        · exact ⟨S, by rw [SepSet.get_comm]; exact hS, hw.symm⟩
      · rw [hsep c d he]
        refine h.inv.witness c hc d hd' hcd fun h' => hn' ((hadj _ _).mpr ⟨h', ?_⟩)
        rintro (⟨rfl, rfl⟩ | ⟨rfl, rfl⟩)
        · exact he (Or.inl ⟨rfl, rfl⟩)
        · exact he (Or.inr ⟨rfl, rfl⟩)
  · intro c d hcd hn'
    by_cases he : c = a ∧ d = b
    · obtain ⟨rfl, rfl⟩ := he
      exact Finset.mem_insert_self _ _
    · exact Finset.mem_insert_of_mem (h.done c d hcd (hn c d hcd hn' he))
  · intro c d hcd hn'
    rw [Finset.mem_insert, not_or, Prod.mk.injEq] at hn'
    have he : ¬ (c = a ∧ d = b) := fun e => hn'.1 ⟨e.2, e.1⟩
    rw [hget c d hcd he]
    exact h.fresh c d hcd hn'.2
  · intro c d hcd hn'
    by_cases he : c = a ∧ d = b
    · obtain ⟨rfl, rfl⟩ := he
      exact ⟨S, hS, hb, hk⟩
    · rw [hget c d hcd he]
      exact h.sets c d hcd (hn c d hcd hn' he)
  · intro c d hcd hm hadj'
    rw [Finset.mem_insert, Prod.mk.injEq] at hm
    rcases hm with ⟨rfl, rfl⟩ | hm
    · exact absurd (Or.inl ⟨rfl, rfl⟩) ((hadj _ _).mp hadj').2
    · exact h.kept c d hcd hm (hsub hadj')
  · exact fun c d hcd ht hadj' => h.dep0 c d hcd ht (hsub hadj')
  · exact fun c d v hcd hvd hv ht h1 h2 => h.dep1 c d v hcd hvd hv ht (hsub h1) (hsub h2)

theorem testPair_spec (h : Inv ci N order k T0 T1 st) (hd : order.Nodup) (hm : ∀ v ∈ order, v ∈ N) {a b : α}
    (hab : Before order a b) {zs : List (List α)}
    (hzs : ∀ z ∈ zs, a ∉ z ∧ (∀ v ∈ z, Before order v b) ∧ z.length ≤ k) :
    Inv ci N order k T0 T1 (testPair ci st a b zs).1 ∧ SubMarks (testPair ci st a b zs).1.graph st.graph ∧
      ((testPair ci st a b zs).2 = false → (testPair ci st a b zs).1.graph = st.graph ∧
        (testPair ci st a b zs).1.sep = st.sep ∧ (testPair ci st a b zs).1.done = st.done ∧
        ∀ z ∈ zs, ∃ k, ci k a b z = false) ∧
      ((testPair ci st a b zs).2 = true → ¬ (testPair ci st a b zs).1.graph.MAdj a b ∧
        (testPair ci st a b zs).1.done = insert (b, a) st.done) := by
  obtain ⟨f1, f2⟩ := Pc.firstIndep_spec ci a b zs st.calls
  rw [testPair]
  generalize hf : Pc.firstIndep ci a b zs st.calls = q at *
  obtain ⟨z, n⟩ := q
  cases z with
  | none => exact ⟨h.calls n, SubMarks.refl h.inv.proper, fun _ => ⟨rfl, rfl, rfl, f2 rfl⟩, by simp⟩
  | some z =>
    simp only
    obtain ⟨hz, k', hk⟩ := f1 z rfl
    obtain ⟨z1, z2, z3⟩ := hzs z hz
    obtain ⟨d1, -, d3⟩ := deleteEdge_spec h.inv.proper.type (i := a) (j := b)
    have hs : SubMarks (st.graph.deleteEdge a b) st.graph := by
      refine ⟨d1, fun c d m => ?_⟩
      rw [d3, Fci.deleteEdge_adj h.inv.proper]
      exact ⟨fun h' => ⟨h'.1, Or.inl ⟨m, h'.1⟩, by tauto⟩, fun h' => ⟨h'.1, by tauto⟩⟩
    refine ⟨?_, hs, fun h' => by simp at h', fun _ => ⟨fun h' => ?_, by simp⟩⟩
    · refine h.delete hd hab (S := z.toFinset) (by rw [SepSet.get_set, if_pos (Or.inl ⟨rfl, rfl⟩)])
        (fun c d hn => by rw [SepSet.get_set, if_neg hn]) ⟨z, k', rfl, Or.inl hk, z1, fun hb => ?_, fun v hv => hm _ (z2 v hv).mem_left⟩
        (fun v hv => z2 v (List.mem_toFinset.mp hv)) ((List.toFinset_card_le z).trans z3) n
      exact (z2 b hb).ne hd rfl
    · rw [Fci.deleteEdge_adj h.inv.proper] at h'
      exact h'.2 (Or.inl ⟨rfl, rfl⟩)

/-- The tests without conditioning for one base node. -/
theorem phase0_spec (h : Inv ci N order k T0 T1 st) (hd : order.Nodup) {i : Nat} {b : α}
    (hi : order[i]? = some b) :
    ∃ st', phase0 ci order i st = .ok st' ∧ Inv ci N order k (fun x => x = b ∨ T0 x) T1 st' ∧
      SubMarks st'.graph st.graph := by
  have key : ∀ (l : List α) (s : OIcdState α), (∀ a ∈ l, Before order a b) → Inv ci N order k T0 T1 s →
      ∃ s', l.foldl (fun (st : OIcdState α) anc =>
        if (b, anc) ∈ st.done then st
        else if ci st.calls anc b [] then
          { st with graph := st.graph.deleteEdge anc b, calls := st.calls + 1, done := insert (b, anc) st.done }
        else { st with calls := st.calls + 1 }) s = s' ∧ Inv ci N order k T0 T1 s' ∧ SubMarks s'.graph s.graph ∧
        ∀ a ∈ l, s'.graph.MAdj a b → Fci.Dep ci a b ∅ := by
    intro l
    induction l with
    | nil => intro s _ hs; exact ⟨s, rfl, hs, SubMarks.refl hs.inv.proper, by simp⟩
    | cons a l ih =>
      intro s hl hs
      have hab := hl a (by simp)
      have step : ∃ s1, (if (b, a) ∈ s.done then s
        else if ci s.calls a b [] then
          { s with graph := s.graph.deleteEdge a b, calls := s.calls + 1, done := insert (b, a) s.done }
        else { s with calls := s.calls + 1 }) = s1 ∧ Inv ci N order k T0 T1 s1 ∧ SubMarks s1.graph s.graph ∧
          (s1.graph.MAdj a b → Fci.Dep ci a b ∅) := by
        by_cases h1 : (b, a) ∈ s.done
        · refine ⟨s, by rw [if_pos h1], hs, SubMarks.refl hs.inv.proper, fun hadj => ?_⟩
          exact hs.dep0 a b hab (hs.kept a b hab h1 hadj).1 hadj
        · by_cases h2 : ci s.calls a b [] = true
          · refine ⟨_, by rw [if_neg h1, if_pos h2], ?_, ?_, fun hadj => ?_⟩
            · exact hs.delete hd hab (hs.fresh a b hab h1) (fun _ _ _ => rfl)
                ⟨[], s.calls, rfl, Or.inl h2, by simp, by simp, by simp⟩ (by simp) (by simp) _
            · obtain ⟨d1, -, d3⟩ := deleteEdge_spec hs.inv.proper.type (i := a) (j := b)
              refine ⟨d1, fun c d m => ?_⟩
              simp only
              rw [d3, Fci.deleteEdge_adj hs.inv.proper]
              exact ⟨fun h' => ⟨h'.1, Or.inl ⟨m, h'.1⟩, by tauto⟩, fun h' => ⟨h'.1, by tauto⟩⟩
            · simp only at hadj
              rw [Fci.deleteEdge_adj hs.inv.proper] at hadj
              exact absurd (Or.inl ⟨rfl, rfl⟩) hadj.2
          · refine ⟨{ s with calls := s.calls + 1 }, by rw [if_neg h1, if_neg h2], hs.calls _, SubMarks.refl hs.inv.proper, fun _ => ?_⟩
            exact ⟨[], s.calls, rfl, by simp, by simpa using h2⟩
      obtain ⟨s1, e1, e2, e3, e4⟩ := step
      obtain ⟨s', i1, i2, i3, i4⟩ := ih s1 (fun a ha => hl a (by simp [ha])) e2
      refine ⟨s', by rw [List.foldl_cons, e1]; exact i1, i2, i3.trans e3, fun c hc hadj => ?_⟩
      rcases List.mem_cons.mp hc with rfl | hc
      · exact e4 (i3.adj hadj)
      · exact i4 c hc hadj
  obtain ⟨s', s1, s2, s3, s4⟩ := key (order.take i) st (fun a ha => (mem_take hd hi).mp ha) h
  refine ⟨s', by rw [phase0, py_bind (nth_ok hi)]; simp only [s1]; rfl, ⟨s2.inv, s2.done, s2.fresh, s2.sets, ?_, ?_, s2.dep1⟩, s3⟩
  · exact fun a c hac h1 h2 => ⟨Or.inr (s2.kept a c hac h1 h2).1, (s2.kept a c hac h1 h2).2⟩
  · rintro a c hac (rfl | ht) hadj
    · exact s4 a ((mem_take hd hi).mpr hac) hadj
    · exact s2.dep0 a c hac ht hadj

/-- The tests with one conditioning node for one base node. -/
theorem phase1_spec (o : SetOrder α) (h : Inv ci N order k T0 T1 st) (hd : order.Nodup) (hm : ∀ v ∈ order, v ∈ N) {i : Nat}
    {b : α} (hi : order[i]? = some b) (hk : 1 ≤ k) :
    ∃ st', phase1 o ci order i st = .ok st' ∧ Inv ci N order k T0 (fun x => x = b ∨ T1 x) st' ∧
      SubMarks st'.graph st.graph ∧ Inv ci N order k T0 T1 st' := by
  obtain ⟨s', s1, s2, s3, s4⟩ := foldlM_ok_inv (f := fun (st : OIcdState α) anc => do
      if !(← st.graph.isConnected anc b) then return st
      if (b, anc) ∈ st.done then return st
      return (testPair ci st anc b ((o.iter (b, anc) (st.graph.findAdjacentNodes b
        (some ((order.take i).toFinset.erase anc)) none)).map (fun z => [z]))).1)
    (fun done s => Inv ci N order k T0 T1 s ∧ SubMarks s.graph st.graph ∧
      ∀ a ∈ done, ∀ v, Before order v b → v ≠ a → s.graph.MAdj a b → s.graph.MAdj b v → Fci.Dep ci a b {v})
    (o.iter i (order.take i).toFinset) [] st ⟨h, SubMarks.refl h.inv.proper, by simp⟩ (by
      rintro done a s ha ⟨i1, i2, i3⟩
      rw [o.mem, List.mem_toFinset, mem_take hd hi] at ha
      obtain ⟨c, p1, p2⟩ := proper_isConnected i1.inv.proper.type (ha.ne hd)
      cases c with
      | false =>
        refine ⟨s, by rw [py_bind p1]; rfl, i1, i2, fun c hc v hv hne h1 h2 => ?_⟩
        rw [List.mem_append, List.mem_singleton] at hc
        rcases hc with hc | rfl
        · exact i3 c hc v hv hne h1 h2
        · exact absurd (p2.mpr h1) (by simp)
      | true =>
        by_cases hdn : (b, a) ∈ s.done
        · refine ⟨s, by rw [py_bind p1]; simp only [Bool.not_true, Bool.false_eq_true, if_false, if_pos hdn]; rfl, i1, i2,
            fun c hc v hv hne h1 h2 => ?_⟩
          rw [List.mem_append, List.mem_singleton] at hc
          rcases hc with hc | rfl
          · exact i3 c hc v hv hne h1 h2
          · exact i1.dep1 _ _ _ ha hv hne (i1.kept _ _ ha hdn h1).2 h1 h2
        · obtain ⟨t1, t2, t3, t4⟩ := testPair_spec i1 hd hm ha (zs := (o.iter (b, a) (s.graph.findAdjacentNodes b
            (some ((order.take i).toFinset.erase a)) none)).map (fun z => [z])) (by
            intro z hz
            rw [List.mem_map] at hz
            obtain ⟨v, hv, rfl⟩ := hz
            rw [o.mem, mem_findAdjacent_none, Finset.mem_erase, List.mem_toFinset, mem_take hd hi] at hv
            simp only [List.mem_singleton, forall_eq, List.length_singleton]
            exact ⟨fun e => hv.2.1 e.symm, hv.2.2, hk⟩)
          refine ⟨_, by rw [py_bind p1]; simp only [Bool.not_true, Bool.false_eq_true, if_false, if_neg hdn]; rfl, t1,
            t2.trans i2, fun c hc v hv hne h1 h2 => ?_⟩
          rw [List.mem_append, List.mem_singleton] at hc
          rcases hc with hc | rfl
          · exact i3 c hc v hv hne (t2.adj h1) (t2.adj h2)
          · cases hf : (testPair ci s c b ((o.iter (b, c) (s.graph.findAdjacentNodes b
              (some ((order.take i).toFinset.erase c)) none)).map (fun z => [z]))).2 with
            | true => exact absurd h1 (t4 hf).1
            | false =>
              obtain ⟨-, -, -, e⟩ := t3 hf
              obtain ⟨n, hn⟩ := e [v] (by
                rw [List.mem_map]
                refine ⟨v, ?_, rfl⟩
                rw [o.mem, mem_findAdjacent_none, Finset.mem_erase, List.mem_toFinset, mem_take hd hi]
                refine ⟨?_, hne, hv⟩
                obtain ⟨m, hm'⟩ := i1.inv.proper.adj_iff.mp (t2.adj h2).symm
                exact ⟨m, i1.inv.proper.type _ _ _ hm', hm'⟩)
              exact ⟨[v], n, by simp, by simp, hn⟩)
  refine ⟨s', by rw [phase1, py_bind (nth_ok hi)]; exact s1, ⟨s2.inv, s2.done, s2.fresh, s2.sets, ?_, s2.dep0, ?_⟩, s3, s2⟩
  · exact fun a c hac h1 h2 => ⟨(s2.kept a c hac h1 h2).1, Or.inr (s2.kept a c hac h1 h2).2⟩
  · rintro a c v hac hvc hne (rfl | ht) h1 h2
    · exact s4 a (by rw [List.nil_append, o.mem, List.mem_toFinset, mem_take hd hi]; exact hac) v hvc hne h1 h2
    · exact s2.dep1 a c v hac hvc hne ht h1 h2

omit [LinearOrder α] in
theorem enSet_eq [DecidableEq α] {order : List α} (hd : order.Nodup) {i : Nat} {a : α} (hi : order[i]? = some a) :
    insert a (order.take i).toFinset = order.toFinset.filter (fun x => ¬ Before order a x) := by
  ext x
  rw [Finset.mem_insert, List.mem_toFinset, mem_take hd hi, Finset.mem_filter, List.mem_toFinset]
  have ha := List.mem_of_getElem? hi
  constructor
  · rintro (rfl | h)
    · exact ⟨ha, fun h => h.ne hd rfl⟩
    · exact ⟨h.mem_left, h.asymm hd⟩
  · rintro ⟨h1, h2⟩
    by_cases he : x = a
    · exact Or.inl he
    · exact Or.inr ((Before.total h1 ha he).resolve_right h2)

theorem possAncSet_spec (o : SetOrder α) {G : MG α} (hG : G.Proper) (hd : order.Nodup) (S : Finset α) {i j : Nat} {a b : α}
    (hi : order[i]? = some a) (hj : order[j]? = some b) :
    ∃ r, isPossibleAncestorSet o G S order i j = .ok r ∧ (r = true ↔ ∀ v ∈ S,
      (∃ l, PathVia G.PossPar (order.toFinset.filter (fun x => ¬ Before order a x)) v a l) ∨
        ∃ l, PathVia G.PossPar (order.toFinset.filter (fun x => ¬ Before order b x)) v b l) := by
  rw [isPossibleAncestorSet, py_bind (nth_ok hi), py_bind (nth_ok hj), enSet_eq hd hi, enSet_eq hd hj]
  generalize order.toFinset.filter (fun x => ¬ Before order a x) = A
  generalize order.toFinset.filter (fun x => ¬ Before order b x) = B
  obtain ⟨r, h1, h2⟩ := forAny_spec (f := fun z => do
      if ← G.isPossibleAncestor o z a A then return false
      if ← G.isPossibleAncestor o z b B then return false
      return true) (P := fun z => ¬ ((∃ l, PathVia G.PossPar A z a l) ∨ ∃ l, PathVia G.PossPar B z b l)) (o.iter (i, j) S) (by
    intro z _
    obtain ⟨b1, p1, p2⟩ := isPossibleAncestor_spec o hG.type hG.irrefl z a A
    obtain ⟨b2, q1, q2⟩ := isPossibleAncestor_spec o hG.type hG.irrefl z b B
    rw [← pathVia_iff] at p2 q2
    simp only [← p2, ← q2, p1, q1]
    cases b1
    · cases b2
      · exact ⟨true, rfl, by simp⟩
      · exact ⟨false, rfl, by simp⟩
    · exact ⟨false, rfl, by simp⟩)
  refine ⟨!r, by rw [py_bind h1]; rfl, ?_⟩
  rw [Bool.not_eq_true', ← Bool.not_eq_true, h2]
  simp only [o.mem, not_exists, not_and, not_not]

omit [LinearOrder α] in
theorem _root_.Verif.PathVia.imp {R R' : α → α → Prop} {en : Finset α} {x y : α} (hR : ∀ a b, R a b → R' a b)
    (h : ∃ l, PathVia R en x y l) : ∃ l, PathVia R' en x y l := by
  obtain ⟨l, h1, h2, h3, h4, h5, h6⟩ := h
  exact ⟨l, h1, h2, h3, h4, h5.imp (fun _ _ => hR _ _), h6⟩

theorem OrdNbr.mono {E G : MG α} (h : SubMarks E G) {a b : α} {r : Nat} {T : Finset α} (hT : OrdNbr order E a b r T) :
    OrdNbr order G a b r T :=
  ⟨hT.size, hT.left, hT.before, fun v hv => h.adj (hT.nbr v hv), fun v hv => (hT.anc v hv).imp
    (PathVia.imp fun _ _ => h.possPar) (PathVia.imp fun _ _ => h.possPar)⟩

theorem Inv.mark (h : Inv ci N order k T0 T1 st) {a b : α} (ht : T0 b ∧ T1 b) :
    Inv ci N order k T0 T1 { st with done := insert (b, a) st.done } where
  inv := h.inv
  done c d hcd hn := Finset.mem_insert_of_mem (h.done c d hcd hn)
  fresh c d hcd hn := h.fresh c d hcd (fun h' => hn (Finset.mem_insert_of_mem h'))
  sets := h.sets
  kept c d hcd hm hadj := by
    simp only [Finset.mem_insert, Prod.mk.injEq] at hm
    rcases hm with ⟨rfl, rfl⟩ | hm
    · exact ht
    · exact h.kept c d hcd hm hadj
  dep0 := h.dep0
  dep1 := h.dep1

/-- The tests with `r` conditioning nodes for one base node. -/
theorem phaseR_spec (o : SetOrder α) (h : Inv ci N order k T0 T1 st) (hd : order.Nodup) (hm : ∀ v, v ∈ order ↔ v ∈ N) {i : Nat}
    {b : α} (hi : order[i]? = some b) {r : Nat} (hk : r ≤ k) (ht : T0 b ∧ T1 b) :
    ∃ st' d, phaseR o ci order r i st = .ok (st', d) ∧ Inv ci N order k T0 T1 st' ∧ SubMarks st'.graph st.graph ∧
      st.done ⊆ st'.done ∧ (d = true → ∀ a, Before order a b → (b, a) ∈ st'.done) ∧
      (∀ a, Before order a b → (b, a) ∉ st.done → st'.graph.MAdj a b → ∀ T, OrdNbr order st'.graph a b r T →
        Fci.Dep ci a b T ∧ (b, a) ∉ st'.done) ∧ ∀ c a, c ≠ b → (c, a) ∈ st'.done → (c, a) ∈ st.done := by
  rw [phaseR, py_bind (nth_ok hi)]
  by_cases hall : (order.take i).all (fun anc => (b, anc) ∈ st.done) = true
  · have hall' : ∀ a, Before order a b → (b, a) ∈ st.done := by
      intro a ha
      have := List.all_eq_true.mp hall a ((mem_take hd hi).mpr ha)
      simpa using this
    refine ⟨st, true, by simp only [if_pos hall]; rfl, h, SubMarks.refl h.inv.proper, Finset.Subset.refl _, fun _ => hall', ?_,
      fun _ _ _ h => h⟩
    exact fun a ha hn => absurd (hall' a ha) hn
  · simp only [if_neg hall]
    have hbN : b ∈ N := (hm b).mp (List.mem_of_getElem? hi)
    obtain ⟨t, S, a1, a2, a3, a4, a5, a6, a7, -⟩ := C48_tree o h.inv.proper (root := b)
      (en := some (order.take (i + 1)).toFinset) (some r) (by
        rintro S e
        cases e
        intro v hv
        rw [List.mem_toFinset] at hv
        rw [h.inv.nodes]
        exact (hm v).mp (List.take_subset _ _ hv)) (by
        simp only [Option.getD_some, List.mem_toFinset]
        exact (mem_take_succ hd hi).mpr (Or.inl rfl))
    simp only [Option.getD_some] at a6 a7
    rw [py_bind a1]
    simp only
    set conds := (t.subsetsList o S r).insertionSort (fun c d => c.2 ≤ d.2) with hconds
    have hsub : ∀ c ∈ conds, c.1.card = r ∧ ∀ v ∈ c.1, Before order v b := by
      rintro ⟨T, d⟩ hc
      rw [hconds, List.mem_insertionSort] at hc
      obtain ⟨c1, c2, c3, -⟩ := ((C47_subsets o t S r).2 T d).mp hc
      refine ⟨c2, fun v hv => ?_⟩
      obtain ⟨l, hl, -⟩ := c3 v hv
      have hw := (a6 _ hl).1
      have hv' := hw.mem v (by simp)
      rw [List.mem_toFinset, mem_take_succ hd hi] at hv'
      rcases hv' with rfl | hv'
      · exact absurd (by simp) hw.avoid
      · exact hv'
    have hsup : ∀ T : Finset α, T.card = r → (∀ v ∈ T, Before order v b) → (∀ v ∈ T, st.graph.MAdj b v) →
        ∃ c ∈ conds, c.1 = T := by
      intro T hT hB hadj
      have hb : ∀ v ∈ T, IsBranch t [v] := fun v hv => a7 v (by
        rw [List.mem_toFinset, mem_take_succ hd hi]; exact Or.inr (hB v hv)) ((hB v hv).ne hd) (hadj v hv)
      refine ⟨(T, ∑ v ∈ T, t.minDist v), ?_, rfl⟩
      rw [hconds, List.mem_insertionSort]
      exact ((C47_subsets o t S r).2 T _).mpr ⟨fun v hv => (a5 v).mpr ⟨[], hb v hv⟩, hT,
        fun v hv => ⟨[], hb v hv, by simp⟩, rfl⟩
    obtain ⟨⟨s', d⟩, s1, s2, s3, s4, s5, s6, s7⟩ := foldlM_ok_inv (f := fun (acc : OIcdState α × Bool) ancIdx => do
        let anc ← nth order ancIdx
        if (b, anc) ∈ acc.1.done then return acc
        let st1 : OIcdState α := { acc.1 with done := insert (b, anc) acc.1.done }
        if !(← st1.graph.isConnected anc b) then return (st1, acc.2)
        let zs ← filterPy (fun c => if anc ∈ c.1 then return false
          else isPossibleAncestorSet o st1.graph c.1 order ancIdx i) conds
        let tup := zs.map (fun c => o.iter (anc, b) c.1)
        if tup.isEmpty then return (st1, acc.2)
        let (st2, found) := testPair ci st1 anc b tup
        if found then return (st2, acc.2 && ((Pc.firstIndep ci anc b tup st1.calls).2 == st1.calls + 1))
        else return ({ st2 with done := acc.1.done }, false))
      (fun dn (acc : OIcdState α × Bool) => Inv ci N order k T0 T1 acc.1 ∧ SubMarks acc.1.graph st.graph ∧
        st.done ⊆ acc.1.done ∧ (acc.2 = true → ∀ j ∈ dn, ∀ a, order[j]? = some a → (b, a) ∈ acc.1.done) ∧
        (∀ a, ((b, a) ∈ acc.1.done ∨ ∃ j ∈ dn, order[j]? = some a) → (b, a) ∉ st.done → acc.1.graph.MAdj a b →
          ∀ T, OrdNbr order acc.1.graph a b r T → Fci.Dep ci a b T ∧ (b, a) ∉ acc.1.done) ∧
        ∀ c a, c ≠ b → (c, a) ∈ acc.1.done → (c, a) ∈ st.done)
      (List.range i) [] (st, true) ⟨h, SubMarks.refl h.inv.proper, Finset.Subset.refl _, by simp, fun a h1 h2 =>
        (h1.elim (fun h => absurd h h2) (by simp)), fun _ _ _ h => h⟩ (by
        rintro dn j ⟨s, d⟩ hj ⟨i1, i2, i3, i4, i5, i6⟩
        simp only at i1 i2 i3 i4 i5 i6
        rw [List.mem_range] at hj
        obtain ⟨hil, hib⟩ := List.getElem?_eq_some_iff.mp hi
        obtain ⟨a, ha⟩ : ∃ a, order[j]? = some a := ⟨order[j], List.getElem?_eq_getElem (by omega)⟩
        have hab : Before order a b := by
          refine (mem_take hd hi).mp ?_
          rw [List.mem_take_iff_getElem]
          obtain ⟨hj', e⟩ := List.getElem?_eq_some_iff.mp ha
          exact ⟨j, by omega, e⟩
        -- what is to be shown for the new state
        have fin : ∀ (s' : OIcdState α) (d' : Bool), Inv ci N order k T0 T1 s' → SubMarks s'.graph s.graph → s.done ⊆ s'.done →
            (∀ c, (b, c) ∈ s'.done → (b, c) ∈ s.done ∨ c = a) → (d' = true → d = true ∧ (b, a) ∈ s'.done) →
            (∀ c x, c ≠ b → (c, x) ∈ s'.done → (c, x) ∈ s.done) →
            ((b, a) ∉ st.done → s'.graph.MAdj a b → ∀ T, OrdNbr order s'.graph a b r T →
              Fci.Dep ci a b T ∧ (b, a) ∉ s'.done) →
            Inv ci N order k T0 T1 s' ∧ SubMarks s'.graph st.graph ∧ st.done ⊆ s'.done ∧
            (d' = true → ∀ x ∈ dn ++ [j], ∀ c, order[x]? = some c → (b, c) ∈ s'.done) ∧
            (∀ c, ((b, c) ∈ s'.done ∨ ∃ x ∈ dn ++ [j], order[x]? = some c) → (b, c) ∉ st.done → s'.graph.MAdj c b →
              ∀ T, OrdNbr order s'.graph c b r T → Fci.Dep ci c b T ∧ (b, c) ∉ s'.done) ∧
            ∀ c x, c ≠ b → (c, x) ∈ s'.done → (c, x) ∈ st.done := by
          intro s' d' f1 f2 f3 f6 f4 f7 f5
          refine ⟨f1, f2.trans i2, i3.trans f3, fun hd' x hx c hc => ?_, fun c hc hn hadj T hT => ?_,
            fun c x hc hx => i6 c x hc (f7 c x hc hx)⟩
          · rw [List.mem_append, List.mem_singleton] at hx
            rcases hx with hx | rfl
            · exact f3 (i4 (f4 hd').1 x hx c hc)
            · rw [ha] at hc
              cases hc
              exact (f4 hd').2
          · have : ((b, c) ∈ s.done ∨ ∃ j ∈ dn, order[j]? = some c) ∨ c = a := by
              rcases hc with hc | ⟨x, hx, hc⟩
              · exact (f6 c hc).imp Or.inl id
              · rw [List.mem_append, List.mem_singleton] at hx
                rcases hx with hx | rfl
                · exact Or.inl (Or.inr ⟨x, hx, hc⟩)
                · rw [ha] at hc
                  cases hc
                  exact Or.inr rfl
            by_cases hca : c = a
            · subst hca
              exact f5 hn hadj T hT
            · obtain ⟨g1, g2⟩ := i5 c (this.resolve_right hca) hn (f2.adj hadj) T (hT.mono f2)
              exact ⟨g1, fun h' => (f6 c h').elim g2 hca⟩
        by_cases hdn : (b, a) ∈ s.done
        · refine ⟨(s, d), by rw [py_bind (nth_ok ha)]; simp only [if_pos hdn]; rfl, fin s d i1 (SubMarks.refl i1.inv.proper)
            (Finset.Subset.refl _) (fun c h' => Or.inl h') (fun h' => ⟨h', hdn⟩) (fun _ _ _ h => h) ?_⟩
          exact fun hn hadj T hT => i5 a (Or.inl hdn) hn hadj T hT
        · have hadj0 : s.graph.MAdj a b := by
            by_contra hn
            exact hdn (i1.done a b hab hn)
          obtain ⟨c, p1, p2⟩ := proper_isConnected i1.inv.proper.type (hab.ne hd)
          cases c with
          | false => exact absurd (p2.mpr hadj0) (by simp)
          | true =>
            obtain ⟨L, l1, l2⟩ := Verif.filterPy_spec (p := fun c : Finset α × WithTop Nat =>
                if a ∈ c.1 then return false else isPossibleAncestorSet o s.graph c.1 order j i)
              (P := fun c => a ∉ c.1 ∧ ∀ v ∈ c.1, (∃ l, PathVia s.graph.PossPar (order.toFinset.filter
                (fun x => ¬ Before order a x)) v a l) ∨
                  ∃ l, PathVia s.graph.PossPar (order.toFinset.filter (fun x => ¬ Before order b x)) v b l) conds (by
                intro c _
                by_cases hc : a ∈ c.1
                · exact ⟨false, by rw [if_pos hc]; rfl, by simp [hc]⟩
                · obtain ⟨q, q1, q2⟩ := possAncSet_spec o i1.inv.proper hd c.1 ha hi
                  exact ⟨q, by rw [if_neg hc]; exact q1, by rw [q2]; exact ⟨fun h => ⟨hc, h⟩, fun h => h.2⟩⟩)
            have hcand : ∀ T, OrdNbr order s.graph a b r T → ∃ z ∈ L.map (fun c => o.iter (a, b) c.1), z.toFinset = T := by
              intro T hT
              obtain ⟨c, hc, rfl⟩ := hsup T hT.size hT.before (fun v hv => i2.adj (hT.nbr v hv))
              refine ⟨o.iter (a, b) c.1, List.mem_map.mpr ⟨c, (l2 c).mpr ⟨hc, hT.left, hT.anc⟩, rfl⟩, ?_⟩
              ext x
              rw [List.mem_toFinset, o.mem]
            have hmark := i1.mark (a := a) ht
            have hins : ∀ c, (b, c) ∈ insert (b, a) s.done → (b, c) ∈ s.done ∨ c = a := by
              intro c hc
              rw [Finset.mem_insert, Prod.mk.injEq] at hc
              exact hc.elim (fun h => Or.inr h.2) Or.inl
            have hins' : ∀ c x, c ≠ b → (c, x) ∈ insert (b, a) s.done → (c, x) ∈ s.done := by
              intro c x hc hx
              rw [Finset.mem_insert, Prod.mk.injEq] at hx
              exact hx.resolve_left (fun h => hc h.1)
            by_cases hemp : (L.map (fun c => o.iter (a, b) c.1)).isEmpty = true
            · refine ⟨({ s with done := insert (b, a) s.done }, d), ?_, fin _ d hmark (SubMarks.refl i1.inv.proper)
                (Finset.subset_insert _ _) hins (fun h' => ⟨h', Finset.mem_insert_self _ _⟩) hins' ?_⟩
              · rw [py_bind (nth_ok ha)]
                simp only [if_neg hdn]
                rw [py_bind p1]
                simp only [Bool.not_true, Bool.false_eq_true, if_false]
                rw [py_bind l1]
                simp only [if_pos hemp]
                rfl
              · intro _ _ T hT
                obtain ⟨z, hz, -⟩ := hcand T hT
                rw [List.isEmpty_iff] at hemp
                rw [hemp] at hz
                simp at hz
            · obtain ⟨t1, t2, t3, t4⟩ := testPair_spec hmark hd (fun v hv => (hm v).mp hv) hab
                (zs := L.map (fun c => o.iter (a, b) c.1)) (by
                  intro z hz
                  obtain ⟨c, hc, rfl⟩ := List.mem_map.mp hz
                  obtain ⟨hc1, hc2, hc3⟩ := (l2 c).mp hc
                  obtain ⟨k1, k2⟩ := hsub c hc1
                  refine ⟨by rw [o.mem]; exact hc2, fun v hv => k2 v ((o.mem _ _ _).mp hv), ?_⟩
                  have : (o.iter (a, b) c.1).toFinset = c.1 := by ext x; rw [List.mem_toFinset, o.mem]
                  rw [← List.toFinset_card_of_nodup (o.nodup _ _), this, k1]
                  exact hk)
              generalize hq : testPair ci { s with done := insert (b, a) s.done } a b (L.map (fun c => o.iter (a, b) c.1)) = q at *
              obtain ⟨s2, found⟩ := q
              simp only at t1 t2 t3 t4
              cases found with
              | true =>
                refine ⟨(s2, d && ((Pc.firstIndep ci a b (L.map (fun c => o.iter (a, b) c.1)) s.calls).2 == s.calls + 1)), ?_,
                  fin _ _ t1 t2 ?_ (by rw [(t4 rfl).2]; simpa using hins) ?_
                  (by rw [(t4 rfl).2]; simpa using hins') (fun _ hadj => absurd hadj (t4 rfl).1)⟩
                · rw [py_bind (nth_ok ha)]
                  simp only [if_neg hdn]
                  rw [py_bind p1]
                  simp only [Bool.not_true, Bool.false_eq_true, if_false]
                  rw [py_bind l1]
                  simp only [if_neg hemp, hq]
                  rfl
                · rw [(t4 rfl).2]
                  exact (Finset.subset_insert _ _).trans (Finset.subset_insert _ _)
                · intro h'
                  rw [Bool.and_eq_true] at h'
                  refine ⟨h'.1, ?_⟩
                  rw [(t4 rfl).2]
                  exact Finset.mem_insert_self _ _
              | false =>
                obtain ⟨e1, e2, e3, e4⟩ := t3 rfl
                refine ⟨({ s2 with done := s.done }, false), ?_, fin _ _ ?_ (by simp only [e1]; exact SubMarks.refl i1.inv.proper)
                  (Finset.Subset.refl _) (fun c h' => Or.inl h') (by simp) (fun _ _ _ h => h) ?_⟩
                · rw [py_bind (nth_ok ha)]
                  simp only [if_neg hdn]
                  rw [py_bind p1]
                  simp only [Bool.not_true, Bool.false_eq_true, if_false]
                  rw [py_bind l1]
                  simp only [if_neg hemp, hq]
                  rfl
                · have := i1.calls s2.calls
                  rw [e1, e2]
                  exact this
                · intro _ _ T hT
                  simp only [e1] at hT
                  obtain ⟨z, hz, hzT⟩ := hcand T hT
                  obtain ⟨n, hn⟩ := e4 z hz
                  obtain ⟨c, -, rfl⟩ := List.mem_map.mp hz
                  exact ⟨⟨_, n, hzT, o.nodup _ _, hn⟩, hdn⟩)
    simp only [List.nil_append] at s5 s6 s7
    have hidx : ∀ a, Before order a b → ∃ j ∈ List.range i, order[j]? = some a := by
      intro a ha
      have := (mem_take hd hi).mpr ha
      rw [List.mem_take_iff_getElem] at this
      obtain ⟨j, hj, e⟩ := this
      exact ⟨j, by rw [List.mem_range]; omega, List.getElem?_eq_some_iff.mpr ⟨by omega, e⟩⟩
    refine ⟨s', d, s1, s2, s3, s4, fun hd' a ha => ?_, fun a ha hn hadj T hT => ?_, s7⟩
    · obtain ⟨j, hj, e⟩ := hidx a ha
      exact s5 hd' j hj a e
    · obtain ⟨j, hj, e⟩ := hidx a ha
      exact s6 a (Or.inr ⟨j, hj, e⟩) hn hadj T hT

end OIcd
end Verif
