import Verif.Lemmas.OIcd

/-!
# Ordered ICD: which sets are recorded, and which candidate sets are tested
-/

namespace Verif
open Relation
variable {α : Type} [LinearOrder α]

omit [LinearOrder α] in
/-- Induction over a loop that returns. -/
theorem foldlM_ind {β σ : Type} {f : σ → β → Py σ} {P : σ → Prop} : ∀ (l : List β) (s : σ), P s →
    (∀ x s s', x ∈ l → P s → f s x = .ok s' → P s') → ∀ s', l.foldlM f s = .ok s' → P s' := by
  intro l
  induction l with
  | nil =>
    intro s h _ s' e
    cases e
    exact h
  | cons x l ih =>
    intro s h hs s' e
    rw [List.foldlM_cons] at e
    obtain ⟨s1, e1, e2⟩ := py_bind_ok e
    exact ih s1 (hs x s s1 (by simp) h e1) (fun y s s' hy => hs y s s' (by simp [hy])) s' e2

namespace OIcd
open MG PdsTree

variable {ci : CITest α} {N : Finset α} {order : List α} {k : Nat} {T0 T1 : α → Prop} {st : OIcdState α}

/-- Between the two states only edges into `b` are deleted, and the sets recorded for them satisfy `C`; other recorded sets of pairs that are
not adjacent do not change. -/
def Rec (order : List α) (b : α) (C : Finset α → Prop) (st st' : OIcdState α) : Prop :=
  (∀ c d, st'.graph.MAdj c d → st.graph.MAdj c d) ∧
  ∀ c d, Before order c d → ¬ st'.graph.MAdj c d → (¬ st.graph.MAdj c d ∧ st'.sep.get c d = st.sep.get c d) ∨
    (d = b ∧ st.graph.MAdj c d ∧ ∃ S, st'.sep.get c d = .ok S ∧ C S)

theorem Rec.rfl {b : α} {C : Finset α → Prop} : Rec order b C st st := ⟨fun _ _ h => h, fun _ _ _ h => Or.inl ⟨h, Eq.refl _⟩⟩

theorem Rec.trans {b : α} {C : Finset α → Prop} {s0 s1 s2 : OIcdState α} (h1 : Rec order b C s0 s1) (h2 : Rec order b C s1 s2) :
    Rec order b C s0 s2 := by
  refine ⟨fun c d h => h1.1 c d (h2.1 c d h), fun c d hcd hn => ?_⟩
  rcases h2.2 c d hcd hn with ⟨g1, g2⟩ | ⟨g1, g2, g3⟩
  · rw [g2]
    exact h1.2 c d hcd g1
  · exact Or.inr ⟨g1, h1.1 c d g2, g3⟩

/-- Adjacent pairs with a later node in `P` are not done. -/
def Fresh (order : List α) (P : α → Prop) (st : OIcdState α) : Prop :=
  ∀ c d, P d → Before order c d → (d, c) ∈ st.done → ¬ st.graph.MAdj c d

theorem delete_rec (hG : st.graph.Proper) (hd : order.Nodup) {a b : α} (hab : Before order a b) (hadj : st.graph.MAdj a b)
    {C : Finset α → Prop} {sep : SepSet α} {S : Finset α} (hS : sep.get a b = .ok S) (hC : C S)
    (hsep : ∀ c d, ¬ ((a = c ∧ b = d) ∨ (a = d ∧ b = c)) → sep.get c d = st.sep.get c d) (n : Nat) (dn : Finset (α × α)) :
    Rec order b C st ⟨st.graph.deleteEdge a b, sep, n, dn⟩ := by
  have hadj' : ∀ c d, (st.graph.deleteEdge a b).MAdj c d ↔ st.graph.MAdj c d ∧ ¬ ((c = a ∧ d = b) ∨ (c = b ∧ d = a)) :=
    fun c d => Fci.deleteEdge_adj hG
  refine ⟨fun c d h => ((hadj' c d).mp h).1, fun c d hcd hn => ?_⟩
  by_cases he : c = a ∧ d = b
  · obtain ⟨e1, e2⟩ := he
    subst e1 e2
    exact Or.inr ⟨rfl, hadj, S, hS, hC⟩
  · have he' : ¬ (c = b ∧ d = a) := by
      rintro ⟨rfl, rfl⟩
      exact hcd.asymm hd hab
    refine Or.inl ⟨fun h => hn ((hadj' c d).mpr ⟨h, fun h' => h'.elim he he'⟩), hsep c d ?_⟩
    rintro (⟨rfl, rfl⟩ | ⟨rfl, rfl⟩)
    · exact he ⟨rfl, rfl⟩
    · exact he' ⟨rfl, rfl⟩

theorem testPair_rec (hG : st.graph.Proper) (hd : order.Nodup) {a b : α} (hab : Before order a b) (hadj : st.graph.MAdj a b)
    {C : Finset α → Prop} {zs : List (List α)} (hz : ∀ z ∈ zs, C z.toFinset) :
    Rec order b C st (testPair ci st a b zs).1 ∧ (testPair ci st a b zs).1.graph.Proper ∧
      ((testPair ci st a b zs).1.done = st.done ∨ ((testPair ci st a b zs).1.done = insert (b, a) st.done ∧
        ¬ (testPair ci st a b zs).1.graph.MAdj a b)) := by
  obtain ⟨f1, -⟩ := Pc.firstIndep_spec ci a b zs st.calls
  rw [testPair]
  generalize hf : Pc.firstIndep ci a b zs st.calls = q at *
  obtain ⟨z, n⟩ := q
  cases z with
  | none => exact ⟨Rec.rfl, hG, Or.inl rfl⟩
  | some z =>
    refine ⟨delete_rec hG hd hab hadj (S := z.toFinset) (by rw [SepSet.get_set, if_pos (Or.inl ⟨rfl, rfl⟩)]) (hz z (f1 z rfl).1)
      (fun c d h => by rw [SepSet.get_set, if_neg h]) _ _, hG.deleteEdge a b, Or.inr ⟨rfl, fun h => ?_⟩⟩
    rw [Fci.deleteEdge_adj hG] at h
    exact h.2 (Or.inl ⟨rfl, rfl⟩)

omit [LinearOrder α] in
theorem Fresh.sub {P : α → Prop} {s s' : OIcdState α} (h : Fresh order P s) (hadj : ∀ c d, s'.graph.MAdj c d → s.graph.MAdj c d)
    (hdn : ∀ c d, Before order c d → (d, c) ∈ s'.done → (d, c) ∈ s.done ∨ ¬ s'.graph.MAdj c d) : Fresh order P s' := by
  intro c d hP hcd hm hadj'
  rcases hdn c d hcd hm with h' | h'
  · exact h c d hP hcd h' (hadj c d hadj')
  · exact h' hadj'

/-- The tests without conditioning record nothing. -/
theorem phase0_rec (h : Inv ci N order k T0 T1 st) (hd : order.Nodup) {P : α → Prop} (hf : Fresh order P st) {i : Nat} {b : α}
    (hi : order[i]? = some b) {st' : OIcdState α} (hs : phase0 ci order i st = .ok st') :
    Rec order b (fun S => S = ∅) st st' ∧ Fresh order P st' := by
  rw [phase0, py_bind (nth_ok hi)] at hs
  cases hs
  have key : ∀ (l : List α) (s : OIcdState α), (∀ a ∈ l, Before order a b) → Inv ci N order k T0 T1 s →
      Fresh order P s → Rec order b (fun S => S = ∅) s (l.foldl (fun (st : OIcdState α) anc =>
        if (b, anc) ∈ st.done then st
        else if ci st.calls anc b [] then
          { st with graph := st.graph.deleteEdge anc b, calls := st.calls + 1, done := insert (b, anc) st.done }
        else { st with calls := st.calls + 1 }) s) ∧ Fresh order P (l.foldl (fun (st : OIcdState α) anc =>
        if (b, anc) ∈ st.done then st
        else if ci st.calls anc b [] then
          { st with graph := st.graph.deleteEdge anc b, calls := st.calls + 1, done := insert (b, anc) st.done }
        else { st with calls := st.calls + 1 }) s) := by
    intro l
    induction l with
    | nil => exact fun s _ _ hf => ⟨Rec.rfl, hf⟩
    | cons a l ih =>
      intro s hl hI hf
      have hab := hl a (by simp)
      rw [List.foldl_cons]
      by_cases h1 : (b, a) ∈ s.done
      · rw [if_pos h1]
        exact ih s (fun a ha => hl a (by simp [ha])) hI hf
      · rw [if_neg h1]
        by_cases h2 : ci s.calls a b [] = true
        · rw [if_pos h2]
          have hadj : s.graph.MAdj a b := by
            by_contra hn
            exact h1 (hI.done a b hab hn)
          have hr := delete_rec (C := fun S => S = ∅) hI.inv.proper hd hab hadj (hI.fresh a b hab h1) rfl (fun _ _ _ => rfl) (s.calls + 1)
            (insert (b, a) s.done)
          have hI' := hI.delete hd hab (hI.fresh a b hab h1) (fun _ _ _ => rfl)
            ⟨[], s.calls, rfl, Or.inl h2, by simp, by simp, by simp⟩ (by simp) (by simp) (s.calls + 1)
          obtain ⟨i1, i2⟩ := ih _ (fun a ha => hl a (by simp [ha])) hI' (hf.sub hr.1 (by
            intro c d _ hm
            rw [Finset.mem_insert, Prod.mk.injEq] at hm
            refine hm.symm.imp id ?_
            rintro ⟨rfl, rfl⟩ h
            rw [Fci.deleteEdge_adj hI.inv.proper] at h
            exact h.2 (Or.inl ⟨rfl, rfl⟩)))
          exact ⟨hr.trans i1, i2⟩
        · rw [if_neg h2]
          obtain ⟨i1, i2⟩ := ih _ (fun a ha => hl a (by simp [ha])) (hI.calls (s.calls + 1)) hf
          exact ⟨Rec.trans (s1 := { s with calls := s.calls + 1 }) Rec.rfl i1, i2⟩
  exact key (order.take i) st (fun a ha => (mem_take hd hi).mp ha) h hf

/-- The tests with one conditioning node record one node. -/
theorem phase1_rec (o : SetOrder α) (hG : st.graph.Proper) (hd : order.Nodup) {P : α → Prop} (hf : Fresh order P st) {i : Nat} {b : α}
    (hi : order[i]? = some b) {st' : OIcdState α} (hs : phase1 o ci order i st = .ok st') :
    Rec order b (fun S => ∃ z, S = {z}) st st' ∧ Fresh order P st' := by
  rw [phase1, py_bind (nth_ok hi)] at hs
  have := foldlM_ind (P := fun s => Rec order b (fun S => ∃ z, S = {z}) st s ∧ Fresh order P s ∧ s.graph.Proper) _ st
    ⟨Rec.rfl, hf, hG⟩ (by
      rintro a s s' ha ⟨h1, h2, h3⟩ e
      rw [o.mem, List.mem_toFinset, mem_take hd hi] at ha
      obtain ⟨c, p1, p2⟩ := proper_isConnected h3.type (ha.ne hd)
      rw [py_bind p1] at e
      cases c with
      | false =>
        cases e
        exact ⟨h1, h2, h3⟩
      | true =>
        simp only [Bool.not_true, Bool.false_eq_true, if_false] at e
        split_ifs at e
        · cases e
          exact ⟨h1, h2, h3⟩
        · cases e
          obtain ⟨r1, r2, r3⟩ := testPair_rec (ci := ci) (C := fun S => ∃ z, S = {z}) h3 hd ha (p2.mp rfl) (zs := (o.iter (b, a)
            (s.graph.findAdjacentNodes b (some ((order.take i).toFinset.erase a)) none)).map (fun z => [z])) (by
              intro z hz
              obtain ⟨v, -, rfl⟩ := List.mem_map.mp hz
              exact ⟨v, by simp⟩)
          refine ⟨h1.trans r1, h2.sub r1.1 (fun c d _ hm => ?_), r2⟩
          rcases r3 with r3 | ⟨r3, r4⟩
          · rw [r3] at hm
            exact Or.inl hm
          · rw [r3, Finset.mem_insert, Prod.mk.injEq] at hm
            refine hm.symm.imp id ?_
            rintro ⟨rfl, rfl⟩
            exact r4) st' hs
  exact ⟨this.1, this.2.1⟩

/-- The condition on the members of a candidate set for the pair `a`, `b`: possible ancestors of `a` or of `b`. -/
def Legal (order : List α) (G : MG α) (a b : α) (T : Finset α) : Prop := a ∉ T ∧ ∀ v ∈ T,
  (∃ l, PathVia G.PossPar (order.toFinset.filter (fun x => ¬ Before order a x)) v a l) ∨
    ∃ l, PathVia G.PossPar (order.toFinset.filter (fun x => ¬ Before order b x)) v b l

theorem Legal.mono {E G : MG α} (h : SubMarks E G) {a b : α} {T : Finset α} (hT : Legal order E a b T) : Legal order G a b T :=
  ⟨hT.1, fun v hv => (hT.2 v hv).imp (PathVia.imp fun _ _ => h.possPar) (PathVia.imp fun _ _ => h.possPar)⟩

/-- The tests with `r` conditioning nodes for one base node: there is a collection `C` of candidate sets, among them all sets of `r`
earlier neighbours, such that for each pair that stays adjacent all legal candidates are tested, and for each deleted edge a candidate is
recorded. -/
theorem phaseR_cands (o : SetOrder α) (h : Inv ci N order k T0 T1 st) (hd : order.Nodup) (hm : ∀ v, v ∈ order ↔ v ∈ N) {i : Nat}
    {b : α} (hi : order[i]? = some b) {r : Nat} (hk : r ≤ k) (ht : T0 b ∧ T1 b) :
    ∃ st' d, ∃ C : Finset α → Prop, phaseR o ci order r i st = .ok (st', d) ∧ Inv ci N order k T0 T1 st' ∧ SubMarks st'.graph st.graph ∧
      (∀ T, C T → T.card = r ∧ ∀ v ∈ T, Before order v b) ∧
      (∀ T : Finset α, T.card = r → (∀ v ∈ T, Before order v b) → (∀ v ∈ T, st.graph.MAdj b v) → C T) ∧
      (∀ a, Before order a b → (b, a) ∉ st.done → st'.graph.MAdj a b → ∀ T, C T → Legal order st'.graph a b T →
        Fci.Dep ci a b T ∧ (b, a) ∉ st'.done) ∧
      (∀ c a, c ≠ b → (c, a) ∈ st'.done → (c, a) ∈ st.done) ∧ Rec order b C st st' := by
  rw [phaseR, py_bind (nth_ok hi)]
  by_cases hall : (order.take i).all (fun anc => (b, anc) ∈ st.done) = true
  · have hall' : ∀ a, Before order a b → (b, a) ∈ st.done := by
      intro a ha
      have := List.all_eq_true.mp hall a ((mem_take hd hi).mpr ha)
      simpa using this
    exact ⟨st, true, fun T => T.card = r ∧ ∀ v ∈ T, Before order v b, by simp only [if_pos hall]; rfl, h, SubMarks.refl h.inv.proper,
      fun _ h => h, fun _ h1 h2 _ => ⟨h1, h2⟩, fun a ha hn => absurd (hall' a ha) hn, fun _ _ _ h => h, Rec.rfl⟩
  · simp only [if_neg hall]
    have hbN : b ∈ N := (hm b).mp (List.mem_of_getElem? hi)
    obtain ⟨t, S, a1, a2, a3, a4, a5, a6, a7, -⟩ := C48_tree o h.inv.proper (root := b)
      (en := some (order.take (i + 1)).toFinset) (some r) (by
        rintro S e
        cases e
        intro v hv
        rw [List.mem_toFinset] at hv
        rw [h.inv.nodes]
        exact (hm v).mp (List.take_subset _ _ hv)) (by
        simp only [Option.getD_some, List.mem_toFinset]
        exact (mem_take_succ hd hi).mpr (Or.inl rfl))
    simp only [Option.getD_some] at a6 a7
    rw [py_bind a1]
    simp only
    set conds := (t.subsetsList o S r).insertionSort (fun c d => c.2 ≤ d.2) with hconds
    have hsub : ∀ c ∈ conds, c.1.card = r ∧ ∀ v ∈ c.1, Before order v b := by
      rintro ⟨T, d⟩ hc
      rw [hconds, List.mem_insertionSort] at hc
      obtain ⟨c1, c2, c3, -⟩ := ((C47_subsets o t S r).2 T d).mp hc
      refine ⟨c2, fun v hv => ?_⟩
      obtain ⟨l, hl, -⟩ := c3 v hv
      have hw := (a6 _ hl).1
      have hv' := hw.mem v (by simp)
      rw [List.mem_toFinset, mem_take_succ hd hi] at hv'
      rcases hv' with rfl | hv'
      · exact absurd (by simp) hw.avoid
      · exact hv'
    have hsup : ∀ T : Finset α, T.card = r → (∀ v ∈ T, Before order v b) → (∀ v ∈ T, st.graph.MAdj b v) →
        ∃ c ∈ conds, c.1 = T := by
      intro T hT hB hadj
      have hb : ∀ v ∈ T, IsBranch t [v] := fun v hv => a7 v (by
        rw [List.mem_toFinset, mem_take_succ hd hi]; exact Or.inr (hB v hv)) ((hB v hv).ne hd) (hadj v hv)
      refine ⟨(T, ∑ v ∈ T, t.minDist v), ?_, rfl⟩
      rw [hconds, List.mem_insertionSort]
      exact ((C47_subsets o t S r).2 T _).mpr ⟨fun v hv => (a5 v).mpr ⟨[], hb v hv⟩, hT,
        fun v hv => ⟨[], hb v hv, by simp⟩, rfl⟩
    obtain ⟨⟨s', d⟩, s1, s2, s3, s4, s5, s6⟩ := foldlM_ok_inv (f := fun (acc : OIcdState α × Bool) ancIdx => do
        let anc ← nth order ancIdx
        if (b, anc) ∈ acc.1.done then return acc
        let st1 : OIcdState α := { acc.1 with done := insert (b, anc) acc.1.done }
        if !(← st1.graph.isConnected anc b) then return (st1, acc.2)
        let zs ← filterPy (fun c => if anc ∈ c.1 then return false
          else isPossibleAncestorSet o st1.graph c.1 order ancIdx i) conds
        let tup := zs.map (fun c => o.iter (anc, b) c.1)
        if tup.isEmpty then return (st1, acc.2)
        let (st2, found) := testPair ci st1 anc b tup
        if found then return (st2, acc.2 && ((Pc.firstIndep ci anc b tup st1.calls).2 == st1.calls + 1))
        else return ({ st2 with done := acc.1.done }, false))
      (fun dn (acc : OIcdState α × Bool) => Inv ci N order k T0 T1 acc.1 ∧ SubMarks acc.1.graph st.graph ∧
        (∀ a, ((b, a) ∈ acc.1.done ∨ ∃ j ∈ dn, order[j]? = some a) → (b, a) ∉ st.done → acc.1.graph.MAdj a b →
          ∀ T, (∃ c ∈ conds, c.1 = T) → Legal order acc.1.graph a b T → Fci.Dep ci a b T ∧ (b, a) ∉ acc.1.done) ∧
        (∀ c a, c ≠ b → (c, a) ∈ acc.1.done → (c, a) ∈ st.done) ∧ Rec order b (fun T => ∃ c ∈ conds, c.1 = T) st acc.1)
      (List.range i) [] (st, true) ⟨h, SubMarks.refl h.inv.proper, fun a h1 h2 =>
        (h1.elim (fun h => absurd h h2) (by simp)), fun _ _ _ h => h, Rec.rfl⟩ (by
        rintro dn j ⟨s, d⟩ hj ⟨i1, i2, i5, i6, i7⟩
        simp only at i1 i2 i5 i6 i7
        rw [List.mem_range] at hj
        obtain ⟨hil, hib⟩ := List.getElem?_eq_some_iff.mp hi
        obtain ⟨a, ha⟩ : ∃ a, order[j]? = some a := ⟨order[j], List.getElem?_eq_getElem (by omega)⟩
        have hab : Before order a b := by
          refine (mem_take hd hi).mp ?_
          rw [List.mem_take_iff_getElem]
          obtain ⟨hj', e⟩ := List.getElem?_eq_some_iff.mp ha
          exact ⟨j, by omega, e⟩
        -- what is to be shown for the new state
        have fin : ∀ (s' : OIcdState α), Inv ci N order k T0 T1 s' → SubMarks s'.graph s.graph →
            (∀ c, (b, c) ∈ s'.done → (b, c) ∈ s.done ∨ c = a) →
            (∀ c x, c ≠ b → (c, x) ∈ s'.done → (c, x) ∈ s.done) →
            ((b, a) ∉ st.done → s'.graph.MAdj a b → ∀ T, (∃ c ∈ conds, c.1 = T) → Legal order s'.graph a b T →
              Fci.Dep ci a b T ∧ (b, a) ∉ s'.done) →
            Rec order b (fun T => ∃ c ∈ conds, c.1 = T) s s' →
            Inv ci N order k T0 T1 s' ∧ SubMarks s'.graph st.graph ∧
            (∀ c, ((b, c) ∈ s'.done ∨ ∃ x ∈ dn ++ [j], order[x]? = some c) → (b, c) ∉ st.done → s'.graph.MAdj c b →
              ∀ T, (∃ c ∈ conds, c.1 = T) → Legal order s'.graph c b T → Fci.Dep ci c b T ∧ (b, c) ∉ s'.done) ∧
            (∀ c x, c ≠ b → (c, x) ∈ s'.done → (c, x) ∈ st.done) ∧ Rec order b (fun T => ∃ c ∈ conds, c.1 = T) st s' := by
          intro s' f1 f2 f6 f7 f5 f8
          refine ⟨f1, f2.trans i2, fun c hc hn hadj T hC hT => ?_, fun c x hc hx => i6 c x hc (f7 c x hc hx), i7.trans f8⟩
          have : ((b, c) ∈ s.done ∨ ∃ j ∈ dn, order[j]? = some c) ∨ c = a := by
            rcases hc with hc | ⟨x, hx, hc⟩
            · exact (f6 c hc).imp Or.inl id
            · rw [List.mem_append, List.mem_singleton] at hx
              rcases hx with hx | rfl
              · exact Or.inl (Or.inr ⟨x, hx, hc⟩)
              · rw [ha] at hc
                cases hc
                exact Or.inr rfl
          by_cases hca : c = a
          · subst hca
            exact f5 hn hadj T hC hT
          · obtain ⟨g1, g2⟩ := i5 c (this.resolve_right hca) hn (f2.adj hadj) T hC (hT.mono f2)
            exact ⟨g1, fun h' => (f6 c h').elim g2 hca⟩
        by_cases hdn : (b, a) ∈ s.done
        · refine ⟨(s, d), by rw [py_bind (nth_ok ha)]; simp only [if_pos hdn]; rfl, fin s i1 (SubMarks.refl i1.inv.proper)
            (fun c h' => Or.inl h') (fun _ _ _ h => h) ?_ Rec.rfl⟩
          exact fun hn hadj T hT => i5 a (Or.inl hdn) hn hadj T hT
        · have hadj0 : s.graph.MAdj a b := by
            by_contra hn
            exact hdn (i1.done a b hab hn)
          obtain ⟨c, p1, p2⟩ := proper_isConnected i1.inv.proper.type (hab.ne hd)
          cases c with
          | false => exact absurd (p2.mpr hadj0) (by simp)
          | true =>
            obtain ⟨L, l1, l2⟩ := Verif.filterPy_spec (p := fun c : Finset α × WithTop Nat =>
                if a ∈ c.1 then return false else isPossibleAncestorSet o s.graph c.1 order j i)
              (P := fun c => Legal order s.graph a b c.1) conds (by
                intro c _
                by_cases hc : a ∈ c.1
                · exact ⟨false, by rw [if_pos hc]; rfl, by simp [Legal, hc]⟩
                · obtain ⟨q, q1, q2⟩ := possAncSet_spec o i1.inv.proper hd c.1 ha hi
                  exact ⟨q, by rw [if_neg hc]; exact q1, by rw [q2]; exact ⟨fun h => ⟨hc, h⟩, fun h => h.2⟩⟩)
            have hcand : ∀ T, (∃ c ∈ conds, c.1 = T) → Legal order s.graph a b T →
                ∃ z ∈ L.map (fun c => o.iter (a, b) c.1), z.toFinset = T := by
              rintro _ ⟨c, hc, rfl⟩ hT
              refine ⟨o.iter (a, b) c.1, List.mem_map.mpr ⟨c, (l2 c).mpr ⟨hc, hT⟩, rfl⟩, ?_⟩
              ext x
              rw [List.mem_toFinset, o.mem]
            have hmark := i1.mark (a := a) ht
            have hins : ∀ c, (b, c) ∈ insert (b, a) s.done → (b, c) ∈ s.done ∨ c = a := by
              intro c hc
              rw [Finset.mem_insert, Prod.mk.injEq] at hc
              exact hc.elim (fun h => Or.inr h.2) Or.inl
            have hins' : ∀ c x, c ≠ b → (c, x) ∈ insert (b, a) s.done → (c, x) ∈ s.done := by
              intro c x hc hx
              rw [Finset.mem_insert, Prod.mk.injEq] at hx
              exact hx.resolve_left (fun h => hc h.1)
            by_cases hemp : (L.map (fun c => o.iter (a, b) c.1)).isEmpty = true
            · refine ⟨({ s with done := insert (b, a) s.done }, d), ?_, fin _ hmark (SubMarks.refl i1.inv.proper) hins hins' ?_ Rec.rfl⟩
              · rw [py_bind (nth_ok ha)]
                simp only [if_neg hdn]
                rw [py_bind p1]
                simp only [Bool.not_true, Bool.false_eq_true, if_false]
                rw [py_bind l1]
                simp only [if_pos hemp]
                rfl
              · intro _ _ T hC hT
                obtain ⟨z, hz, -⟩ := hcand T hC hT
                rw [List.isEmpty_iff] at hemp
                rw [hemp] at hz
                simp at hz
            · have hzs : ∀ z ∈ L.map (fun c => o.iter (a, b) c.1), ∃ c ∈ conds, Legal order s.graph a b c.1 ∧ z.toFinset = c.1 ∧
                  z = o.iter (a, b) c.1 := by
                intro z hz
                obtain ⟨c, hc, rfl⟩ := List.mem_map.mp hz
                obtain ⟨hc1, hc2⟩ := (l2 c).mp hc
                exact ⟨c, hc1, hc2, by ext x; rw [List.mem_toFinset, o.mem], rfl⟩
              obtain ⟨t1, t2, t3, t4⟩ := testPair_spec hmark hd (fun v hv => (hm v).mp hv) hab
                (zs := L.map (fun c => o.iter (a, b) c.1)) (by
                  intro z hz
                  obtain ⟨c, hc1, hc2, hc3, rfl⟩ := hzs z hz
                  obtain ⟨k1, k2⟩ := hsub c hc1
                  refine ⟨by rw [o.mem]; exact hc2.1, fun v hv => k2 v ((o.mem _ _ _).mp hv), ?_⟩
                  rw [← List.toFinset_card_of_nodup (o.nodup _ _), hc3, k1]
                  exact hk)
              have t5 := (testPair_rec (ci := ci) (C := fun T => ∃ c ∈ conds, c.1 = T) hmark.inv.proper hd hab hadj0
                (zs := L.map (fun c => o.iter (a, b) c.1)) (by
                  intro z hz
                  obtain ⟨c, hc1, -, hc3, -⟩ := hzs z hz
                  exact ⟨c, hc1, hc3.symm⟩)).1
              generalize hq : testPair ci { s with done := insert (b, a) s.done } a b (L.map (fun c => o.iter (a, b) c.1)) = q at *
              obtain ⟨s2, found⟩ := q
              simp only at t1 t2 t3 t4 t5
              have t6 : Rec order b (fun T => ∃ c ∈ conds, c.1 = T) s s2 := t5
              cases found with
              | true =>
                refine ⟨(s2, d && ((Pc.firstIndep ci a b (L.map (fun c => o.iter (a, b) c.1)) s.calls).2 == s.calls + 1)), ?_,
                  fin _ t1 t2 (by rw [(t4 rfl).2]; simpa using hins)
                  (by rw [(t4 rfl).2]; simpa using hins') (fun _ hadj => absurd hadj (t4 rfl).1) t6⟩
                rw [py_bind (nth_ok ha)]
                simp only [if_neg hdn]
                rw [py_bind p1]
                simp only [Bool.not_true, Bool.false_eq_true, if_false]
                rw [py_bind l1]
                simp only [if_neg hemp, hq]
                rfl
              | false =>
                obtain ⟨e1, e2, e3, e4⟩ := t3 rfl
                refine ⟨({ s2 with done := s.done }, false), ?_, fin _ ?_ (by simp only [e1]; exact SubMarks.refl i1.inv.proper)
                  (fun c h' => Or.inl h') (fun _ _ _ h => h) ?_ ⟨t6.1, t6.2⟩⟩
                · rw [py_bind (nth_ok ha)]
                  simp only [if_neg hdn]
                  rw [py_bind p1]
                  simp only [Bool.not_true, Bool.false_eq_true, if_false]
                  rw [py_bind l1]
                  simp only [if_neg hemp, hq]
                  rfl
                · have := i1.calls s2.calls
                  rw [e1, e2]
                  exact this
                · intro _ _ T hC hT
                  simp only [e1] at hT
                  obtain ⟨z, hz, hzT⟩ := hcand T hC hT
                  obtain ⟨n, hn⟩ := e4 z hz
                  obtain ⟨c, -, -, -, rfl⟩ := hzs z hz
                  exact ⟨⟨_, n, hzT, o.nodup _ _, hn⟩, hdn⟩)
    simp only [List.nil_append] at s4 s5 s6
    refine ⟨s', d, fun T => ∃ c ∈ conds, c.1 = T, s1, s2, s3, ?_, hsup, fun a ha hn hadj T hC hT => ?_, s5, s6⟩
    · rintro T ⟨c, hc, rfl⟩
      exact hsub c hc
    · have := (mem_take hd hi).mpr ha
      rw [List.mem_take_iff_getElem] at this
      obtain ⟨j, hj, e⟩ := this
      exact s4 a (Or.inr ⟨j, by rw [List.mem_range]; omega, List.getElem?_eq_some_iff.mpr ⟨by omega, e⟩⟩) hn hadj T hC hT

end OIcd
end Verif
