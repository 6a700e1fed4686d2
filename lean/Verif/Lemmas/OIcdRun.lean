import Verif.Lemmas.OIcd

/-!
# Ordered ICD: the local and the global variant
-/

namespace Verif
open Relation
variable {α : Type} [LinearOrder α]
namespace OIcd
open MG

variable {ci : CITest α} {N : Finset α} {opts : OIcdOpts α} {k : Nat} {T0 T1 : α → Prop} {st : OIcdState α}

theorem Inv.congr {order : List α} {T0' T1' : α → Prop} (h : Inv ci N order k T0 T1 st) (h0 : ∀ x, T0 x ↔ T0' x)
    (h1 : ∀ x, T1 x ↔ T1' x) : Inv ci N order k T0' T1' st := by
  have e0 : T0 = T0' := funext fun x => propext (h0 x)
  have e1 : T1 = T1' := funext fun x => propext (h1 x)
  rw [← e0, ← e1]
  exact h

omit [LinearOrder α] in
theorem mem_pyRange {a b x : Nat} : x ∈ pyRange a b ↔ a ≤ x ∧ x < b := by
  simp only [pyRange, List.mem_map, List.mem_range]
  constructor
  · rintro ⟨y, h1, rfl⟩; omega
  · rintro ⟨h1, h2⟩; exact ⟨x - a, by omega, by omega⟩

/-- The adjacencies of `G` are in `G'`. -/
def AdjSub (G G' : MG α) : Prop := ∀ a b, G.MAdj a b → G'.MAdj a b

omit [LinearOrder α] in
theorem AdjSub.trans {G G' G'' : MG α} (h1 : AdjSub G G') (h2 : AdjSub G' G'') : AdjSub G G'' :=
  fun a b h => h2 a b (h1 a b h)

theorem orient_inv (o : SetOrder α) (hd : opts.order.Nodup) (hm : ∀ v, v ∈ opts.order ↔ v ∈ N) (anytime : Bool)
    (h : Inv ci N opts.order k T0 T1 st) :
    ∃ st', orient o opts anytime st = .ok st' ∧ Inv ci N opts.order k T0 T1 st' ∧ AdjSub st'.graph st.graph ∧
      st'.done = st.done ∧ st'.sep = st.sep ∧ st'.graph.OrdMarks opts.order ∧
      ∀ M, Ancestral M → M.nodes = N → (∀ a b, st'.graph.MAdj a b ↔ M.MAdj a b) → SepIn st'.sep.get M → M.OrdMarks opts.order →
        ArrowsOk st'.graph M ∧ (anytime = true ∨ TailsOk opts.tails M → Compatible st'.graph M) := by
  obtain ⟨G, g1, g2, g3, g4⟩ := orient_spec o hd (fun v hv => (hm v).mpr hv) anytime h.inv
  exact ⟨_, g1, h.same g2, fun a b h' => (g2.adj a b).mp h', rfl, rfl, g3,
    fun M hM hn hadj => g4 M hM hn (fun a b => (g2.adj a b).symm.trans (hadj a b))⟩

theorem nodeSizes_spec (o : SetOrder α) (hd : opts.order.Nodup) (hm : ∀ v, v ∈ opts.order ↔ v ∈ N) {i : Nat} {b : α}
    (hi : opts.order[i]? = some b) (ht : T0 b ∧ T1 b) :
    ∀ (n r : Nat) (st : OIcdState α), r + n ≤ k + 1 → Inv ci N opts.order k T0 T1 st →
      ∃ st', nodeSizes o ci opts i n r st = .ok st' ∧ Inv ci N opts.order k T0 T1 st' ∧ AdjSub st'.graph st.graph := by
  intro n
  induction n with
  | zero => exact fun r st _ h => ⟨st, rfl, h, fun _ _ h => h⟩
  | succ n ih =>
    intro r st hr h
    rw [nodeSizes, py_bind (nth_ok hi)]
    by_cases hall : (opts.order.take i).all (fun anc => (b, anc) ∈ st.done) = true
    · exact ⟨st, by simp only [if_pos hall]; rfl, h, fun _ _ h => h⟩
    · simp only [if_neg hall]
      obtain ⟨s1, d, p1, p2, p3, -⟩ := phaseR_spec o h hd hm hi (r := r) (by omega) ht
      obtain ⟨s2, q1, q2, q3, -⟩ := orient_inv o hd hm true p2
      obtain ⟨s3, r1, r2, r3⟩ := ih (r + 1) s2 (by omega) q2
      refine ⟨s3, ?_, r2, (r3.trans q3).trans (fun _ _ h => p3.adj h)⟩
      rw [py_bind p1]
      simp only
      rw [py_bind q1]
      exact r1

/-- `max_conditioning_size` of `ordered_icd.py:95-97`. -/
def maxSize (opts : OIcdOpts α) (i : Nat) : Nat :=
  match opts.maxCond with
  | some m => min (i - 1) m
  | none => i - 1

theorem nodeConnection_spec (o : SetOrder α) (hd : opts.order.Nodup) (hm : ∀ v, v ∈ opts.order ↔ v ∈ N) {i : Nat} {b : α}
    (hi0 : i ≠ 0) (hi : opts.order[i]? = some b) (hk : maxSize opts i ≤ k) (h : Inv ci N opts.order k T0 T1 st) :
    ∃ st', nodeConnection o ci opts i st = .ok st' ∧
      Inv ci N opts.order k (fun x => x = b ∨ T0 x) (fun x => (x = b ∧ 1 ≤ maxSize opts i) ∨ T1 x) st' ∧
      AdjSub st'.graph st.graph := by
  have hun : nodeConnection o ci opts i st = (do
      let st ← phase0 ci opts.order i st
      let st ← orient o opts true st
      if maxSize opts i = 0 then return st
      let st ← phase1 o ci opts.order i st
      let st ← orient o opts true st
      if maxSize opts i = 1 then return st
      nodeSizes o ci opts i (maxSize opts i - 1) 2 st) := by
    rw [nodeConnection, if_neg hi0]
    rfl
  rw [hun]
  obtain ⟨s1, a1, a2, a3⟩ := phase0_spec h hd hi
  obtain ⟨s2, b1, b2, b3, -⟩ := orient_inv o hd hm true a2
  have e1 : AdjSub s2.graph st.graph := b3.trans (fun _ _ h => a3.adj h)
  rw [py_bind a1, py_bind b1]
  by_cases h0 : maxSize opts i = 0
  · refine ⟨s2, by simp only [if_pos h0]; rfl, b2.congr (fun _ => Iff.rfl) (fun x => ?_), e1⟩
    rw [h0]
    simp
  · simp only [if_neg h0]
    obtain ⟨s3, c1, c2, c3, -⟩ := phase1_spec o b2 hd (fun v hv => (hm v).mp hv) hi (by omega)
    obtain ⟨s4, d1, d2, d3, -⟩ := orient_inv o hd hm true c2
    have e2 : AdjSub s4.graph st.graph := (d3.trans (fun _ _ h => c3.adj h)).trans e1
    rw [py_bind c1, py_bind d1]
    have hc : ∀ x, (x = b ∨ T1 x) ↔ ((x = b ∧ 1 ≤ maxSize opts i) ∨ T1 x) := by
      intro x
      have : 1 ≤ maxSize opts i := by omega
      simp [this]
    by_cases h1 : maxSize opts i = 1
    · exact ⟨s4, by simp only [if_pos h1]; rfl, d2.congr (fun _ => Iff.rfl) hc, e2⟩
    · simp only [if_neg h1]
      obtain ⟨s5, f1, f2, f3⟩ := nodeSizes_spec o hd hm hi ⟨Or.inl rfl, Or.inl rfl⟩ (maxSize opts i - 1) 2 s4 (by omega) d2
      exact ⟨s5, f1, f2.congr (fun _ => Iff.rfl) hc, f3.trans e2⟩

/-- What a call of `learn_structure` guarantees. -/
structure Res (ci : CITest α) (N : Finset α) (opts : OIcdOpts α) (k : Nat) (T0 T1 : α → Prop) (st st' : OIcdState α) : Prop where
  inv : Inv ci N opts.order k T0 T1 st'
  sub : AdjSub st'.graph st.graph
  ord : st'.graph.OrdMarks opts.order
  sound : ∀ M, Ancestral M → M.nodes = N → (∀ a b, st'.graph.MAdj a b ↔ M.MAdj a b) → SepIn st'.sep.get M →
    M.OrdMarks opts.order → ArrowsOk st'.graph M ∧
      (TailsOk opts.tails M → Compatible st'.graph M)

theorem learnLocal_spec (o : SetOrder α) (hd : opts.order.Nodup) (hm : ∀ v, v ∈ opts.order ↔ v ∈ N)
    (hk : sizeBound opts ≤ k) (h : Inv ci N opts.order k T0 T1 st) :
    ∃ st', learnLocal o ci opts st = .ok st' ∧ Res ci N opts k
      (fun x => (∃ i, 1 ≤ i ∧ opts.order[i]? = some x) ∨ T0 x)
      (fun x => (∃ i, 1 ≤ i ∧ opts.order[i]? = some x ∧ 1 ≤ maxSize opts i) ∨ T1 x) st st' := by
  have hcard : st.graph.nodes.card = opts.order.length := by
    rw [h.inv.nodes, ← List.toFinset_card_of_nodup hd]
    congr 1
    ext v
    rw [List.mem_toFinset, hm]
  obtain ⟨s1, a1, a2, a3⟩ := foldlM_ok_inv (f := fun st idx => nodeConnection o ci opts idx st)
    (fun dn s => Inv ci N opts.order k (fun x => (∃ i ∈ dn, opts.order[i]? = some x) ∨ T0 x)
      (fun x => (∃ i ∈ dn, opts.order[i]? = some x ∧ 1 ≤ maxSize opts i) ∨ T1 x) s ∧ AdjSub s.graph st.graph)
    (pyRange 1 st.graph.nodes.card) [] st ⟨h.congr (by simp) (by simp), fun _ _ h => h⟩ (by
      rintro dn i s hi ⟨i1, i2⟩
      rw [mem_pyRange, hcard] at hi
      have hb : opts.order[i]? = some opts.order[i] := List.getElem?_eq_getElem hi.2
      obtain ⟨s', p1, p2, p3⟩ := nodeConnection_spec o hd hm (by omega) hb (by
        refine le_trans ?_ hk
        rw [maxSize, sizeBound]
        cases opts.maxCond with
        | none => simp only; omega
        | some m => simp only; omega) i1
      refine ⟨s', p1, p2.congr (fun x => ?_) (fun x => ?_), p3.trans i2⟩
      · simp only [List.mem_append, List.mem_singleton]
        constructor
        · rintro (rfl | ⟨j, hj, e⟩ | h)
          · exact Or.inl ⟨i, Or.inr rfl, hb⟩
          · exact Or.inl ⟨j, Or.inl hj, e⟩
          · exact Or.inr h
        · rintro (⟨j, hj | rfl, e⟩ | h)
          · exact Or.inr (Or.inl ⟨j, hj, e⟩)
          · rw [hb] at e
            cases e
            exact Or.inl rfl
          · exact Or.inr (Or.inr h)
      · simp only [List.mem_append, List.mem_singleton]
        constructor
        · rintro (⟨rfl, h⟩ | ⟨j, hj, e⟩ | h)
          · exact Or.inl ⟨i, Or.inr rfl, hb, h⟩
          · exact Or.inl ⟨j, Or.inl hj, e⟩
          · exact Or.inr h
        · rintro (⟨j, hj | rfl, e, h⟩ | h)
          · exact Or.inr (Or.inl ⟨j, hj, e, h⟩)
          · rw [hb] at e
            cases e
            exact Or.inl ⟨rfl, h⟩
          · exact Or.inr (Or.inr h))
  rw [List.nil_append] at a2
  have hlt : ∀ {i x}, opts.order[i]? = some x → i < st.graph.nodes.card := by
    intro i x hi
    rw [hcard]
    exact (List.getElem?_eq_some_iff.mp hi).1
  have a2' := a2.congr (T0' := fun x => (∃ i, 1 ≤ i ∧ opts.order[i]? = some x) ∨ T0 x)
    (T1' := fun x => (∃ i, 1 ≤ i ∧ opts.order[i]? = some x ∧ 1 ≤ maxSize opts i) ∨ T1 x) (by
      intro x
      refine or_congr (exists_congr fun i => ?_) Iff.rfl
      rw [mem_pyRange]
      exact ⟨fun h => ⟨h.1.1, h.2⟩, fun h => ⟨⟨h.1, hlt h.2⟩, h.2⟩⟩) (by
      intro x
      refine or_congr (exists_congr fun i => ?_) Iff.rfl
      rw [mem_pyRange]
      exact ⟨fun h => ⟨h.1.1, h.2⟩, fun h => ⟨⟨h.1, hlt h.2.1⟩, h.2⟩⟩)
  obtain ⟨s2, b1, b2, b3, -, -, b4, b5⟩ := orient_inv o hd hm false a2'
  refine ⟨s2, by rw [learnLocal, py_bind a1]; exact b1, b2, b3.trans a3, b4, fun M hM hn hadj hs hMo => ?_⟩
  exact ⟨(b5 M hM hn hadj hs hMo).1, fun h => (b5 M hM hn hadj hs hMo).2 (Or.inr h)⟩

theorem globalSizes_spec (o : SetOrder α) (hd : opts.order.Nodup) (hm : ∀ v, v ∈ opts.order ↔ v ∈ N)
    (hT : ∀ i x, 3 ≤ i → opts.order[i]? = some x → T0 x ∧ T1 x) :
    ∀ (n r : Nat) (d : Bool) (st : OIcdState α), 2 ≤ r → r + n ≤ k + 1 → Inv ci N opts.order k T0 T1 st →
      ∃ st', globalSizes o ci opts n r d st = .ok st' ∧ Inv ci N opts.order k T0 T1 st' ∧ AdjSub st'.graph st.graph := by
  intro n
  induction n with
  | zero => exact fun r d st _ _ h => ⟨st, rfl, h, fun _ _ h => h⟩
  | succ n ih =>
    intro r d st hr hk h
    have hcard : st.graph.nodes.card = opts.order.length := by
      rw [h.inv.nodes, ← List.toFinset_card_of_nodup hd]
      congr 1
      ext v
      rw [List.mem_toFinset, hm]
    obtain ⟨⟨s1, d1⟩, a1, a2, a3⟩ := foldlM_ok_inv (f := fun (acc : OIcdState α × Bool) idx => do
        let (st, d) ← phaseR o ci opts.order r idx acc.1
        return (st, acc.2 && d))
      (fun dn s => Inv ci N opts.order k T0 T1 s.1 ∧ AdjSub s.1.graph st.graph)
      (pyRange (r + 1) st.graph.nodes.card) [] (st, d) ⟨h, fun _ _ h => h⟩ (by
        rintro dn i ⟨s, d⟩ hi ⟨i1, i2⟩
        rw [mem_pyRange, hcard] at hi
        have hb : opts.order[i]? = some opts.order[i] := List.getElem?_eq_getElem hi.2
        obtain ⟨s', d', p1, p2, p3, -⟩ := phaseR_spec o i1 hd hm hb (r := r) (by omega) (hT i _ (by omega) hb)
        exact ⟨(s', d && d'), by rw [py_bind p1]; rfl, p2, AdjSub.trans (fun _ _ h => p3.adj h) i2⟩)
    simp only at a2 a3
    rw [globalSizes, py_bind a1]
    simp only
    by_cases hd1 : d1 = true
    · exact ⟨s1, by rw [if_pos hd1]; rfl, a2, a3⟩
    · rw [if_neg hd1]
      obtain ⟨s2, b1, b2, b3, -⟩ := orient_inv o hd hm true a2
      obtain ⟨s3, c1, c2, c3⟩ := ih (r + 1) d1 s2 (by omega) (by omega) b2
      exact ⟨s3, by rw [py_bind b1]; exact c1, c2, (c3.trans b3).trans a3⟩

theorem learnGlobal_spec (o : SetOrder α) (hd : opts.order.Nodup) (hm : ∀ v, v ∈ opts.order ↔ v ∈ N)
    (hk : max 1 (sizeBound opts) ≤ k) (h : Inv ci N opts.order k T0 T1 st) :
    ∃ st', learnGlobal o ci opts st = .ok st' ∧ Res ci N opts k
      (fun x => (∃ i, 1 ≤ i ∧ opts.order[i]? = some x) ∨ T0 x)
      (fun x => (∃ i, 2 ≤ i ∧ opts.order[i]? = some x) ∨ T1 x) st st' := by
  have hcard : st.graph.nodes.card = opts.order.length := by
    rw [h.inv.nodes, ← List.toFinset_card_of_nodup hd]
    congr 1
    ext v
    rw [List.mem_toFinset, hm]
  have hlt : ∀ {i x}, opts.order[i]? = some x → i < st.graph.nodes.card := by
    intro i x hi
    rw [hcard]
    exact (List.getElem?_eq_some_iff.mp hi).1
  have comb : ∀ (dn : List Nat) (i : Nat) (b : α) (T : α → Prop), opts.order[i]? = some b → ∀ x,
      (x = b ∨ (∃ j ∈ dn, opts.order[j]? = some x) ∨ T x) ↔ ((∃ j ∈ dn ++ [i], opts.order[j]? = some x) ∨ T x) := by
    intro dn i b T hb x
    simp only [List.mem_append, List.mem_singleton]
    constructor
    · rintro (rfl | ⟨j, hj, e⟩ | h)
      · exact Or.inl ⟨i, Or.inr rfl, hb⟩
      · exact Or.inl ⟨j, Or.inl hj, e⟩
      · exact Or.inr h
    · rintro (⟨j, hj | rfl, e⟩ | h)
      · exact Or.inr (Or.inl ⟨j, hj, e⟩)
      · rw [hb] at e
        cases e
        exact Or.inl rfl
      · exact Or.inr (Or.inr h)
  have fin : ∀ (a : Nat) (T : α → Prop) (x : α), ((∃ j ∈ pyRange a st.graph.nodes.card, opts.order[j]? = some x) ∨ T x) ↔
      ((∃ i, a ≤ i ∧ opts.order[i]? = some x) ∨ T x) := by
    intro a T x
    refine or_congr (exists_congr fun i => ?_) Iff.rfl
    rw [mem_pyRange]
    exact ⟨fun h => ⟨h.1.1, h.2⟩, fun h => ⟨⟨h.1, hlt h.2⟩, h.2⟩⟩
  obtain ⟨s1, a1, a2, a3⟩ := foldlM_ok_inv (f := fun st idx => phase0 ci opts.order idx st)
    (fun dn s => Inv ci N opts.order k (fun x => (∃ i ∈ dn, opts.order[i]? = some x) ∨ T0 x) T1 s ∧ AdjSub s.graph st.graph)
    (pyRange 1 st.graph.nodes.card) [] st ⟨h.congr (by simp) (by simp), fun _ _ h => h⟩ (by
      rintro dn i s hi ⟨i1, i2⟩
      rw [mem_pyRange, hcard] at hi
      have hb : opts.order[i]? = some opts.order[i] := List.getElem?_eq_getElem hi.2
      obtain ⟨s', p1, p2, p3⟩ := phase0_spec i1 hd hb
      exact ⟨s', p1, p2.congr (comb dn i _ T0 hb) (fun _ => Iff.rfl), AdjSub.trans (fun _ _ h => p3.adj h) i2⟩)
  rw [List.nil_append] at a2
  obtain ⟨s2, b1, b2, b3, -⟩ := orient_inv o hd hm true (a2.congr (fin 1 T0) (fun _ => Iff.rfl))
  have hcard2 : s2.graph.nodes = st.graph.nodes := b2.inv.nodes.trans h.inv.nodes.symm
  obtain ⟨s3, c1, c2, c3⟩ := foldlM_ok_inv (f := fun st idx => phase1 o ci opts.order idx st)
    (fun dn s => Inv ci N opts.order k (fun x => (∃ i, 1 ≤ i ∧ opts.order[i]? = some x) ∨ T0 x)
      (fun x => (∃ i ∈ dn, opts.order[i]? = some x) ∨ T1 x) s ∧ AdjSub s.graph st.graph)
    (pyRange 2 st.graph.nodes.card) [] s2 ⟨b2.congr (by simp) (by simp), b3.trans a3⟩ (by
      rintro dn i s hi ⟨i1, i2⟩
      rw [mem_pyRange, hcard] at hi
      have hb : opts.order[i]? = some opts.order[i] := List.getElem?_eq_getElem hi.2
      obtain ⟨s', p1, p2, p3, -⟩ := phase1_spec o i1 hd (fun v hv => (hm v).mp hv) hb (by omega)
      exact ⟨s', p1, p2.congr (fun _ => Iff.rfl) (comb dn i _ T1 hb), AdjSub.trans (fun _ _ h => p3.adj h) i2⟩)
  rw [List.nil_append] at c2
  obtain ⟨s4, d1, d2, d3, -⟩ := orient_inv o hd hm true (c2.congr (fun _ => Iff.rfl) (fin 2 T1))
  have hmax : ∃ maxc, (match opts.maxCond with
      | some m => m + 1
      | none => st.graph.nodes.card - 2 + 1) = maxc ∧ maxc - 2 + 2 ≤ max 2 (k + 1) := by
    refine ⟨_, rfl, ?_⟩
    rw [sizeBound] at hk
    cases hmc : opts.maxCond with
    | none => rw [hmc] at hk; simp only at hk ⊢; omega
    | some m => rw [hmc] at hk; simp only at hk ⊢; omega
  obtain ⟨maxc, m1, m2⟩ := hmax
  obtain ⟨s5, e1, e2, e3⟩ := globalSizes_spec (k := k) o hd hm (fun i x hi e => ⟨Or.inl ⟨i, by omega, e⟩, Or.inl ⟨i, by omega, e⟩⟩)
    (maxc - 2) 2 true s4 (by omega) (by omega) d2
  obtain ⟨s6, f1, f2, f3, -, -, f4, f5⟩ := orient_inv o hd hm false e2
  refine ⟨s6, ?_, f2, ((f3.trans e3).trans d3).trans c3, f4, fun M hM hn hadj hs hMo => ?_⟩
  · rw [learnGlobal]
    simp only
    rw [py_bind a1, py_bind b1, py_bind c1, py_bind d1]
    subst m1
    exact (py_bind e1 _).trans f1
  · exact ⟨(f5 M hM hn hadj hs hMo).1, fun h => (f5 M hM hn hadj hs hMo).2 (Or.inr h)⟩

end OIcd
end Verif
