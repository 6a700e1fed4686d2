import Verif.Lemmas.IcdLeast
import Verif.Lemmas.NoCollider

/-!
# ICD on DAGs without unshielded colliders

All marks stay circles, so that every neighbour is a possible ancestor; after the iteration with `n` conditioning nodes exactly the pairs
that are not separated by `n` or fewer nodes are adjacent.
-/

namespace Verif
open Relation MG
variable {α : Type} [LinearOrder α]
namespace Icd
variable {ci : CITest α} {D : Dag α}

/-- What holds before the iteration with `n` conditioning nodes. -/
structure NInv (ci : CITest α) (D : Dag α) (n : Nat) (st : IcdState α) : Prop where
  size : st.size = n
  inv : ∀ r, n ≤ r + 1 → Fci.SkInv (least D D.nodes ci r) D.nodes st.graph st.sep
  plain : ∀ a b m, st.graph.At a b m → m = .circle
  rep : ∀ i j, st.graph.MAdj i j → ∀ T ⊆ D.nodes, T.card < n → i ∉ T → j ∉ T → ¬ D.DSeparated i j T

theorem init_ninv (o : SetOrder α) (ci : CITest α) (D : Dag α) : NInv ci D 0 (init o D.nodes) :=
  ⟨rfl, fun _ _ => init_inv o _ D.nodes, fun _ _ _ h => (complete_at.mp h).2.2.2, fun _ _ _ _ _ h => absurd h (Nat.not_lt_zero _)⟩

/-- Edges are only removed if a small set separates the pair. -/
theorem NInv.keep (hac : D.Acyclic) (hp : Pc.PerfectOn ci D D.nodes) {n : Nat} {st : IcdState α} (h : NInv ci D (n + 1) st) {a b : α}
    (ha : a ∈ D.nodes) (hb : b ∈ D.nodes) (hab : a ≠ b) (hn : ∀ T ⊆ D.nodes, T.card ≤ n → a ∉ T → b ∉ T → ¬ D.DSeparated a b T) :
    st.graph.MAdj a b := by
  by_contra hna
  obtain ⟨S, -, hS⟩ := (h.inv n le_rfl).witness a ha b hb hab hna
  obtain ⟨s1, s2, s3, s4, s5, -⟩ := least_witness hac hp ha hb hab hS
  exact hn S s1 s2 s3 s4 s5

theorem NInv.representing (hac : D.Acyclic) (hp : Pc.PerfectOn ci D D.nodes) {n : Nat} {st : IcdState α} (h : NInv ci D (n + 1) st) :
    D.Representing D.nodes n st.graph :=
  fun _ ha _ hb hab => ⟨fun hadj T hT hc => h.rep _ _ hadj T hT (Nat.lt_succ_of_le hc), h.keep hac hp ha hb hab⟩

theorem NInv.smallest (hac : D.Acyclic) (hp : Pc.PerfectOn ci D D.nodes) {n : Nat} {st : IcdState α} (h : NInv ci D (n + 1) st) :
    D.SmallestSep D.nodes n st.graph st.sep.get := by
  intro a ha c hc hne hn
  obtain ⟨S, s1, hS⟩ := (h.inv n le_rfl).witness a ha c hc hne hn
  exact ⟨S, s1, least_witness hac hp ha hc hne hS⟩

theorem NInv.next (hm : D.NoUCol) (hac : D.Acyclic) (hD : D.WF) (hp : Pc.PerfectOn ci D D.nodes) (o : SetOrder α) (opts : IcdOpts)
    {n : Nat} {st : IcdState α} (h : NInv ci D n st) (hd : st.done = false) (hci : Fci.SkInv ci D.nodes st.graph st.sep) :
    ∃ st' d, iteration o ci opts st = .ok (st', d, n) ∧ st'.done = d ∧ Fci.SkInv ci D.nodes st'.graph st'.sep ∧ NInv ci D (n + 1) st' ∧
      (d = true → (∀ i j, st.graph.MAdj i j → ∀ T, ¬ st.graph.IcdNbr i j n T) ∧ ∀ a b, st'.graph.MAdj a b ↔ st.graph.MAdj a b) := by
  obtain ⟨st', d, i1, i2, i3, i4, ⟨E, i5, i5'⟩, i6, i7, i8, i9⟩ := iteration_spec o opts hci hd
  rw [h.size] at i1 i3 i5 i8
  have hout : ∀ r, n ≤ r → ∃ F, SubMarks F st.graph ∧ Fci.SkInv (least D D.nodes ci r) D.nodes F st'.sep ∧ SameSkel st'.graph F ∧
      Out o opts st'.sep F st'.graph := fun r hr =>
    iteration_out o opts (h.inv r (by omega)) (by rw [h.size]; exact least_agree hr h.rep) i1
  have hinv : ∀ r, n ≤ r → Fci.SkInv (least D D.nodes ci r) D.nodes st'.graph st'.sep := by
    intro r hr
    obtain ⟨F, -, f2, f3, -⟩ := hout r hr
    exact f2.same f3
  have hkeep : ∀ a ∈ D.nodes, ∀ b ∈ D.nodes, a ≠ b → (∀ T ⊆ D.nodes, T.card ≤ n → a ∉ T → b ∉ T → ¬ D.DSeparated a b T) →
      st'.graph.MAdj a b := by
    intro a ha b hb hab hn
    by_contra hna
    obtain ⟨S, -, hS⟩ := (hinv n le_rfl).witness a ha b hb hab hna
    obtain ⟨s1, s2, s3, s4, s5, -⟩ := least_witness hac hp ha hb hab hS
    exact hn S s1 s2 s3 s4 s5
  have hplain : ∀ a b m, E.At a b m → m = .circle := fun a b m he => h.plain a b m ((i5.sub.marks a b m).mp he).1
  have hrep : ∀ i j, st'.graph.MAdj i j → ∀ T ⊆ D.nodes, T.card < n + 1 → i ∉ T → j ∉ T → ¬ D.DSeparated i j T := by
    intro i j hij T hT hc hiT hjT hsep
    have hijE := (i5'.adj i j).mp hij
    have hmem := i4.proper.mem_adj hij
    rw [i4.nodes] at hmem
    have hne := i4.proper.ne hij
    have hnadj : ¬ D.Adj i j := fun hadj => (hm.dseparated hac hiT hjT).mp hsep (.single ⟨hadj, hjT⟩)
    obtain ⟨S, s1, s2, s3, s4, s5, s6⟩ := hm.exists_closest hac hD hne hnadj
    have hle : S.card ≤ n := by
      by_contra hlt
      exact (hm.dseparated hac hiT hjT).mp hsep (s5 T (by omega) hiT hjT)
    have hge : n ≤ S.card := by
      by_contra hlt
      exact h.rep i j (i5.sub.adj hijE) S s1 (by omega) s2 s3 s4
    have hcard : S.card = n := by omega
    have hadj : ∀ s ∈ S, E.MAdj i s := by
      intro s hs
      refine (i5'.adj i s).mp (hkeep i hmem.1 s (s1 hs) (fun e => s2 (e ▸ hs)) ?_)
      intro U hU hcU hiU hsU hsepU
      exact (hm.dseparated hac hiU hsU).mp hsepU (s6 s hs U (by omega) hiU hsU)
    refine Dag.dep_of hac hp hmem.1 hmem.2 hne s2 s3 s1 (i5.tested i j hijE S ⟨hcard, s2, s3, Or.inl hadj, fun s hs => Or.inl ?_⟩) s4
    have hsi := (hadj s hs).symm
    refine pathVia_iff.mpr ⟨fun e => s2 (e ▸ hs), .single ⟨⟨hsi, fun h' => ?_, fun h' => ?_⟩, ?_⟩⟩
    · have := hplain _ _ _ h'
      simp at this
    · have := hplain _ _ _ h'
      simp at this
    · rw [i5.sub.nodes, hci.nodes]
      exact hmem.1
  have hN : ∀ hpl : ∀ a b m, st'.graph.At a b m → m = .circle, NInv ci D (n + 1) st' := fun hpl =>
    ⟨i3, fun r hr => hinv r (by omega), hpl, hrep⟩
  refine ⟨st', d, i1, i2, i4, hN ?_, fun hd => ⟨(i8 hd).1, (i8 hd).2.2⟩⟩
  obtain ⟨F, f1, f2, f3, f4⟩ := hout n le_rfl
  have hrepF : D.Representing D.nodes n F := by
    intro a ha b hb hab
    refine ⟨fun hadj T hT hc => hrep a b ((f3.adj a b).mpr hadj) T hT (Nat.lt_succ_of_le hc), fun hn => (f3.adj a b).mp (hkeep a ha b hb hab hn)⟩
  have hsmall : D.SmallestSep D.nodes n F st'.sep.get := by
    intro a ha c hc hne hn
    obtain ⟨S, s1, hS⟩ := f2.witness a ha c hc hne hn
    exact ⟨S, s1, least_witness hac hp ha hc hne hS⟩
  refine f4.plain hac f2 (Dag.SmallestSep.sepOk hac f2.proper f2.nodes hrepF hsmall)
    (fun a b m he => h.plain a b m ((f1.marks a b m).mp he).1) ?_
  rintro a b c ⟨k1, k2, k3, k4, S, k5, k6⟩
  have ma := f2.proper.mem_adj k2
  have mc := f2.proper.mem_adj k3
  rw [f2.nodes] at ma mc
  obtain ⟨S', s1, s2, s3, s4, s5, s6, -⟩ := hsmall a ma.1 c mc.1 k1 k4
  rw [k5] at s1
  cases s1
  -- `S` is a separating set, and `b` is linked to both ends
  refine (hm.dseparated hac s4 s5).mp s6 (ReflTransGen.trans (b := b) ?_ ?_)
  · by_contra hc
    exact (hrepF a ma.1 b ma.2 (f2.proper.ne k2)).mp k2 S s2 s3 s4 k6 ((hm.dseparated hac s4 k6).mpr hc)
  · by_contra hc
    exact (hrepF b mc.2 c mc.1 (f2.proper.ne k3).symm).mp k3.symm S s2 s3 k6 s5 ((hm.dseparated hac k6 s5).mpr hc)

/-- If an iteration finds nothing to test, the edges are those of the DAG. -/
theorem NInv.stop (hm : D.NoUCol) (hac : D.Acyclic) (hD : D.WF) (hp : Pc.PerfectOn ci D D.nodes) {n : Nat} {st st' : IcdState α}
    (h : NInv ci D n st) (h' : NInv ci D (n + 1) st') (hadj : ∀ a b, st'.graph.MAdj a b ↔ st.graph.MAdj a b)
    (hT : ∀ i j, st.graph.MAdj i j → ∀ T, ¬ st.graph.IcdNbr i j n T) {i j : α} (hij : st'.graph.MAdj i j) : D.Adj i j := by
  by_contra hn
  have hi := h'.inv n le_rfl
  have hmem := hi.proper.mem_adj hij
  rw [hi.nodes] at hmem
  obtain ⟨S, s1, s2, s3, s4, s5, s6⟩ := hm.exists_closest hac hD (hi.proper.ne hij) hn
  have hge : n < S.card := by
    by_contra hlt
    exact h'.rep i j hij S s1 (by omega) s2 s3 s4
  obtain ⟨T, t1, t2⟩ := Finset.exists_subset_card_eq hge.le
  have hn0 := h.inv n (by omega)
  have ht : ∀ s ∈ T, st.graph.MAdj i s := by
    intro s hs
    refine (hadj i s).mp (h'.keep hac hp hmem.1 (s1 (t1 hs)) (fun e => s2 (e ▸ t1 hs)) ?_)
    intro U hU hcU hiU hsU hsepU
    exact (hm.dseparated hac hiU hsU).mp hsepU (s6 s (t1 hs) U (by omega) hiU hsU)
  refine hT i j ((hadj i j).mp hij) T ⟨t2, fun h => s2 (t1 h), fun h => s3 (t1 h), Or.inl ht, fun s hs => Or.inl ?_⟩
  refine pathVia_iff.mpr ⟨fun e => s2 (e ▸ t1 hs), .single ⟨⟨(ht s hs).symm, fun h' => ?_, fun h' => ?_⟩, ?_⟩⟩
  · have := h.plain _ _ _ h'
    simp at this
  · have := h.plain _ _ _ h'
    simp at this
  · rw [hn0.nodes]
    exact hmem.1

theorem loop_ninv (hm : D.NoUCol) (hac : D.Acyclic) (hD : D.WF) (hp : Pc.PerfectOn ci D D.nodes) (o : SetOrder α) (opts : IcdOpts) :
    ∀ (fuel : Nat) {n : Nat} {st st' : IcdState α}, NInv ci D n st → st.done = false → Fci.SkInv ci D.nodes st.graph st.sep →
      loop o ci opts fuel st = .ok st' → (∀ a b m, st'.graph.At a b m → m = .circle) ∧ ∀ a b, st'.graph.MAdj a b → D.Adj a b := by
  intro fuel
  induction fuel with
  | zero => intro n st st' _ _ _ h; cases h
  | succ fuel ih =>
    intro n st st' h hd hci hrun
    obtain ⟨s, d, i1, i2, i3, i4, i5⟩ := h.next hm hac hD hp o opts hd hci
    rw [loop, py_bind i1] at hrun
    cases d with
    | true =>
      cases hrun
      obtain ⟨j1, j2⟩ := i5 rfl
      exact ⟨i4.plain, fun a b hab => h.stop hm hac hD hp i4 j2 j1 hab⟩
    | false => exact ih i4 i2 i3 hrun

end Icd
end Verif
