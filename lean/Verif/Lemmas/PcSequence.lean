import Verif.Lemmas.Pc
import Verif.Spec.PcSequence

/-!
# The skeleton found by PC if deletions do not affect the following tests
-/

namespace Verif
namespace Pc
variable {α : Type} [LinearOrder α] {ci : CITest α} {f : α → α → Finset α → Bool} {N : Finset α}

omit [LinearOrder α] in
theorem firstIndep_none (h : ∀ k i j l, ci k i j l = ci 0 i j l) (i j : α) : ∀ (zs : List (List α)) (k : Nat),
    (firstIndep ci i j zs k).1 = none ↔ ∀ z ∈ zs, ci 0 i j z = false := by
  intro zs
  induction zs with
  | nil => intro k; simp [firstIndep]
  | cons z zs ih =>
    intro k
    rw [firstIndep, h k i j z]
    by_cases hz : ci 0 i j z = true
    · rw [if_pos hz]
      simp [hz]
    · rw [if_neg hz, ih]
      simp [hz]

/-- The conditioning sets of a pair in the complete graph are all sets of the size. -/
theorem condSets_complete (o : SetOrder α) (hf : Answers ci f) {size : Nat} {i j : α} (hi : i ∈ N) :
    (∀ z ∈ condSets o (MG.pdagComplete N) size i j, ci 0 i j z = false) ↔
      ∀ S ⊆ N, i ∉ S → j ∉ S → S.card = size → f i j S = false := by
  constructor
  · intro h S hS h1 h2 hc
    obtain ⟨z, hz, rfl⟩ := exists_condSet o (src := MG.pdagComplete N) (i := i) (j := j)
      (Or.inl ⟨fun a ha => MG.pdagComplete_und.mpr ⟨hS ha, hi, by rintro rfl; exact h1 ha⟩, h2⟩) hc
    rw [← hf.1 0]
    exact h z hz
  · intro h z hz
    obtain ⟨h1, h2, h3⟩ := mem_condSets o (MG.pdagComplete_wf N) hz
    have hnd : z.Nodup := by
      rw [condSets, mem_uniqueElems, List.mem_append, mem_combs, mem_combs] at hz
      rcases hz.1 with hz | hz <;> exact hz.1.nodup (o.nodup _ _)
    rw [hf.1]
    exact h _ (fun x hx => h3 x (by simpa using hx)) (by simpa using h1) (by simpa using h2)
      (by rw [List.toFinset_card_of_nodup hnd, condSets_length hz])

/-- One pair. -/
theorem testPair_complete (o : SetOrder α) (hf : Answers ci f) (size : Nat) {st : PcState α} {i j : α} (hi : i ∈ N) (hj : j ∈ N) (hij : i ≠ j) :
    ∃ st', testPair o ci (MG.pdagComplete N) size st (i, j) = .ok st' ∧
      ∀ a b, st'.graph.Und a b ↔ st.graph.Und a b ∧ ((a = i ∧ b = j) ∨ (a = j ∧ b = i) →
        ∀ S ⊆ N, a ∉ S → b ∉ S → S.card = size → f a b S = false) := by
  obtain ⟨b, hb, hb'⟩ := MG.isConnected_spec (MG.pdagComplete_wf N) hij
  obtain rfl : b = true := hb'.mpr (Or.inr (Or.inr (Or.inl (MG.pdagComplete_und.mpr ⟨hi, hj, hij⟩))))
  have hk : ∀ k i j l, ci k i j l = ci 0 i j l := fun k i j l => by rw [hf.1, hf.1]
  have hn := (firstIndep_none hk i j (condSets o (MG.pdagComplete N) size i j) st.calls).trans (condSets_complete o hf hi)
  have hsym : (∀ S ⊆ N, i ∉ S → j ∉ S → S.card = size → f i j S = false) ↔ ∀ S ⊆ N, j ∉ S → i ∉ S → S.card = size → f j i S = false :=
    ⟨fun h S h1 h2 h3 h4 => by rw [hf.2]; exact h S h1 h3 h2 h4, fun h S h1 h2 h3 h4 => by rw [hf.2]; exact h S h1 h3 h2 h4⟩
  cases hfi : firstIndep ci i j (condSets o (MG.pdagComplete N) size i j) st.calls with
  | mk r k =>
    rw [hfi] at hn
    cases r with
    | none =>
      refine ⟨{ st with calls := k }, by simp only [testPair, hb]; simp [bind, Except.bind, hfi]; rfl, fun a b => ?_⟩
      refine ⟨fun h => ⟨h, ?_⟩, fun h => h.1⟩
      rintro (⟨rfl, rfl⟩ | ⟨rfl, rfl⟩)
      · exact hn.mp rfl
      · exact hsym.mp (hn.mp rfl)
    | some z =>
      have hn' : ¬ ∀ S ⊆ N, i ∉ S → j ∉ S → S.card = size → f i j S = false := fun h => by simpa using hn.mpr h
      refine ⟨⟨st.graph.pdagDeleteEdge i j, st.sep.set i j z.toFinset, k⟩,
        by simp only [testPair, hb]; simp [bind, Except.bind, hfi]; rfl, fun a b => ?_⟩
      rw [MG.deleteEdge_und]
      refine and_congr_right fun _ => ⟨fun h h' => absurd ?_ h, fun h h' => ?_⟩
      · rcases h' with ⟨rfl, rfl⟩ | ⟨rfl, rfl⟩
        · exact Or.inl ⟨rfl, rfl⟩
        · exact Or.inr ⟨rfl, rfl⟩
      · rcases h' with ⟨rfl, rfl⟩ | ⟨rfl, rfl⟩
        · exact hn' (h (Or.inl ⟨rfl, rfl⟩))
        · exact hn' (hsym.mpr (h (Or.inr ⟨rfl, rfl⟩)))

/-- One round. -/
theorem round_complete (o : SetOrder α) (hf : Answers ci f) (size : Nat) {st : PcState α} (hst : ∀ a b, st.graph.Und a b ↔ Kept f N size a b) :
    ∃ st', (pairs (o.iter size (MG.pdagComplete N).nodes)).foldlM
        (fun st ij => testPair o ci (if false then st.graph else MG.pdagComplete N) size st ij) st = .ok st' ∧
      ∀ a b, st'.graph.Und a b ↔ Kept f N (size + 1) a b := by
  obtain ⟨st', h1, h2⟩ := foldlM_ok_inv (f := fun st ij => testPair o ci (if false then st.graph else MG.pdagComplete N) size st ij)
    (fun done st' => ∀ a b, st'.graph.Und a b ↔ st.graph.Und a b ∧ ((a, b) ∈ done ∨ (b, a) ∈ done →
      ∀ S ⊆ N, a ∉ S → b ∉ S → S.card = size → f a b S = false))
    (pairs (o.iter size (MG.pdagComplete N).nodes)) [] st (by simp)
    (by
      rintro done ⟨i, j⟩ s hij hs
      have hi := (o.mem _ _ _).mp (mem_pairs_left hij)
      have hj := (o.mem _ _ _).mp (mem_pairs_right hij)
      obtain ⟨s', g1, g2⟩ := testPair_complete o hf size (st := s) (N := N) hi hj (mem_pairs_ne (o.nodup _ _) hij)
      refine ⟨s', g1, fun a b => ?_⟩
      rw [g2, hs, and_assoc, ← or_imp]
      refine and_congr_right fun _ => imp_congr_left ?_
      simp only [List.mem_append, List.mem_singleton, Prod.mk.injEq]
      tauto)
  refine ⟨st', h1, fun a b => ?_⟩
  rw [h2, hst]
  simp only [List.nil_append]
  constructor
  · rintro ⟨⟨k1, k2, k3, k4⟩, k5⟩
    refine ⟨k1, k2, k3, fun S hS ha hb hc => ?_⟩
    rcases Nat.lt_succ_iff_lt_or_eq.mp hc with hc | hc
    · exact k4 S hS ha hb hc
    · exact k5 (mem_pairs_or ((o.mem size _ _).mpr k1) ((o.mem size _ _).mpr k2) k3) S hS ha hb hc
  · rintro ⟨k1, k2, k3, k4⟩
    exact ⟨⟨k1, k2, k3, fun S hS ha hb hc => k4 S hS ha hb (by omega)⟩, fun _ S hS ha hb hc => k4 S hS ha hb (by omega)⟩

omit [LinearOrder α] in
theorem exitCond_iff {G : MG α} (hG : G.PdagWF) (hno : ∀ a b, ¬ G.Arrow a b) {size : Nat} :
    exitCond G size = true ↔ ∀ v, (G.und v).card ≤ size := by
  have h0 : ∀ v, (G.parents v).card = 0 := fun v => by
    rw [Finset.card_eq_zero, Finset.eq_empty_iff_forall_notMem]
    exact fun a ha => hno a v ha
  simp only [exitCond, decide_eq_true_eq, MG.fanIn, h0]
  refine ⟨fun h v => ?_, fun h v _ => by have := h v; omega⟩
  by_cases hv : v ∈ G.nodes
  · have := h v hv; omega
  · have : G.und v = ∅ := Finset.eq_empty_iff_forall_notMem.mpr fun a ha => hv (hG.mem _ _ _ ha).2
    simp [this]

/-- The loop. -/
theorem skeletonLoop_complete (o : SetOrder α) (hf : Answers ci f) :
    ∀ (n size : Nat) (st : PcState α), N.card ≤ size + n → Inv ci N st → (∀ a b, st.graph.Und a b ↔ Kept f N size a b) →
      (∀ m < size, ¬ Sparse f N m) →
      ∃ st' m, skeletonLoop o ci false (MG.pdagComplete N) (n + 1) size st = .ok st' ∧ (∀ a b, st'.graph.Und a b ↔ Kept f N m a b) ∧
        Sparse f N m ∧ ∀ m' < m, ¬ Sparse f N m' := by
  have hsp : ∀ {size : Nat} {st : PcState α}, Inv ci N st → (∀ a b, st.graph.Und a b ↔ Kept f N size a b) →
      (exitCond st.graph size = true ↔ Sparse f N size) := by
    intro size st hst hk
    rw [exitCond_iff hst.wf hst.noArrow]
    refine ⟨fun h v S hS => (Finset.card_le_card fun u hu => ?_).trans (h v), fun h v => h v _ fun u hu => (hk u v).mp hu⟩
    exact (hk u v).mpr (hS u hu)
  intro n
  induction n with
  | zero =>
    intro size st hn hst hk hs
    have he := exitCond_of_le hst.wf hst.noArrow (size := size) (by rw [hst.nodes]; omega)
    exact ⟨st, size, by simp only [skeletonLoop]; rw [if_pos he], hk, (hsp hst hk).mp he, hs⟩
  | succ n ih =>
    intro size st hn hst hk hs
    rw [skeletonLoop]
    by_cases he : exitCond st.graph size = true
    · exact ⟨st, size, by rw [if_pos he], hk, (hsp hst hk).mp he, hs⟩
    · rw [if_neg he]
      obtain ⟨st1, r1, r2, -⟩ := round_spec o false (MG.pdagComplete_wf N) rfl size hst
        (fun a b h => MG.pdagComplete_und.mpr ⟨((hk a b).mp h).1, ((hk a b).mp h).2.1, ((hk a b).mp h).2.2.1⟩)
      obtain ⟨st', h1, h2⟩ := round_complete o hf size hk
      rw [r1] at h1
      obtain rfl : st1 = st' := by simpa using h1
      obtain ⟨st'', m, g1, g2⟩ := ih (size + 1) st1 (by omega) r2 h2 (fun m hm => by
        rcases Nat.lt_succ_iff_lt_or_eq.mp hm with hm | rfl
        · exact hs m hm
        · exact fun h => he ((hsp hst hk).mpr h))
      exact ⟨st'', m, by simp only [r1]; exact g1, g2⟩

end Pc
end Verif
