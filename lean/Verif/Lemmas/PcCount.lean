import Verif.Lemmas.PcSequence
import Verif.Lemmas.MixedEdit
import Verif.Lemmas.OIcdBound
import Mathlib.Data.Nat.Choose.Bounds
import Mathlib.Algebra.BigOperators.Intervals
import Mathlib.Tactic.Ring

/-!
# The CI tests done by PC
-/

namespace Verif
open Relation

theorem combs_length {β : Type} : ∀ (k : Nat) (l : List β), (combs k l).length = l.length.choose k
  | 0, _ => by simp [combs]
  | k + 1, [] => by simp [combs]
  | k + 1, x :: xs => by
    rw [combs, List.length_append, List.length_map, combs_length k xs, combs_length (k + 1) xs, List.length_cons, Nat.choose_succ_succ]

theorem uniqueElems_length {β : Type} [DecidableEq β] : ∀ (l seen : List β), (uniqueElems l seen).length ≤ l.length
  | [], _ => by simp [uniqueElems]
  | e :: es, seen => by
    rw [uniqueElems]
    split
    · exact (uniqueElems_length es seen).trans (by simp)
    · simpa using uniqueElems_length es (e :: seen)

theorem sum_choose_le (m : Nat) : ∀ k : Nat, ∑ s ∈ Finset.range (k + 1), m.choose s ≤ (m + 1) ^ k
  | 0 => by simp
  | k + 1 => by
    rw [Finset.sum_range_succ]
    have h1 := sum_choose_le m k
    have h2 : m.choose (k + 1) ≤ m ^ (k + 1) := Nat.choose_le_pow m (k + 1)
    have h3 : m ^ (k + 1) ≤ m * (m + 1) ^ k := by
      rw [Nat.pow_succ, Nat.mul_comm]
      exact Nat.mul_le_mul_left _ (Nat.pow_le_pow_left (Nat.le_succ m) k)
    calc _ ≤ (m + 1) ^ k + m * (m + 1) ^ k := by omega
      _ = (m + 1) ^ (k + 1) := by ring

namespace Pc
variable {α : Type} [LinearOrder α] {ci ci' : CITest α} {N : Finset α}

omit [LinearOrder α] in
theorem firstIndep_calls (ci : CITest α) (i j : α) : ∀ (zs : List (List α)) (k : Nat), (firstIndep ci i j zs k).2 ≤ k + zs.length
  | [], k => by simp [firstIndep]
  | z :: zs, k => by
    rw [firstIndep]
    split
    · simp only [List.length_cons]; omega
    · have := firstIndep_calls ci i j zs (k + 1)
      simp only [List.length_cons]; omega

omit [LinearOrder α] in
theorem firstIndep_congr (i j : α) : ∀ (zs : List (List α)) (k : Nat), (∀ z ∈ zs, ∀ c, ci' c i j z = ci c i j z) →
    firstIndep ci' i j zs k = firstIndep ci i j zs k
  | [], _, _ => rfl
  | z :: zs, k, h => by
    rw [firstIndep, firstIndep, h z (by simp), firstIndep_congr i j zs (k + 1) fun z hz => h z (by simp [hz])]

theorem condSets_count (o : SetOrder α) {src : MG α} (hsrc : src.PdagWF) (hn : src.nodes = N) (size : Nat) {i j : α} (hi : i ∈ N) (hj : j ∈ N)
    (hij : i ≠ j) : (condSets o src size i j).length ≤ 2 * (N.card - 2).choose size := by
  have key : ∀ u v : α, u ∈ N → v ∈ N → u ≠ v → (combs size (o.iter (size, i, j) (src.und u \ {v}))).length ≤ (N.card - 2).choose size := by
    intro u v hu hv huv
    rw [combs_length]
    refine Nat.choose_le_choose _ ?_
    have h1 : (o.iter (size, i, j) (src.und u \ {v})).length = (src.und u \ {v}).card := by
      rw [← List.toFinset_card_of_nodup (o.nodup _ _)]
      congr 1
      ext x
      rw [List.mem_toFinset, o.mem]
    have h2 : src.und u \ {v} ⊆ (N.erase u).erase v := by
      intro x hx
      simp only [Finset.mem_sdiff, Finset.mem_singleton] at hx
      refine Finset.mem_erase.mpr ⟨hx.2, Finset.mem_erase.mpr ⟨?_, hn ▸ (hsrc.mem _ _ _ hx.1).1⟩⟩
      rintro rfl
      exact hsrc.irrefl _ _ hx.1
    have h3 := Finset.card_le_card h2
    rw [Finset.card_erase_of_mem (Finset.mem_erase.mpr ⟨huv.symm, hv⟩), Finset.card_erase_of_mem hu] at h3
    omega
  have h1 := uniqueElems_length (combs size (o.iter (size, i, j) (src.und i \ {j})) ++ combs size (o.iter (size, i, j) (src.und j \ {i}))) []
  have h2 := key i j hi hj hij
  have h3 := key j i hj hi hij.symm
  rw [List.length_append] at h1
  rw [condSets]
  omega

theorem testPair_calls (o : SetOrder α) {src : MG α} (hsrc : src.PdagWF) (hn : src.nodes = N) (size : Nat) {st st' : PcState α} {i j : α}
    (hi : i ∈ N) (hj : j ∈ N) (hij : i ≠ j) (h : testPair o ci src size st (i, j) = .ok st') :
    st'.calls ≤ st.calls + 2 * (N.card - 2).choose size := by
  obtain ⟨b, hb, -⟩ := MG.isConnected_spec hsrc hij
  have h1 := condSets_count o hsrc hn size hi hj hij
  have h2 := firstIndep_calls ci i j (condSets o src size i j) st.calls
  cases b with
  | false =>
    rw [testPair, py_bind hb] at h
    cases h
    omega
  | true =>
    rw [testPair, py_bind hb] at h
    cases hf : firstIndep ci i j (condSets o src size i j) st.calls with
    | mk r k =>
      rw [hf] at h2
      simp only [Bool.not_true, Bool.false_eq_true, if_false, hf] at h
      cases r <;> cases h <;> simp only at h2 ⊢ <;> omega

/-- One round. -/
theorem round_calls (o : SetOrder α) (overwrite : Bool) {orig : MG α} (horig : orig.PdagWF) (hon : orig.nodes = N) (size : Nat) {st st' : PcState α}
    (hst : Inv ci N st) (hsub : ∀ a b, st.graph.Und a b → orig.Und a b)
    (hrun : (pairs (o.iter size orig.nodes)).foldlM
        (fun st ij => testPair o ci (if overwrite then st.graph else orig) size st ij) st = .ok st') :
    st'.calls ≤ st.calls + N.card * (N.card - 1) * (N.card - 2).choose size := by
  obtain ⟨s, h1, -, -, h2⟩ := foldlM_ok_inv
    (f := fun st ij => testPair o ci (if overwrite then st.graph else orig) size st ij)
    (fun done s => Inv ci N s ∧ (∀ a b, s.graph.Und a b → st.graph.Und a b) ∧
      s.calls ≤ st.calls + done.length * (2 * (N.card - 2).choose size))
    (pairs (o.iter size orig.nodes)) [] st ⟨hst, fun _ _ h => h, by simp⟩
    (by
      rintro done ⟨i, j⟩ s hij ⟨i1, i2, i3⟩
      have hi := (o.mem _ _ _).mp (mem_pairs_left hij)
      have hj := (o.mem _ _ _).mp (mem_pairs_right hij)
      have hne := mem_pairs_ne (o.nodup _ _) hij
      rw [hon] at hi hj
      have hs : (if overwrite then s.graph else orig).PdagWF := by split; exact i1.wf; exact horig
      have hsn : (if overwrite then s.graph else orig).nodes = N := by split; exact i1.nodes; exact hon
      have hss : ∀ a b, s.graph.Und a b → (if overwrite then s.graph else orig).Und a b := by
        intro a b h
        split
        · exact h
        · exact hsub a b (i2 a b h)
      obtain ⟨s', g1, g2, g3, -⟩ := testPair_spec o hs hsn size i1 hss hi hj hne
      refine ⟨s', g1, g2, fun a b h => i2 a b (g3 a b h), ?_⟩
      have := testPair_calls o hs hsn size hi hj hne g1
      rw [List.length_append, List.length_singleton, Nat.add_mul, Nat.one_mul]
      omega)
  rw [hrun] at h1
  obtain rfl : st' = s := by simpa using h1
  have hlen : 2 * (pairs (o.iter size orig.nodes)).length = N.card * (N.card - 1) := by
    rw [length_pairs]
    have : (o.iter size orig.nodes).length = N.card := by
      rw [← List.toFinset_card_of_nodup (o.nodup _ _)]
      congr 1
      ext x
      rw [List.mem_toFinset, o.mem, hon]
    rw [this]
  calc st'.calls ≤ st.calls + (pairs (o.iter size orig.nodes)).length * (2 * (N.card - 2).choose size) := by simpa using h2
    _ = st.calls + 2 * (pairs (o.iter size orig.nodes)).length * (N.card - 2).choose size := by ring
    _ = _ := by rw [hlen]

/-- One more round over all pairs (as in the proof of `learnSkeleton_spec`). -/
theorem Tested.step (o : SetOrder α) {orig : MG α} (hon : orig.nodes = N) {size : Nat} {st st' : PcState α}
    (hq : Tested ci st.graph size) (hst' : Inv ci N st') (hsub : ∀ a b, st'.graph.Und a b → st.graph.Und a b)
    (hall : ∀ ij ∈ pairs (o.iter size orig.nodes), st'.graph.Und ij.1 ij.2 →
        ∃ src : MG α, (∀ a b, st'.graph.Und a b → src.Und a b) ∧
          ∀ z ∈ condSets o src size ij.1 ij.2, ∃ k, ci k ij.1 ij.2 z = false) : Tested ci st'.graph (size + 1) := by
  intro i j hu S hS hj hc
  have hne : i ≠ j := by rintro rfl; exact hst'.wf.irrefl _ _ hu
  by_cases hlt : S.card < size
  · exact hq i j (hsub i j hu) S (fun a ha => hsub a i (hS ha)) hj hlt
  · have hceq : S.card = size := by omega
    have hm := hst'.wf.mem _ _ _ hu
    rw [hst'.nodes, ← hon] at hm
    rcases mem_pairs_or ((o.mem size _ _).mpr hm.1) ((o.mem size _ _).mpr hm.2) hne with hp | hp
    · obtain ⟨src, c1, c2⟩ := hall _ hp hu
      obtain ⟨z, hz, hzS⟩ := exists_condSet o (src := src) (i := i) (j := j)
        (Or.inl ⟨fun a ha => c1 a i (hS ha), hj⟩) hceq
      obtain ⟨k, hk⟩ := c2 z hz
      exact ⟨z, k, hzS, by rw [condSets_length hz, hceq], Or.inl hk⟩
    · obtain ⟨src, c1, c2⟩ := hall _ hp (hst'.wf.symm _ _ hu)
      obtain ⟨z, hz, hzS⟩ := exists_condSet o (src := src) (i := j) (j := i)
        (Or.inr ⟨fun a ha => c1 a i (hS ha), hj⟩) hceq
      obtain ⟨k, hk⟩ := c2 z hz
      exact ⟨z, k, hzS, by rw [condSets_length hz, hceq], Or.inr hk⟩

/-- If all sets smaller than `size` have been tested, and no node has so many parents, only edges of the DAG are left. -/
theorem Tested.exact {D : Dag α} (hD : D.WF) (hac : D.Acyclic) (hp : Perfect ci D) {st : PcState α} {size : Nat} (h : Inv ci D.nodes st)
    (hadj : ∀ a b, D.Adj a b → st.graph.Und a b) (ht : Tested ci st.graph size) (hs : ∀ v, (D.par v).card < size) {a b : α}
    (hu : st.graph.Und a b) : D.Adj a b := by
  by_contra hn
  have key : ∀ i j, st.graph.Und i j → ¬ D.Adj i j → D.DPath i j := by
    intro i j hu hn
    by_contra hdp
    have hij : i ≠ j := by rintro rfl; exact h.wf.irrefl _ _ hu
    have hm := h.wf.mem _ _ _ hu
    rw [h.nodes] at hm
    obtain ⟨z, k, hz, -, hf⟩ := ht i j hu (D.par i) (fun p hp => hadj p i (Or.inl hp)) (fun h => hn (Or.inr h)) (hs i)
    have hzm : ∀ x, x ∈ z ↔ D.Edge x i := fun x => by rw [← List.mem_toFinset, hz]; rfl
    have hsep := Dag.dseparated_parents hac hij hn hdp
    rw [← hz] at hsep
    have hi : i ∉ z := fun h => Dag.irrefl hac _ ((hzm i).mp h)
    have hj : j ∉ z := fun h => hn (Or.inr ((hzm j).mp h))
    have hzn : ∀ x ∈ z, x ∈ D.nodes := fun x hx => (hD _ _ ((hzm x).mp hx)).1
    rcases hf with hf | hf
    · rw [(hp k i j z hm.1 hm.2 hij hi hj hzn).mpr hsep] at hf; cases hf
    · rw [(hp k j i z hm.2 hm.1 hij.symm hj hi hzn).mpr ((Dag.dseparated_symm hac).mp hsep)] at hf; cases hf
  have hab : a ≠ b := by rintro rfl; exact h.wf.irrefl _ _ hu
  rcases reflTransGen_iff_eq_or_transGen.mp (key a b hu hn) with h' | h'
  · exact hab h'.symm
  · exact hac a (h'.trans_left (key b a (h.wf.symm _ _ hu) (fun h => hn h.symm)))

/-- A test that agrees with a perfect one on small sets leads to the same run; the number of tests. -/
theorem skeletonLoop_agree (o : SetOrder α) {D : Dag α} (hD : D.WF) (hac : D.Acyclic) (hp : Perfect ci D) (overwrite : Bool) {k : Nat}
    (hpar : ∀ v, (D.par v).card ≤ k) (hdeg : ∀ v, ∀ S : Finset α, (∀ u ∈ S, D.Adj u v) → S.card ≤ k + 1)
    (hci : ∀ c i j l, l.length ≤ k → ci' c i j l = ci c i j l) {orig : MG α} (horig : orig.PdagWF) (hon : orig.nodes = D.nodes) :
    ∀ (n size : Nat) (st : PcState α), D.nodes.card ≤ size + n → Inv ci D.nodes st → (∀ a b, D.Adj a b → st.graph.Und a b) →
      Tested ci st.graph size → (∀ a b, st.graph.Und a b → orig.Und a b) →
      skeletonLoop o ci' overwrite orig (n + 1) size st = skeletonLoop o ci overwrite orig (n + 1) size st ∧
      ∃ st', skeletonLoop o ci overwrite orig (n + 1) size st = .ok st' ∧
        st'.calls ≤ st.calls + ∑ s ∈ Finset.Ico size (k + 1), D.nodes.card * (D.nodes.card - 1) * (D.nodes.card - 2).choose s := by
  intro n
  induction n with
  | zero =>
    intro size st hn hst _ _ _
    have he := exitCond_of_le hst.wf hst.noArrow (size := size) (by rw [hst.nodes]; omega)
    simp only [skeletonLoop]
    rw [if_pos he, if_pos he]
    exact ⟨rfl, st, rfl, by omega⟩
  | succ n ih =>
    intro size st hn hst hadj ht hsub
    rw [skeletonLoop, skeletonLoop]
    by_cases he : exitCond st.graph size = true
    · rw [if_pos he, if_pos he]
      exact ⟨rfl, st, rfl, by omega⟩
    · have hle : size ≤ k := by
        by_contra hlt
        refine he ((exitCond_iff hst.wf hst.noArrow).mpr fun v => ?_)
        refine (hdeg v _ fun u hu => ?_).trans (by omega)
        exact ht.exact hD hac hp hst hadj (fun v => by have := hpar v; omega) hu
      rw [if_neg he, if_neg he]
      obtain ⟨st1, r1, r2, r3, r4, r5⟩ := round_spec o overwrite horig hon size hst hsub
      have hsame : (pairs (o.iter size orig.nodes)).foldlM
          (fun st ij => testPair o ci' (if overwrite then st.graph else orig) size st ij) st = .ok st1 := by
        rw [← r1]
        refine OIcd.foldlM_congr _ _ fun s ij _ => ?_
        rw [testPair, testPair, firstIndep_congr ij.1 ij.2 _ _ fun z hz c => hci c _ _ _ (by rw [condSets_length hz]; exact hle)]
      have hc := round_calls o overwrite horig hon size hst hsub r1
      obtain ⟨k1, st', k2, k3⟩ := ih (size + 1) st1 (by omega) r2 (fun a b h => by
        by_contra hnu
        obtain ⟨S, hS⟩ := r4 a b (hadj a b h) hnu
        have hm : a ∈ D.nodes ∧ b ∈ D.nodes := h.elim (hD _ _) (fun h => (hD _ _ h).symm)
        have hne : a ≠ b := by
          rintro rfl
          rcases h with h | h <;> exact Dag.irrefl hac _ h
        exact Dag.not_dseparated_of_adj hac h (hS.dsep hac hp hm.1 hm.2 hne))
        (ht.step o hon r2 r3 r5) (fun a b h => hsub a b (r3 a b h))
      rw [py_bind hsame, py_bind r1]
      refine ⟨k1, st', k2, ?_⟩
      rw [Finset.sum_eq_sum_Ico_succ_bot (show size < k + 1 by omega)]
      omega

end Pc
end Verif
