import Verif.Lemmas.PcObject

/-!
# PC raises nothing but the exceptions of its test
-/

namespace Verif
namespace Pc
variable {α σ : Type} [LinearOrder α] {N : Finset α} {call : Call α σ}

/-- States that the test object can reach by queries about the nodes `N` that are answered. -/
inductive Reach (N : Finset α) (call : Call α σ) (s₀ : σ) : σ → Prop
  | start : Reach N call s₀ s₀
  | step {s : σ} {i j : α} {l : List α} {b : Bool} : Reach N call s₀ s → Query N i j l → (call s i j l).1 = .ok b →
      Reach N call s₀ (call s i j l).2

/-- What the search keeps. -/
structure Ok2 (N : Finset α) (st : PcState α) : Prop where
  wf : st.graph.PdagWF
  nodes : st.graph.nodes = N
  noArrow : ∀ a b, ¬ st.graph.Arrow a b
  key : ∀ i ∈ N, ∀ j ∈ N, i ≠ j → ∃ S, st.sep.get i j = .ok S

/-- The run returns a good state, or raises an exception that a query raises. -/
def Fine {β : Type} (N : Finset α) (call : Call α σ) (s₀ : σ) (P : β → Prop) (x : Py (β × σ)) : Prop :=
  (∃ a s, x = .ok (a, s) ∧ P a ∧ Reach N call s₀ s) ∨
    ∃ e s i j l, x = .error e ∧ Reach N call s₀ s ∧ Query N i j l ∧ (call s i j l).1 = .error e

omit [LinearOrder α] in
theorem firstIndepObj_fine {s₀ : σ} {i j : α} : ∀ (zs : List (List α)) (k : Nat) (s : σ), Reach N call s₀ s → (∀ z ∈ zs, Query N i j z) →
    (∃ a m s', firstIndepObj call i j zs k s = .ok (a, m, s') ∧ Reach N call s₀ s') ∨
      ∃ e s' l, firstIndepObj call i j zs k s = .error e ∧ Reach N call s₀ s' ∧ Query N i j l ∧ (call s' i j l).1 = .error e := by
  intro zs
  induction zs with
  | nil => intro k s hs _; exact Or.inl ⟨none, k, s, rfl, hs⟩
  | cons z zs ih =>
    intro k s hs hq
    have hz := hq z (by simp)
    rw [firstIndepObj]
    rcases hc : call s i j z with ⟨r, s'⟩
    have h1 : (call s i j z).1 = r := by rw [hc]
    have h2 : (call s i j z).2 = s' := by rw [hc]
    match r, h1 with
    | .error e, h1 => exact Or.inr ⟨e, s, z, rfl, hs, hz, h1⟩
    | .ok true, h1 => exact Or.inl ⟨some z, k + 1, s', rfl, h2 ▸ hs.step hz h1⟩
    | .ok false, h1 => exact ih (k + 1) s' (h2 ▸ hs.step hz h1) (fun z' hz' => hq z' (by simp [hz']))

theorem testPairObj_fine (o : SetOrder α) {src : MG α} (hsrc : src.PdagWF) (hn : src.nodes = N) (size : Nat) {st : PcState α}
    (hst : Ok2 N st) {s₀ s : σ} (hs : Reach N call s₀ s) {i j : α} (hi : i ∈ N) (hj : j ∈ N) (hij : i ≠ j) :
    Fine N call s₀ (Ok2 N) (testPairObj o call src size (st, s) (i, j)) := by
  unfold testPairObj
  obtain ⟨b, hb, -⟩ := MG.isConnected_spec hsrc hij
  rw [hb]
  cases b with
  | false => exact Or.inl ⟨st, s, rfl, hst, hs⟩
  | true =>
    rcases firstIndepObj_fine (condSets o src size i j) st.calls s hs (condSets_query o hsrc hn hi hj hij) with
      ⟨a, m, s', h1, h2⟩ | ⟨e, s', l, h1, h2⟩
    · cases a with
      | none =>
        exact Or.inl ⟨{ st with calls := m }, s', by simp only [h1]; rfl, ⟨hst.wf, hst.nodes, hst.noArrow, hst.key⟩, h2⟩
      | some z =>
        refine Or.inl ⟨⟨st.graph.pdagDeleteEdge i j, st.sep.set i j z.toFinset, m⟩, s', by simp only [h1]; rfl,
          ⟨MG.deleteEdge_wf hst.wf i j, hst.nodes, fun a b h => hst.noArrow a b (MG.deleteEdge_arrow.mp h).1, ?_⟩, h2⟩
        intro a ha b hb hab
        simp only [SepSet.get_set]
        split
        · exact ⟨_, rfl⟩
        · exact hst.key a ha b hb hab
    · exact Or.inr ⟨e, s', i, j, l, by simp only [h1]; rfl, h2⟩

omit [LinearOrder α] in
theorem foldlM_fine {β γ : Type} {P : β → Prop} {s₀ : σ} {f : β × σ → γ → Py (β × σ)} : ∀ (l : List γ),
    (∀ x ∈ l, ∀ a s, P a → Reach N call s₀ s → Fine N call s₀ P (f (a, s) x)) → ∀ a s, P a → Reach N call s₀ s →
      Fine N call s₀ P (l.foldlM f (a, s)) := by
  intro l
  induction l with
  | nil => intro _ a s hP hs; exact Or.inl ⟨a, s, rfl, hP, hs⟩
  | cons x l ih =>
    intro hl a s hP hs
    rw [List.foldlM_cons]
    rcases hl x (by simp) a s hP hs with ⟨a', s', h1, h2, h3⟩ | ⟨e, s', i, j, z, h1, h2⟩
    · rw [h1]
      exact ih (fun y hy => hl y (by simp [hy])) a' s' h2 h3
    · rw [h1]
      exact Or.inr ⟨e, s', i, j, z, rfl, h2⟩

theorem skeletonLoopObj_fine (o : SetOrder α) (overwrite : Bool) {orig : MG α} (horig : orig.PdagWF) (hon : orig.nodes = N) {s₀ : σ} :
    ∀ (n size : Nat) (st : PcState α) (s : σ), N.card < n + size → 0 < n → Ok2 N st → Reach N call s₀ s →
      Fine N call s₀ (Ok2 N) (skeletonLoopObj o call overwrite orig n size (st, s)) := by
  intro n
  induction n with
  | zero => intro size st s _ h0; omega
  | succ n ih =>
    intro size st s hlt _ hst hs
    rw [skeletonLoopObj]
    by_cases he : exitCond st.graph size
    · rw [if_pos he]
      exact Or.inl ⟨st, s, rfl, hst, hs⟩
    · rw [if_neg he]
      have hcard : size < N.card := by
        by_contra hc
        exact he (exitCond_of_le hst.wf hst.noArrow (by rw [hst.nodes]; omega))
      have key := foldlM_fine (P := Ok2 N) (call := call) (N := N) (s₀ := s₀)
        (f := fun st ij => testPairObj o call (if overwrite then st.1.graph else orig) size st ij)
        (pairs (o.iter size orig.nodes)) (fun ij hij a s ha hs => by
          have hi : ij.1 ∈ N := hon ▸ (o.mem _ _ _).mp (mem_pairs_left (b := ij.2) hij)
          have hj : ij.2 ∈ N := hon ▸ (o.mem _ _ _).mp (mem_pairs_right (a := ij.1) hij)
          have hne : ij.1 ≠ ij.2 := mem_pairs_ne (o.nodup _ _) hij
          cases overwrite with
          | true => exact testPairObj_fine o ha.wf ha.nodes size ha hs hi hj hne
          | false => exact testPairObj_fine o horig hon size ha hs hi hj hne) st s hst hs
      rcases key with ⟨a', s', h1, h2, h3⟩ | ⟨e, s', i, j, z, h1, h2⟩
      · rw [h1]
        exact ih (size + 1) a' s' (by omega) (by omega) h2 h3
      · rw [h1]
        exact Or.inr ⟨e, s', i, j, z, rfl, h2⟩

theorem learnStructureObj_fine (o : SetOrder α) (overwrite : Bool) (s₀ : σ) :
    Fine N call s₀ (fun _ => True) (learnStructureObj o call overwrite (init o N) s₀) := by
  unfold learnStructureObj
  have h0 : Ok2 N (init o N) :=
    ⟨MG.pdagComplete_wf N, rfl, fun a b => MG.pdagComplete_arrow, fun i hi j hj hne => ⟨∅, by simp [init, SepSet.get_init, hi, hj, hne]⟩⟩
  have key := skeletonLoopObj_fine (N := N) (call := call) (s₀ := s₀) o overwrite (orig := (init o N).graph) h0.wf rfl
    ((init o N).graph.nodes.card + 2) 0 (init o N) s₀ (by show N.card < N.card + 2 + 0; omega) (by omega) h0 .start
  rcases key with ⟨a, s, h1, h2, h3⟩ | ⟨e, s', i, j, z, h1, h2⟩
  · rw [h1]
    obtain ⟨G1, g1, g2, -⟩ := vs_convert_spec o a.sep h2.wf h2.noArrow (by rw [h2.nodes]; exact h2.key)
    obtain ⟨G2, k1, -⟩ := MG.maximallyOrient_spec o (rules := [1, 2, 3])
      (by intro r hr; simp at hr; omega) (G1.convertBidirected o G1.nodes).nodes g2
    refine Or.inl ⟨{ a with graph := G2 }, s, ?_, trivial, h3⟩
    simp only [g1, bind, Except.bind]
    simp only [k1]; rfl
  · rw [h1]
    exact Or.inr ⟨e, s', i, j, z, rfl, h2⟩

end Pc
end Verif
