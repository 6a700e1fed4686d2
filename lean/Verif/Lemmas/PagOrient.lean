import Verif.Lemmas.PagRules3

/-!
# `maximally_orient_pattern` of a PAG: termination, invariants, fixpoint
-/

namespace Verif
open Relation
variable {α : Type} [LinearOrder α]

namespace MG

/-- A sequence of orientation steps of the rules in the list. -/
def PagSteps (sep : α → α → Py (Finset α)) (rules : List Nat) (G H : MG α) : Prop :=
  ReflTransGen (fun G H => ∃ idx ∈ rules, PagStep sep G H idx) G H

theorem pagRule_run (o : SetOrder α) (sep : SepSet α) {G : MG α} (hG : G.Proper) (hT : ∀ m, m ∈ G.types) {idx : Nat}
    (hidx : idx ∈ allPagRules)
    (hsep : idx = 4 → ∀ i ∈ G.nodes, ∀ j ∈ G.nodes, i ≠ j → ∃ S, sep.get i j = .ok S) :
    ∃ st, pagRule o sep idx G = .ok st ∧ Run (fun G H => PagStep sep.get G H idx) G st ∧
      (st.2 = false → ¬ G.PagPattern idx) := by
  simp only [allPagRules, List.mem_cons, List.not_mem_nil, or_false] at hidx
  rcases hidx with rfl | rfl | rfl | rfl | rfl | rfl | rfl | rfl | rfl | rfl
  · exact pagRule1_run o _ hG hT
  · exact pagRule2_run o _ hG hT
  · exact pagRule3_run o _ hG hT
  · exact pagRule4_run o _ hG hT (hsep rfl)
  · exact pagRule5_run o _ hG hT
  · exact pagRule6_run o _ hG hT
  · exact pagRule7_run o _ hG hT
  · exact pagRule8_run o _ hG hT
  · exact pagRule9_run o _ hG hT
  · exact pagRule10_run o _ hG hT

omit [LinearOrder α] in
theorem numCircles_lt {G H : MG α} (hO : Oriented H G) (hS : Strict G H) (hG : G.Proper) : H.numCircles < G.numCircles := by
  obtain ⟨a, b, h1, h2⟩ := hS
  unfold numCircles
  rw [hO.nodes]
  refine Finset.sum_lt_sum (fun v _ => Finset.card_le_card fun u hu => hO.circle u v hu) ⟨b, (hG.mem _ _ _ h1).2, ?_⟩
  refine Finset.card_lt_card ⟨fun u hu => hO.circle u b hu, fun h => h2 (h h1)⟩

omit [LinearOrder α] in
theorem Run.steps {sep : α → α → Py (Finset α)} {idx : Nat} {G0 : MG α} {st : MG α × Bool}
    (h : Run (fun G H => PagStep sep G H idx) G0 st) : ReflTransGen (fun G H => PagStep sep G H idx) G0 st.1 := by
  rcases h with h | ⟨_, G1, h1, _, h3⟩
  · rw [h.2]
  · exact .head h1 h3

theorem pagRound_spec (o : SetOrder α) (sep : SepSet α) {G : MG α} (hG : G.Proper) (hT : ∀ m, m ∈ G.types)
    {rules : List Nat} (hrules : ∀ idx ∈ rules, idx ∈ allPagRules)
    (hsep : 4 ∈ rules → ∀ i ∈ G.nodes, ∀ j ∈ G.nodes, i ≠ j → ∃ S, sep.get i j = .ok S) :
    ∃ st, pagRound o sep rules G = .ok st ∧ Oriented st.1 G ∧ PagSteps sep.get rules G st.1 ∧
      (st.2 = true → Strict G st.1) ∧
      (st.2 = false → st.1 = G ∧ ∀ idx ∈ rules, pagRule o sep idx G = .ok (G, false) ∧ ¬ G.PagPattern idx) := by
  unfold pagRound
  refine foldlM_run (fun (done : List Nat) (st : MG α × Bool) => Oriented st.1 G ∧ PagSteps sep.get rules G st.1 ∧
      (st.2 = true → Strict G st.1) ∧
      (st.2 = false → st.1 = G ∧ ∀ idx ∈ done, pagRule o sep idx G = .ok (G, false) ∧ ¬ G.PagPattern idx))
    ⟨.refl hG, .refl, by simp, by simp⟩ ?_ (fun _ h => h)
  rintro done idx st hidx ⟨h1, h2, h3, h4⟩
  obtain ⟨r, g1, g2, g3⟩ := pagRule_run o sep h1.proper (by rw [h1.types]; exact hT) (hrules idx hidx)
    (fun h => by rw [h1.nodes]; exact hsep (h ▸ hidx))
  have hO := g2.oriented h1.proper (by rw [h1.types]; exact hT)
  refine ⟨(r.1, st.2 || r.2), by rw [py_bind g1]; rfl, h1.trans hO, ?_, ?_, ?_⟩
  · exact h2.trans (rtg_mono (fun a b h => ⟨idx, hidx, h⟩) g2.steps)
  · intro hf
    rw [Bool.or_eq_true] at hf
    rcases hf with hf | hf
    · obtain ⟨a, b, k1, k2⟩ := h3 hf
      exact ⟨a, b, k1, fun h => k2 (hO.circle _ _ h)⟩
    · obtain ⟨a, b, k1, k2⟩ := g2.strict h1.proper (by rw [h1.types]; exact hT) hf
      exact ⟨a, b, h1.circle _ _ k1, k2⟩
  · intro hf
    rw [Bool.or_eq_false_iff] at hf
    obtain ⟨e1, e2⟩ := h4 hf.1
    have e3 := g2.eq hf.2
    refine ⟨e3.trans e1, fun i hi => ?_⟩
    rcases List.mem_append.1 hi with hi | hi
    · exact e2 i hi
    · rw [List.mem_singleton.1 hi]
      have := g3 hf.2
      rw [e1] at g1 this e3
      refine ⟨?_, this⟩
      rw [g1]
      obtain ⟨r1, r2⟩ := r
      simp only at e3 hf
      rw [e3, hf.2]

theorem pagOrientLoop_spec (o : SetOrder α) (sep : SepSet α) {rules : List Nat}
    (hrules : ∀ idx ∈ rules, idx ∈ allPagRules) :
    ∀ (n : Nat) {G : MG α}, G.Proper → (∀ m, m ∈ G.types) →
      (4 ∈ rules → ∀ i ∈ G.nodes, ∀ j ∈ G.nodes, i ≠ j → ∃ S, sep.get i j = .ok S) → G.numCircles < n →
      ∃ H, pagOrientLoop o sep rules n G = .ok H ∧ Oriented H G ∧ PagSteps sep.get rules G H ∧
        ∀ idx ∈ rules, pagRule o sep idx H = .ok (H, false) ∧ ¬ H.PagPattern idx := by
  intro n
  induction n with
  | zero => intro G _ _ _ h; omega
  | succ n ih =>
    intro G hG hT hsep hn
    obtain ⟨st, h1, h2, h3, h4, h5⟩ := pagRound_spec o sep hG hT hrules hsep
    by_cases hf : st.2 = true
    · have hlt := numCircles_lt h2 (h4 hf) hG
      obtain ⟨H, g1, g2, g3, g4⟩ := ih h2.proper (by rw [h2.types]; exact hT) (by rw [h2.nodes]; exact hsep) (by omega)
      refine ⟨H, ?_, h2.trans g2, h3.trans g3, g4⟩
      rw [pagOrientLoop, py_bind h1, if_pos hf]
      exact g1
    · have hf' : st.2 = false := by simpa using hf
      obtain ⟨e1, e2⟩ := h5 hf'
      refine ⟨st.1, ?_, h2, h3, by rw [e1]; exact e2⟩
      rw [pagOrientLoop, py_bind h1, if_neg hf]
      rfl

theorem pagMaxOrient_spec (o : SetOrder α) (sep : SepSet α) {rules : List Nat} (hrules : ∀ idx ∈ rules, idx ∈ allPagRules)
    {G : MG α} (hG : G.Proper) (hT : ∀ m, m ∈ G.types)
    (hsep : 4 ∈ rules → ∀ i ∈ G.nodes, ∀ j ∈ G.nodes, i ≠ j → ∃ S, sep.get i j = .ok S) :
    ∃ H, pagMaxOrient o sep rules G = .ok H ∧ Oriented H G ∧ PagSteps sep.get rules G H ∧
      ∀ idx ∈ rules, pagRule o sep idx H = .ok (H, false) ∧ ¬ H.PagPattern idx :=
  pagOrientLoop_spec o sep hrules _ hG hT hsep (Nat.lt_succ_self _)

end MG
end Verif
