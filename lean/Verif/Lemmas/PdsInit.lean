import Verif.Lemmas.PdsSearch
import Verif.Lemmas.PagMat

/-!
# The whole search of possible-d-sep nodes
-/

namespace Verif
variable {α : Type} [DecidableEq α]
open PdsTree

omit [DecidableEq α] in
theorem UGraph.size_le {A : UGraph α} (h : ∀ a b, b ∈ A.adj a → b ∈ A.nodes) : A.size ≤ A.nodes.card * A.nodes.card := by
  rw [UGraph.size]
  have := Finset.sum_le_card_nsmul A.nodes (fun v => (A.adj v).card) A.nodes.card
    (fun v _ => Finset.card_le_card (fun w hw => h v w hw))
  simpa using this

/-- The removal of the edges of the root. -/
theorem removeRoot_spec {root : α} : ∀ (nbs : List α) {A : UGraph α}, nbs.Nodup → root ∈ A.nodes →
    (∀ v ∈ nbs, v ∈ A.nodes ∧ v ∈ A.adj root ∧ v ≠ root) →
    ∃ A', nbs.foldlM (fun (A : UGraph α) v => A.removeEdge root v) A = .ok A' ∧ A'.nodes = A.nodes ∧
      (∀ a b, b ∈ A'.adj a ↔ b ∈ A.adj a ∧ ¬ (a = root ∧ b ∈ nbs) ∧ ¬ (b = root ∧ a ∈ nbs)) ∧
      A'.size + nbs.length ≤ A.size
  | [], A, _, _, _ => ⟨A, rfl, rfl, by simp, by simp⟩
  | v :: nbs, A, hnd, hr, hm => by
    obtain ⟨hv, hnd⟩ := List.nodup_cons.mp hnd
    obtain ⟨h1, h2, h3⟩ := hm v (by simp)
    obtain ⟨A1, e1, e2, e3⟩ := UGraph.removeEdge_spec hr h1
    obtain ⟨A2, f1, f2, f3, f4⟩ := removeRoot_spec nbs (A := A1) hnd (by rw [e2]; exact hr) (by
      intro w hw
      obtain ⟨g1, g2, g3⟩ := hm w (by simp [hw])
      refine ⟨by rw [e2]; exact g1, (e3 _ _).mpr ⟨g2, ?_, fun e => g3 e.2⟩, g3⟩
      exact fun e => hv (e.2 ▸ hw))
    refine ⟨A2, by rw [foldlM_cons_ok e1]; exact f1, f2.trans e2, ?_, ?_⟩
    · intro a b
      rw [f3, e3]
      simp only [List.mem_cons]
      tauto
    · have := MG.size_remove e2 e3 hr h2
      rw [List.length_cons]
      omega

/-- The first level of the tree. -/
theorem firstLevel_spec : ∀ (nbs : List α) {t : PdsTree α}, nbs.Nodup → t.Wf → (∀ v ∈ nbs, ¬ IsBranch t [v]) →
    ∃ t', nbs.foldlM (fun (t : PdsTree α) v => t.addBranch v) t = .ok t' ∧ t'.Wf ∧ t'.origin = t.origin ∧
      t'.depth = t.depth ∧ ∀ l, IsBranch t' l ↔ IsBranch t l ∨ ∃ v ∈ nbs, l = [v]
  | [], t, _, ht, _ => ⟨t, rfl, ht, rfl, rfl, by simp⟩
  | v :: nbs, t, hnd, ht, hm => by
    obtain ⟨hv, hnd⟩ := List.nodup_cons.mp hnd
    have hn := hm v (by simp)
    have h : ∀ c ∈ t.children, c.origin ≠ v := fun c hc e => hn (isBranch_cons.mpr ⟨c, hc, e, .nil _⟩)
    obtain ⟨t', f1, f2, f3, f4, f5⟩ := firstLevel_spec nbs hnd (addBranch_wf ht h) (by
      intro w hw hb
      rcases addBranch_branch.mp hb with hb | hb
      · exact hm w (by simp [hw]) hb
      · simp at hb
        exact hv (hb ▸ hw))
    refine ⟨t', by rw [foldlM_cons_ok (addBranch_ok h)]; exact f1, f2, f3, f4, ?_⟩
    intro l
    rw [f5, addBranch_branch]
    simp only [List.mem_cons]
    constructor
    · rintro ((h | h) | ⟨w, hw, h⟩)
      · exact Or.inl h
      · exact Or.inr ⟨v, Or.inl rfl, h⟩
      · exact Or.inr ⟨w, Or.inr hw, h⟩
    · rintro (h | ⟨w, rfl | hw, hl⟩)
      · exact Or.inl (Or.inl h)
      · exact Or.inl (Or.inr hl)
      · exact Or.inr ⟨w, hw, hl⟩

namespace MG

omit [DecidableEq α] in
/-- The state before the `while` loop. -/
theorem pdsInit {G : MG α} {en : Finset α} {root : α} (maxDepth : Nat) {U A : UGraph α}
    {nbs : List α} {t : PdsTree α} (hUn : U.nodes = en)
    (hU : ∀ a b, b ∈ U.adj a ↔ a ∈ en ∧ b ∈ en ∧ a ≠ b ∧ G.MAdj a b)
    (hr : root ∈ en) (hnd : nbs.Nodup) (hnb : ∀ v, v ∈ nbs ↔ v ∈ U.adj root) (hAn : A.nodes = U.nodes)
    (hA : ∀ a b, b ∈ A.adj a ↔ b ∈ U.adj a ∧ ¬ (a = root ∧ b ∈ nbs) ∧ ¬ (b = root ∧ a ∈ nbs))
    (ht : t.Wf) (hto : t.origin = root) (htd : t.depth = 0)
    (htb : ∀ l, IsBranch t l ↔ l = [] ∨ ∃ v ∈ nbs, l = [v]) :
    PdsInv G en root maxDepth ⟨A, nbs.map (fun v => (root, v, [v])), nbs, t⟩ none := by
  have hsymU : ∀ a b, b ∈ U.adj a → a ∈ U.adj b := by
    intro a b h
    obtain ⟨h1, h2, h3, h4⟩ := (hU a b).mp h
    exact (hU b a).mpr ⟨h2, h1, Ne.symm h3, Or.symm h4⟩
  have hbe : ∀ {l}, IsBranch t l → ∀ {a b}, LastEdge root l a b → a = root ∧ l = [b] ∧ b ∈ nbs := by
    intro l hl a b hab
    rcases (htb l).mp hl with rfl | ⟨v, hv, rfl⟩
    · obtain ⟨pre, h⟩ := hab
      have := congrArg List.length h
      simp at this
    · obtain ⟨rfl, rfl⟩ := hab.unique (LastEdge.single root v)
      exact ⟨rfl, rfl, hv⟩
  have hqm : ∀ q ∈ nbs.map (fun v => (root, v, [v])), ∃ v ∈ nbs, q = (root, v, [v]) := by
    intro q hq
    obtain ⟨v, hv, rfl⟩ := List.mem_map.mp hq
    exact ⟨v, hv, rfl⟩
  constructor
  · exact hAn.trans hUn
  · intro a b h
    have h' := (hA a b).mp h
    exact (hA b a).mpr ⟨hsymU _ _ h'.1, fun e => h'.2.2 e, fun e => h'.2.1 e⟩
  · intro a b h
    obtain ⟨h1, h2, h3⟩ := (hA a b).mp h
    obtain ⟨g1, g2, g3, g4⟩ := (hU a b).mp h1
    refine ⟨g1, g2, g3, g4, ?_, ?_⟩
    · rintro rfl
      exact h2 ⟨rfl, (hnb b).mpr h1⟩
    · rintro rfl
      exact h3 ⟨rfl, (hnb a).mpr (hsymU _ _ h1)⟩
  · exact ht
  · exact hto
  · exact htd
  · intro l hl
    rcases (htb l).mp hl with rfl | ⟨v, hv, rfl⟩
    · refine ⟨by simp, by simp, by simp, ?_⟩
      intro a b c h
      have := h.length_le
      simp at this
    · obtain ⟨g1, g2, g3, g4⟩ := (hU _ _).mp ((hnb v).mp hv)
      refine ⟨by simpa using g4, by simpa using g2, by simpa using g3, ?_⟩
      intro a b c h
      have := h.length_le
      simp at this
  · intro l hl
    rcases (htb l).mp hl with rfl | ⟨v, hv, rfl⟩
    · simp
    · simp
  · intro q hq
    obtain ⟨v, hv, rfl⟩ := hqm q hq
    exact ⟨(htb _).mpr (Or.inr ⟨v, hv, rfl⟩), LastEdge.single _ _⟩
  · intro _ _ e; cases e
  · intro q hq x hx
    obtain ⟨v, hv, rfl⟩ := hqm q hq
    rcases (htb _).mp hx with h | ⟨w, hw, h⟩
    · simp at h
    · simp at h
  · intro _ _ e; cases e
  · rw [List.map_map]
    exact hnd.map (fun a b h => by simpa using h)
  · intro _ _ e; cases e
  · intro v
    constructor
    · intro hv
      exact ⟨[], (htb _).mpr (Or.inr ⟨v, hv, rfl⟩)⟩
    · rintro ⟨l, hl⟩
      rcases (htb _).mp hl with h | ⟨w, hw, h⟩
      · simp at h
      · have := (List.append_inj' (s₁ := l) (t₁ := [v]) (s₂ := []) (t₂ := [w]) h rfl).2
        simp at this
        exact this ▸ hw
  · intro v hv hvr hadj
    exact (htb _).mpr (Or.inr ⟨v, (hnb v).mpr ((hU _ _).mpr ⟨hr, hv, Ne.symm hvr, hadj⟩), rfl⟩)
  · intro l a b hl hab hm
    obtain ⟨rfl, rfl, hb⟩ := hbe hl hab
    exact ((hA _ _).mp hm).2.1 ⟨rfl, hb⟩
  · intro l l' a b hl hl' hab hab'
    obtain ⟨rfl, rfl, hb⟩ := hbe hl hab
    rcases hab' with h | h
    · obtain ⟨-, rfl, -⟩ := hbe hl' h
      rfl
    · obtain ⟨rfl, rfl, -⟩ := hbe hl' h
      rfl
  · intro a ha b hb hab hadj har hbr
    exact Or.inl ((hA _ _).mpr ⟨(hU _ _).mpr ⟨ha, hb, hab, hadj⟩, fun e => har e.1, fun e => hbr e.1⟩)
  · intro l a b hl hab _ hq
    obtain ⟨rfl, rfl, hb⟩ := hbe hl hab
    refine absurd (List.mem_map.mpr ⟨(a, b, [b]), List.mem_map.mpr ⟨b, hb, rfl⟩, rfl⟩) hq
  · intro _ _ e; cases e
  · intro l hl
    rcases (htb l).mp hl with rfl | ⟨v, hv, rfl⟩
    · simp
    · exact List.length_pos_of_mem hv

/-- The search, before the final conversion. -/
theorem pds_run (o : SetOrder α) {G : MG α} (hG : G.Proper) {en : Finset α} {root : α}
    (hr : root ∈ en) :
    ∃ U nbs A t, G.getSkeletonGraph o en = .ok U ∧ U.getNeighbors o root = .ok nbs ∧
      nbs.foldlM (fun (A : UGraph α) v => A.removeEdge root v) U = .ok A ∧ A.nodes = en ∧
      nbs.foldlM (fun (t : PdsTree α) v => t.addBranch v) (.node root 0 []) = .ok t ∧
      ∀ maxDepth, ∃ st, pdsLoop o G maxDepth (A.nodes.card * A.nodes.card + 1)
          ⟨A, nbs.map (fun v => (root, v, [v])), nbs, t⟩ = .ok st ∧
        PdsInv G en root maxDepth st none ∧ st.queue = [] ∧ st.pds.length ≤ en.card * en.card ∧
        (en.card * en.card < maxDepth → pdsSetLoop o G (A.nodes.card * A.nodes.card + 1)
          ⟨A, nbs.map (fun v => (root, v)), nbs⟩ = .ok st.forget) := by
  obtain ⟨U, u1, u2, u3⟩ := getSkeletonGraph_spec o hG.type en
  have hsymU : ∀ a b, b ∈ U.adj a → a ∈ U.adj b := by
    intro a b h
    obtain ⟨h1, h2, h3, h4⟩ := (u3 a b).mp h
    exact (u3 b a).mpr ⟨h2, h1, Ne.symm h3, Or.symm h4⟩
  obtain ⟨nbs, n1, n2, n3⟩ := UGraph.getNeighbors_spec o hsymU
    (fun a b h => ⟨by rw [u2]; exact ((u3 a b).mp h).2.1, ((u3 a b).mp h).2.2.1⟩) (v := root) (by rw [u2]; exact hr)
  obtain ⟨A, a1, a2, a3, a4⟩ := removeRoot_spec nbs n2 (A := U) (root := root) (by rw [u2]; exact hr) (by
    intro v hv
    have hv' := (n3 v).mp hv
    obtain ⟨g1, g2, g3, g4⟩ := (u3 _ _).mp hv'
    exact ⟨by rw [u2]; exact g2, hv', Ne.symm g3⟩)
  obtain ⟨t, t1, t2, t3, t4, t5⟩ := firstLevel_spec nbs n2 (leaf_wf root 0) (fun v _ => not_branch_leaf)
  have hsz : U.size ≤ U.nodes.card * U.nodes.card := UGraph.size_le (fun a b h => by rw [u2]; exact ((u3 a b).mp h).2.1)
  have hAn : A.nodes = en := a2.trans u2
  refine ⟨U, nbs, A, t, u1, n1, a1, hAn, t1, ?_⟩
  intro maxDepth
  have hinit := pdsInit maxDepth u2 u3 hr n2 n3 a2 a3 t2 t3 t4 (by
    intro l
    rw [t5]
    constructor
    · rintro (h | h)
      · cases l with
        | nil => exact Or.inl rfl
        | cons x l => exact absurd h not_branch_leaf
      · exact Or.inr h
    · rintro (rfl | h)
      · exact Or.inl (.nil _)
      · exact Or.inr h)
  rw [u2] at hsz
  obtain ⟨st, s1, s2, s3, s4, s5⟩ := pdsLoop_spec o hG (A.nodes.card * A.nodes.card + 1) _ hinit (by
    simp only [List.length_map]
    rw [hAn]
    omega)
  simp only at s5
  refine ⟨st, s1, s2, s3, by omega, fun hlt => ?_⟩
  have := s4 (by simp only; omega)
  simpa [PdsState.forget, List.map_map, Function.comp_def] using this

omit [DecidableEq α] in
/-- In a graph without triangles the search is complete. -/
theorem PdsInv.complete {G : MG α} {en : Finset α} {root : α} {maxDepth : Nat} {st : PdsState α}
    (h : PdsInv G en root maxDepth st none) (hq : st.queue = []) (hlen : ∀ l, IsBranch st.tree l → l.length < maxDepth)
    (hT : ∀ a b c, G.MAdj a b → G.MAdj b c → ¬ G.MAdj a c) :
    ∀ (l : List α) (a b : α), G.PdsWalk en root l → LastEdge root l a b →
      ∃ l' u, IsBranch st.tree l' ∧ LastEdge root l' u b ∧ (G.At a b .arrow → G.At u b .arrow) := by
  intro l
  induction l using List.reverseRecOn with
  | nil =>
    rintro a b _ ⟨pre, hp⟩
    have := congrArg List.length hp
    simp at this
  | append_singleton l c ih =>
    intro a b hw hab
    obtain rfl := hab.of_concat
    rcases List.eq_nil_or_concat l with rfl | ⟨l0, y, rfl⟩
    · obtain ⟨rfl, -⟩ := hab.unique (LastEdge.single root c)
      refine ⟨[c], a, ?_, hab, id⟩
      have hr : c ≠ a := fun e => hw.avoid (by simp [e])
      exact h.first c (hw.mem c (by simp)) hr (by simpa using hw.chain)
    · obtain ⟨x, y', hxy⟩ := LastEdge.exists (root := root) (l := l0 ++ [y]) (by simp)
      rw [List.concat_eq_append] at *
      obtain rfl := hxy.of_concat
      obtain ⟨rfl, -⟩ := hab.unique hxy.concat
      obtain ⟨pre, hp⟩ := hxy
      have htr := hw.legal x a c ⟨pre, [], by rw [← List.cons_append, hp]; simp⟩
      obtain ⟨hne, m1, m2, m3⟩ := htr
      obtain ⟨m3, m4⟩ := m3.resolve_left (hT _ _ _ m1 m2)
      have hw0 : G.PdsWalk en root (l0 ++ [a]) := by
        refine ⟨?_, fun v hv => hw.mem v (by simp at hv ⊢; tauto), fun hv => hw.avoid (by simp at hv ⊢; tauto), ?_⟩
        · have := hw.chain
          rw [← List.cons_append, List.isChain_append] at this
          exact this.1
        · intro p q r hi
          refine hw.legal p q r (hi.trans ⟨[], [c], by simp⟩)
      obtain ⟨l', u, b1, b2, b3⟩ := ih x a hw0 ⟨pre, hp⟩
      have hu := b3 m3
      have hcr : c ≠ root := fun e => hw.avoid (by simp [e])
      have har : a ≠ root := fun e => hw.avoid (by simp [e])
      have hce : c ∈ en := hw.mem c (by simp)
      have hae : a ∈ en := hw.mem a (by simp)
      have key : ∀ l'', IsBranch st.tree l'' → LastEdge root l'' c a →
          ∃ l3 w, IsBranch st.tree l3 ∧ LastEdge root l3 w c ∧ (G.At a c .arrow → G.At w c .arrow) := by
        intro l'' h1 h2
        obtain ⟨pre', hp'⟩ := h2
        cases pre' with
        | nil => exact absurd (List.cons.inj hp').1.symm hcr
        | cons r pre' =>
          obtain ⟨rfl, e⟩ := List.cons.inj hp'
          have e' : l'' = (pre' ++ [c]) ++ [a] := by rw [e]; simp
          have hbr : IsBranch st.tree (pre' ++ [c]) := IsBranch.prefix (e' ▸ h1)
          obtain ⟨w, c', hwc⟩ := LastEdge.exists (root := root) (l := pre' ++ [c]) (by simp)
          obtain rfl := hwc.of_concat
          refine ⟨_, w, hbr, hwc, fun _ => ?_⟩
          obtain ⟨s, hs⟩ := hwc
          obtain ⟨-, k1, k2, k3⟩ := (h.walk _ h1).legal w c a ⟨s, [], by rw [e', ← List.cons_append, hs]; simp⟩
          exact (k3.resolve_left (hT _ _ _ k1 k2)).1
      by_cases huc : u = c
      · subst huc
        exact key l' b1 b2
      · have hcl := h.closed l' u a b1 b2 (hlen _ b1) (by rw [hq]; simp) (by intro _ _ e; cases e) c hce hcr
          ⟨huc, (h.walk _ b1).lastAdj b2, m2, Or.inr ⟨hu, m4⟩⟩
        have hac : a ≠ c := by
          rintro rfl
          exact hT a a a m2 m2 m2
        rcases h.used a hae c hce hac m2 har hcr with h1 | ⟨l'', h1, h2 | h2⟩
        · exact absurd h1 hcl
        · exact ⟨l'', a, h1, h2, id⟩
        · exact key l'' h1 h2

end MG
end Verif
