import Verif.Lemmas.IcdOne
import Verif.Props.TruePag

/-!
# C74: what ICD finds with at most one conditioning node
-/

namespace Verif
open Relation MG
variable {α : Type} [LinearOrder α]

/-- C74, the documented claim about iterations for the values 0 and 1, with latent variables: with a test that answers d-separation, the
graph after the iteration that reports `r` is `r`-representing. Missing: larger values, for which it is false
(`C74_representing_fails`). -/
theorem C74_representing_partial (o : SetOrder α) {ci : CITest α} (opts : IcdOpts) {D : Dag α} (hac : D.Acyclic) {O : Finset α}
    (hp : Pc.PerfectOn ci D O) :
    ∃ st1 st2 d, Icd.iteration o ci opts (Icd.init o O) = .ok (st1, false, 0) ∧ D.Representing O 0 st1.graph ∧
      Icd.iteration o ci opts st1 = .ok (st2, d, 1) ∧ D.Representing O 1 st2.graph := by
  obtain ⟨st1, st2, d, h1, h2, h3, h4⟩ := Dag.icd_one o opts hac hp
  exact ⟨st1, st2, d, h1, h3, h2, h4⟩

namespace Icd

theorem loop_sub (o : SetOrder α) {ci : CITest α} {N : Finset α} (opts : IcdOpts) : ∀ (fuel : Nat) {st st' : IcdState α},
    Fci.SkInv ci N st.graph st.sep → st.done = false → loop o ci opts fuel st = .ok st' →
    ∀ a b, st'.graph.MAdj a b → st.graph.MAdj a b := by
  intro fuel
  induction fuel with
  | zero => intro st st' _ _ h; cases h
  | succ fuel ih =>
    intro st st' h hd hrun a b hab
    obtain ⟨s, d, i1, i2, -, i4, ⟨E, i5, i5'⟩, -⟩ := iteration_spec o opts h hd
    have hsub : s.graph.MAdj a b → st.graph.MAdj a b := fun h => i5.sub.adj ((i5'.adj a b).mp h)
    rw [loop, py_bind i1] at hrun
    cases d with
    | true =>
      cases hrun
      exact hsub hab
    | false => exact hsub (ih i4 i2 hrun a b hab)

end Icd

/-- C74 for DAGs and observed sets in which separable pairs are separated by at most one node: `find_true_pag` returns a graph with
exactly the right adjacencies, all arrowheads are true, all unshielded colliders are found, and the tails are true if no pair
is confounded. -/
theorem C74_one_partial (o : SetOrder α) {D : Dag α} (hD : D.WF) (hac : D.Acyclic) {O : Finset α} (hO : O ⊆ D.nodes)
    (hone : D.OneSep O) :
    ∃ G, findTruePag o D O = .ok G ∧ G.Proper ∧ G.nodes = O ∧ (∀ a b, G.MAdj a b ↔ a ∈ O ∧ b ∈ O ∧ a ≠ b ∧ D.Insep O a b) ∧
      D.ArrowsTrue G ∧ D.CollidersFound O G ∧ (D.NoConfounded O → D.TailsTrue G) := by
  have hp := Pc.dsepTest_perfectOn o hD hac hO
  obtain ⟨G, g1, g2, g3, g4, g5⟩ := C74_partial o hD hac hO
  obtain ⟨st1, st2, d, h1, h2, -, h4⟩ := Dag.icd_one o ⟨false, true, true⟩ hac hp
  have hins : ∀ a b, G.MAdj a b → D.Insep O a b := by
    intro a b hab
    have hm : a ∈ O ∧ b ∈ O := by rw [← g3]; exact g2.mem_adj hab
    by_contra hn
    obtain ⟨S, s1, s2, s3, s4, s5⟩ := hone a hm.1 b hm.2 (g2.ne hab) hn
    refine (h4 a hm.1 b hm.2 (g2.ne hab)).mp ?_ S s1 s2 s3 s4 s5
    -- the edge was there after the second iteration
    obtain ⟨_, _, a1, a2, -, a4, -⟩ := Icd.iteration_spec o ⟨false, true, true⟩ (Icd.init_inv o (Pc.dsepTest o D) O) rfl
    rw [h1] at a1
    cases a1
    obtain ⟨_, _, b1, b2, -, b4, -⟩ := Icd.iteration_spec o ⟨false, true, true⟩ a4 a2
    rw [h2] at b1
    simp only [Except.ok.injEq, Prod.mk.injEq] at b1
    obtain ⟨rfl, rfl, -⟩ := b1
    rw [findTruePag] at g1
    obtain ⟨st, k1, k2⟩ := py_bind_ok g1
    cases k2
    obtain ⟨n, hn⟩ : ∃ n, max 2 O.card = n + 2 := ⟨max 2 O.card - 2, by omega⟩
    have k1' : Icd.loop o (Pc.dsepTest o D) ⟨false, true, true⟩ (n + 2) (Icd.init o O) = .ok st := by rw [← hn]; exact k1
    rw [icd_loop_next (n + 1) h1, Icd.loop, py_bind h2] at k1'
    cases d with
    | true =>
      cases k1'
      exact hab
    | false => exact Icd.loop_sub o _ n b4 b2 k1' a b hab
  refine ⟨G, g1, g2, g3, fun a b => ⟨fun h => ?_, fun h => g4 a h.1 b h.2.1 h.2.2.1 h.2.2.2⟩, g5 hins⟩
  have := g2.mem_adj h
  rw [g3] at this
  exact ⟨this.1, this.2, g2.ne h, hins a b h⟩

namespace Dag

omit [LinearOrder α] in
theorem Polytree.oneSep {D : Dag α} (hD : D.Polytree) (O : Finset α) : D.OneSep O := by
  intro a ha b hb hab hn
  by_cases h0 : D.DSeparated a b ∅
  · exact ⟨∅, by simp, by simp, by simp, by simp, h0⟩
  · obtain ⟨l, hl⟩ := not_not.mp h0
    unfold Insep at hn
    push Not at hn
    obtain ⟨S, s1, s2, s3, s4⟩ := hn
    have : ∃ x z y, [x, z, y] <:+: l ∧ ¬ D.Collider x z y ∧ z ∈ S := by
      by_contra hc
      push Not at hc
      refine s4 ⟨l, hl.nodup, hl.first, hl.last, hl.chain, ?_, hc⟩
      intro x z y hh hcol
      obtain ⟨w, hw, -⟩ := hl.open_collider x z y hh hcol
      simp at hw
    obtain ⟨x, z, y, hh, hcol, hz⟩ := this
    refine ⟨{z}, by simpa using s1 hz, by simp, ?_, ?_, ?_⟩
    · rw [Finset.mem_singleton]; rintro rfl; exact s2 hz
    · rw [Finset.mem_singleton]; rintro rfl; exact s3 hz
    · rintro ⟨l', hl'⟩
      have e : l' = l := hD a b l' l hl'.nodup hl.nodup hl'.chain hl.chain hl'.first hl.first hl'.last hl.last
      subst e
      exact hl'.open_noncollider x z y hh hcol (by simp)

omit [LinearOrder α] in
/-- With all nodes observed, inseparable means adjacent. -/
theorem insep_adj {D : Dag α} (hD : D.WF) (hac : D.Acyclic) {a b : α} (hab : a ≠ b) (h : D.Insep D.nodes a b) : D.Adj a b := by
  classical
  by_contra hn
  by_cases hp : D.DPath a b
  · have hp' : ¬ D.DPath b a := fun h' => hac a (by
      rcases reflTransGen_iff_eq_or_transGen.mp hp with e | h1
      · exact absurd e.symm hab
      · exact h1.trans_left h')
    refine h (D.par b) (fun x hx => (hD x b hx).1) (fun hx => hn (Or.inl hx)) (fun hx => hac b (.single hx)) ?_
    exact (dseparated_symm hac).mp (dseparated_parents hac hab.symm (fun h => hn h.symm) hp')
  · exact h (D.par a) (fun x hx => (hD x a hx).1) (fun hx => hac a (.single hx)) (fun hx => hn (Or.inr hx))
      (dseparated_parents hac hab hn hp)

end Dag

/-- C74 for polytrees with any set of latent nodes. -/
theorem C74_polytree_partial (o : SetOrder α) {D : Dag α} (hD : D.WF) (hac : D.Acyclic) (ht : D.Polytree) {O : Finset α} (hO : O ⊆ D.nodes) :
    ∃ G, findTruePag o D O = .ok G ∧ G.Proper ∧ G.nodes = O ∧ (∀ a b, G.MAdj a b ↔ a ∈ O ∧ b ∈ O ∧ a ≠ b ∧ D.Insep O a b) ∧
      D.ArrowsTrue G ∧ D.CollidersFound O G ∧ (D.NoConfounded O → D.TailsTrue G) :=
  C74_one_partial o hD hac hO (ht.oneSep O)

/-- C74 for polytrees, all nodes observed: the edges are those of the polytree, all marks other than circles are right. -/
theorem C74_polytree_observed_partial (o : SetOrder α) {D : Dag α} (hD : D.WF) (hac : D.Acyclic) (ht : D.Polytree) :
    ∃ G, findTruePag o D D.nodes = .ok G ∧ G.Proper ∧ G.nodes = D.nodes ∧ (∀ a b, G.MAdj a b ↔ D.Adj a b) ∧
      (∀ a b, G.At a b .arrow → D.Edge a b) ∧ (∀ a b, G.At a b .tail → D.Edge b a) ∧
      ∀ a b c, a ≠ c → D.Edge a b → D.Edge c b → ¬ D.Adj a c → G.At a b .arrow ∧ G.At c b .arrow := by
  obtain ⟨G, g1, g2, g3, g4, g5, g6, g7⟩ := C74_polytree_partial o hD hac ht (Finset.Subset.refl _)
  have hins : ∀ a b, D.Adj a b → a ∈ D.nodes ∧ b ∈ D.nodes ∧ a ≠ b ∧ D.Insep D.nodes a b := by
    intro a b h
    have hne : a ≠ b := by
      rintro rfl
      rcases h with h | h <;> exact hac _ (.single h)
    exact ⟨h.elim (fun h => (hD _ _ h).1) (fun h => (hD _ _ h).2), h.elim (fun h => (hD _ _ h).2) (fun h => (hD _ _ h).1), hne,
      .of_adj hac h⟩
  have hadj : ∀ a b, G.MAdj a b ↔ D.Adj a b := fun a b =>
    ⟨fun h => D.insep_adj hD hac ((g4 a b).mp h).2.2.1 ((g4 a b).mp h).2.2.2, fun h => (g4 a b).mpr (hins a b h)⟩
  have hnc : D.NoConfounded D.nodes := fun a _ b _ hab h =>
    (D.insep_adj hD hac hab h).imp (fun h => .single h) (fun h => .single h)
  refine ⟨G, g1, g2, g3, hadj, fun a b h => ?_, fun a b h => ?_, ?_⟩
  · exact ((hadj a b).mp (Or.inl ⟨_, h⟩)).resolve_right (fun h' => g5 a b h (.single h'))
  · refine ((hadj a b).mp (Or.inl ⟨_, h⟩)).resolve_left (fun h' => hac b ?_)
    have := g7 hnc a b h
    exact TransGen.tail' this h'
  · intro a b c hac' hab hcb hn
    obtain ⟨a1, a2, a3, a4⟩ := hins a b (Or.inl hab)
    obtain ⟨b1, b2, b3, b4⟩ := hins c b (Or.inl hcb)
    exact g6 a a1 b a2 c b1 a3 b3 hac' a4 b4 (fun h => hn (D.insep_adj hD hac hac' h)) (fun h => hac b (TransGen.tail' h hab))
      (fun h => hac b (TransGen.tail' h hcb))

/-! ## Examples -/

namespace Dag
variable {D : Dag α} {f : α → Nat}

omit [LinearOrder α] in
theorem rank_up (hirr : ∀ u v, D.Adj u v → f u ≠ f v) (huniq : ∀ u w v, D.Adj u v → D.Adj w v → f u < f v → f w < f v → u = w) :
    ∀ (t : List α) (a b y : α), (a :: b :: t).Nodup → (a :: b :: t).IsChain D.Adj → (a :: b :: t).getLast? = some y → f a < f b →
      f a < f y := by
  intro t
  induction t with
  | nil =>
    intro a b y _ _ hy h
    simp only [List.getLast?_cons_cons, List.getLast?_singleton, Option.some.injEq] at hy
    exact hy ▸ h
  | cons c t ih =>
    intro a b y hn hc hy h
    rw [List.isChain_cons_cons] at hc
    have hbc := (List.isChain_cons_cons.mp hc.2).1
    rcases lt_or_gt_of_ne (hirr b c hbc) with h' | h'
    · exact h.trans (ih b c y (List.nodup_cons.mp hn).2 hc.2 (by simpa using hy) h')
    · have := huniq a c b hc.1 hbc.symm h h'
      subst this
      simp at hn

omit [LinearOrder α] in
theorem polytree_of_rank (hirr : ∀ u v, D.Adj u v → f u ≠ f v)
    (huniq : ∀ u w v, D.Adj u v → D.Adj w v → f u < f v → f w < f v → u = w) : D.Polytree := by
  have hsymm : ∀ {l : List α}, l.IsChain D.Adj → l.reverse.IsChain D.Adj := by
    intro l h
    rw [List.isChain_reverse]
    exact h.imp (fun a b h => h.symm)
  have fork : ∀ {a b x y : α} {p q : List α}, (a :: x :: p).Nodup → (a :: y :: q).Nodup → (a :: x :: p).IsChain D.Adj →
      (a :: y :: q).IsChain D.Adj → (a :: x :: p).getLast? = some b → (a :: y :: q).getLast? = some b → x ≠ y → f a < f b := by
    intro a b x y p q n1 n2 c1 c2 l1 l2 hxy
    have hx := (List.isChain_cons_cons.mp c1).1
    have hy := (List.isChain_cons_cons.mp c2).1
    rcases lt_or_gt_of_ne (hirr a x hx) with h | h
    · exact rank_up hirr huniq p a x b n1 c1 l1 h
    · rcases lt_or_gt_of_ne (hirr a y hy) with h' | h'
      · exact rank_up hirr huniq q a y b n2 c2 l2 h'
      · exact absurd (huniq x y a hx.symm hy.symm h h') hxy
  have single : ∀ {a b : α} {q : List α}, (a :: q).Nodup → a = b → (a :: q).getLast? = some b → q = [] := by
    intro a b q hn e hl
    subst e
    cases q with
    | nil => rfl
    | cons x q =>
      rw [List.getLast?_cons_cons] at hl
      exact absurd (List.mem_of_getLast? hl) (List.nodup_cons.mp hn).1
  have key : ∀ (n : Nat) (a b : α) (p q : List α), p.length + q.length ≤ n → p.Nodup → q.Nodup → p.IsChain D.Adj → q.IsChain D.Adj →
      p.head? = some a → q.head? = some a → p.getLast? = some b → q.getLast? = some b → p = q := by
    intro n
    induction n with
    | zero =>
      intro a b p q hn _ _ _ _ h1 _ _ _
      have : p = [] := List.length_eq_zero_iff.mp (by omega)
      subst this
      simp at h1
    | succ n ih =>
      intro a b p q hn n1 n2 c1 c2 h1 h2 l1 l2
      match p, q, h1, h2 with
      | a1 :: p, a2 :: q, h1, h2 =>
        simp only [List.head?_cons, Option.some.injEq] at h1 h2
        subst h1
        subst h2
        match p, q with
        | [], q =>
          simp only [List.getLast?_singleton, Option.some.injEq] at l1
          rw [single n2 l1 l2]
        | p, [] =>
          simp only [List.getLast?_singleton, Option.some.injEq] at l2
          rw [single n1 l2 l1]
        | x :: p, y :: q =>
          simp only [List.length_cons] at hn
          by_cases hxy : x = y
          · subst hxy
            rw [ih x b (x :: p) (x :: q) (by simp only [List.length_cons]; omega) (List.nodup_cons.mp n1).2 (List.nodup_cons.mp n2).2
              (List.isChain_cons_cons.mp c1).2 (List.isChain_cons_cons.mp c2).2 rfl rfl (by simpa using l1) (by simpa using l2)]
          · have hab := fork n1 n2 c1 c2 l1 l2 hxy
            -- the same from the other end
            have r1 : ∃ u t, (a2 :: x :: p).reverse = b :: u :: t := by
              have e : (a2 :: x :: p).reverse.head? = some b := by rw [List.head?_reverse]; exact l1
              have e' : (a2 :: x :: p).reverse.length = p.length + 2 := by simp
              match h : (a2 :: x :: p).reverse, e, e' with
              | v :: u :: t, e, _ => exact ⟨u, t, by simp at e; rw [e]⟩
            have r2 : ∃ u t, (a2 :: y :: q).reverse = b :: u :: t := by
              have e : (a2 :: y :: q).reverse.head? = some b := by rw [List.head?_reverse]; exact l2
              have e' : (a2 :: y :: q).reverse.length = q.length + 2 := by simp
              match h : (a2 :: y :: q).reverse, e, e' with
              | v :: u :: t, e, _ => exact ⟨u, t, by simp at e; rw [e]⟩
            obtain ⟨u, t, e1⟩ := r1
            obtain ⟨u', t', e2⟩ := r2
            have m1 := List.nodup_reverse.mpr n1
            have m2 := List.nodup_reverse.mpr n2
            have d1 := hsymm c1
            have d2 := hsymm c2
            have k1 : (a2 :: x :: p).reverse.getLast? = some a2 := by rw [List.getLast?_reverse]; rfl
            have k2 : (a2 :: y :: q).reverse.getLast? = some a2 := by rw [List.getLast?_reverse]; rfl
            have len1 : t.length = p.length := by have := congrArg List.length e1; simpa using this.symm
            have len2 : t'.length = q.length := by have := congrArg List.length e2; simpa using this.symm
            rw [e1] at m1 d1 k1
            rw [e2] at m2 d2 k2
            by_cases huu : u = u'
            · subst huu
              have := ih u a2 (u :: t) (u :: t') (by simp only [List.length_cons]; omega) (List.nodup_cons.mp m1).2
                (List.nodup_cons.mp m2).2 (List.isChain_cons_cons.mp d1).2 (List.isChain_cons_cons.mp d2).2 rfl rfl
                (by simpa using k1) (by simpa using k2)
              rw [this, ← e2] at e1
              exact List.reverse_injective e1
            · exact absurd hab (lt_asymm (fork m1 m2 d1 d2 k1 k2 huu))
  intro a b p q h1 h2 h3 h4 h5 h6 h7 h8
  exact key _ a b p q le_rfl h1 h2 h3 h4 h5 h6 h7 h8

end Dag

/-- The polytree `0 → 1 ← 2 → 3 ← 4`. -/
def exPoly : Dag Nat := ⟨{0, 1, 2, 3, 4}, fun v => [∅, {0, 2}, ∅, {2, 4}, ∅].getD v ∅⟩

theorem exPoly_edge {a b : Nat} (h : exPoly.Edge a b) : (a, b) ∈ [(0, 1), (2, 1), (2, 3), (4, 3)] := by
  have hb : b < 5 := by
    by_contra hn
    have : exPoly.par b = ∅ := by rcases b with _ | _ | _ | _ | _ | b <;> first | omega | rfl
    have h' : a ∈ exPoly.par b := h
    rw [this] at h'
    simp at h'
  have key : ∀ b < 5, ∀ a ∈ exPoly.par b, (a, b) ∈ [(0, 1), (2, 1), (2, 3), (4, 3)] := by decide
  exact key b hb a h

theorem exPoly_wf : exPoly.WF := by
  intro a b h
  have := exPoly_edge h
  simp only [List.mem_cons, Prod.mk.injEq, List.not_mem_nil, or_false] at this
  rcases this with ⟨rfl, rfl⟩ | ⟨rfl, rfl⟩ | ⟨rfl, rfl⟩ | ⟨rfl, rfl⟩ <;> decide

theorem exPoly_acyclic : exPoly.Acyclic := by
  obtain ⟨b, h1, h2⟩ := Dag.isAcyclic_spec ascending exPoly_wf
  have : Dag.isAcyclic ascending exPoly = .ok true := by decide +kernel
  rw [this] at h1
  cases h1
  exact h2.mp rfl

theorem exPoly_polytree : exPoly.Polytree := by
  have h : ∀ u v, exPoly.Adj u v → (u + 1 = v ∨ v + 1 = u) := by
    rintro u v (h | h) <;> have := exPoly_edge h <;>
      simp only [List.mem_cons, Prod.mk.injEq, List.not_mem_nil, or_false] at this <;> omega
  refine Dag.polytree_of_rank (f := id) (fun u v huv => ?_) (fun u w v h1 h2 h3 h4 => ?_)
  · have := h u v huv
    simp only [id]
    omega
  · have := h u v h1
    have := h w v h2
    simp only [id] at h3 h4
    omega

/-- Hypotheses of the theorems are met: node 2 is latent, so that 1 and 3 are confounded. -/
example := C74_polytree_partial ascending exPoly_wf exPoly_acyclic exPoly_polytree (O := {0, 1, 3, 4}) (by decide)
example := C74_polytree_observed_partial ascending exPoly_wf exPoly_acyclic exPoly_polytree
example := C74_one_partial ascending exPoly_wf exPoly_acyclic (O := {0, 1, 3, 4}) (by decide) (exPoly_polytree.oneSep _)
example := C74_representing_partial ascending ⟨true, false, true⟩ exPoly_acyclic
  (Pc.dsepTest_perfectOn ascending exPoly_wf exPoly_acyclic (O := {0, 1, 3, 4}) (by decide))

end Verif
