import Verif.Lemmas.PagOrient

/-!
# Soundness of the orientation rules for every ancestral graph
-/

namespace Verif
open Relation
variable {α : Type}

namespace MG

theorem Ancestral.tail_of {M : MG α} (hM : Ancestral M) {a b : α} (h : M.MAdj a b) (hn : ¬ M.At a b .arrow) :
    M.At a b .tail := by
  obtain ⟨m, hm⟩ := hM.proper.adj_iff.1 h
  cases m with
  | tail => exact hm
  | arrow => exact absurd hm hn
  | circle => exact absurd hm (hM.nocircle _ _)

theorem Ancestral.arrow_of {M : MG α} (hM : Ancestral M) {a b : α} (h : M.MAdj a b) (hn : ¬ M.At a b .tail) :
    M.At a b .arrow := by
  obtain ⟨m, hm⟩ := hM.proper.adj_iff.1 h
  cases m with
  | tail => exact absurd hm hn
  | arrow => exact hm
  | circle => exact absurd hm (hM.nocircle _ _)

/-- An edge with a tail at `b`, where `b` has an arrowhead from elsewhere, is directed out of `b`. -/
theorem Ancestral.par_of {M : MG α} (hM : Ancestral M) {a b c : α} (h1 : M.At a b .arrow) (h2 : M.At c b .tail) :
    M.Par b c := by
  refine ⟨hM.arrow_of (Or.inr ⟨_, h2⟩) fun h => ?_, h2⟩
  exact hM.undirected b c a h h2 h1

theorem Compatible.upd {G H M : MG α} {F : α → α → Mark → Prop} (hC : Compatible G M) (hM : Ancestral M)
    (hO : Oriented H G) (u : Upd G H F) (hF : ∀ x y m, F x y m → M.At x y m) : Compatible H M := by
  refine ⟨fun a b => (hO.adj a b).trans (hC.adj a b), fun a b h => ?_, fun a b h => ?_, fun a b c hac h1 h2 h3 => ?_⟩
  · rcases (u.marks _ _ _).1 h with h | h
    · exact hF _ _ _ h
    · exact hC.arrow _ _ h.2
  · rcases (u.marks _ _ _).1 h with h | h
    · exact hF _ _ _ h
    · exact hC.tail _ _ h.2
  · have key : ∀ x, M.At x b .arrow → G.At x b .arrow → H.At x b .arrow := by
      intro x hx hx'
      rw [u.marks]
      by_cases hf : ∃ m, F x b m
      · obtain ⟨m, hf⟩ := hf
        have := hM.proper.one _ _ _ _ (hF _ _ _ hf) hx
        subst this
        exact Or.inl hf
      · push Not at hf
        exact Or.inr ⟨hf, hx'⟩
    have := hC.colliders a b c hac h1 h2 h3
    exact ⟨key a h1 this.1, key c h2 this.2⟩

/-- An unshielded triple that is not a collider in `G` is not a collider in `M`. -/
theorem Compatible.noncollider {G M : MG α} (hC : Compatible G M) (hM : Ancestral M) {a b c : α} (hac : a ≠ c)
    (h : ¬ G.MAdj a c) (hcb : G.MAdj c b) (h1 : M.At a b .arrow) (h2 : ¬ G.At c b .arrow) : M.At c b .tail := by
  refine hM.tail_of ((hC.adj _ _).1 hcb) fun h3 => ?_
  exact h2 (hC.colliders a b c hac h1 h3 (fun h4 => h ((hC.adj _ _).2 h4))).2

/-- Arrowheads propagate along uncovered paths. -/
theorem chain_par {G M : MG α} (hM : Ancestral M) (hC : Compatible G M) :
    ∀ (l : List α) (u v w : α), M.At u v .arrow → (u :: v :: l).IsChain G.MAdj →
      (∀ x y z, [x, y, z] <:+: u :: v :: l → x ≠ z ∧ ¬ G.MAdj x z ∧ ¬ G.At z y .arrow) →
      (v :: l).getLast? = some w → ReflTransGen M.Par v w := by
  intro l
  induction l with
  | nil =>
    intro u v w _ _ _ h
    simp only [List.getLast?_singleton, Option.some.injEq] at h
    rw [h]
  | cons z l ih =>
    intro u v w h1 h2 h3 h4
    obtain ⟨k1, k2, k3⟩ := h3 u v z ⟨[], l, rfl⟩
    rw [List.isChain_cons_cons, List.isChain_cons_cons] at h2
    have h5 := hC.noncollider hM k1 k2 h2.2.1.symm h1 k3
    have h6 := hM.par_of h1 h5
    rw [List.getLast?_cons_cons] at h4
    refine .head h6 (ih v z w h6.1 (List.isChain_cons_cons.2 h2.2) (fun x y t h => h3 x y t ?_) h4)
    exact List.infix_cons_iff.2 (Or.inr h)

/-! ### the single rules -/

theorem sound_r1 {G M : MG α} (hG : G.Proper) (hM : Ancestral M) (hC : Compatible G M) {a b c : α} (h1 : G.At a b .arrow)
    (h2 : G.At c b .circle) (h3 : a ≠ c) (h4 : ¬ G.MAdj a c) : M.At c b .tail ∧ M.At b c .arrow := by
  have h5 := hC.arrow _ _ h1
  have h6 := hC.noncollider hM h3 h4 (Or.inl ⟨_, h2⟩) h5 (fun h => absurd (hG.one _ _ _ _ h2 h) (by simp))
  exact ⟨h6, (hM.par_of h5 h6).1⟩

theorem sound_r2 {G M : MG α} (hM : Ancestral M) (hC : Compatible G M) {a b c : α} (h1 : G.At a b .arrow)
    (h2 : G.At b c .arrow) (h3 : G.At c b .tail ∨ G.At b a .tail) (h4 : G.MAdj a c) : M.At a c .arrow := by
  refine hM.arrow_of ((hC.adj _ _).1 h4) fun h5 => ?_
  have k1 := hC.arrow _ _ h1
  have k2 := hC.arrow _ _ h2
  have k3 : M.Par c a := hM.par_of k2 h5
  rcases h3 with h3 | h3
  · have k4 : M.Par b c := ⟨k2, hC.tail _ _ h3⟩
    exact hM.acyclic a b k1 (.head k4 (.single k3))
  · have k4 : M.Par a b := ⟨k1, hC.tail _ _ h3⟩
    exact hM.acyclic b c k2 (.head k3 (.single k4))

theorem sound_r3 {G M : MG α} (hG : G.Proper) (hM : Ancestral M) (hC : Compatible G M) {a b c d : α} (h0 : a ≠ c)
    (h1 : G.At a b .arrow) (h2 : G.At c b .arrow) (h3 : ¬ G.MAdj a c) (h4 : G.At a d .circle) (h5 : G.At c d .circle)
    (h6 : G.MAdj d b) : M.At d b .arrow := by
  refine hM.arrow_of ((hC.adj _ _).1 h6) fun h7 => ?_
  have k1 := hC.arrow _ _ h1
  have k2 := hC.arrow _ _ h2
  have k3 : M.Par b d := hM.par_of k1 h7
  have key : ∀ x, M.At x b .arrow → M.At x d .tail → False := by
    intro x hx hx'
    have := hM.par_of k3.1 hx'
    exact hM.acyclic x b hx (.head k3 (.single this))
  by_cases ha : M.At a d .arrow
  · exact key c k2 (hC.noncollider hM h0 h3 (Or.inl ⟨_, h5⟩) ha (fun h => absurd (hG.one _ _ _ _ h5 h) (by simp)))
  · exact key a k1 (hM.tail_of ((hC.adj _ _).1 (Or.inl ⟨_, h4⟩)) ha)

theorem sound_r6 {G M : MG α} (hM : Ancestral M) (hC : Compatible G M) {a b c : α} (h1 : G.At a b .tail)
    (h2 : G.At b a .tail) (h3 : G.MAdj c b) : M.At c b .tail :=
  hM.tail_of ((hC.adj _ _).1 h3) fun h => hM.undirected b a c (hC.tail _ _ h2) (hC.tail _ _ h1) h

theorem sound_r7 {G M : MG α} (hM : Ancestral M) (hC : Compatible G M) {a b c : α} (h0 : a ≠ c) (h1 : G.At b a .tail)
    (h2 : ¬ G.At a b .arrow) (h3 : G.MAdj c b) (h4 : ¬ G.MAdj a c) : M.At c b .tail := by
  refine hM.tail_of ((hC.adj _ _).1 h3) fun h => ?_
  have h5 := hC.noncollider hM h0.symm (fun h => h4 h.symm) (Or.inr ⟨_, h1⟩) h h2
  exact hM.undirected b a c (hC.tail _ _ h1) h5 h

theorem sound_r8 {G M : MG α} (hM : Ancestral M) (hC : Compatible G M) {a b c : α} (h1 : G.At b a .tail)
    (h2 : G.Par b c) (h3 : G.MAdj c a) : M.At c a .tail := by
  refine hM.tail_of ((hC.adj _ _).1 h3) fun h => ?_
  have h4 := hM.par_of h (hC.tail _ _ h1)
  exact hM.acyclic c a h (.head h4 (.single ⟨hC.arrow _ _ h2.1, hC.tail _ _ h2.2⟩))

theorem head?_append_cons {p : List α} {x : α} (h : p.head? = some x) (l : List α) : ∃ t, p ++ l = x :: t := by
  cases p with
  | nil => simp at h
  | cons y p =>
    simp only [List.head?_cons, Option.some.injEq] at h
    subst h
    exact ⟨p ++ l, rfl⟩

theorem infix_three_nodup {l : List α} (h : l.Nodup) {x y z : α} (hi : [x, y, z] <:+: l) : x ≠ z := by
  have := hi.sublist.nodup h
  simp only [List.nodup_cons, List.mem_cons, List.not_mem_nil, or_false, not_or] at this
  exact this.1.2

theorem infix_three_two {l : List α} {u x y z : α} (hi : [x, y, z] <:+: u :: l) : [y, z] <:+: l := by
  obtain ⟨s, t, hst⟩ := hi
  cases s with
  | nil =>
    simp only [List.nil_append, List.cons_append, List.cons.injEq] at hst
    exact ⟨[], t, hst.2⟩
  | cons w s =>
    simp only [List.cons_append, List.cons.injEq] at hst
    exact ⟨s ++ [x], t, by simpa using hst.2⟩

theorem chain_snoc {R : α → α → Prop} {p : List α} {c d : α} (h1 : p.IsChain R) (h2 : p.getLast? = some d) (h3 : R d c) :
    (p ++ [c]).IsChain R := by
  rw [List.isChain_append]
  refine ⟨h1, by simp, fun x hx y hy => ?_⟩
  rw [h2] at hx
  cases hx
  simp only [List.head?_cons, Option.mem_def, Option.some.injEq] at hy
  rw [← hy]
  exact h3

theorem sound_r9 {G M : MG α} (hG : G.Proper) (hM : Ancestral M) (hC : Compatible G M) {a b c d : α} {p : List α}
    (h1 : G.At c a .circle) (h3 : G.PossPar a b) (h4 : ¬ G.MAdj b c) (h5 : G.PossPar d c)
    (h6 : G.UncovPath G.PossPar G.nodes a c b d p) : M.At c a .tail := by
  refine hM.tail_of ((hC.adj _ _).1 (Or.inl ⟨_, h1⟩)) fun h => ?_
  have hch : (p ++ [c]).IsChain G.PossPar := chain_snoc h6.chain h6.last h5
  obtain ⟨t, ht⟩ := head?_append_cons h6.first [c]
  have hch2 : (a :: (p ++ [c])).IsChain G.PossPar := by
    rw [ht] at hch ⊢
    exact List.isChain_cons_cons.2 ⟨h3, hch⟩
  have hac : c ≠ a := hG.ne (Or.inl ⟨_, h1⟩)
  have hbc : b ≠ c := by
    have hnd := h6.nodup
    rw [List.nodup_cons, List.nodup_append] at hnd
    exact hnd.2.2.2 b (List.mem_of_head? h6.first) c (by simp)
  have := chain_par hM hC (p ++ [c]) c a c h (List.isChain_cons_cons.2 ⟨Or.inl ⟨_, h1⟩, hch2.imp (fun _ _ h => h.1)⟩) (by
    intro x y z hi
    have hz : ¬ G.At z y .arrow := (infix_two_chain hch2 (infix_three_two hi)).2.2
    obtain ⟨s, t', hst⟩ := hi
    cases s with
    | nil =>
      rw [ht] at hst
      simp only [List.nil_append, List.cons_append, List.cons.injEq] at hst
      obtain ⟨rfl, rfl, rfl, _⟩ := hst
      exact ⟨hbc.symm, fun h => h4 h.symm, hz⟩
    | cons w s =>
      simp only [List.cons_append, List.cons.injEq] at hst
      have hi' : [x, y, z] <:+: a :: (p ++ [c]) := ⟨s, t', hst.2⟩
      exact ⟨infix_three_nodup h6.nodup hi', h6.uncovered x y z hi', hz⟩)
    (by rw [← List.cons_append, List.getLast?_append_of_ne_nil _ (by simp)]; rfl)
  rcases ReflTransGen.cases_head this with e | ⟨x, hx, hxc⟩
  · exact hac e.symm
  · exact hM.acyclic c a h (TransGen.head' hx hxc)

/-- Rule 10 as documented. -/
theorem sound_r10 {G M : MG α} (hM : Ancestral M) (hC : Compatible G M) {a c : α}
    (h1 : G.MAdj c a) (h2 : G.Rule10Documented a c) : M.At c a .tail := by
  obtain ⟨b, d, e, f, p, q, hb, hd, hef, hadj, hp, hq⟩ := h2
  refine hM.tail_of ((hC.adj _ _).1 h1) fun h => ?_
  have fst : ∀ x y r, G.PdPath a x y r → ∃ t, r = x :: t ∧ G.PossPar a x := by
    intro x y r hr
    obtain ⟨t, ht⟩ := head?_append_cons hr.first []
    rw [List.append_nil] at ht
    have hch := hr.chain
    rw [ht] at hch
    exact ⟨t, ht, (List.isChain_cons_cons.1 hch).1⟩
  have key : ∀ x y r, G.Par y c → G.PdPath a x y r → M.At x a .tail → False := by
    intro x y r hy hr hxa
    have hax := hM.par_of h hxa
    obtain ⟨t, ht, hx⟩ := fst x y r hr
    have hxy : ReflTransGen M.Par x y := by
      have hch := hr.chain
      have hlast := hr.last
      rw [ht] at hch hlast
      refine chain_par hM hC t a x y hax.1 (hch.imp (fun _ _ h => h.1)) ?_ hlast
      intro u v w hi
      have hi' : [u, v, w] <:+: a :: r := by rw [ht]; exact hi
      exact ⟨infix_three_nodup hr.nodup hi', hr.uncovered u v w hi',
        (infix_two_chain (List.isChain_cons_cons.1 hch).2 (infix_three_two hi)).2.2⟩
    exact hM.acyclic c a h (TransGen.head' hax (hxy.tail ⟨hC.arrow _ _ hy.1, hC.tail _ _ hy.2⟩))
  obtain ⟨_, _, he⟩ := fst e b p hp
  obtain ⟨_, _, hf⟩ := fst f d q hq
  by_cases hea : M.At e a .arrow
  · exact key f d q hd hq (hC.noncollider hM hef hadj hf.1.symm hea hf.2.2)
  · exact key e b p hb hp (hM.tail_of ((hC.adj _ _).1 he.1.symm) hea)

/-! ### rule 5 -/

/-- Consecutive nodes of a cycle: the cycle can be started there, in both directions. -/
theorem cycle_start {L : List α} {a b : α} {p : List α} (hL : L = a :: (p ++ [b])) {u v : α}
    (h : [u, v] <:+: a :: (p ++ [b, a])) :
    ∃ r, u :: v :: (r ++ [u]) <:+: L ++ L ∧ v :: (r ++ [u, v]) <:+: L ++ L := by
  have e : a :: (p ++ [b, a]) = L ++ [a] := by rw [hL]; simp
  rw [e, List.infix_append_iff_ne_nil] at h
  rcases h with ⟨s, t, h⟩ | h | ⟨l1, l2, n1, n2, h1, h2, h3⟩
  · refine ⟨t ++ s, ⟨s, v :: t, ?_⟩, ⟨s ++ [u], t, ?_⟩⟩ <;> rw [← h] <;> simp
  · exfalso
    have := h.length_le
    simp at this
  · have hl2 : l2 = [a] := by
      have := List.prefix_iff_eq_take.1 h3
      cases l2 with
      | nil => simp at n2
      | cons x l2 => simpa using this
    subst hl2
    have hl1 : l1 = [u] := by
      cases l1 with
      | nil => simp at n1
      | cons x l1 =>
        cases l1 with
        | nil => simp only [List.cons_append, List.nil_append, List.cons.injEq] at h1; rw [h1.1]
        | cons y l1 =>
          have := congrArg List.length h1
          simp at this
    subst hl1
    simp only [List.cons_append, List.nil_append, List.cons.injEq, and_true, true_and] at h1
    subst h1
    have hu : u = b := by
      rw [hL, ← List.cons_append] at h2
      have := h2.getLast (by simp)
      simpa using this
    subst hu
    refine ⟨p, ⟨v :: p, [], ?_⟩, ⟨[], p ++ [u], ?_⟩⟩ <;> rw [hL] <;> simp

theorem cycle_no_arrow {G M : MG α} (hM : Ancestral M) (hC : Compatible G M) {u v : α} {r : List α}
    (hch : (u :: v :: (r ++ [u])).IsChain (fun x y => G.MAdj x y ∧ ¬ G.At x y .arrow ∧ ¬ G.At y x .arrow))
    (htr : ∀ x y z, [x, y, z] <:+: u :: v :: (r ++ [u]) → x ≠ z ∧ ¬ G.MAdj x z) : ¬ M.At u v .arrow := by
  intro h
  have h1 := chain_par hM hC (r ++ [u]) u v u h (hch.imp fun _ _ h => h.1) (by
    intro x y z hi
    obtain ⟨k1, k2⟩ := htr x y z hi
    refine ⟨k1, k2, ?_⟩
    exact (infix_two_chain hch ((List.infix_cons_iff).2 (Or.inr (infix_three_two hi)))).2.2)
    (by rw [← List.cons_append, List.getLast?_append_of_ne_nil _ (by simp)]; rfl)
  rcases ReflTransGen.cases_head h1 with e | ⟨x, hx, hxc⟩
  · rw [e] at h
    exact hM.proper.irrefl _ _ h
  · exact hM.acyclic u v h (TransGen.head' hx hxc)

theorem sound_r5 {G M : MG α} (hG : G.Proper) (hM : Ancestral M) (hC : Compatible G M) {a b na nb : α} {p : List α}
    (h1 : G.UncovPath G.CircCirc G.nodes a b na nb p) (h3 : ¬ G.MAdj b na) (h4 : ¬ G.MAdj a nb)
    (h5 : ∀ u v, [u, v] = [a, b] ∨ [u, v] = [a, na] ∨ [u, v] = [b, nb] →
        G.MAdj u v ∧ ¬ G.At u v .arrow ∧ ¬ G.At v u .arrow) {u v : α} (h : [u, v] <:+: a :: (p ++ [b, a])) :
    M.At u v .tail ∧ M.At v u .tail := by
  let N : α → α → Prop := fun x y => G.MAdj x y ∧ ¬ G.At x y .arrow ∧ ¬ G.At y x .arrow
  have hN : ∀ x y, N x y → N y x := fun x y h => ⟨h.1.symm, h.2.2, h.2.1⟩
  have hcc : ∀ x y, G.CircCirc x y → N x y := by
    intro x y h
    refine ⟨Or.inl ⟨_, h.1⟩, fun h' => ?_, fun h' => ?_⟩
    · exact absurd (hG.one _ _ _ _ h.1 h') (by simp)
    · exact absurd (hG.one _ _ _ _ h.2 h') (by simp)
  have hab : N a b := h5 a b (Or.inl rfl)
  have hana : N a na := h5 a na (Or.inr (Or.inl rfl))
  have hbnb : N b nb := h5 b nb (Or.inr (Or.inr rfl))
  obtain ⟨t, ht⟩ := head?_append_cons h1.first [b]
  let L := a :: (p ++ [b])
  have hLch : L.IsChain N := by
    have : (p ++ [b]).IsChain N := chain_snoc (h1.chain.imp hcc) h1.last (hN _ _ hbnb)
    show (a :: (p ++ [b])).IsChain N
    rw [ht] at this ⊢
    exact List.isChain_cons_cons.2 ⟨hana, this⟩
  have hLL : (L ++ L).IsChain N := by
    rw [List.isChain_append]
    refine ⟨hLch, hLch, fun x hx y hy => ?_⟩
    have hx' : L.getLast? = some b := by
      show (a :: (p ++ [b])).getLast? = some b
      rw [← List.cons_append, List.getLast?_append_of_ne_nil _ (by simp)]; rfl
    rw [hx'] at hx
    cases hx
    cases hy
    exact hN _ _ hab
  have hana' : na ∈ p := List.mem_of_head? h1.first
  have hnb' : nb ∈ p := List.mem_of_getLast? h1.last
  have hnd := h1.nodup
  rw [List.nodup_cons, List.nodup_append] at hnd
  have htr : ∀ x y z, [x, y, z] <:+: L ++ L → x ≠ z ∧ ¬ G.MAdj x z := by
    intro x y z hi
    rw [List.infix_append_iff_ne_nil] at hi
    rcases hi with hi | hi | ⟨l1, l2, n1, n2, e, e1, e2⟩
    · exact ⟨infix_three_nodup h1.nodup hi, h1.uncovered _ _ _ hi⟩
    · exact ⟨infix_three_nodup h1.nodup hi, h1.uncovered _ _ _ hi⟩
    · cases l1 with
      | nil => exact absurd rfl n1
      | cons x1 l1 =>
        cases l1 with
        | nil =>
          simp only [List.cons_append, List.nil_append, List.cons.injEq] at e
          obtain ⟨rfl, rfl⟩ := e
          have hx : x = b := by
            have := e1.getLast (by simp)
            simpa [L] using this
          subst hx
          obtain ⟨s, hs⟩ := e2
          simp only [L, ht, List.cons_append, List.nil_append, List.cons.injEq] at hs
          obtain ⟨rfl, rfl, _⟩ := hs
          exact ⟨(hnd.2.2.2 z hana' x (by simp)).symm, h3⟩
        | cons x2 l1 =>
          cases l1 with
          | nil =>
            simp only [List.cons_append, List.nil_append, List.cons.injEq] at e
            obtain ⟨rfl, rfl, rfl⟩ := e
            obtain ⟨s, hs⟩ := e2
            simp only [L, List.cons_append, List.nil_append, List.cons.injEq] at hs
            obtain ⟨rfl, _⟩ := hs
            obtain ⟨s, hs⟩ := e1
            have hs' : (s ++ [x]) ++ [y] = (z :: p) ++ [b] := by simpa [L] using hs
            have hp := List.append_inj_left' hs' rfl
            have hx : x = nb := by
              have h6 : (z :: p).getLast? = some x := by rw [← hp]; simp
              rw [List.getLast?_cons, h1.last] at h6
              simpa using h6.symm
            subst hx
            exact ⟨fun e => hnd.1 (by rw [← e]; simp [hnb']), fun h => h4 h.symm⟩
          | cons x3 l1 =>
            exfalso
            have := congrArg List.length e
            simp only [List.length_cons, List.length_nil, List.length_append] at this
            have : l2.length = 0 := by omega
            exact n2 (List.length_eq_zero_iff.1 this)
  obtain ⟨r, hr1, hr2⟩ := cycle_start (L := L) rfl h
  have hc1 := hLL.infix hr1
  have hc2 := hLL.infix hr2
  have hadj : M.MAdj u v := (hC.adj _ _).1 (List.isChain_cons_cons.1 hc1).1.1
  refine ⟨hM.tail_of hadj (cycle_no_arrow hM hC hc1 fun x y z hi => htr x y z (hi.trans hr1)),
    hM.tail_of hadj.symm ?_⟩
  have e : v :: u :: (r.reverse ++ [v]) = (v :: (r ++ [u, v])).reverse := by simp
  refine cycle_no_arrow (r := r.reverse) hM hC ?_ fun x y z hi => ?_
  · rw [e, List.isChain_reverse]
    exact hc2.imp hN
  · rw [e] at hi
    have hi' : [z, y, x] <:+: v :: (r ++ [u, v]) := by
      have := List.reverse_infix.2 hi
      simpa using this
    obtain ⟨k1, k2⟩ := htr z y x (hi'.trans hr2)
    exact ⟨k1.symm, fun h => k2 h.symm⟩

/-! ### rule 4 -/

theorem MActivePath.reverse {G : MG α} {Z : Finset α} {i j : α} {l : List α} (h : G.MActivePath Z i j l) :
    G.MActivePath Z j i l.reverse := by
  have hrev : ∀ a b c, [a, b, c] <:+: l.reverse → [c, b, a] <:+: l := by
    intro a b c hi
    have := List.reverse_infix.2 hi
    simpa using this
  refine ⟨List.nodup_reverse.2 h.nodup, ?_, ?_, ?_, fun a b c hi hc => ?_, fun a b c hi hc => ?_⟩
  · rw [List.head?_reverse, h.last]
  · rw [List.getLast?_reverse, h.first]
  · rw [List.isChain_reverse]
    exact h.chain.imp fun _ _ h => h.symm
  · exact h.open_collider c b a (hrev _ _ _ hi) ⟨hc.2, hc.1⟩
  · exact h.open_noncollider c b a (hrev _ _ _ hi) fun h => hc ⟨h.2, h.1⟩

theorem MSep.symm {G : MG α} {Z : Finset α} {i j : α} (h : G.MSep i j Z) : G.MSep j i Z :=
  fun ⟨_, hl⟩ => h ⟨_, hl.reverse⟩

theorem mem_dropLast_of_infix {t : List α} {y z : α} (h : [y, z] <:+: t) : y ∈ t.dropLast := by
  obtain ⟨s, r, h⟩ := h
  rw [← h, List.append_assoc, List.dropLast_append_of_ne_nil (by simp)]
  simp

theorem DiscPath.chain {G : MG α} {a b c d : α} {l : List α} (h : G.DiscPath a b c d l) : l.IsChain G.MAdj := by
  have : ∀ t : List α, (∀ u v, [u, v] <:+: t → G.At v u .arrow) → t.IsChain G.MAdj := by
    intro t
    induction t with
    | nil => intro _; exact .nil
    | cons x t ih =>
      intro ht
      cases t with
      | nil => exact .singleton _
      | cons y t =>
        refine List.isChain_cons_cons.2 ⟨Or.inr ⟨_, ht x y ⟨[], t, rfl⟩⟩, ih fun u v hi => ht u v ?_⟩
        exact List.infix_cons_iff.2 (Or.inr hi)
  exact this l h.heads

theorem DiscPath.parent {G : MG α} {a b c d : α} {l : List α} (h : G.DiscPath a b c d l) (hac : G.Par a c) {s t : List α}
    {v w : α} (hl : l = s ++ v :: w :: t) : G.Par v c := by
  rcases List.eq_nil_or_concat s with rfl | ⟨s', u, rfl⟩
  · have := h.first
    rw [hl] at this
    simp only [List.nil_append, List.head?_cons, Option.some.injEq] at this
    rwa [this]
  · exact (h.colliders u v w ⟨s', t, by rw [hl]; simp⟩).2

/-- All nodes of a discriminating path other than its far end point are in every separating set of its end points. -/
theorem disc_mem {G M : MG α} (hM : Ancestral M) (hC : Compatible G M) {a b c d : α} {l : List α}
    {S : Finset α} (h : G.DiscPath a b c d l) (hac : G.Par a c) (hS : M.MSep d c S) :
    ∀ t s, l = s ++ t → ∀ x ∈ t.dropLast, x ∈ S := by
  intro t
  induction t with
  | nil => intro s _ x hx; simp at hx
  | cons v t ih =>
    intro s hl x hx
    cases t with
    | nil => simp at hx
    | cons w t =>
      have ih' := ih (s ++ [v]) (by rw [hl]; simp)
      rw [List.dropLast_cons_of_ne_nil (by simp), List.mem_cons] at hx
      rcases hx with rfl | hx
      · by_contra hxS
        have hsuf : x :: w :: t <:+ l := ⟨s, hl.symm⟩
        have hpar := h.parent hac hl
        have htail : M.At c x .tail := hC.tail _ _ hpar.2
        refine hS.symm ⟨c :: x :: w :: t, ?_, rfl, ?_, ?_, ?_, ?_⟩
        · exact List.nodup_cons.2 ⟨fun hc => h.notC (hsuf.mem hc), hsuf.sublist.nodup h.nodup⟩
        · rw [List.getLast?_cons_cons]
          have := h.last
          rw [hl, List.getLast?_append_of_ne_nil _ (by simp)] at this
          exact this
        · refine List.isChain_cons_cons.2 ⟨Or.inl ⟨_, htail⟩, ?_⟩
          exact (h.chain.infix hsuf.isInfix).imp fun _ _ h => (hC.adj _ _).1 h
        · intro e f g hi hcol
          rcases infix_three_cons hi with ⟨rfl, t', ht⟩ | hi
          · cases ht
            exact absurd (hM.proper.one _ _ _ _ htail hcol.1) (by simp)
          · exact ⟨f, ih' f (mem_dropLast_of_infix (infix_three_two hi)), .refl⟩
        · intro e f g hi hcol
          rcases infix_three_cons hi with ⟨rfl, t', ht⟩ | hi
          · cases ht
            exact hxS
          · have hi' := hi.trans hsuf.isInfix
            refine absurd ⟨hC.arrow _ _ (h.colliders e f g hi').1, hC.arrow _ _ (h.heads f g ?_)⟩ hcol
            exact List.IsInfix.trans ⟨[e], [], rfl⟩ hi'
      · exact ih' x hx

/-- The middle node of a discriminating path: a collider exactly when it is not in the separating set. -/
theorem disc_collider {G M : MG α} (hM : Ancestral M) (hC : Compatible G M) {a b c d : α} {l : List α}
    {S : Finset α} (hcb : G.MAdj c b) (hbc : b ≠ c) (hac : G.Par a c) (hba : G.At b a .arrow) (h : G.DiscPath a b c d l)
    (hS : M.MSep d c S) : b ∉ S ↔ M.MCollider c b a := by
  have hmem := disc_mem hM hC h hac hS l [] rfl
  obtain ⟨w, t, hl⟩ : ∃ w t, l = a :: w :: t := by
    have h1 := h.first
    have h2 := h.long
    match l, h1, h2 with
    | x :: w :: t, h1, _ =>
      simp only [List.head?_cons, Option.some.injEq] at h1
      exact ⟨w, t, by rw [h1]⟩
  have hac' : M.At b a .arrow := hC.arrow _ _ hba
  have main : (b ∉ S ↔ ¬ M.MCollider c b a) → False := by
    intro hb
    refine hS.symm ⟨c :: b :: l, ?_, rfl, ?_, ?_, ?_, ?_⟩
    · refine List.nodup_cons.2 ⟨?_, List.nodup_cons.2 ⟨h.notB, h.nodup⟩⟩
      rw [List.mem_cons, not_or]
      exact ⟨hbc.symm, h.notC⟩
    · rw [List.getLast?_cons_cons, List.getLast?_cons, h.last]; rfl
    · refine List.isChain_cons_cons.2 ⟨(hC.adj _ _).1 hcb, ?_⟩
      have hch : l.IsChain M.MAdj := h.chain.imp fun _ _ h => (hC.adj _ _).1 h
      rw [hl] at hch ⊢
      exact List.isChain_cons_cons.2 ⟨Or.inl ⟨_, hac'⟩, hch⟩
    · intro e f g hi hcol
      rcases infix_three_cons hi with ⟨rfl, t', ht⟩ | hi
      · rw [hl] at ht
        cases ht
        by_contra hn
        exact hb.1 (fun hbS => hn ⟨_, hbS, .refl⟩) hcol
      · exact ⟨f, hmem f (mem_dropLast_of_infix (infix_three_two hi)), .refl⟩
    · intro e f g hi hcol
      rcases infix_three_cons hi with ⟨rfl, t', ht⟩ | hi
      · rw [hl] at ht
        cases ht
        exact hb.2 hcol
      · exfalso
        apply hcol
        rcases infix_three_cons hi with ⟨rfl, t', ht⟩ | hi
        · rw [hl] at ht
          cases ht
          refine ⟨hac', hC.arrow _ _ (h.heads a w ?_)⟩
          rw [hl]
          exact ⟨[], t, rfl⟩
        · exact ⟨hC.arrow _ _ (h.colliders e f g hi).1, hC.arrow _ _ (h.heads f g (List.IsInfix.trans ⟨[e], [], rfl⟩ hi))⟩
  by_cases h1 : b ∈ S <;> by_cases h2 : M.MCollider c b a
  · exact absurd (by simp [h1, h2]) main
  · simp [h1, h2]
  · simp [h1, h2]
  · exact absurd (by simp [h1, h2]) main

theorem sound_r4in {G M : MG α} (hM : Ancestral M) (hC : Compatible G M) {a b c d : α} {l : List α}
    {S : Finset α} (hcb : G.MAdj c b) (hbc : b ≠ c) (hac : G.Par a c) (hba : G.At b a .arrow) (h : G.DiscPath a b c d l)
    (hS : M.MSep d c S) (hb : b ∈ S) : M.At b c .arrow ∧ M.At c b .tail := by
  have hn : ¬ M.MCollider c b a := fun hc => (disc_collider hM hC hcb hbc hac hba h hS).2 hc hb
  have hpar : M.Par a c := ⟨hC.arrow _ _ hac.1, hC.tail _ _ hac.2⟩
  have hba' := hC.arrow _ _ hba
  have htail : M.At c b .tail := by
    refine hM.tail_of ((hC.adj _ _).1 hcb) fun h1 => ?_
    have h2 : M.At a b .tail := hM.tail_of (Or.inr ⟨_, hba'⟩) fun h2 => hn ⟨h1, h2⟩
    exact hM.acyclic c b h1 (.head ⟨hba', h2⟩ (.single hpar))
  refine ⟨hM.arrow_of ((hC.adj _ _).1 hcb.symm) fun h1 => ?_, htail⟩
  exact hM.undirected c b a htail h1 hpar.1

theorem sound_r4out {G M : MG α} (hM : Ancestral M) (hC : Compatible G M) {a b c d : α} {l : List α}
    {S : Finset α} (hcb : G.MAdj c b) (hbc : b ≠ c) (hac : G.Par a c) (hba : G.At b a .arrow) (h : G.DiscPath a b c d l)
    (hS : M.MSep d c S) (hb : b ∉ S) : M.At b c .arrow ∧ M.At c b .arrow ∧ M.At a b .arrow ∧ M.At b a .arrow := by
  have hcol := (disc_collider hM hC hcb hbc hac hba h hS).1 hb
  have hpar : M.Par a c := ⟨hC.arrow _ _ hac.1, hC.tail _ _ hac.2⟩
  have hba' := hC.arrow _ _ hba
  refine ⟨hM.arrow_of ((hC.adj _ _).1 hcb.symm) fun h1 => ?_, hcol.1, hcol.2, hba'⟩
  exact hM.acyclic b a hba' (.head hpar (.single ⟨hcol.1, h1⟩))

/-! ### all rules -/

theorem pagStep_sound {sep : α → α → Py (Finset α)} {G H M : MG α} {idx : Nat} (hG : G.Proper) (hT : ∀ m, m ∈ G.types)
    (hM : Ancestral M) (hC : Compatible G M) (hsep : idx = 4 → SepIn sep M)
    (h10 : idx = 10 → ∀ a c, G.At c a .circle → G.At a c .arrow → G.Rule10Coded a c → G.Rule10Documented a c)
    (h : PagStep sep G H idx) : Compatible H M := by
  have hO := h.oriented hG hT
  have ends : ∀ {a b c d l}, G.DiscPath a b c d l → G.Par a c → d ∈ M.nodes ∧ c ∈ M.nodes ∧ d ≠ c ∧ ¬ M.MAdj d c := by
    intro a b c d l h hac
    refine ⟨?_, (hM.proper.mem _ _ _ (hC.arrow _ _ hac.1)).2, ?_, fun h' => h.far ((hC.adj _ _).2 h')⟩
    · rcases List.eq_nil_or_concat l with rfl | ⟨l', x, rfl⟩
      · have := h.long; simp at this
      · rcases List.eq_nil_or_concat l' with rfl | ⟨l'', y, rfl⟩
        · have := h.long; simp at this
        · have h1 := h.last
          simp only [List.concat_eq_append, List.getLast?_append, List.getLast?_singleton, Option.some_or,
            Option.some.injEq] at h1
          subst h1
          exact (hM.proper.mem _ _ _ (hC.arrow _ _ (h.heads y x ⟨l'', [], by simp⟩))).1
    · rintro rfl
      exact h.notC (List.mem_of_getLast? h.last)
  cases h with
  | r1 a b c h1 h2 h3 h4 u =>
    refine hC.upd hM hO u fun x y m hf => ?_
    have := sound_r1 hG hM hC h1 h2 h3 h4
    rcases hf with ⟨rfl, rfl, rfl⟩ | ⟨rfl, rfl, rfl⟩
    exacts [this.1, this.2]
  | r2 a b c h1 h2 h3 h4 u =>
    refine hC.upd hM hO u fun x y m hf => ?_
    obtain ⟨rfl, rfl, rfl⟩ := hf
    exact sound_r2 hM hC h1 h2 h3 (Or.inl ⟨_, h4⟩)
  | r3 a b c d h0 h1 h2 h3 h4 h5 h6 u =>
    refine hC.upd hM hO u fun x y m hf => ?_
    obtain ⟨rfl, rfl, rfl⟩ := hf
    exact sound_r3 hG hM hC h0 h1 h2 h3 h4 h5 h6
  | r4in a b c d l S h1 h2 h3 h4 h5 h6 u =>
    refine hC.upd hM hO u fun x y m hf => ?_
    obtain ⟨e1, e2, e3, e4⟩ := ends h4 h2
    have := sound_r4in hM hC h1 (hG.ne h1.symm) h2 h3 h4 (hsep rfl _ e1 _ e2 e3 e4 S h5) h6
    rcases hf with ⟨rfl, rfl, rfl⟩ | ⟨rfl, rfl, rfl⟩
    exacts [this.1, this.2]
  | r4out a b c d l S h1 h2 h3 h4 h5 h6 u =>
    refine hC.upd hM hO u fun x y m hf => ?_
    obtain ⟨e1, e2, e3, e4⟩ := ends h4 h2
    have := sound_r4out hM hC h1 (hG.ne h1.symm) h2 h3 h4 (hsep rfl _ e1 _ e2 e3 e4 S h5) h6
    rcases hf with ⟨⟨rfl, rfl | rfl⟩ | ⟨rfl | rfl, rfl⟩, rfl⟩
    exacts [this.2.2.2, this.1, this.2.2.1, this.2.1]
  | r5 a b na nb p h1 h2 h3 h4 h5 u =>
    refine hC.upd hM hO u fun x y m hf => ?_
    obtain ⟨hf | hf, rfl⟩ := hf
    · exact (sound_r5 hG hM hC h1 h3 h4 h5 hf).1
    · exact (sound_r5 hG hM hC h1 h3 h4 h5 hf).2
  | r6 a b c h1 h2 h3 _ u =>
    refine hC.upd hM hO u fun x y m hf => ?_
    obtain ⟨rfl, rfl, rfl⟩ := hf
    exact sound_r6 hM hC h1 h2 h3
  | r7 a b c h0 h1 h2 h3 h4 _ u =>
    refine hC.upd hM hO u fun x y m hf => ?_
    obtain ⟨rfl, rfl, rfl⟩ := hf
    exact sound_r7 hM hC h0 h1 h2 h3 h4
  | r8 a b c h1 h2 h3 h4 u =>
    refine hC.upd hM hO u fun x y m hf => ?_
    obtain ⟨rfl, rfl, rfl⟩ := hf
    exact sound_r8 hM hC h1 h2 (Or.inl ⟨_, h3⟩)
  | r9 a b c d p h1 h2 h3 h4 h5 h6 u =>
    refine hC.upd hM hO u fun x y m hf => ?_
    obtain ⟨rfl, rfl, rfl⟩ := hf
    exact sound_r9 hG hM hC h1 h3 h4 h5 h6
  | r10 a c h1 h2 h3 u =>
    refine hC.upd hM hO u fun x y m hf => ?_
    obtain ⟨rfl, rfl, rfl⟩ := hf
    exact sound_r10 hM hC (Or.inl ⟨_, h1⟩) (h10 rfl _ _ h1 h2 h3)

theorem pagSteps_sound {sep : α → α → Py (Finset α)} {G H M : MG α} {rules : List Nat} (hG : G.Proper)
    (hT : ∀ m, m ∈ G.types) (hM : Ancestral M) (hC : Compatible G M) (hsep : 4 ∈ rules → SepIn sep M)
    (h10 : 10 ∈ rules → ∀ K, Oriented K G → Compatible K M → ∀ a c, K.At c a .circle → K.At a c .arrow → K.Rule10Coded a c →
      K.Rule10Documented a c)
    (h : PagSteps sep rules G H) : Compatible H M := by
  have : Oriented H G ∧ Compatible H M := by
    induction h with
    | refl => exact ⟨.refl hG, hC⟩
    | tail _ h ih =>
      obtain ⟨idx, hidx, h⟩ := h
      have hT' := fun m => (ih.1.types ▸ hT m : m ∈ _)
      exact ⟨ih.1.trans (h.oriented ih.1.proper hT'), pagStep_sound ih.1.proper hT' hM ih.2
        (fun e => hsep (e ▸ hidx)) (fun e => h10 (e ▸ hidx) _ ih.1 ih.2) h⟩
  exact this.2

end MG
end Verif
