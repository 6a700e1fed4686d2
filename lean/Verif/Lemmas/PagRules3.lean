import Verif.Lemmas.PagRules2

/-!
# The orientation rules of a PAG as sequences of orientation steps: rules 5, 9, 10
-/

namespace Verif
open Relation
variable {α : Type} [DecidableEq α]

omit [DecidableEq α] in
theorem filterPy_spec {β : Type} {p : β → Py Bool} {P : β → Prop} :
    ∀ (l : List β), (∀ x ∈ l, ∃ b, p x = .ok b ∧ (b = true ↔ P x)) →
      ∃ S, filterPy p l = .ok S ∧ ∀ x, x ∈ S ↔ x ∈ l ∧ P x := by
  intro l
  induction l with
  | nil => intro _; exact ⟨[], rfl, by simp⟩
  | cons a l ih =>
    intro h
    obtain ⟨b, hb, hb'⟩ := h a (by simp)
    obtain ⟨S, hS, hS'⟩ := ih (fun x hx => h x (by simp [hx]))
    refine ⟨if b then a :: S else S, by rw [filterPy, py_bind hb, py_bind hS]; rfl, fun x => ?_⟩
    cases b with
    | true =>
      have := hb'.1 rfl
      simp only [if_true, List.mem_cons, hS']
      constructor
      · rintro (rfl | h)
        · exact ⟨Or.inl rfl, this⟩
        · exact ⟨Or.inr h.1, h.2⟩
      · rintro ⟨rfl | h, h'⟩
        · exact Or.inl rfl
        · exact Or.inr ⟨h, h'⟩
    | false =>
      have : ¬ P a := fun h => by simpa using hb'.2 h
      simp only [Bool.false_eq_true, if_false, List.mem_cons, hS']
      constructor
      · rintro h
        exact ⟨Or.inr h.1, h.2⟩
      · rintro ⟨rfl | h, h'⟩
        · exact absurd h' this
        · exact ⟨h, h'⟩

omit [DecidableEq α] in
theorem forFind_run {β γ : Type} {f : β → Py (Option γ)} {Q : γ → Prop} {N : β → Prop} {l : List β}
    (h : ∀ x ∈ l, ∃ r, f x = .ok r ∧ (∀ y, r = some y → Q y) ∧ (r = none → N x)) :
    ∃ r, forFind f l = .ok r ∧ (∀ y, r = some y → Q y) ∧ (r = none → ∀ x ∈ l, N x) := by
  obtain ⟨r, h1, h2, h3⟩ := forFind_spec (f := f) l (fun x hx => by obtain ⟨r, h, _⟩ := h x hx; exact ⟨r, h⟩)
  refine ⟨r, h1, fun y hy => ?_, fun hn x hx => ?_⟩
  · obtain ⟨x, hx, hfx⟩ := h2 y hy
    obtain ⟨r', g1, g2, _⟩ := h x hx
    rw [hfx] at g1
    cases g1
    exact g2 y rfl
  · obtain ⟨r', g1, _, g3⟩ := h x hx
    rw [h3 hn x hx] at g1
    cases g1
    exact g3 rfl

namespace MG

/-! ### rule 5 -/

theorem reset_pair (o : SetOrder α) {G : MG α} (hG : G.Proper) (hT : ∀ m, m ∈ G.types) {u v : α} (huv : G.MAdj u v) :
    ∃ H, G.resetOrientations o .tail {u, v} = .ok H ∧
      Upd G H (fun x y m => ((x = u ∧ y = v) ∨ (x = v ∧ y = u)) ∧ m = .tail) ∧ Oriented H G := by
  obtain ⟨H, h1, h2, h3, h4⟩ := resetOrientations_spec o hG.type (S := {u, v}) (hT .tail)
  have hne := hG.ne huv
  have u : Upd G H (fun x y m => ((x = u ∧ y = v) ∨ (x = v ∧ y = u)) ∧ m = .tail) := by
    refine ⟨h2, h3, fun x y m => ?_⟩
    rw [h4]
    have hiff : (x ∈ ({u, v} : Finset α) ∧ y ∈ ({u, v} : Finset α) ∧ x ≠ y ∧ G.MAdj x y) ↔
        ((x = u ∧ y = v) ∨ (x = v ∧ y = u)) := by
      simp only [Finset.mem_insert, Finset.mem_singleton]
      constructor
      · rintro ⟨rfl | rfl, rfl | rfl, h, _⟩
        · exact absurd rfl h
        · exact Or.inl ⟨rfl, rfl⟩
        · exact Or.inr ⟨rfl, rfl⟩
        · exact absurd rfl h
      · rintro (⟨rfl, rfl⟩ | ⟨rfl, rfl⟩)
        · exact ⟨Or.inl rfl, Or.inr rfl, hne, huv⟩
        · exact ⟨Or.inr rfl, Or.inl rfl, hne.symm, huv.symm⟩
    split_ifs with h
    · have := hiff.1 h
      constructor
      · intro hm
        exact Or.inl ⟨this, hm⟩
      · rintro (hm | hm)
        · exact hm.2
        · exact absurd ⟨this, rfl⟩ (hm.1 .tail)
    · have : ¬ ((x = u ∧ y = v) ∨ (x = v ∧ y = u)) := fun h' => h (hiff.2 h')
      constructor
      · intro hm
        exact Or.inr ⟨fun m' h' => this h'.1, hm⟩
      · rintro (hm | hm)
        · exact absurd hm.1 this
        · exact hm.2
  refine ⟨H, h1, u, u.oriented hG ?_ ?_⟩
  · rintro x y m ⟨⟨rfl, rfl⟩ | ⟨rfl, rfl⟩, rfl⟩
    · exact ⟨huv, by simp, hT _⟩
    · exact ⟨huv.symm, by simp, hT _⟩
  · rintro x y m m' ⟨_, rfl⟩ ⟨_, rfl⟩; rfl

theorem resetPath_spec (o : SetOrder α) : ∀ (l : List α) {G : MG α}, G.Proper → (∀ m, m ∈ G.types) →
    l.IsChain G.MAdj → ∃ H, resetPath o G l = .ok H ∧
      Upd G H (fun x y m => ([x, y] <:+: l ∨ [y, x] <:+: l) ∧ m = .tail) ∧ Oriented H G
  | [], G, hG, hT, _ => by
    refine ⟨G, by simp [resetPath], ⟨rfl, rfl, fun x y m => ?_⟩, .refl hG⟩
    simp
  | [v], G, hG, hT, _ => by
    refine ⟨G, by simp [resetPath], ⟨rfl, rfl, fun x y m => ?_⟩, .refl hG⟩
    have h : ∀ x y, ¬ [x, y] <:+: [v] := by
      intro x y h
      have := h.length_le
      simp at this
    simp [h]
  | u :: v :: l, G, hG, hT, hc => by
    rw [List.isChain_cons_cons] at hc
    obtain ⟨H1, e1, u1, o1⟩ := reset_pair o hG hT hc.1
    obtain ⟨H2, e2, u2, o2⟩ := resetPath_spec o (v :: l) o1.proper (by rw [o1.types]; exact hT)
      (hc.2.imp (fun a b h => (o1.adj a b).2 h))
    refine ⟨H2, by rw [resetPath, py_bind e1]; exact e2, ?_, o1.trans o2⟩
    refine (u1.trans u2).congr fun x y m => ?_
    have hinf : ∀ x y, [x, y] <:+: u :: v :: l ↔ (x = u ∧ y = v) ∨ [x, y] <:+: v :: l := by
      intro x y
      constructor
      · intro h
        rcases infix_two_cons h with ⟨rfl, t, ht⟩ | h
        · simp only [List.cons.injEq] at ht
          exact Or.inl ⟨rfl, ht.1.symm⟩
        · exact Or.inr h
      · rintro (⟨rfl, rfl⟩ | h)
        · exact ⟨[], l, rfl⟩
        · exact List.infix_cons_iff.2 (Or.inr h)
    rw [hinf x y, hinf y x]
    constructor
    · rintro (⟨h | h, rfl⟩ | ⟨_, ⟨⟨rfl, rfl⟩ | ⟨rfl, rfl⟩, rfl⟩⟩)
      · exact ⟨Or.inl (Or.inr h), rfl⟩
      · exact ⟨Or.inr (Or.inr h), rfl⟩
      · exact ⟨Or.inl (Or.inl ⟨rfl, rfl⟩), rfl⟩
      · exact ⟨Or.inr (Or.inl ⟨rfl, rfl⟩), rfl⟩
    · rintro ⟨h, rfl⟩
      by_cases hh : [x, y] <:+: v :: l ∨ [y, x] <:+: v :: l
      · exact Or.inl ⟨hh, rfl⟩
      · refine Or.inr ⟨fun m' h' => hh h'.1, ?_, rfl⟩
        rcases h with (h | h) | (h | h)
        · exact Or.inl h
        · exact absurd (Or.inl h) hh
        · exact Or.inr ⟨h.2, h.1⟩
        · exact absurd (Or.inr h) hh

omit [DecidableEq α] in
theorem infix_cycle {a b : α} {p : List α} {u v : α} :
    [u, v] <:+: a :: (p ++ [b, a]) ↔ (u = b ∧ v = a) ∨ [u, v] <:+: a :: (p ++ [b]) := by
  have h0 : a :: (p ++ [b, a]) = (a :: (p ++ [b])) ++ [a] := by simp
  rw [h0, List.infix_concat_iff]
  constructor
  · rintro (h | h)
    · left
      obtain ⟨s, hs⟩ := h
      have hs' : s ++ [u] ++ [v] = (a :: p) ++ [b] ++ [a] := by simpa using hs
      obtain ⟨h1, h2⟩ := List.append_inj' hs' rfl
      obtain ⟨h3, h4⟩ := List.append_inj' h1 rfl
      simp only [List.cons.injEq, and_true] at h2 h4
      exact ⟨h4, h2⟩
    · exact Or.inr h
  · rintro (⟨rfl, rfl⟩ | h)
    · exact Or.inl ⟨v :: p, by simp⟩
    · exact Or.inr h

theorem pagRule5_run (o : SetOrder α) (sep : α → α → Py (Finset α)) {G : MG α} (hG : G.Proper) (hT : ∀ m, m ∈ G.types) :
    ∃ st, pagRule5 o G = .ok st ∧ Run (fun G H => PagStep sep G H 5) G st ∧ (st.2 = false → ¬ G.PagPattern 5) := by
  have hcc : ∀ {H : MG α}, (∀ m, m ∈ H.types) → ∀ a b, ∃ t, H.isEdge a b .circle .circle = .ok t ∧
      (t = true ↔ H.CircCirc a b) := by
    intro H hH a b
    obtain ⟨t, h1, h2⟩ := isEdge_ok hH a b .circle .circle
    exact ⟨t, h1, h2.trans And.comm⟩
  obtain ⟨edges, he, he'⟩ := filterPy_spec (p := fun ab : α × α => G.isEdge ab.1 ab.2 .circle .circle)
    (P := fun ab => G.CircCirc ab.1 ab.2)
    ((o.iter 6 G.nodes).flatMap (fun a => (o.iter 6 G.nodes).map (fun b => (a, b)))) (fun x _ => hcc hT _ _)
  have key : Body (fun G H => PagStep sep G H 5) G (fun _ => True) (G, false) (pagRule5 o G) (¬ G.PagPattern 5) := by
    unfold pagRule5
    rw [py_bind he]
    refine Body.mono (Body.loop (L := fun s => ∀ u v, s.1.At u v .arrow → G.At u v .arrow)
      (N := fun ab => ∀ na nb p, G.CircCirc ab.1 na → G.CircCirc ab.2 nb → ¬ G.MAdj ab.2 na → ¬ G.MAdj ab.1 nb →
        ¬ G.UncovPath G.CircCirc G.nodes ab.1 ab.2 na nb p) .start (fun _ _ h => h) ?_) (fun _ _ => trivial) ?_
    · rintro ⟨a, b⟩ hab s1 hr1 hL1
      have hO1 := hr1.oriented hG hT
      have hT1 : ∀ m, m ∈ s1.1.types := by rw [hO1.types]; exact hT
      have hcab : G.CircCirc a b := ((he' _).1 hab).2
      have hab' : a ≠ b := hG.ne (Or.inl ⟨_, hcab.1⟩)
      have hside : ∀ a b : α, a ≠ b → ∀ l : List α, (∀ v ∈ l, v ∈ s1.1.nodes \ {a, b}) →
          ∃ S, setComp (fun v => do
            if !(← s1.1.isEdge a v .circle .circle) then return false
            return !(← s1.1.isConnected b v)) l = .ok S ∧
          ∀ x, x ∈ S ↔ x ∈ l ∧ (s1.1.CircCirc a x ∧ ¬ G.MAdj b x) := by
        intro a b _ l hl
        refine setComp_spec l (fun v hv => ?_)
        obtain ⟨t, ht, ht'⟩ := hcc hT1 a v
        have hbv : b ≠ v := by
          have := hl v hv
          simp only [Finset.mem_sdiff, Finset.mem_insert, Finset.mem_singleton, not_or] at this
          exact fun h => this.2.2 h.symm
        obtain ⟨t2, ht2, ht2'⟩ := hO1.isConnected hbv
        cases t with
        | false =>
          refine ⟨false, by rw [py_bind ht]; rfl, ?_⟩
          simp only [Bool.false_eq_true, false_iff]
          rintro ⟨h, _⟩
          simpa using ht'.2 h
        | true =>
          refine ⟨!t2, by rw [py_bind ht]; simp only [Bool.not_true, Bool.false_eq_true, if_false]; rw [py_bind ht2]; rfl, ?_⟩
          have := ht'.1 rfl
          rw [← ht2']
          cases t2 <;> simp [this]
      obtain ⟨as, has, has'⟩ := hside a b hab' (o.iter (a, b, 0) (s1.1.nodes \ {a, b})) (fun v hv => (o.mem _ _ _).1 hv)
      obtain ⟨bs, hbs, hbs'⟩ := hside b a hab'.symm (o.iter (a, b, 0) (s1.1.nodes \ {a, b})) (fun v hv => by
        rw [o.mem] at hv; rwa [Finset.pair_comm])
      simp only at has hbs ⊢
      rw [py_bind has, py_bind hbs]
      refine Body.mono (Body.loop (L := fun s => ∀ u v, s.1.At u v .arrow → s1.1.At u v .arrow)
        (N := fun na => ∀ nb ∈ bs, ∀ p, ¬ G.UncovPath G.CircCirc G.nodes a b na nb p) hr1 (fun _ _ h => h) ?_)
        (fun s h u v h' => hL1 u v (h u v h')) ?_
      · intro na hna s2 hr2 hL2
        rw [o.mem, has', o.mem] at hna
        refine Body.mono (Body.loop (L := fun s => ∀ u v, s.1.At u v .arrow → s1.1.At u v .arrow)
          (N := fun nb => ∀ p, ¬ G.UncovPath G.CircCirc G.nodes a b na nb p) hr2 hL2 ?_) (fun _ h => h) ?_
        · intro nb hnb s3 hr3 hL3
          rw [o.mem, hbs', o.mem] at hnb
          simp only [Finset.mem_sdiff, Finset.mem_insert, Finset.mem_singleton, not_or] at hna hnb
          have hO3 := hr3.oriented hG hT
          have hT3 : ∀ m, m ∈ s3.1.types := by rw [hO3.types]; exact hT
          have hnab : na ≠ nb := by
            rintro rfl
            exact hnb.2.2 ((hO1.adj _ _).1 (Or.inl ⟨_, hna.2.1.1⟩))
          obtain ⟨r, h1, h2, h3⟩ := findUncoveredPath_spec o hO3.proper (cond := fun a b => s3.1.isEdge a b .circle .circle)
            (C := s3.1.CircCirc) (fun u v _ => hcc hT3 u v) (fun u v h => Or.inl ⟨_, h.1⟩) (x := a) (y := b) (nx := na)
            (ny := nb) (by
              simp only [List.nodup_cons, List.mem_cons, List.not_mem_nil, or_false, not_or, not_false_eq_true,
                List.nodup_nil, and_true]
              exact ⟨⟨hab', Ne.symm hna.1.2.1, Ne.symm hnb.1.2.1⟩, ⟨Ne.symm hna.1.2.2, Ne.symm hnb.1.2.2⟩, hnab⟩)
            s3.1.nodes
          rw [py_bind h1]
          cases r with
          | none =>
            refine Body.skip hr3 hL3 ?_
            rintro rfl
            exact h3 rfl
          | some p =>
            have hp := h2 p rfl
            have hnarr : ∀ u v, [u, v] = [a, b] ∨ [u, v] = [a, na] ∨ [u, v] = [b, nb] →
                s3.1.MAdj u v ∧ ¬ s3.1.At u v .arrow ∧ ¬ s3.1.At v u .arrow := by
              have g1 : ∀ u v, G.CircCirc u v → s3.1.MAdj u v ∧ ¬ s3.1.At u v .arrow ∧ ¬ s3.1.At v u .arrow := by
                intro u v huv
                exact ⟨(hO3.adj _ _).2 (Or.inl ⟨_, huv.1⟩),
                  fun h => absurd (hG.one _ _ _ _ huv.1 (hL1 _ _ (hL3 _ _ h))) (by simp),
                  fun h => absurd (hG.one _ _ _ _ huv.2 (hL1 _ _ (hL3 _ _ h))) (by simp)⟩
              have g2 : ∀ u v, s1.1.CircCirc u v → s3.1.MAdj u v ∧ ¬ s3.1.At u v .arrow ∧ ¬ s3.1.At v u .arrow := by
                intro u v huv
                exact ⟨(hO3.adj _ _).2 ((hO1.adj _ _).1 (Or.inl ⟨_, huv.1⟩)),
                  fun h => absurd (hO1.proper.one _ _ _ _ huv.1 (hL3 _ _ h)) (by simp),
                  fun h => absurd (hO1.proper.one _ _ _ _ huv.2 (hL3 _ _ h)) (by simp)⟩
              rintro u v (h | h | h)
              · simp only [List.cons.injEq, and_true] at h
                obtain ⟨rfl, rfl⟩ := h
                exact g1 _ _ hcab
              · simp only [List.cons.injEq, and_true] at h
                obtain ⟨rfl, rfl⟩ := h
                exact g2 _ _ hna.2.1
              · simp only [List.cons.injEq, and_true] at h
                obtain ⟨rfl, rfl⟩ := h
                exact g2 _ _ hnb.2.1
            obtain ⟨H1, e1, u1, o1⟩ := reset_pair o hO3.proper hT3 (hnarr a b (Or.inl rfl)).1
            have hchain : (a :: p ++ [b]).IsChain s3.1.MAdj := by
              rw [List.cons_append, List.isChain_cons, List.isChain_append]
              refine ⟨?_, hp.chain.imp (fun u v h => Or.inl ⟨_, h.1⟩), by simp, ?_⟩
              · intro y hy
                have : (p ++ [b]).head? = p.head? := by
                  have := hp.first
                  cases p with
                  | nil => simp at this
                  | cons x p => rfl
                rw [this, hp.first] at hy
                cases hy
                exact (hnarr a na (Or.inr (Or.inl rfl))).1
              · intro x hx y hy
                rw [hp.last] at hx
                cases hx
                simp only [List.head?_cons, Option.mem_def, Option.some.injEq] at hy
                rw [← hy]
                exact (hnarr b nb (Or.inr (Or.inr rfl))).1.symm
            obtain ⟨H2, e2, u2, o2⟩ := resetPath_spec o (a :: p ++ [b]) o1.proper (by rw [o1.types]; exact hT3)
              (hchain.imp (fun u v h => (o1.adj u v).2 h))
            simp only
            rw [py_bind e1, py_bind e2]
            have u : Upd s3.1 H2 (fun u v m => ([u, v] <:+: a :: (p ++ [b, a]) ∨ [v, u] <:+: a :: (p ++ [b, a])) ∧
                m = .tail) := by
              refine (u1.trans u2).congr fun x y m => ?_
              rw [infix_cycle, infix_cycle, List.cons_append]
              constructor
              · rintro (⟨h | h, rfl⟩ | ⟨_, ⟨⟨rfl, rfl⟩ | ⟨rfl, rfl⟩, rfl⟩⟩)
                · exact ⟨Or.inl (Or.inr h), rfl⟩
                · exact ⟨Or.inr (Or.inr h), rfl⟩
                · exact ⟨Or.inr (Or.inl ⟨rfl, rfl⟩), rfl⟩
                · exact ⟨Or.inl (Or.inl ⟨rfl, rfl⟩), rfl⟩
              · rintro ⟨h, rfl⟩
                by_cases hh : [x, y] <:+: a :: (p ++ [b]) ∨ [y, x] <:+: a :: (p ++ [b])
                · exact Or.inl ⟨hh, rfl⟩
                · refine Or.inr ⟨fun m' h' => hh h'.1, ?_, rfl⟩
                  rcases h with (h | h) | (h | h)
                  · exact Or.inr h
                  · exact absurd (Or.inl h) hh
                  · exact Or.inl ⟨h.2, h.1⟩
                  · exact absurd (Or.inr h) hh
            refine Body.fire hr3 (.r5 a b na nb p hp hnab (fun h => hna.2.2 ((hO3.adj _ _).1 h))
              (fun h => hnb.2.2 ((hO3.adj _ _).1 h)) hnarr u) ?_ ?_
            · rintro rfl
              refine ⟨a, b, hcab.1, fun h => ?_⟩
              rcases (u.marks _ _ _).1 h with h | h
              · exact absurd h.2 (by simp)
              · exact h.1 .tail ⟨Or.inr (infix_cycle.2 (Or.inl ⟨rfl, rfl⟩)), rfl⟩
            · intro x y h
              rcases (u.marks _ _ _).1 h with h | h
              · exact absurd h.2 (by simp)
              · exact hL3 _ _ h.2
        · rintro rfl h1 nb hnb
          exact h1 nb ((o.mem _ _ _).2 hnb)
      · rintro rfl h1 na nb p hca hcb hna hnb hp
        have hmem : ∀ x, x ∈ p → x ∈ G.nodes → x ∈ o.iter (a, b, 0) (G.nodes \ {a, b}) := by
          intro x hx hxn
          have hnd := hp.nodup
          rw [List.nodup_cons, List.nodup_append] at hnd
          simp only [o.mem, Finset.mem_sdiff, Finset.mem_insert, Finset.mem_singleton, not_or]
          refine ⟨hxn, ?_, ?_⟩
          · rintro rfl
            exact hnd.1 (by simp [hx])
          · rintro rfl
            exact hnd.2.2.2 x hx x (by simp) rfl
        refine h1 na ((o.mem _ _ _).2 ((has' na).2 ⟨hmem na (List.mem_of_head? hp.first) (hG.mem _ _ _ hca.1).2, hca, hna⟩))
          nb ((hbs' nb).2 ⟨hmem nb (List.mem_of_getLast? hp.last) (hG.mem _ _ _ hcb.1).2, hcb, hnb⟩) p hp
    · rintro _ h1 ⟨a, b, na, nb, p, k1, k2, k3, k4, k5, k6⟩
      refine h1 (a, b) ?_ na nb p k2 k3 k4 k5 k6
      rw [he', List.mem_flatMap]
      refine ⟨⟨a, (o.mem _ _ _).2 (hG.mem _ _ _ k1.1).1, ?_⟩, k1⟩
      rw [List.mem_map]
      exact ⟨b, (o.mem _ _ _).2 (hG.mem _ _ _ k1.1).2, rfl⟩
  obtain ⟨s', h1, h2, _, _, h3⟩ := key
  exact ⟨s', h1, h2, h3⟩

/-! ### rules 9 and 10 -/

omit [DecidableEq α] in
theorem nodup_four {a b c d : α} (h1 : a ≠ b) (h2 : a ≠ c) (h3 : a ≠ d) (h4 : b ≠ c) (h5 : b ≠ d) (h6 : c ≠ d) :
    [a, b, c, d].Nodup := by
  simp [h1, h2, h3, h4, h5, h6]

theorem pagRule9Find_spec (o : SetOrder α) {G : MG α} (hG : G.Proper) :
    ∃ r, pagRule9Find o G = .ok r ∧ (∀ ac, r = some ac → G.At ac.2 ac.1 .circle ∧ G.At ac.1 ac.2 .arrow ∧
        ∃ b d p, G.PossPar ac.1 b ∧ ¬ G.MAdj b ac.2 ∧ G.PossPar d ac.2 ∧ G.UncovPath G.PossPar G.nodes ac.1 ac.2 b d p) ∧
      (r = none → ¬ G.PagPattern 9) := by
  have key : ∃ r, pagRule9Find o G = .ok r ∧ (∀ ac, r = some ac → G.At ac.2 ac.1 .circle ∧ G.At ac.1 ac.2 .arrow ∧
        ∃ b d p, G.PossPar ac.1 b ∧ ¬ G.MAdj b ac.2 ∧ G.PossPar d ac.2 ∧ G.UncovPath G.PossPar G.nodes ac.1 ac.2 b d p) ∧
      (r = none → ∀ a ∈ o.iter 10 G.nodes, ∀ c, G.At c a .circle → G.At a c .arrow → ∀ b d p, G.PossPar a b →
        ¬ G.MAdj b c → G.PossPar d c → ¬ G.UncovPath G.PossPar G.nodes a c b d p) := by
    unfold pagRule9Find
    refine forFind_run (fun a _ => ?_)
    have := forFind_run (f := fun c => do
      let ch ← G.findPossibleChildren o a (G.nodes \ {c, a})
      let bs ← setComp (fun v => do return !(← G.isConnected v c)) (o.iter (a, c, 0) ch)
      forFind (fun b => do
        let ds ← G.findPossibleParents o c (G.nodes \ {a, b, c})
        forFind (fun d => do
          match ← G.findUncoveredPath o a c b d G.nodes (fun x y => G.isPossibleParent x y) with
          | some _ => return some (a, c)
          | none => return none) (o.iter (a, b, c) ds)) (o.iter (a, c, 1) bs))
      (Q := fun ac => G.At ac.2 ac.1 .circle ∧ G.At ac.1 ac.2 .arrow ∧
        ∃ b d p, G.PossPar ac.1 b ∧ ¬ G.MAdj b ac.2 ∧ G.PossPar d ac.2 ∧ G.UncovPath G.PossPar G.nodes ac.1 ac.2 b d p)
      (N := fun c => ∀ b d p, G.PossPar a b → ¬ G.MAdj b c → G.PossPar d c → ¬ G.UncovPath G.PossPar G.nodes a c b d p)
      (l := o.iter a ((G.g a .circle).filter (fun v => a ∈ G.g v .arrow))) (fun c hc => ?_)
    · obtain ⟨r, h1, h2, h3⟩ := this
      refine ⟨r, h1, h2, fun hr c hca hac => h3 hr c ?_⟩
      rw [o.mem, Finset.mem_filter]
      exact ⟨hca, hac⟩
    · rw [o.mem, Finset.mem_filter] at hc
      have hac : a ≠ c := hG.ne (Or.inr ⟨_, hc.1⟩)
      obtain ⟨ch, h1, h1'⟩ := findPossibleChildren_spec o hG.type hG.irrefl a (G.nodes \ {c, a})
      obtain ⟨bs, h2, h2'⟩ := setComp_spec (p := fun v => do return !(← G.isConnected v c)) (P := fun v => ¬ G.MAdj v c)
        (o.iter (a, c, 0) ch) (by
          intro v hv
          simp only [o.mem, h1', Finset.mem_sdiff, Finset.mem_insert, Finset.mem_singleton, not_or] at hv
          obtain ⟨t, ht, ht'⟩ := proper_isConnected hG.type (i := v) (j := c) hv.1.2.1
          refine ⟨!t, by rw [py_bind ht]; rfl, ?_⟩
          rw [← ht']
          cases t <;> simp)
      rw [py_bind h1, py_bind h2]
      have hbs : ∀ b, b ∈ o.iter (a, c, 1) bs ↔ (b ∈ G.nodes ∧ b ≠ c ∧ b ≠ a) ∧ G.PossPar a b ∧ ¬ G.MAdj b c := by
        intro b
        simp only [o.mem, h2', h1', Finset.mem_sdiff, Finset.mem_insert, Finset.mem_singleton, not_or]
        tauto
      obtain ⟨r, g1, g2, g3⟩ := forFind_run (f := fun b => do
          let ds ← G.findPossibleParents o c (G.nodes \ {a, b, c})
          forFind (fun d => do
            match ← G.findUncoveredPath o a c b d G.nodes (fun x y => G.isPossibleParent x y) with
            | some _ => return some (a, c)
            | none => return none) (o.iter (a, b, c) ds))
        (Q := fun ac => G.At ac.2 ac.1 .circle ∧ G.At ac.1 ac.2 .arrow ∧
          ∃ b d p, G.PossPar ac.1 b ∧ ¬ G.MAdj b ac.2 ∧ G.PossPar d ac.2 ∧ G.UncovPath G.PossPar G.nodes ac.1 ac.2 b d p)
        (N := fun b => ∀ d p, d ≠ a → G.PossPar d c → ¬ G.UncovPath G.PossPar G.nodes a c b d p)
        (l := o.iter (a, c, 1) bs) (fun b hb => by
          rw [hbs] at hb
          obtain ⟨ds, k1, k1'⟩ := findPossibleParents_spec o hG.type hG.irrefl c (G.nodes \ {a, b, c})
          rw [py_bind k1]
          have hds : ∀ d, d ∈ o.iter (a, b, c) ds ↔ (d ∈ G.nodes ∧ d ≠ a ∧ d ≠ b ∧ d ≠ c) ∧ G.PossPar d c := by
            intro d
            simp only [o.mem, k1', Finset.mem_sdiff, Finset.mem_insert, Finset.mem_singleton, not_or]
          obtain ⟨r, g1, g2, g3⟩ := forFind_run (f := fun d => do
              match ← G.findUncoveredPath o a c b d G.nodes (fun x y => G.isPossibleParent x y) with
              | some _ => return some (a, c)
              | none => return none)
            (Q := fun ac => G.At ac.2 ac.1 .circle ∧ G.At ac.1 ac.2 .arrow ∧
              ∃ b d p, G.PossPar ac.1 b ∧ ¬ G.MAdj b ac.2 ∧ G.PossPar d ac.2 ∧
                G.UncovPath G.PossPar G.nodes ac.1 ac.2 b d p)
            (N := fun d => ∀ p, ¬ G.UncovPath G.PossPar G.nodes a c b d p) (l := o.iter (a, b, c) ds) (fun d hd => by
              rw [hds] at hd
              obtain ⟨r, e1, e2, e3⟩ := findUncoveredPath_spec o hG (cond := fun x y => G.isPossibleParent x y)
                (C := G.PossPar) (fun u v _ => isPossibleParent_spec hG.type hG.irrefl u v) (fun u v h => h.1)
                (nodup_four hac (Ne.symm hb.1.2.2) (Ne.symm hd.1.2.1) (Ne.symm hb.1.2.1) (Ne.symm hd.1.2.2.2)
                  (Ne.symm hd.1.2.2.1)) G.nodes
              rw [py_bind e1]
              cases r with
              | none => exact ⟨none, rfl, by simp, fun _ => e3 rfl⟩
              | some p =>
                refine ⟨some (a, c), rfl, ?_, by simp⟩
                intro ac hac'
                cases hac'
                exact ⟨hc.1, hc.2, b, d, p, hb.2.1, hb.2.2, hd.2, e2 p rfl⟩)
          refine ⟨r, g1, g2, fun hr d p hda hdc hp => ?_⟩
          have hdp := List.mem_of_getLast? hp.last
          have hnd := hp.nodup
          rw [List.nodup_cons, List.nodup_append] at hnd
          refine g3 hr d ((hds d).2 ⟨⟨?_, hda, ?_, hG.ne hdc.1⟩, hdc⟩) p hp
          · obtain ⟨m, hm⟩ := hG.adj_iff.1 hdc.1
            exact (hG.mem _ _ _ hm).1
          · rintro rfl
            exact hb.2.2 hdc.1)
      refine ⟨r, g1, g2, fun hr b d p hab hbc hdc hp => ?_⟩
      have hbp := List.mem_of_head? hp.first
      have hdp := List.mem_of_getLast? hp.last
      have hnd := hp.nodup
      rw [List.nodup_cons, List.nodup_append] at hnd
      refine g3 hr b ((hbs b).2 ⟨⟨?_, ?_, (hG.ne hab.1).symm⟩, hab, hbc⟩) d p ?_ hdc hp
      · obtain ⟨m, hm⟩ := hG.adj_iff.1 hab.1
        exact (hG.mem _ _ _ hm).2
      · rintro rfl
        exact hnd.2.2.2 b hbp b (by simp) rfl
      · rintro rfl
        exact hnd.1 (by simp [hdp])
  obtain ⟨r, h1, h2, h3⟩ := key
  refine ⟨r, h1, h2, fun hr => ?_⟩
  rintro ⟨a, b, c, d, p, k1, k2, k3, k4, k5, k6⟩
  exact h3 hr a ((o.mem _ _ _).2 (hG.mem _ _ _ k1).2) c k1 k2 b d p k3 k4 k5 k6

theorem orientFound_run {sep : α → α → Py (Finset α)} {idx : Nat} {G : MG α} (hG : G.Proper) (hT : ∀ m, m ∈ G.types)
    {x : Py (Option (α × α))} {r : Option (α × α)} (hx : x = .ok r)
    (hstep : ∀ a c H, r = some (a, c) → Upd G H (fun u v m => u = c ∧ v = a ∧ m = .tail) →
      G.At c a .circle ∧ PagStep sep G H idx) (hno : r = none → ¬ G.PagPattern idx) :
    ∃ st, orientFound G x = .ok st ∧ Run (fun G H => PagStep sep G H idx) G st ∧
      (st.2 = false → ¬ G.PagPattern idx) := by
  unfold orientFound
  rw [py_bind hx]
  cases r with
  | none => exact ⟨(G, false), rfl, .start, fun _ => hno rfl⟩
  | some ac =>
    obtain ⟨a, c⟩ := ac
    obtain ⟨H, e, u⟩ := replace_upd hG hT c a .tail
    refine ⟨(H, true), by simp only; rw [py_bind e]; rfl, ?_, by simp⟩
    obtain ⟨h1, h2⟩ := hstep a c H rfl u
    exact Run.fire (st := (G, false)) .start h2 (fun _ => single_strict u (by simp) h1)

theorem pagRule9_run (o : SetOrder α) (sep : α → α → Py (Finset α)) {G : MG α} (hG : G.Proper) (hT : ∀ m, m ∈ G.types) :
    ∃ st, pagRule9 o G = .ok st ∧ Run (fun G H => PagStep sep G H 9) G st ∧ (st.2 = false → ¬ G.PagPattern 9) := by
  obtain ⟨r, h1, h2, h3⟩ := pagRule9Find_spec o hG
  refine orientFound_run hG hT h1 (fun a c H hr u => ?_) h3
  obtain ⟨k1, k2, b, d, p, k3, k4, k5, k6⟩ := h2 _ hr
  exact ⟨k1, .r9 a b c d p k1 k2 k3 k4 k5 k6 u⟩

theorem rule10_path (o : SetOrder α) {G : MG α} (hG : G.Proper) {a c e b : α} (hac : a ≠ c) (hae : a ≠ e) (hab : a ≠ b)
    (hce : c ≠ e) (hcb : c ≠ b) :
    ∃ r, G.findUncoveredPath o a c e b G.nodes (fun x y => G.isConnected x y) = .ok r ∧
      (∀ p, r = some p → G.Rule10Path G.MAdj a c e b p) ∧ (r = none → ∀ p, ¬ G.Rule10Path G.MAdj a c e b p) := by
  by_cases heb : e = b
  · subst heb
    refine ⟨some [e], findUncoveredPath_same o G _ a c e G.nodes, ?_, by simp⟩
    intro p hp
    cases hp
    exact Or.inl ⟨rfl, rfl⟩
  · obtain ⟨r, e1, e2, e3⟩ := findUncoveredPath_spec o hG (cond := fun x y => G.isConnected x y)
      (C := G.MAdj) (fun u v h => proper_isConnected hG.type h) (fun u v h => h)
      (nodup_four hac hae hab hce hcb heb) G.nodes
    refine ⟨r, e1, fun p hp => Or.inr ⟨heb, e2 p hp⟩, fun hr p hp => ?_⟩
    rcases hp with hp | hp
    · exact heb hp.1
    · exact e3 hr p hp.2

omit [DecidableEq α] in
/-- What rule 10, as coded, requires of the pair `(a, c)`. -/
def Rule10At (G : MG α) (a c : α) : Prop :=
  G.At c a .circle ∧ G.At a c .arrow ∧ ∃ b d e f p q, G.Par b c ∧ G.Par d c ∧ b ≠ d ∧ G.PossPar a e ∧
    G.PossPar a f ∧ e ≠ c ∧ f ≠ c ∧ e ≠ f ∧ ¬ G.MAdj e f ∧ G.Rule10Path G.MAdj a c e b p ∧ G.Rule10Path G.MAdj a c f d q

theorem rule10_inner (o : SetOrder α) {G : MG α} (hG : G.Proper) {a c b d : α} (hca : G.At c a .circle)
    (hac : G.At a c .arrow) (hbc : G.Par b c) (hdc : G.Par d c) (hbd : b ≠ d) {ch : Finset α}
    (hch : ∀ x, x ∈ ch ↔ x ∈ G.nodes \ {a, c} ∧ G.PossPar a x) :
    ∃ r, forFind (fun e =>
          forFind (fun f => do
            if e = f then return none
            if ← G.isConnected e f then return none
            match ← G.findUncoveredPath o a c e b G.nodes (fun x y => G.isConnected x y) with
            | none => return none
            | some _ =>
              match ← G.findUncoveredPath o a c f d G.nodes (fun x y => G.isConnected x y) with
              | none => return none
              | some _ => return some (a, c)) (o.iter (a, c) ch)) (o.iter (a, c) ch) = .ok r ∧
      (∀ ac, r = some ac → G.Rule10At ac.1 ac.2) ∧
      (r = none → ∀ e ∈ o.iter (a, c) ch, ∀ f ∈ o.iter (a, c) ch, e ≠ f → ¬ G.MAdj e f →
        ∀ p q, G.Rule10Path G.MAdj a c e b p → ¬ G.Rule10Path G.MAdj a c f d q) := by
  have hacne : a ≠ c := hG.ne (Or.inl ⟨_, hac⟩)
  have hab : a ≠ b := by
    rintro rfl
    exact absurd (hG.one _ _ _ _ hca hbc.2) (by simp)
  have had : a ≠ d := by
    rintro rfl
    exact absurd (hG.one _ _ _ _ hca hdc.2) (by simp)
  have hcb : c ≠ b := hG.ne (Or.inl ⟨_, hbc.2⟩)
  have hcd : c ≠ d := hG.ne (Or.inl ⟨_, hdc.2⟩)
  have hch' : ∀ x, x ∈ o.iter (a, c) ch → a ≠ x ∧ c ≠ x ∧ G.PossPar a x := by
    intro x hx
    simp only [o.mem, hch, Finset.mem_sdiff, Finset.mem_insert, Finset.mem_singleton, not_or] at hx
    exact ⟨Ne.symm hx.1.2.1, Ne.symm hx.1.2.2, hx.2⟩
  refine forFind_run (fun e he => ?_)
  refine forFind_run (fun f hf => ?_)
  obtain ⟨e1, e2, e3⟩ := hch' e he
  obtain ⟨f1, f2, f3⟩ := hch' f hf
  by_cases hef : e = f
  · exact ⟨none, by rw [if_pos hef]; rfl, by simp, fun _ h => absurd hef h⟩
  rw [if_neg hef]
  obtain ⟨t, ht, ht'⟩ := proper_isConnected hG.type hef
  rw [py_bind ht]
  cases t with
  | true => exact ⟨none, rfl, by simp, fun _ _ h => absurd (ht'.1 rfl) h⟩
  | false =>
    have hadj : ¬ G.MAdj e f := fun h => by simpa using ht'.2 h
    simp only [Bool.false_eq_true, if_false]
    obtain ⟨r1, k1, k2, k3⟩ := rule10_path o hG hacne e1 hab e2 hcb
    rw [py_bind k1]
    cases r1 with
    | none => exact ⟨none, rfl, by simp, fun _ _ _ p q hp => absurd hp (k3 rfl p)⟩
    | some p =>
      obtain ⟨r2, j1, j2, j3⟩ := rule10_path o hG hacne f1 had f2 hcd
      simp only
      rw [py_bind j1]
      cases r2 with
      | none => exact ⟨none, rfl, by simp, fun _ _ _ p q _ hq => absurd hq (j3 rfl q)⟩
      | some q =>
        refine ⟨some (a, c), rfl, ?_, by simp⟩
        intro ac h
        cases h
        exact ⟨hca, hac, b, d, e, f, p, q, hbc, hdc, hbd, e3, f3, Ne.symm e2, Ne.symm f2, hef, hadj, k2 p rfl, j2 q rfl⟩

theorem pagRule10Find_spec (o : SetOrder α) {G : MG α} (hG : G.Proper) (hT : ∀ m, m ∈ G.types) :
    ∃ r, pagRule10Find o G = .ok r ∧ (∀ ac, r = some ac → G.Rule10At ac.1 ac.2) ∧ (r = none → ¬ G.PagPattern 10) := by
  have key : ∃ r, pagRule10Find o G = .ok r ∧ (∀ ac, r = some ac → G.Rule10At ac.1 ac.2) ∧
      (r = none → ∀ c ∈ o.iter 11 G.nodes, ∀ a, ¬ G.Rule10At a c) := by
    unfold pagRule10Find
    refine forFind_run (fun c _ => ?_)
    have hset : ∀ (mi mj : Mark) (l : List α), ∃ S, setComp (fun v => G.isEdge v c mi mj) l = .ok S ∧
        ∀ x, x ∈ S ↔ x ∈ l ∧ (G.At c x mi ∧ G.At x c mj) := fun mi mj l =>
      setComp_spec l (fun v _ => isEdge_ok hT v c mi mj)
    obtain ⟨as, h1, h1'⟩ := hset .circle .arrow (o.iter (c, 0) (G.nodes \ {c}))
    obtain ⟨bds, h2, h2'⟩ := hset .tail .arrow (o.iter (c, 1) (G.nodes \ {c}))
    have hmem : ∀ x m, G.At x c m → x ∈ G.nodes \ {c} := by
      intro x m hx
      rw [Finset.mem_sdiff, Finset.mem_singleton]
      exact ⟨(hG.mem _ _ _ hx).1, hG.ne (Or.inl ⟨_, hx⟩)⟩
    have has : ∀ a, a ∈ as ↔ G.At c a .circle ∧ G.At a c .arrow := by
      intro a
      rw [h1', o.mem]
      exact ⟨fun h => h.2, fun h => ⟨hmem _ _ h.2, h⟩⟩
    have hbds : ∀ b, b ∈ bds ↔ G.Par b c := by
      intro b
      rw [h2', o.mem]
      exact ⟨fun h => ⟨h.2.2, h.2.1⟩, fun h => ⟨hmem _ _ h.1, h.2, h.1⟩⟩
    rw [py_bind h1]
    by_cases hc1 : as.card = 0
    · refine ⟨none, by rw [if_pos hc1]; rfl, by simp, fun _ a h => ?_⟩
      rw [Finset.card_eq_zero] at hc1
      have := (has a).2 ⟨h.1, h.2.1⟩
      rw [hc1] at this
      simp at this
    rw [if_neg hc1, py_bind h2]
    by_cases hc2 : bds.card < 2
    · refine ⟨none, by rw [if_pos hc2]; rfl, by simp, fun _ a h => ?_⟩
      obtain ⟨_, _, b, d, e, f, p, q, k1, k2, k3, _⟩ := h
      have : 1 < bds.card := Finset.one_lt_card.2 ⟨b, (hbds b).2 k1, d, (hbds d).2 k2, k3⟩
      omega
    rw [if_neg hc2]
    have hloop := forFind_run (f := fun a => do
        let ch ← G.findPossibleChildren o a (G.nodes \ {a, c})
        if ch.card < 2 then return none
        forFind (fun bd : α × α =>
          forFind (fun e =>
            forFind (fun f => do
              if e = f then return none
              if ← G.isConnected e f then return none
              match ← G.findUncoveredPath o a c e bd.1 G.nodes (fun x y => G.isConnected x y) with
              | none => return none
              | some _ =>
                match ← G.findUncoveredPath o a c f bd.2 G.nodes (fun x y => G.isConnected x y) with
                | none => return none
                | some _ => return some (a, c)) (o.iter (a, c) ch)) (o.iter (a, c) ch))
          (pairs (o.iter (a, c, 1) bds)))
      (Q := fun ac => G.Rule10At ac.1 ac.2) (N := fun a => ¬ G.Rule10At a c) (l := o.iter (c, 2) as) (fun a ha => by
        rw [o.mem, has] at ha
        obtain ⟨ch, g1, g1'⟩ := findPossibleChildren_spec o hG.type hG.irrefl a (G.nodes \ {a, c})
        rw [py_bind g1]
        have hchm : ∀ x, G.PossPar a x → x ≠ c → x ∈ o.iter (a, c) ch := by
          intro x hx hxc
          rw [o.mem, g1']
          obtain ⟨m, hm⟩ := hG.adj_iff.1 hx.1
          simp only [Finset.mem_sdiff, Finset.mem_insert, Finset.mem_singleton, not_or]
          exact ⟨⟨(hG.mem _ _ _ hm).2, (hG.ne hx.1).symm, hxc⟩, hx⟩
        by_cases hc3 : ch.card < 2
        · refine ⟨none, by rw [if_pos hc3]; rfl, by simp, fun _ h => ?_⟩
          obtain ⟨_, _, b, d, e, f, p, q, k1, k2, k3, k4, k5, k6, k7, k8, _⟩ := h
          have : 1 < ch.card := Finset.one_lt_card.2
            ⟨e, (o.mem _ _ _).1 (hchm e k4 k6), f, (o.mem _ _ _).1 (hchm f k5 k7), k8⟩
          omega
        rw [if_neg hc3]
        obtain ⟨r, j1, j2, j3⟩ := forFind_run (f := fun bd : α × α =>
            forFind (fun e =>
              forFind (fun f => do
                if e = f then return none
                if ← G.isConnected e f then return none
                match ← G.findUncoveredPath o a c e bd.1 G.nodes (fun x y => G.isConnected x y) with
                | none => return none
                | some _ =>
                  match ← G.findUncoveredPath o a c f bd.2 G.nodes (fun x y => G.isConnected x y) with
                  | none => return none
                  | some _ => return some (a, c)) (o.iter (a, c) ch)) (o.iter (a, c) ch))
          (Q := fun ac => G.Rule10At ac.1 ac.2) (N := fun bd => ∀ e ∈ o.iter (a, c) ch, ∀ f ∈ o.iter (a, c) ch, e ≠ f →
            ¬ G.MAdj e f → ∀ p q, G.Rule10Path G.MAdj a c e bd.1 p → ¬ G.Rule10Path G.MAdj a c f bd.2 q)
          (l := pairs (o.iter (a, c, 1) bds)) (fun bd hbd => by
            obtain ⟨b, d⟩ := bd
            have hb := mem_pairs_left hbd
            have hd := mem_pairs_right hbd
            have hne := mem_pairs_ne (o.nodup _ _) hbd
            rw [o.mem, hbds] at hb hd
            exact rule10_inner o hG ha.1 ha.2 hb hd hne g1')
        refine ⟨r, j1, j2, fun hr h => ?_⟩
        obtain ⟨_, _, b, d, e, f, p, q, k1, k2, k3, k4, k5, k6, k7, k8, k9, k10, k11⟩ := h
        rcases mem_pairs_or ((o.mem (a, c, 1) _ _).2 ((hbds b).2 k1)) ((o.mem (a, c, 1) _ _).2 ((hbds d).2 k2)) k3 with h | h
        · exact j3 hr _ h e (hchm e k4 k6) f (hchm f k5 k7) k8 k9 p q k10 k11
        · exact j3 hr _ h f (hchm f k5 k7) e (hchm e k4 k6) (Ne.symm k8) (fun h => k9 h.symm) q p k11 k10)
    obtain ⟨r, j1, j2, j3⟩ := hloop
    refine ⟨r, j1, j2, fun hr a h => j3 hr a ?_ h⟩
    rw [o.mem, has]
    exact ⟨h.1, h.2.1⟩
  obtain ⟨r, h1, h2, h3⟩ := key
  refine ⟨r, h1, h2, fun hr => ?_⟩
  rintro ⟨a, b, c, d, e, f, p, q, k1, k2, k3⟩
  exact h3 hr c ((o.mem _ _ _).2 (hG.mem _ _ _ k1).1) a ⟨k1, k2, b, d, e, f, p, q, k3⟩

theorem pagRule10_run (o : SetOrder α) (sep : α → α → Py (Finset α)) {G : MG α} (hG : G.Proper) (hT : ∀ m, m ∈ G.types) :
    ∃ st, pagRule10 o G = .ok st ∧ Run (fun G H => PagStep sep G H 10) G st ∧ (st.2 = false → ¬ G.PagPattern 10) := by
  obtain ⟨r, h1, h2, h3⟩ := pagRule10Find_spec o hG hT
  refine orientFound_run hG hT h1 (fun a c H hr u => ?_) h3
  obtain ⟨k1, k2, k3⟩ := h2 _ hr
  exact ⟨k1, .r10 a c k1 k2 k3 u⟩

end MG
end Verif
