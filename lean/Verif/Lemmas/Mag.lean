import Verif.Lemmas.Moral

/-!
# Marginalisation of graphs with active walks

`adj`, `into` describe a graph with `-->` and `<->` edges without directed cycles; `O` are the observed nodes. Two observed nodes
are adjacent in the marginal graph iff there is an inducing walk between them; `a` has an arrowhead at `b` iff in addition
`b` is not an ancestor of `a`. Active walks between observed nodes given observed nodes exist in both graphs or in none
(Richardson and Spirtes 2002, Theorem 4.18).
-/

namespace Verif.Walk
open Relation

variable {α : Type} {adj into : α → α → Prop} {C Z O : α → Prop}

/-- `v` is an ancestor of `a` or of `b`. -/
def An2 (into : α → α → Prop) (a b v : α) : Prop := ReflTransGen (dir into) v a ∨ ReflTransGen (dir into) v b

/-- The first edge of the list has an arrowhead at the first node. -/
def FirstInto (into : α → α → Prop) (l : List α) : Prop := ∀ x y t, l = x :: y :: t → into y x

/-- The last edge of the list has an arrowhead at the last node. -/
def LastInto (into : α → α → Prop) (l : List α) : Prop := ∀ p x y, l = p ++ [x, y] → into x y

/-- An inducing walk: interior non-colliders are not observed, interior colliders are ancestors of an end. -/
structure IsInd (adj into : α → α → Prop) (O : α → Prop) (a b : α) (l : List α) : Prop where
  head : l.head? = some a
  last : l.getLast? = some b
  act : Act adj into (An2 into a b) O l

/-- Adjacency in the marginal graph. -/
def madj (adj into : α → α → Prop) (O : α → Prop) (a b : α) : Prop := a ≠ b ∧ O a ∧ O b ∧ ∃ l, IsInd adj into O a b l

/-- Arrowheads of the marginal graph. -/
def minto (adj into : α → α → Prop) (O : α → Prop) (a b : α) : Prop :=
  madj adj into O a b ∧ ¬ ReflTransGen (dir into) b a

theorem act_weaken {C' Z' : α → Prop} (hC : ∀ b, C b → C' b) (hZ : ∀ b, Z' b → Z b) {l : List α}
    (h : Act adj into C Z l) : Act adj into C' Z' l := by
  rw [act_iff_infix] at h ⊢
  exact ⟨h.1, fun a b c hh => ⟨fun hc => hC b ((h.2 a b c hh).1 hc), fun hn hz => (h.2 a b c hh).2 hn (hZ b hz)⟩⟩

theorem firstInto_reverse {l : List α} (h : LastInto into l) : FirstInto into l.reverse := by
  intro x y t e
  refine h t.reverse y x ?_
  rw [← List.reverse_reverse l, e]; simp

theorem lastInto_reverse {l : List α} (h : FirstInto into l) : LastInto into l.reverse := by
  intro p x y e
  refine h y x p.reverse ?_
  rw [← List.reverse_reverse l, e]; simp

theorem two_of {l : List α} {a b : α} (h1 : l.head? = some a) (h2 : l.getLast? = some b) (hab : a ≠ b) :
    ∃ q t, l = a :: q :: t := by
  match l, h1, h2 with
  | [x], h1, h2 =>
    simp only [List.head?_cons, Option.some.injEq] at h1
    simp only [List.getLast?_singleton, Option.some.injEq] at h2
    exact absurd (h1.symm.trans h2) hab
  | x :: y :: t, h1, _ =>
    simp only [List.head?_cons, Option.some.injEq] at h1
    exact ⟨y, t, by rw [h1]⟩

theorem two_of' {l : List α} {a b : α} (h1 : l.head? = some a) (h2 : l.getLast? = some b) (hab : a ≠ b) :
    ∃ p r, l = p ++ [r, b] := by
  obtain ⟨q, t, e⟩ := two_of (l := l.reverse) (a := b) (b := a) (by simpa using h2) (by simpa using h1) hab.symm
  refine ⟨t.reverse, q, ?_⟩
  rw [← List.reverse_reverse l, e]; simp

/-- Following a directed edge along a walk one meets a collider, or arrives at the end. -/
theorem follow_gen (hinto : ∀ a b, adj a b → into a b ∨ into b a) (t : List α)
    (u q : α) (h : Act adj into C Z (u :: q :: t)) (hd : dir into u q) {y : α} (hy : (u :: q :: t).getLast? = some y) :
    (∃ v, TransGen (dir into) u v ∧ C v) ∨ ReflTransGen (dir into) u y := by
  induction t generalizing u q with
  | nil =>
    right
    have : q = y := by simpa using hy
    exact this ▸ .single hd
  | cons c t ih =>
    have hok := h.2.1
    by_cases hc : into c q
    · exact Or.inl ⟨q, .single hd, hok.1 ⟨hd.1, hc⟩⟩
    · have hqc : dir into q c := ⟨by
        rcases hinto q c h.2.2.adj_head with h1 | h1
        · exact h1
        · exact absurd h1 hc, hc⟩
      rcases ih q c h.2.2 hqc (by simpa [List.getLast?_cons_cons] using hy) with ⟨v, h1, h2⟩ | h1
      · exact Or.inl ⟨v, .head hd h1, h2⟩
      · exact Or.inr (.head hd h1)

section
variable (hs : ∀ a b, adj a b → adj b a) (hirr : ∀ a, ¬ adj a a) (hia : ∀ a b, into a b → adj a b)
  (hinto : ∀ a b, adj a b → into a b ∨ into b a) (hac : ∀ a, ¬ TransGen (dir into) a a)

theorem An2.symm {a b v : α} (h : An2 into a b v) : An2 into b a v := h.elim Or.inr Or.inl

theorem an2_up {a b u v : α} (h : ReflTransGen (dir into) u v) (hv : An2 into a b v) : An2 into a b u :=
  hv.imp h.trans h.trans

include hs in
theorem IsInd.reverse {a b : α} {l : List α} (h : IsInd adj into O a b l) : IsInd adj into O b a l.reverse :=
  ⟨by simpa using h.last, by simpa using h.head,
    act_weaken (fun _ => An2.symm) (fun _ h => h) (act_reverse_aux hs _ h.act)⟩

include hs in
theorem madj_symm {a b : α} (h : madj adj into O a b) : madj adj into O b a := by
  obtain ⟨h1, h2, h3, l, h4⟩ := h
  exact ⟨h1.symm, h3, h2, _, h4.reverse hs⟩

include hinto hac in
/-- An inducing walk that leaves an end by a tail: that end is an ancestor of the other one. -/
theorem IsInd.first {a b : α} {l : List α} (h : IsInd adj into O a b l) (hn : ¬ ReflTransGen (dir into) a b) :
    FirstInto into l := by
  intro x q t e
  obtain ⟨h1, h2, h3⟩ := h
  subst e
  obtain rfl : x = a := by simpa using h1
  by_contra hq
  have hd : dir into x q := ⟨by
    rcases hinto x q h3.adj_head with h | h
    · exact h
    · exact absurd h hq, hq⟩
  rcases follow_gen hinto t x q h3 hd h2 with ⟨v, h4, h5 | h5⟩ | h4
  · exact hac x (h4.trans_left h5)
  · exact hn (h4.to_reflTransGen.trans h5)
  · exact hn h4

include hs hinto hac in
theorem IsInd.lastInto {a b : α} {l : List α} (h : IsInd adj into O a b l) (hn : ¬ ReflTransGen (dir into) b a) :
    LastInto into l := by
  have := lastInto_reverse ((h.reverse hs).first hinto hac hn)
  rwa [List.reverse_reverse] at this

include hac in
theorem an_antisymm {a b : α} (h1 : ReflTransGen (dir into) a b) (h2 : ReflTransGen (dir into) b a) : a = b := by
  rcases reflTransGen_iff_eq_or_transGen.1 h1 with h | h
  · exact h.symm
  · exact absurd (h.trans_left h2) (hac a)

/-! ### Directed walks -/

include hs hac in
theorem dir_minto {a b : α} : dir (minto adj into O) a b ↔ madj adj into O a b ∧ ReflTransGen (dir into) a b := by
  constructor
  · rintro ⟨⟨h1, h2⟩, h3⟩
    refine ⟨h1, ?_⟩
    by_contra hn
    exact h3 ⟨madj_symm hs h1, hn⟩
  · rintro ⟨h1, h2⟩
    exact ⟨⟨h1, fun h => h1.1 (an_antisymm hac h2 h)⟩, fun h => h.2 h2⟩

include hs hac in
theorem an_of_minto {a b : α} (h : ReflTransGen (dir (minto adj into O)) a b) : ReflTransGen (dir into) a b := by
  induction h with
  | refl => exact .refl
  | tail _ h ih => exact ih.trans ((dir_minto hs hac).mp h).2

theorem infix_mid {a b c u w : α} {m : List α} (h : [a, b, c] <:+: u :: m ++ [w]) : b ∈ m := by
  obtain ⟨p, s, e⟩ := h
  rcases List.eq_nil_or_concat s with rfl | ⟨s', z, rfl⟩
  · cases p with
    | nil =>
      simp only [List.nil_append, List.append_nil, List.cons_append, List.cons.injEq] at e
      rcases m with _ | ⟨m1, m⟩
      · simp at e
      · simp only [List.cons_append, List.cons.injEq] at e
        simp [e.2.1]
    | cons x p =>
      have e' : p ++ [a, b] ++ [c] = m ++ [w] := by
        simp only [List.cons_append, List.cons.injEq, List.append_nil] at e
        simpa using e.2
      have := (List.append_inj' e' rfl).1
      rw [← this]; simp
  · cases p with
    | nil =>
      have e' : b :: c :: s' ++ [z] = m ++ [w] := by
        simp only [List.nil_append, List.cons_append, List.cons.injEq, List.concat_eq_append] at e
        simpa using e.2
      have := (List.append_inj' e' rfl).1
      rw [← this]; simp
    | cons x p =>
      have e' : (p ++ [a, b, c] ++ s') ++ [z] = m ++ [w] := by
        simp only [List.cons_append, List.cons.injEq, List.concat_eq_append] at e
        simpa using e.2
      have := (List.append_inj' e' rfl).1
      rw [← this]; simp

include hia in
/-- A directed walk with unobserved interior. -/
theorem act_of_dir {u q : α} {m : List α} (h : (u :: m ++ [q]).IsChain (dir into)) (hm : ∀ v ∈ m, ¬ O v) :
    Act adj into C O (u :: m ++ [q]) := by
  rw [act_iff_infix]
  refine ⟨h.imp fun a b h => hia a b h.1, fun a b c hh => ⟨fun hc => ?_, fun _ => hm b (infix_mid hh)⟩⟩
  have := h.infix hh
  simp only [List.isChain_cons_cons] at this
  exact absurd hc.2 this.2.1.2

theorem an_of_chain {u q : α} {m : List α} (h : (u :: m ++ [q]).IsChain (dir into)) : TransGen (dir into) u q := by
  induction m generalizing u with
  | nil =>
    simp only [List.cons_append, List.nil_append, List.isChain_cons_cons] at h
    exact .single h.1
  | cons v m ih =>
    simp only [List.cons_append, List.isChain_cons_cons] at h
    exact .head h.1 (ih (by simpa using h.2))

include hs hia hac in
theorem minto_of_chain {u q : α} {m : List α} (h : (u :: m ++ [q]).IsChain (dir into)) (hm : ∀ v ∈ m, ¬ O v) (hu : O u)
    (hq : O q) : dir (minto adj into O) u q := by
  have han := an_of_chain h
  refine (dir_minto hs hac).mpr ⟨⟨?_, hu, hq, _, by simp,
    getLast?_append_cons (u :: m) [] q, act_of_dir hia h hm⟩, han.to_reflTransGen⟩
  rintro rfl
  exact hac u han

include hs hia hac in
theorem minto_of_an_aux {q w : α} (h : ReflTransGen (dir into) q w) (hw : O w) :
    ∀ {u : α} {m : List α}, (u :: m ++ [q]).IsChain (dir into) → (∀ v ∈ m, ¬ O v) → O u →
      ReflTransGen (dir (minto adj into O)) u w := by
  induction h using ReflTransGen.head_induction_on with
  | refl => exact fun h1 h2 h3 => .single (minto_of_chain hs hia hac h1 h2 h3 hw)
  | @head q q2 h1 _ ih =>
    intro u m h2 h3 h4
    by_cases hq : O q
    · refine .head (minto_of_chain hs hia hac h2 h3 h4 hq) (ih (m := []) ?_ (by simp) hq)
      simpa using h1
    · refine ih (m := m ++ [q]) ?_ ?_ h4
      · have : u :: (m ++ [q]) ++ [q2] = (u :: m ++ [q]) ++ [q2] := by simp
        rw [this, List.isChain_append]
        refine ⟨h2, by simp, ?_⟩
        intro x hx y hy
        rw [List.getLast?_append] at hx
        simp only [List.getLast?_singleton, Option.some_or, Option.mem_def, Option.some.injEq, List.head?_cons] at hx hy
        exact hx ▸ hy ▸ h1
      · intro v hv
        rcases List.mem_append.mp hv with hv | hv
        · exact h3 v hv
        · rw [List.mem_singleton.mp hv]; exact hq

include hs hia hac in
/-- Ancestors among observed nodes are the same in the marginal graph. -/
theorem minto_of_an {u w : α} (h : ReflTransGen (dir into) u w) (hu : O u) (hw : O w) :
    ReflTransGen (dir (minto adj into O)) u w := by
  rcases ReflTransGen.cases_head h with rfl | ⟨q, h1, h2⟩
  · exact .refl
  · exact minto_of_an_aux hs hia hac h2 hw (m := []) (by simpa using h1) (by simp) hu

/-! ### From the marginal graph to the graph -/

theorem inA_up {x y u v : α} (h : ReflTransGen (dir into) u v) (hv : InA into Z x y v) : InA into Z x y u := by
  obtain ⟨w, h1, h2⟩ := hv
  exact ⟨w, h1, h.trans h2⟩

include hs hinto hac in
/-- The edges of a walk of the marginal graph are replaced by inducing walks. -/
theorem expand {A : α → Prop} (hA : ∀ u v, ReflTransGen (dir into) u v → A v → A u) (hZO : ∀ v, Z v → O v) (t : List α) :
    ∀ a b y, Act (madj adj into O) (minto adj into O) A Z (a :: b :: t) → (∀ v ∈ a :: b :: t, A v) →
      (a :: b :: t).getLast? = some y →
      ∃ q r, ((a :: q :: r).getLast? = some y) ∧ Act adj into A Z (a :: q :: r) ∧ (minto adj into O b a → into q a) := by
  induction t with
  | nil =>
    intro a b y h hAll hy
    obtain ⟨h1, h2, h3, l, hl⟩ : madj adj into O a b := h
    obtain ⟨q, r, e⟩ := two_of hl.head hl.last h1
    have hlast := hl.last
    have hact := hl.act
    rw [e] at hlast hact
    obtain rfl : b = y := by simpa using hy
    refine ⟨q, r, hlast, act_weaken (fun v hv => ?_) hZO hact, fun hm => hl.first hinto hac hm.2 a q r e⟩
    rcases hv with hv | hv
    · exact hA _ _ hv (hAll a (by simp))
    · exact hA _ _ hv (hAll b (by simp))
  | cons c t ih =>
    intro a b y h hAll hy
    obtain ⟨q2, r2, i1, i2, i3⟩ := ih b c y h.2.2 (fun v hv => hAll v (by simp at hv ⊢; tauto))
      (by simpa [List.getLast?_cons_cons] using hy)
    obtain ⟨h1, h2, h3, l, hl⟩ : madj adj into O a b := h.1
    obtain ⟨p, s, e⟩ := two_of' hl.head hl.last h1
    have hact : Act adj into A Z l := by
      refine act_weaken (fun v hv => ?_) hZO hl.act
      rcases hv with hv | hv
      · exact hA _ _ hv (hAll a (by simp))
      · exact hA _ _ hv (hAll b (by simp))
    rw [e] at hact
    have hok : okc into A Z s b q2 := by
      by_cases hzb : Z b
      · have hcol : minto adj into O a b ∧ minto adj into O c b := by
          by_contra hn
          exact h.2.1.2 hn hzb
        have e1 : into s b := hl.lastInto hs hinto hac hcol.1.2 p s b e
        have e2 : into q2 b := i3 hcol.2
        exact ⟨fun _ => hAll b (by simp), fun hn => absurd ⟨e1, e2⟩ hn⟩
      · exact okc_of_A (hAll b (by simp)) hzb
    have hg := hact.glue i2 hok
    have hhead : (p ++ s :: b :: q2 :: r2).head? = some a := by
      have := hl.head
      rw [e] at this
      cases p <;> simpa using this
    have hlst : (p ++ s :: b :: q2 :: r2).getLast? = some y := by
      rw [getLast?_append_cons]
      simpa [List.getLast?_cons_cons] using i1
    cases p with
    | nil =>
      obtain rfl : s = a := by simpa using hhead
      exact ⟨b, q2 :: r2, hlst, hg, fun hm => hl.first hinto hac hm.2 s b [] (by simpa using e)⟩
    | cons x p =>
      obtain rfl : x = a := by simpa using hhead
      obtain ⟨q, r, e'⟩ : ∃ q r, p ++ s :: b :: q2 :: r2 = q :: r := by cases p <;> simp
      have e2 : x :: p ++ s :: b :: q2 :: r2 = x :: q :: r := by rw [List.cons_append, e']
      rw [e2] at hlst hg
      refine ⟨q, r, hlst, hg, fun hm => ?_⟩
      have hf := hl.first hinto hac hm.2
      cases p with
      | nil =>
        simp only [List.nil_append, List.cons.injEq] at e'
        exact hf x q [b] (by rw [e, ← e'.1]; rfl)
      | cons z p =>
        simp only [List.cons_append, List.cons.injEq] at e'
        exact hf x q (p ++ [s, b]) (by rw [e, ← e'.1]; rfl)

/-! ### From the graph to the marginal graph -/

/-- A directed walk from an unobserved node to the first observed node on the way to `z`. -/
theorem first_observed {b z : α} (h : ReflTransGen (dir into) b z) (hz : O z) (hb : ¬ O b) :
    ∃ m w, O w ∧ ReflTransGen (dir into) w z ∧ (b :: m ++ [w]).IsChain (dir into) ∧ ∀ v ∈ m, ¬ O v := by
  induction h using ReflTransGen.head_induction_on with
  | refl => exact absurd hz hb
  | @head b c h1 h2 ih =>
    by_cases hc : O c
    · exact ⟨[], c, hc, h2, by simpa using h1, by simp⟩
    · obtain ⟨m, w, i1, i2, i3, i4⟩ := ih hc
      refine ⟨c :: m, w, i1, i2, ?_, ?_⟩
      · simp only [List.cons_append, List.isChain_cons_cons] at i3 ⊢
        exact ⟨h1, i3⟩
      · intro v hv
        rcases List.mem_cons.mp hv with rfl | hv
        · exact hc
        · exact i4 v hv

include hs hia in
/-- Colliders are moved to observed nodes. -/
theorem descend (hZO : ∀ v, Z v → O v) (t : List α) :
    ∀ a b, Act adj into (AnZ into Z) Z (a :: b :: t) →
      ∃ t', Act adj into (fun v => O v ∧ AnZ into Z v) Z (a :: b :: t') ∧ (a :: b :: t').getLast? = (a :: b :: t).getLast? := by
  induction t with
  | nil => exact fun a b h => ⟨[], h, rfl⟩
  | cons c t ih =>
    intro a b h
    obtain ⟨t', h1, h2⟩ := ih b c h.2.2
    by_cases hcol : into a b ∧ into c b
    · have hAn := h.2.1.1 hcol
      by_cases hb : O b
      · exact ⟨c :: t', ⟨h.1, ⟨fun _ => ⟨hb, hAn⟩, fun hn => absurd hcol hn⟩, h1⟩, by
          simpa [List.getLast?_cons_cons] using h2⟩
      · obtain ⟨z, hz, hbz⟩ := hAn
        obtain ⟨m, w, i1, i2, i3, i4⟩ := first_observed hbz (hZO z hz) hb
        have hdn : Act adj into (fun v => O v ∧ AnZ into Z v) Z (b :: m ++ [w]) :=
          act_weaken (fun _ h => h) hZO (act_of_dir (C := fun v => O v ∧ AnZ into Z v) hia i3 i4)
        have hbZ : ¬ Z b := fun h => hb (hZO b h)
        -- down and up again
        obtain ⟨d, ds, ed⟩ : ∃ d ds, m ++ [w] = d :: ds := by cases m <;> simp
        have hd : dir into b d := by
          have := i3
          rw [List.cons_append, ed, List.isChain_cons_cons] at this
          exact this.1
        have hup : Act adj into (fun v => O v ∧ AnZ into Z v) Z ((m ++ [w]).reverse ++ [b]) := by
          have := act_reverse_aux hs _ hdn
          simpa using this
        -- `b` after the way up
        have e1 : (m ++ [w]).reverse ++ [b] = ds.reverse ++ [d, b] := by rw [ed]; simp
        rw [e1] at hup
        have hup2 := hup.glue h1 (s := t') ⟨fun hh => absurd hh.1 hd.2, fun _ => hbZ⟩
        have e2 : ds.reverse ++ d :: b :: c :: t' = w :: (m.reverse ++ b :: c :: t') := by
          have : ds.reverse ++ [d] = w :: m.reverse := by
            have := congrArg List.reverse ed
            simpa using this.symm
          calc ds.reverse ++ d :: b :: c :: t' = (ds.reverse ++ [d]) ++ b :: c :: t' := by simp
            _ = _ := by rw [this]; rfl
        rw [e2] at hup2
        -- the way down, started at `a`
        have hdn2 : Act adj into (fun v => O v ∧ AnZ into Z v) Z (a :: b :: (m ++ [w])) := by
          rw [act_cons]
          refine ⟨h.1, ?_, by simpa using hdn⟩
          intro c' t'' e
          rw [ed] at e
          simp only [List.cons.injEq] at e
          obtain rfl := e.1
          exact ⟨fun hh => absurd hh.2 hd.2, fun _ => hbZ⟩
        -- glue at `w`
        have hfin : ∃ s, (a :: b :: (m ++ [w])) ++ s = a :: b :: (m ++ w :: (m.reverse ++ b :: c :: t')) ∧
            Act adj into (fun v => O v ∧ AnZ into Z v) Z ((a :: b :: (m ++ [w])) ++ s) := by
          refine ⟨m.reverse ++ b :: c :: t', by simp, ?_⟩
          obtain ⟨p, r, e3⟩ : ∃ p r, b :: m = p ++ [r] := by
            rcases List.eq_nil_or_concat (b :: m) with h0 | ⟨p, r, h0⟩
            · simp at h0
            · exact ⟨p, r, by simpa using h0⟩
          have hrw : dir into r w := by
            have := i3
            rw [e3] at this
            have e4 : p ++ [r] ++ [w] = p ++ [r, w] := by simp
            rw [e4] at this
            have := this.right_of_append
            simpa using this
          obtain ⟨r', s', e5⟩ : ∃ r' s', m.reverse ++ b :: c :: t' = r' :: s' := by
            cases m.reverse <;> simp
          have hr' : r' = r := by
            have e6 : (b :: m).reverse = r :: p.reverse := by rw [e3]; simp
            have e7 : m.reverse ++ b :: c :: t' = (b :: m).reverse ++ c :: t' := by simp
            rw [e7, e6] at e5
            simp only [List.cons_append, List.cons.injEq] at e5
            exact e5.1.symm
          subst hr'
          rw [e5] at hup2 ⊢
          have e8 : a :: b :: (m ++ [w]) = (a :: p) ++ [r', w] := by
            have : b :: (m ++ [w]) = (b :: m) ++ [w] := rfl
            rw [this, e3]; simp
          rw [e8] at hdn2
          have hg := hdn2.glue hup2 ⟨fun _ => ⟨i1, z, hz, i2⟩, fun hn => absurd ⟨hrw.1, hrw.1⟩ hn⟩
          rw [e8]
          simpa using hg
        obtain ⟨s, e9, h9⟩ := hfin
        refine ⟨m ++ w :: (m.reverse ++ b :: c :: t'), e9 ▸ h9, ?_⟩
        have e10 : a :: b :: (m ++ w :: (m.reverse ++ b :: c :: t')) = (a :: b :: (m ++ w :: m.reverse)) ++ b :: c :: t' := by simp
        rw [e10, getLast?_append_cons, h2]
        simp [List.getLast?_cons_cons]
    · exact ⟨c :: t', ⟨h.1, ⟨fun hc => absurd hc hcol, h.2.1.2⟩, h1⟩, by
        simpa [List.getLast?_cons_cons] using h2⟩

/-- An inducing walk that has arrowheads at the ends that are in `Z`. -/
structure Sec (adj into : α → α → Prop) (O Z : α → Prop) (a b : α) : Prop where
  ne : a ≠ b
  left : O a
  right : O b
  walk : ∃ l, IsInd adj into O a b l ∧ (Z a → FirstInto into l) ∧ (Z b → LastInto into l)

theorem Sec.madj {a b : α} (h : Sec adj into O Z a b) : madj adj into O a b := by
  obtain ⟨l, h1, -⟩ := h.walk
  exact ⟨h.ne, h.left, h.right, l, h1⟩

/-- Two sections are merged at a node that is an ancestor of one of their ends. -/
theorem Sec.merge {a w c : α} (h1 : Sec adj into O Z a w) (h2 : Sec adj into O Z w c) (hw : Z w) (han : An2 into a c w)
    (hne : a ≠ c) : Sec adj into O Z a c := by
  obtain ⟨l1, i1, i2, i3⟩ := h1.walk
  obtain ⟨l2, k1, k2, k3⟩ := h2.walk
  obtain ⟨p, r, e1⟩ := two_of' i1.head i1.last h1.ne
  obtain ⟨q, t, e2⟩ := two_of k1.head k1.last h2.ne
  have a1 : Act adj into (An2 into a c) O l1 := act_weaken (fun v hv => by
    rcases hv with hv | hv
    · exact Or.inl hv
    · exact an2_up hv han) (fun _ h => h) i1.act
  have a2 : Act adj into (An2 into a c) O l2 := act_weaken (fun v hv => by
    rcases hv with hv | hv
    · exact an2_up hv han
    · exact Or.inr hv) (fun _ h => h) k1.act
  rw [e1] at a1
  rw [e2] at a2
  have hg := a1.glue a2 ⟨fun _ => han, fun hn => absurd ⟨i3 hw p r w e1, k2 hw w q t e2⟩ hn⟩
  refine ⟨hne, h1.left, h2.right, _, ⟨?_, ?_, hg⟩, ?_, ?_⟩
  · have := i1.head
    rw [e1] at this
    cases p <;> simpa using this
  · have := k1.last
    rw [e2] at this
    rw [getLast?_append_cons]
    simpa [List.getLast?_cons_cons] using this
  · intro hz x y t' e
    cases p with
    | nil =>
      simp only [List.nil_append, List.cons.injEq] at e
      exact i2 hz x y [] (by rw [e1, ← e.1, ← e.2.1]; rfl)
    | cons p1 p =>
      cases p with
      | nil =>
        simp only [List.nil_append, List.cons_append, List.cons.injEq] at e
        exact i2 hz x y [w] (by rw [e1, ← e.1, ← e.2.1]; rfl)
      | cons p2 p =>
        simp only [List.cons_append, List.cons.injEq] at e
        exact i2 hz x y (p ++ [r, w]) (by rw [e1, ← e.1, ← e.2.1]; rfl)
  · intro hz p' x y e
    have e3 : p ++ r :: w :: q :: t = (p ++ [r]) ++ l2 := by rw [e2]; simp
    obtain ⟨p2, r2, e4⟩ := two_of' k1.head k1.last h2.ne
    rw [e3, e4, ← List.append_assoc] at e
    have := List.append_inj' e rfl
    simp only [List.cons.injEq, and_true] at this
    rw [← this.2.1, ← this.2.2]
    exact k3 hz p2 r2 c e4

/-- The first observed node of a list whose last node is observed. -/
theorem split_observed {t : List α} {y : α} (h : t.getLast? = some y) (hy : O y) :
    ∃ m w t2, t = m ++ w :: t2 ∧ O w ∧ ∀ v ∈ m, ¬ O v := by
  induction t with
  | nil => simp at h
  | cons a t ih =>
    by_cases ha : O a
    · exact ⟨[], a, t, rfl, ha, by simp⟩
    · cases t with
      | nil =>
        obtain rfl : a = y := by simpa using h
        exact absurd hy ha
      | cons b t =>
        obtain ⟨m, w, t2, e, h1, h2⟩ := ih (by simpa [List.getLast?_cons_cons] using h)
        refine ⟨a :: m, w, t2, by rw [e]; rfl, h1, ?_⟩
        intro v hv
        rcases List.mem_cons.mp hv with rfl | hv
        · exact ha
        · exact h2 v hv

/-- The observed nodes of a walk whose colliders are observed. -/
theorem sections (hO : ∀ v, C v → O v) {y : α} (hy : O y) (hyZ : ¬ Z y) {A : α → Prop} (n : Nat) :
    ∀ (u : α) (t : List α), t.length ≤ n → Act adj into C Z (u :: t) → (u :: t).getLast? = some y → O u →
      (Z u → FirstInto into (u :: t)) → (∀ v ∈ u :: t, A v) →
      ReflTransGen (fun a b => Sec adj into O Z a b ∧ A b) u y := by
  induction n with
  | zero =>
    intro u t hn h hl _ _ _
    obtain rfl := List.length_eq_zero_iff.mp (Nat.le_zero.mp hn)
    obtain rfl : u = y := by simpa using hl
    exact .refl
  | succ n ih =>
    intro u t hn h hl hu hf hA
    rcases t with _ | ⟨t0, t'⟩
    · obtain rfl : u = y := by simpa using hl
      exact .refl
    · obtain ⟨m, w, t2, e, hw, hm⟩ := split_observed (by simpa [List.getLast?_cons_cons] using hl) hy
      have e' : u :: t0 :: t' = (u :: m) ++ w :: t2 := by rw [e]; rfl
      have hlen : t2.length ≤ n := by
        have := congrArg List.length e
        simp only [List.length_cons, List.length_append] at this hn
        omega
      rw [e'] at h hl hf hA
      rw [getLast?_append_cons] at hl
      have hrest := h.suffix
      have hwcol : Z w → FirstInto into (w :: t2) ∧ LastInto into (u :: m ++ [w]) := by
        intro hz
        rcases t2 with _ | ⟨s, t3⟩
        · obtain rfl : w = y := by simpa using hl
          exact absurd hz hyZ
        · obtain ⟨p, r, e3⟩ : ∃ p r, u :: m = p ++ [r] := by
            rcases List.eq_nil_or_concat (u :: m) with h0 | ⟨p, r, h0⟩
            · simp at h0
            · exact ⟨p, r, by simpa using h0⟩
          have hok : okc into C Z r w s := by
            have h' := h
            rw [e3, List.append_assoc] at h'
            exact h'.mid_ok
          have hcol : into r w ∧ into s w := by
            by_contra hn
            exact hok.2 hn hz
          refine ⟨?_, ?_⟩
          · intro a b c e4
            simp only [List.cons.injEq] at e4
            rw [← e4.1, ← e4.2.1]
            exact hcol.2
          · intro p' a b e4
            rw [e3] at e4
            have e5 : p ++ [r] ++ [w] = p ++ [r, w] := by simp
            rw [e5] at e4
            have := List.append_inj' e4 rfl
            simp only [List.cons.injEq, and_true] at this
            rw [← this.2.1, ← this.2.2]
            exact hcol.1
      have hAw : A w := hA w (by simp)
      have hgo := ih w t2 hlen hrest hl hw (fun hz => (hwcol hz).1) (fun v hv => hA v (by
        rw [List.mem_append]; exact Or.inr hv))
      by_cases huw : u = w
      · rw [huw]; exact hgo
      · refine .head ⟨⟨huw, hu, hw, u :: m ++ [w], ⟨by simp, getLast?_append_cons _ _ _, ?_⟩, ?_, fun hz => (hwcol hz).2⟩,
          hAw⟩ hgo
        · have hpre : Act adj into C Z (u :: m ++ [w]) := by
            have e6 : u :: m ++ w :: t2 = (u :: m ++ [w]) ++ t2 := by simp
            rw [e6] at h
            exact h.prefix
          rw [act_iff_infix] at hpre ⊢
          refine ⟨hpre.1, fun a b c hh => ?_⟩
          have hb := hm b (infix_mid hh)
          exact ⟨fun hc => absurd (hO b ((hpre.2 a b c hh).1 hc)) hb, fun _ => hb⟩
        · intro hz a b c e4
          cases m with
          | nil =>
            simp only [List.cons_append, List.nil_append, List.cons.injEq] at e4
            exact hf hz a b t2 (by rw [← e4.1, ← e4.2.1]; rfl)
          | cons m1 m =>
            simp only [List.cons_append, List.cons.injEq] at e4
            exact hf hz a b (m ++ w :: t2) (by rw [← e4.1, ← e4.2.1]; rfl)

include hs in
/-- A shortest chain of sections is a walk of the marginal graph whose colliders are in `A`. -/
theorem walk_of_sections {A : α → Prop} (n : Nat) :
    ∀ l : List α, l.length ≤ n → l.IsChain (Sec adj into O Z) → (∀ v ∈ l, A v) →
      ∃ l', l'.head? = l.head? ∧ l'.getLast? = l.getLast? ∧ Act (madj adj into O) (minto adj into O) A Z l' := by
  induction n with
  | zero =>
    intro l hl _ _
    obtain rfl := List.length_eq_zero_iff.mp (Nat.le_zero.mp hl)
    exact ⟨[], rfl, rfl, trivial⟩
  | succ n ih =>
    intro l hl h hA
    by_cases hgood : ∀ a b c, [a, b, c] <:+: l → okc (minto adj into O) A Z a b c
    · exact ⟨l, rfl, rfl, act_iff_infix.mpr ⟨h.imp fun _ _ h => h.madj, hgood⟩⟩
    · push Not at hgood
      obtain ⟨a, w, c, ⟨p, s, e⟩, hbad⟩ := hgood
      have hAw : A w := hA w (by rw [← e]; simp)
      have hZw : Z w := by
        by_contra hn
        exact hbad (okc_of_A hAw hn)
      have hseg : [a, w, c].IsChain (Sec adj into O Z) := h.infix ⟨p, s, e⟩
      simp only [List.isChain_cons_cons] at hseg
      have hsym : Sec adj into O Z a w ∧ Sec adj into O Z w c := ⟨hseg.1, hseg.2.1⟩
      have hshort : ∃ l1 : List α, l1.length ≤ n ∧ l1.IsChain (Sec adj into O Z) ∧ (∀ v ∈ l1, A v) ∧
          l1.head? = l.head? ∧ l1.getLast? = l.getLast? := by
        have han : An2 into a c w := by
          by_contra hn
          refine hbad ⟨fun _ => hAw, fun hc => absurd ⟨⟨hsym.1.madj, fun h => hn (Or.inl h)⟩,
            ⟨madj_symm hs hsym.2.madj, fun h => hn (Or.inr h)⟩⟩ hc⟩
        have e2 : l = p ++ a :: w :: c :: s := by rw [← e]; simp
        rw [e2, List.isChain_append] at h
        obtain ⟨h1, h2, h3⟩ := h
        simp only [List.isChain_cons_cons] at h2
        by_cases hac : a = c
        · subst hac
          refine ⟨p ++ a :: s, ?_, ?_, ?_, ?_, ?_⟩
          · rw [e2] at hl
            simp only [List.length_append, List.length_cons] at hl ⊢
            omega
          · rw [List.isChain_append]
            exact ⟨h1, h2.2.2, fun x hx y hy => h3 x hx y (by simpa using hy)⟩
          · intro v hv
            refine hA v ?_
            rw [e2]
            simp only [List.mem_append, List.mem_cons] at hv ⊢
            tauto
          · rw [e2]; cases p <;> rfl
          · have e3 : p ++ a :: w :: a :: s = (p ++ [a, w]) ++ a :: s := by simp
            rw [e2, e3, getLast?_append_cons, getLast?_append_cons]
        · refine ⟨p ++ a :: c :: s, ?_, ?_, ?_, ?_, ?_⟩
          · rw [e2] at hl
            simp only [List.length_append, List.length_cons] at hl ⊢
            omega
          · rw [List.isChain_append, List.isChain_cons_cons]
            exact ⟨h1, ⟨hsym.1.merge hsym.2 hZw han hac, h2.2.2⟩, fun x hx y hy => h3 x hx y (by simpa using hy)⟩
          · intro v hv
            refine hA v ?_
            rw [e2]
            simp only [List.mem_append, List.mem_cons] at hv ⊢
            tauto
          · rw [e2]; cases p <;> rfl
          · rw [e2, getLast?_append_cons, getLast?_append_cons]
            simp [List.getLast?_cons_cons]
      obtain ⟨l1, i1, i2, i3, i4, i5⟩ := hshort
      obtain ⟨l', j1, j2, j3⟩ := ih l1 i1 i2 i3
      exact ⟨l', j1.trans i4, j2.trans i5, j3⟩

/-! ### The theorem -/

/-- A list for a reflexive transitive closure. -/
theorem list_of_rtg {R : α → α → Prop} {A : α → Prop} {x y : α} (h : ReflTransGen (fun a b => R a b ∧ A b) x y) (hx : A x) :
    ∃ l : List α, l.head? = some x ∧ l.getLast? = some y ∧ l.IsChain R ∧ ∀ v ∈ l, A v := by
  induction h using ReflTransGen.head_induction_on with
  | refl => exact ⟨[y], rfl, rfl, by simp, by simpa using hx⟩
  | @head a c h1 _ ih =>
    obtain ⟨l, i1, i2, i3, i4⟩ := ih h1.2
    obtain ⟨l', rfl⟩ : ∃ l', l = c :: l' := by
      cases l with
      | nil => simp at i1
      | cons z l =>
        obtain rfl : z = c := by simpa using i1
        exact ⟨l, rfl⟩
    refine ⟨a :: c :: l', rfl, by simpa [List.getLast?_cons_cons] using i2, ?_, ?_⟩
    · rw [List.isChain_cons_cons]; exact ⟨h1.1, i3⟩
    · intro v hv
      rcases List.mem_cons.mp hv with rfl | hv
      · exact hx
      · exact i4 v hv

include hs hac in
theorem madj_minto {a b : α} (h : madj adj into O a b) : minto adj into O a b ∨ minto adj into O b a := by
  by_contra hn
  push Not at hn
  by_cases h1 : ReflTransGen (dir into) b a
  · by_cases h2 : ReflTransGen (dir into) a b
    · exact h.1 (an_antisymm hac h2 h1)
    · exact hn.2 ⟨madj_symm hs h, h2⟩
  · exact hn.1 ⟨h, h1⟩

include hs hirr hia hinto hac in
/-- **Marginalisation theorem.** Two observed nodes outside of the observed set `Z` are joined by an active path given `Z` iff they
are joined by one in the marginal graph. -/
theorem act_path_iff_marginal (hZO : ∀ v, Z v → O v) {x y : α} (hx : O x) (hy : O y) (hZx : ¬ Z x) (hZy : ¬ Z y) :
    (∃ l : List α, l.Nodup ∧ l.head? = some x ∧ l.getLast? = some y ∧ Act adj into (AnZ into Z) Z l) ↔
      ∃ l : List α, l.Nodup ∧ l.head? = some x ∧ l.getLast? = some y ∧
        Act (madj adj into O) (minto adj into O) (AnZ (minto adj into O) Z) Z l := by
  constructor
  · rintro ⟨l, -, h1, h2, h3⟩
    by_cases hxy : x = y
    · subst hxy
      exact ⟨[x], by simp, rfl, rfl, trivial⟩
    obtain ⟨q, t, rfl⟩ := two_of h1 h2 hxy
    obtain ⟨t', h4, h5⟩ := descend hs hia hZO t x q h3
    rw [h2] at h5
    have h6 : Act adj into (AnZ into Z) Z (x :: q :: t') := act_mono (fun v hv => hv.2) h4
    have h7 := act_inA hs hinto rfl h5 h6
    have h8 := sections (A := fun v => InA into Z x y v) (fun v hv => hv.1) hy hZy (q :: t').length x (q :: t') le_rfl h4 h5 hx
      (fun h => absurd h hZx) h7
    obtain ⟨l1, i1, i2, i3, i4⟩ := list_of_rtg h8 ⟨x, Or.inl rfl, .refl⟩
    obtain ⟨l2, j1, j2, j3⟩ := walk_of_sections (A := fun v => InA into Z x y v) hs l1.length l1 le_rfl i3 i4
    rw [i1] at j1
    rw [i2] at j2
    obtain ⟨q2, t2, rfl⟩ := two_of j1 j2 hxy
    have j4 : Act (madj adj into O) (minto adj into O) (InA (minto adj into O) Z x y) Z (x :: q2 :: t2) := by
      rw [act_iff_infix] at j3 ⊢
      refine ⟨j3.1, fun a b c hh => ⟨fun hc => ?_, (j3.2 a b c hh).2⟩⟩
      obtain ⟨w, hw, hbw⟩ := (j3.2 a b c hh).1 hc
      refine ⟨w, hw, minto_of_an hs hia hac hbw hc.1.1.2.2.1 ?_⟩
      rcases hw with rfl | rfl | hw
      · exact hx
      · exact hy
      · exact hZO w hw
    obtain ⟨l3, k1, k2, k3⟩ := repair (adj := madj adj into O) (into := minto adj into O)
      (fun a b h => madj_symm hs h) (fun a b h => h.1.1) t2 [] x q2 rfl j4.adj_head j4 j2
    exact exists_nodup (fun a h => h.1 rfl) (fun a b h => madj_minto hs hac h) l3 k1 k2 k3
  · rintro ⟨l, -, h1, h2, h3⟩
    by_cases hxy : x = y
    · subst hxy
      exact ⟨[x], by simp, rfl, rfl, trivial⟩
    have hA : ∀ v ∈ l, InA into Z x y v := by
      intro v hv
      obtain ⟨w, hw, hvw⟩ := act_inA (fun a b h => madj_symm hs h) (fun a b h => madj_minto hs hac h) h1 h2 h3 v hv
      exact ⟨w, hw, an_of_minto hs hac hvw⟩
    obtain ⟨q, t, rfl⟩ := two_of h1 h2 hxy
    have h4 : Act (madj adj into O) (minto adj into O) (InA into Z x y) Z (x :: q :: t) := by
      refine act_mono (fun v hv => ?_) h3
      obtain ⟨w, hw, hvw⟩ := hv
      exact ⟨w, Or.inr (Or.inr hw), an_of_minto hs hac hvw⟩
    obtain ⟨q2, r2, i1, i2, -⟩ := expand hs hinto hac (fun u v h hv => inA_up h hv) hZO t x q y h4 hA h2
    obtain ⟨l3, k1, k2, k3⟩ := repair hs (fun a b h => hia a b h.1) r2 [] x q2 rfl i2.adj_head i2 i1
    exact exists_nodup hirr hinto l3 k1 k2 k3

include hs hirr hia hinto hac in
/-- Two observed nodes are adjacent in the marginal graph iff there is an active path between them given every set of other observed
nodes. -/
theorem madj_iff_insep {x y : α} (hx : O x) (hy : O y) (hxy : x ≠ y) :
    madj adj into O x y ↔ ∀ Z : α → Prop, (∀ v, Z v → O v) → ¬ Z x → ¬ Z y →
      ∃ l : List α, l.Nodup ∧ l.head? = some x ∧ l.getLast? = some y ∧ Act adj into (AnZ into Z) Z l := by
  constructor
  · intro h Z hZO hZx hZy
    refine (act_path_iff_marginal hs hirr hia hinto hac hZO hx hy hZx hZy).mpr ⟨[x, y], by simpa using hxy, rfl, rfl, h⟩
  · intro h
    obtain ⟨l, h1, h2, h3, h4⟩ := h (fun v => O v ∧ An2 into x y v ∧ v ≠ x ∧ v ≠ y) (fun v h => h.1) (fun h => h.2.2.1 rfl)
      (fun h => h.2.2.2 rfl)
    refine ⟨hxy, hx, hy, l, h2, h3, ?_⟩
    have hA := act_inA hs hinto h2 h3 h4
    have hA2 : ∀ v ∈ l, An2 into x y v := by
      intro v hv
      obtain ⟨w, hw, hvw⟩ := hA v hv
      rcases hw with rfl | rfl | hw
      · exact Or.inl hvw
      · exact Or.inr hvw
      · exact an2_up hvw hw.2.1
    rw [act_iff_infix] at h4 ⊢
    refine ⟨h4.1, fun a b c hh => ?_⟩
    have hbl : b ∈ l := hh.subset (by simp)
    refine ⟨fun _ => hA2 b hbl, fun hn hO => (h4.2 a b c hh).2 hn ⟨hO, hA2 b hbl, ?_, ?_⟩⟩
    · rintro rfl
      obtain ⟨p, s, rfl⟩ := hh
      cases p with
      | nil =>
        simp only [List.nil_append, List.cons_append, List.head?_cons, Option.some.injEq] at h2
        simp [h2] at h1
      | cons p1 p =>
        simp only [List.cons_append, List.head?_cons, Option.some.injEq] at h2
        simp [h2] at h1
    · rintro rfl
      obtain ⟨p, s, rfl⟩ := hh
      rcases List.eq_nil_or_concat s with rfl | ⟨s', z, rfl⟩
      · have : (p ++ [a, b, c] ++ []).getLast? = some c := by
          have e : p ++ [a, b, c] ++ [] = (p ++ [a, b]) ++ c :: [] := by simp
          rw [e, getLast?_append_cons]; rfl
        rw [this] at h3
        simp only [Option.some.injEq] at h3
        subst h3
        simp [List.nodup_append] at h1
      · have : (p ++ [a, b, c] ++ s'.concat z).getLast? = some z := by
          have e : p ++ [a, b, c] ++ s'.concat z = (p ++ [a, b, c] ++ s') ++ z :: [] := by simp
          rw [e, getLast?_append_cons]; rfl
        rw [this] at h3
        simp only [Option.some.injEq] at h3
        subst h3
        simp [List.nodup_append] at h1
end
end Verif.Walk
