import Verif.Lemmas.Walk

/-!
# Active walks and connection in the augmented (moral) graph of the ancestors
-/

namespace Verif.Walk
open Relation

variable {α : Type} {adj into : α → α → Prop} {Z : α → Prop}

/-- `v` is an ancestor of `x`, of `y` or of a member of `Z`. -/
def InA (into : α → α → Prop) (Z : α → Prop) (x y v : α) : Prop :=
  ∃ w, (w = x ∨ w = y ∨ Z w) ∧ ReflTransGen (dir into) v w

/-- `CW a c`: a walk `a *-> c1 <-> ... <-> c` all of whose nodes after `a` are in `A`. -/
inductive CW (adj into : α → α → Prop) (A : α → Prop) (a : α) : α → Prop
  | base {c : α} : adj a c → into a c → A c → CW adj into A a c
  | step {c d : α} : CW adj into A a c → adj c d → into c d → into d c → A d → CW adj into A a d

/-- Adjacency in the augmented graph over `A`. -/
def aug (adj into : α → α → Prop) (A : α → Prop) (a b : α) : Prop :=
  adj a b ∨ ∃ c, CW adj into A a c ∧ adj b c ∧ into b c

/-- One step in the augmented graph over `A`, avoiding `Z`. -/
def augStep (adj into : α → α → Prop) (A Z : α → Prop) (a b : α) : Prop :=
  aug adj into A a b ∧ A b ∧ ¬ Z b

theorem getLast?_append_cons (p s : List α) (v : α) : (p ++ v :: s).getLast? = (v :: s).getLast? := by
  rw [List.getLast?_append, List.getLast?_cons]; rfl

theorem inA_of_anZ {x y v : α} (h : AnZ into Z v) : InA into Z x y v := by
  obtain ⟨z, hz, hp⟩ := h
  exact ⟨z, Or.inr (Or.inr hz), hp⟩

/-- In an active walk from `x` to `y`, a node with an edge directed towards the end is in the ancestor set. -/
theorem inA_forward (hinto : ∀ a b, adj a b → into a b ∨ into b a) {x y u q : α} {t : List α}
    (h : Act adj into (AnZ into Z) Z (u :: q :: t)) (hd : dir into u q)
    (hy : (u :: q :: t).getLast? = some y) : InA into Z x y u := by
  rcases follow hinto t u q h hd with h1 | ⟨h1, _⟩
  · exact inA_of_anZ h1
  · refine ⟨y, Or.inr (Or.inl rfl), ?_⟩
    have : (q :: t).getLast (by simp) = y := by
      rw [List.getLast?_eq_some_getLast (by simp)] at hy
      simpa using hy
    rwa [this] at h1

theorem InA.swap {x y v : α} (h : InA into Z x y v) : InA into Z y x v := by
  obtain ⟨w, hw, hp⟩ := h
  exact ⟨w, by tauto, hp⟩

/-- All nodes of an active walk between `x` and `y` are ancestors of `x`, `y` or `Z`. -/
theorem act_inA (hs : ∀ a b, adj a b → adj b a) (hinto : ∀ a b, adj a b → into a b ∨ into b a)
    {x y : α} {l : List α}
    (hx : l.head? = some x) (hy : l.getLast? = some y)
    (h : Act adj into (AnZ into Z) Z l) : ∀ v ∈ l, InA into Z x y v := by
  intro v hv
  obtain ⟨p, s, rfl⟩ := List.append_of_mem hv
  rcases List.eq_nil_or_concat p with rfl | ⟨p', a, rfl⟩
  · simp only [List.nil_append, List.head?_cons, Option.some.injEq] at hx
    exact ⟨v, Or.inl hx, ReflTransGen.refl⟩
  cases s with
  | nil =>
    have : v = y := by
      rw [List.getLast?_append] at hy; simpa using hy
    exact ⟨v, Or.inr (Or.inl this), ReflTransGen.refl⟩
  | cons b s =>
    have h' : Act adj into (AnZ into Z) Z (p' ++ a :: v :: b :: s) := by simpa using h
    by_cases hcol : into a v ∧ into b v
    · exact inA_of_anZ (h'.mid_ok.1 hcol)
    · by_cases hb : into b v
      · -- the edge towards `a` leaves `v`
        have ha : ¬ into a v := fun ha => hcol ⟨ha, hb⟩
        have hrev := act_reverse_aux hs _ h'
        have e : (p' ++ a :: v :: b :: s).reverse = (b :: s).reverse ++ v :: a :: p'.reverse := by simp
        rw [e] at hrev
        have hseg := hrev.suffix
        have hd : dir into v a := ⟨by
          rcases hinto v a hseg.adj_head with h1 | h1
          · exact h1
          · exact absurd h1 ha, ha⟩
        refine (inA_forward (x := y) (y := x) hinto hseg hd ?_).swap
        have : (v :: a :: p'.reverse) = ((p' ++ [a]) ++ [v]).reverse := by simp
        rw [this, List.getLast?_reverse]
        cases p' with
        | nil => simpa using hx
        | cons c p' => simpa using hx
      · have hseg : Act adj into (AnZ into Z) Z (v :: b :: s) := by
          have e : p' ++ a :: v :: b :: s = (p' ++ [a]) ++ v :: b :: s := by simp
          rw [e] at h'; exact h'.suffix
        have hd : dir into v b := ⟨by
          rcases hinto v b hseg.adj_head with h1 | h1
          · exact h1
          · exact absurd h1 hb, hb⟩
        refine inA_forward hinto hseg hd ?_
        rwa [getLast?_append_cons] at hy

/-- Decomposition of an active walk into steps of the augmented graph. -/
theorem decompose {A : α → Prop} {y : α} (hs : ∀ a b, adj a b → adj b a) (hZy : ¬ Z y) (rest : List α) :
    ∀ (w prev cur : α), Act adj into (AnZ into Z) Z (prev :: cur :: rest) →
      (∀ v ∈ prev :: cur :: rest, A v) →
      (prev :: cur :: rest).getLast? = some y →
      (prev = w ∨ (CW adj into A w prev ∧ into cur prev)) →
      ReflTransGen (augStep adj into A Z) w y := by
  induction rest with
  | nil =>
    intro w prev cur h hA hy hst
    have hcur : cur = y := by simpa using hy
    subst hcur
    refine ReflTransGen.single ⟨?_, hA _ (by simp), hZy⟩
    rcases hst with rfl | ⟨h1, h2⟩
    · exact Or.inl h.adj_head
    · exact Or.inr ⟨prev, h1, hs _ _ h.adj_head, h2⟩
  | cons c rest ih =>
    intro w prev cur h hA hy hst
    have hok := h.2.1
    have hy' : (cur :: c :: rest).getLast? = some y := by
      rwa [List.getLast?_cons_cons] at hy
    have hA' : ∀ v ∈ cur :: c :: rest, A v := fun v hv => hA v (List.mem_cons_of_mem _ hv)
    by_cases hcol : into prev cur ∧ into c cur
    · refine ih w cur c h.2.2 hA' hy' (Or.inr ⟨?_, hcol.2⟩)
      rcases hst with rfl | ⟨h1, h2⟩
      · exact CW.base h.adj_head hcol.1 (hA _ (by simp))
      · exact CW.step h1 h.adj_head hcol.1 h2 (hA _ (by simp))
    · have hz : ¬ Z cur := hok.2 hcol
      refine ReflTransGen.head ⟨?_, hA _ (by simp), hz⟩ (ih cur cur c h.2.2 hA' hy' (Or.inl rfl))
      rcases hst with rfl | ⟨h1, h2⟩
      · exact Or.inl h.adj_head
      · exact Or.inr ⟨prev, h1, hs _ _ h.adj_head, h2⟩

/-- An active walk gives a connection in the augmented graph. -/
theorem aug_of_act (hs : ∀ a b, adj a b → adj b a) (hinto : ∀ a b, adj a b → into a b ∨ into b a)
    {x y : α} (hZy : ¬ Z y) {l : List α} (hx : l.head? = some x) (hy : l.getLast? = some y)
    (h : Act adj into (AnZ into Z) Z l) :
    ReflTransGen (augStep adj into (InA into Z x y) Z) x y := by
  have hA := act_inA hs hinto hx hy h
  match l, hx, hy, h, hA with
  | [a], hx, hy, _, _ =>
    have : x = y := by simp at hx hy; rw [← hx, ← hy]
    subst this; exact ReflTransGen.refl
  | a :: b :: l, hx, hy, h, hA =>
    have : a = x := by simpa using hx
    subst this
    exact decompose hs hZy l a a b h hA hy (Or.inl rfl)

/-! ### From the augmented graph back to active walks -/

theorem okc_of_A {A : α → Prop} {a v b : α} (hA : A v) (hZ : ¬ Z v) : okc into A Z a v b :=
  ⟨fun _ => hA, fun _ => hZ⟩

/-- A collider walk as an active list (colliders in `A`). -/
theorem cw_list {A : α → Prop} {a c : α} (h : CW adj into A a c) :
    ∃ p r, (p ++ [r, c]).head? = some a ∧ into r c ∧ Act adj into A Z (p ++ [r, c]) ∧ A c := by
  induction h with
  | base h1 h2 h3 => exact ⟨[], a, by simp, h2, h1, h3⟩
  | @step c d _ h1 h2 h3 h4 ih =>
    obtain ⟨p, r, hh, hi, ha, hAc⟩ := ih
    refine ⟨p ++ [r], c, ?_, h2, ?_, h4⟩
    · cases p <;> simpa using hh
    · have : p ++ [r] ++ [c, d] = p ++ r :: c :: d :: [] := by simp
      rw [this]
      exact ha.glue (s := []) h1 ⟨fun _ => hAc, fun hn => absurd ⟨hi, h3⟩ hn⟩

/-- A connection in the augmented graph gives a walk whose colliders are in `A` and whose non-colliders
avoid `Z`. -/
theorem actA_of_aug (hs : ∀ a b, adj a b → adj b a) {A : α → Prop} {x y : α} (hAx : A x) (hZx : ¬ Z x)
    (h : ReflTransGen (augStep adj into A Z) x y) :
    ∃ l : List α, l.head? = some x ∧ l.getLast? = some y ∧ Act adj into A Z l := by
  have key : ∀ y, ReflTransGen (augStep adj into A Z) x y →
      (A y ∧ ¬ Z y) ∧ ∃ l : List α, l.head? = some x ∧ l.getLast? = some y ∧ Act adj into A Z l := by
    intro y h
    induction h with
    | refl => exact ⟨⟨hAx, hZx⟩, [x], by simp, by simp, trivial⟩
    | @tail b c _ hbc ih =>
      obtain ⟨⟨hAb, hZb⟩, l, hl1, hl2, hl3⟩ := ih
      refine ⟨⟨hbc.2.1, hbc.2.2⟩, ?_⟩
      -- a walk from b to c
      have hseg : ∃ s, (b :: s).getLast? = some c ∧ Act adj into A Z (b :: s) := by
        rcases hbc.1 with h1 | ⟨d, hcw, hcd, hi⟩
        · exact ⟨[c], by simp, h1⟩
        · obtain ⟨p, r, hh, hr, ha, hAd⟩ := cw_list (Z := Z) hcw
          have hg : Act adj into A Z (p ++ r :: d :: c :: []) :=
            ha.glue (s := []) (hs _ _ hcd) ⟨fun _ => hAd, fun hn => absurd ⟨hr, hi⟩ hn⟩
          cases p with
          | nil =>
            have hrb : r = b := by simpa using hh
            subst hrb
            exact ⟨[d, c], by simp, by simpa using hg⟩
          | cons e p =>
            have hrb : e = b := by simpa using hh
            subst hrb
            exact ⟨p ++ r :: d :: c :: [], by simp [List.getLast?_cons], by simpa using hg⟩
      obtain ⟨s, hs1, hs2⟩ := hseg
      have hlne : l ≠ [] := by rintro rfl; simp at hl1
      rcases List.eq_nil_or_concat l with h0 | ⟨l', b', rfl⟩
      · exact absurd h0 hlne
      have hb' : b' = b := by simpa using hl2
      subst hb'
      rcases List.eq_nil_or_concat l' with rfl | ⟨l'', a, rfl⟩
      · have : b' = x := by simpa using hl1
        subst this
        exact ⟨b' :: s, by simp, hs1, hs2⟩
      · cases s with
        | nil =>
          have : b' = c := by simpa using hs1
          subst this
          exact ⟨_, hl1, hl2, hl3⟩
        | cons q s =>
          refine ⟨l'' ++ a :: b' :: q :: s, ?_, ?_, ?_⟩
          · cases l'' <;> simpa using hl1
          · rw [List.getLast?_append]
            simp only [List.getLast?_cons_cons] at hs1 ⊢
            rw [hs1]; simp
          · have : Act adj into A Z (l'' ++ [a, b']) := by simpa using hl3
            exact this.glue hs2 (okc_of_A hAb hZb)
  exact (key y h).2

/-- A directed path avoiding `Z` as an active list. -/
theorem dir_list {C : α → Prop} (hda : ∀ a b, dir into a b → adj a b) {u y : α}
    (h : ReflTransGen (dir into) u y) (hZ : ¬ AnZ into Z u) :
    ∃ s, (u :: s).getLast? = some y ∧ Act adj into C Z (u :: s) ∧
      (∀ q t, s = q :: t → dir into u q) := by
  induction h using ReflTransGen.head_induction_on with
  | refl => exact ⟨[], by simp, trivial, by simp⟩
  | @head a c hac hcy ih =>
    have hc : ¬ AnZ into Z c := fun h => hZ (anZ_of_dir hac h)
    obtain ⟨s, h1, h2, h3⟩ := ih hc
    refine ⟨c :: s, ?_, ?_, ?_⟩
    · simpa [List.getLast?_cons_cons] using h1
    · rw [act_cons]
      refine ⟨hda _ _ hac, ?_, h2⟩
      rintro q t rfl
      have hcq := h3 q t rfl
      refine ⟨fun hh => absurd hh.2 hcq.2, fun _ hz => hc ⟨c, hz, ReflTransGen.refl⟩⟩
    · rintro q t hqt
      cases hqt; exact hac

/-- Repairing the colliders that are ancestors of an end point only. -/
theorem repair (hs : ∀ a b, adj a b → adj b a) (hda : ∀ a b, dir into a b → adj a b) {x y : α} (rest : List α) :
    ∀ (q : List α) (prev cur : α),
      (q ++ [prev, cur]).head? = some x →
      Act adj into (AnZ into Z) Z (q ++ [prev, cur]) →
      Act adj into (InA into Z x y) Z (prev :: cur :: rest) →
      (prev :: cur :: rest).getLast? = some y →
      ∃ l : List α, l.head? = some x ∧ l.getLast? = some y ∧ Act adj into (AnZ into Z) Z l := by
  induction rest with
  | nil =>
    intro q prev cur hx ha _ hy
    refine ⟨_, hx, ?_, ha⟩
    have : cur = y := by simpa using hy
    simp [this]
  | cons c rest ih =>
    intro q prev cur hx ha hA hy
    have hy' : (cur :: c :: rest).getLast? = some y := by
      rwa [List.getLast?_cons_cons] at hy
    have hadj : adj cur c := hA.2.2.adj_head
    by_cases hok : okc into (AnZ into Z) Z prev cur c
    · have hext : Act adj into (AnZ into Z) Z ((q ++ [prev]) ++ [cur, c]) := by
        have e : (q ++ [prev]) ++ [cur, c] = q ++ prev :: cur :: c :: [] := by simp
        rw [e]; exact ha.glue (s := []) hadj hok
      refine ih (q ++ [prev]) cur c ?_ hext hA.2.2 hy'
      cases q <;> simpa using hx
    · have hcol : into prev cur ∧ into c cur := by
        by_contra hn
        exact hok ⟨fun h => absurd h hn, fun _ => hA.2.1.2 hn⟩
      have hcurA : InA into Z x y cur := hA.2.1.1 hcol
      have hnZ : ¬ AnZ into Z cur := fun h => hok ⟨fun _ => h, fun hn => absurd hcol hn⟩
      obtain ⟨w, hw, hp⟩ := hcurA
      rcases hw with rfl | rfl | hw
      · -- ancestor of the start: restart the walk along the directed path
        obtain ⟨s, h1, h2, h3⟩ := dir_list (C := AnZ into Z) hda hp hnZ
        have hrev := act_reverse_aux hs _ h2
        cases s with
        | nil =>
          have : cur = w := by simpa using h1
          subst this
          exact ih [] cur c (by simp) hadj hA.2.2 hy'
        | cons d s =>
          have hd := h3 d s rfl
          have e : (cur :: d :: s).reverse = s.reverse ++ [d, cur] := by simp
          rw [e] at hrev
          have hext : Act adj into (AnZ into Z) Z ((s.reverse ++ [d]) ++ [cur, c]) := by
            have e : (s.reverse ++ [d]) ++ [cur, c] = s.reverse ++ d :: cur :: c :: [] := by simp
            rw [e]
            refine hrev.glue (s := []) hadj ⟨fun hh => absurd hh.1 hd.2, fun _ hz => hnZ ⟨cur, hz, ReflTransGen.refl⟩⟩
          refine ih (s.reverse ++ [d]) cur c ?_ hext hA.2.2 hy'
          have : (s.reverse ++ [d] ++ [cur, c]).head? = (cur :: d :: s).getLast? := by
            rw [← List.head?_reverse, e]
            cases s.reverse <;> simp
          rw [this]; exact h1
      · -- ancestor of the end: finish along the directed path
        obtain ⟨s, h1, h2, h3⟩ := dir_list (C := AnZ into Z) hda hp hnZ
        cases s with
        | nil =>
          have : cur = w := by simpa using h1
          subst this
          exact ⟨_, hx, by simp, ha⟩
        | cons d s =>
          have hd := h3 d s rfl
          refine ⟨q ++ prev :: cur :: d :: s, ?_, ?_, ha.glue h2
            ⟨fun hh => absurd hh.2 hd.2, fun _ hz => hnZ ⟨cur, hz, ReflTransGen.refl⟩⟩⟩
          · cases q <;> simpa using hx
          · rw [List.getLast?_append]
            simp only [List.getLast?_cons_cons] at h1 ⊢
            rw [h1]; simp
      · exact absurd ⟨w, hw, hp⟩ hnZ

theorem act_of_aug (hs : ∀ a b, adj a b → adj b a) (hda : ∀ a b, dir into a b → adj a b)
    {x y : α} (hZx : ¬ Z x)
    (h : ReflTransGen (augStep adj into (InA into Z x y) Z) x y) :
    ∃ l : List α, l.head? = some x ∧ l.getLast? = some y ∧ Act adj into (AnZ into Z) Z l := by
  obtain ⟨l, h1, h2, h3⟩ := actA_of_aug hs ⟨x, Or.inl rfl, ReflTransGen.refl⟩ hZx h
  match l, h1, h2, h3 with
  | [a], h1, h2, _ => exact ⟨[a], h1, h2, trivial⟩
  | a :: b :: rest, h1, h2, h3 =>
    exact repair hs hda rest [] a b (by simpa using h1) h3.adj_head h3 h2

/-- **Moralisation theorem.** Two nodes outside `Z` are joined by an active path given `Z` iff they are joined
in the augmented graph of the ancestors of `x, y, Z` by a walk avoiding `Z`. -/
theorem act_path_iff_aug (hs : ∀ a b, adj a b → adj b a) (hirr : ∀ a, ¬ adj a a)
    (hia : ∀ a b, into a b → adj a b)
    (hinto : ∀ a b, adj a b → into a b ∨ into b a) {x y : α} (hZx : ¬ Z x) (hZy : ¬ Z y) :
    (∃ l : List α, l.Nodup ∧ l.head? = some x ∧ l.getLast? = some y ∧ Act adj into (AnZ into Z) Z l) ↔
      ReflTransGen (augStep adj into (InA into Z x y) Z) x y := by
  constructor
  · rintro ⟨l, _, h1, h2, h3⟩
    exact aug_of_act hs hinto hZy h1 h2 h3
  · intro h
    obtain ⟨l, h1, h2, h3⟩ := act_of_aug hs (fun a b h => hia a b h.1) hZx h
    exact exists_nodup hirr hinto l h1 h2 h3

end Verif.Walk
