import Verif.Lemmas.PagQuery

/-!
# Discriminating path search and edge visibility in PAGs
-/

namespace Verif
open Relation

/-- A walk starts with a step after which the reached node is not visited again. -/
theorem rtg_head_avoid {α : Type} {r : α → α → Prop} {a u : α} (h : ReflTransGen r a u) :
    u = a ∨ ∃ t, r a t ∧ ReflTransGen (fun x y => r x y ∧ y ≠ t) t u := by
  obtain ⟨l, h1, h2, h3⟩ := exists_path_of_rtg h
  cases l with
  | nil => simp only [List.getLast?_singleton, Option.some.injEq] at h3; exact Or.inl h3.symm
  | cons t l =>
    rw [List.isChain_cons_cons] at h2
    rw [List.getLast?_cons_cons] at h3
    refine Or.inr ⟨t, h2.1, rtg_of_path l t ?_ h3⟩
    have hnd := (List.nodup_cons.1 h1).2
    have h4 := h2.2
    rw [List.isChain_iff_getElem] at h4 ⊢
    intro i hi
    refine ⟨h4 i hi, fun h => ?_⟩
    have := (List.nodup_cons.1 hnd).1
    apply this
    rw [← h]
    simp only [List.getElem_cons_succ]
    exact List.getElem_mem _

namespace MG
variable {α : Type} [DecidableEq α]

/-- One step of the search: `s <-> t`, `t` a parent of `c`, `t` in the pool. -/
def DStep (G : MG α) (c : α) (pool : Finset α) (s t : α) : Prop :=
  G.At t s .arrow ∧ G.At s t .arrow ∧ G.Par t c ∧ t ∈ pool

/-- `d` is a source for the search from `a`. -/
def DSrc (G : MG α) (c : α) (pool : Finset α) (a d : α) : Prop :=
  ∃ u, ReflTransGen (G.DStep c pool) a u ∧ d ∈ pool ∧ G.At d u .arrow ∧ ¬ G.MAdj d c

omit [DecidableEq α] in
theorem Par.adj {G : MG α} {a b : α} (h : G.Par a b) : G.MAdj a b := Or.inl ⟨_, h.1⟩

theorem isParent_iff {G : MG α} {a b : α} : G.isParent a b = true ↔ G.Par a b := by
  simp [isParent, Par, At]

theorem discRecScan_spec {G : MG α} (hG : G.Proper) {a c : α} :
    ∀ (ds : List α) (acc : Finset α), (∀ d ∈ ds, d ≠ c) →
      ∃ r, discRecScan G a c ds acc = .ok r ∧ (∀ d, r = .inl d → d ∈ ds ∧ ¬ G.MAdj d c) ∧
        (∀ S, r = .inr S → (∀ d ∈ ds, G.MAdj d c) ∧
          ∀ x, x ∈ S ↔ x ∈ acc ∨ x ∈ ds ∧ G.Par x c ∧ G.At a x .arrow) := by
  intro ds
  induction ds with
  | nil => intro acc _; exact ⟨.inr acc, rfl, by simp, by rintro S h; cases h; simp⟩
  | cons d ds ih =>
    intro acc hne
    obtain ⟨b, hb, hb'⟩ := proper_isConnected hG.type (hne d (by simp))
    cases b with
    | false =>
      refine ⟨.inl d, by simp [discRecScan, hb, bind, Except.bind, pure, Except.pure], ?_, by simp⟩
      rintro d' h
      cases h
      exact ⟨by simp, fun h => by simpa using hb'.2 h⟩
    | true =>
      have had := hb'.1 rfl
      by_cases hp : G.isParent d c ∧ a ∈ G.g d .arrow
      · obtain ⟨r, h1, h2, h3⟩ := ih (insert d acc) (fun x hx => hne x (by simp [hx]))
        refine ⟨r, by simp [discRecScan, hb, hp, h1, bind, Except.bind], ?_, ?_⟩
        · intro d' h
          exact ⟨by simp [(h2 d' h).1], (h2 d' h).2⟩
        · intro S hS
          obtain ⟨g1, g2⟩ := h3 S hS
          refine ⟨?_, fun x => ?_⟩
          · intro x hx
            rcases List.mem_cons.1 hx with rfl | hx
            · exact had
            · exact g1 x hx
          · rw [g2, Finset.mem_insert, List.mem_cons]
            have hp' : G.Par d c ∧ G.At a d .arrow := ⟨isParent_iff.1 hp.1, hp.2⟩
            constructor
            · rintro ((rfl | h) | h)
              · exact Or.inr ⟨Or.inl rfl, hp'⟩
              · exact Or.inl h
              · exact Or.inr ⟨Or.inr h.1, h.2⟩
            · rintro (h | ⟨rfl | h, h'⟩)
              · exact Or.inl (Or.inr h)
              · exact Or.inl (Or.inl rfl)
              · exact Or.inr ⟨h, h'⟩
      · obtain ⟨r, h1, h2, h3⟩ := ih acc (fun x hx => hne x (by simp [hx]))
        refine ⟨r, ?_, ?_, ?_⟩
        · simp only [discRecScan, hb, bind, Except.bind, Bool.not_true, Bool.false_eq_true, if_false, if_neg hp, h1]
        · intro d' h
          exact ⟨by simp [(h2 d' h).1], (h2 d' h).2⟩
        · intro S hS
          obtain ⟨g1, g2⟩ := h3 S hS
          refine ⟨?_, fun x => ?_⟩
          · intro x hx
            rcases List.mem_cons.1 hx with rfl | hx
            · exact had
            · exact g1 x hx
          · rw [g2, List.mem_cons]
            have hp' : ¬ (G.Par d c ∧ G.At a d .arrow) := fun h => hp ⟨isParent_iff.2 h.1, h.2⟩
            constructor
            · rintro (h | h)
              · exact Or.inl h
              · exact Or.inr ⟨Or.inr h.1, h.2⟩
            · rintro (h | ⟨rfl | h, h'⟩)
              · exact Or.inl h
              · exact absurd h' hp'
              · exact Or.inr ⟨h, h'⟩

theorem discRecFuel_spec (o : SetOrder α) {G : MG α} (hG : G.Proper) {b c : α} :
    ∀ (n : Nat) (a : α) (pool : Finset α), pool.card < n → b ∉ pool → c ∉ pool → a ∉ pool →
      ∃ r, discRecFuel o G b c n a pool = .ok r ∧ (∀ d, r = some d → G.DSrc c pool a d) ∧
        (r = none → ∀ d, ¬ G.DSrc c pool a d) := by
  intro n
  induction n with
  | zero => intro a pool h; omega
  | succ n ih =>
    intro a pool hc hb hcc ha
    have hmem : ∀ d, d ∈ o.iter (a, pool) ((G.g a .arrow \ {a, b, c}) ∩ pool) ↔ G.At d a .arrow ∧ d ∈ pool := by
      intro d
      simp only [o.mem, Finset.mem_inter, Finset.mem_sdiff, Finset.mem_insert, Finset.mem_singleton, not_or, At]
      constructor
      · rintro ⟨⟨h1, _⟩, h2⟩
        exact ⟨h1, h2⟩
      · rintro ⟨h1, h2⟩
        refine ⟨⟨h1, ?_, ?_, ?_⟩, h2⟩
        · rintro rfl; exact ha h2
        · rintro rfl; exact hb h2
        · rintro rfl; exact hcc h2
    obtain ⟨r, h1, h2, h3⟩ := discRecScan_spec hG (a := a) (c := c)
      (o.iter (a, pool) ((G.g a .arrow \ {a, b, c}) ∩ pool)) ∅ (by
        intro d hd
        rw [hmem] at hd
        rintro rfl
        exact hcc hd.2)
    cases r with
    | inl d =>
      refine ⟨some d, by simp [discRecFuel, h1, bind, Except.bind, pure, Except.pure], ?_, by simp⟩
      rintro d' hd'
      cases hd'
      obtain ⟨g1, g2⟩ := h2 d rfl
      rw [hmem] at g1
      exact ⟨a, .refl, g1.2, g1.1, g2⟩
    | inr new =>
      obtain ⟨g1, g2⟩ := h3 new rfl
      have hnew : ∀ x, x ∈ new ↔ G.DStep c pool a x := by
        intro x
        rw [g2, hmem]
        simp only [Finset.notMem_empty, false_or, DStep]
        tauto
      have hrec : ∀ x ∈ o.iter (a, pool, 1) new, ∃ r, discRecFuel o G b c n x (pool.erase x) = .ok r ∧
          (∀ d, r = some d → G.DSrc c (pool.erase x) x d) ∧ (r = none → ∀ d, ¬ G.DSrc c (pool.erase x) x d) := by
        intro x hx
        rw [o.mem, hnew] at hx
        refine ih x (pool.erase x) ?_ (fun h => hb (Finset.mem_of_mem_erase h)) (fun h => hcc (Finset.mem_of_mem_erase h))
          (by simp)
        have := Finset.card_erase_lt_of_mem hx.2.2.2
        omega
      obtain ⟨r, k1, k2, k3⟩ := forFind_spec (f := fun a' => discRecFuel o G b c n a' (pool.erase a'))
        (o.iter (a, pool, 1) new) (fun x hx => by obtain ⟨r, hr, _⟩ := hrec x hx; exact ⟨r, hr⟩)
      refine ⟨r, by simp [discRecFuel, h1, k1, bind, Except.bind], ?_, ?_⟩
      · intro d hd
        obtain ⟨x, hx, hx'⟩ := k2 d hd
        obtain ⟨r', e1, e2, _⟩ := hrec x hx
        rw [hx'] at e1
        cases e1
        obtain ⟨u, f1, f2, f3, f4⟩ := e2 d rfl
        rw [o.mem, hnew] at hx
        refine ⟨u, ReflTransGen.head hx (rtg_mono ?_ f1), Finset.mem_of_mem_erase f2, f3, f4⟩
        rintro s t ⟨q1, q2, q3, q4⟩
        exact ⟨q1, q2, q3, Finset.mem_of_mem_erase q4⟩
      · rintro hn d ⟨u, f1, f2, f3, f4⟩
        rcases rtg_head_avoid f1 with rfl | ⟨t, e1, e2⟩
        · exact f4 (g1 d ((hmem d).2 ⟨f3, f2⟩))
        · have ht : t ∈ o.iter (a, pool, 1) new := by rw [o.mem, hnew]; exact e1
          obtain ⟨r', q1, _, q3⟩ := hrec t ht
          have := k3 hn t ht
          rw [this] at q1
          cases q1
          refine q3 rfl d ⟨u, rtg_mono ?_ e2, Finset.mem_erase.2 ⟨?_, f2⟩, f3, f4⟩
          · rintro s t' ⟨⟨q1, q2, q3, q4⟩, q5⟩
            exact ⟨q1, q2, q3, Finset.mem_erase.2 ⟨q5, q4⟩⟩
          · rintro rfl
            exact f4 e1.2.2.1.adj

theorem discScan_spec {G : MG α} (hG : G.Proper) {cur c : α} {visited : Finset α} :
    ∀ (ds : List α) (next : Finset α), (∀ d ∈ ds, d ≠ c) →
      ∃ r, discScan G cur c visited ds next = .ok r ∧ (∀ d, r = .inl d → d ∈ ds ∧ ¬ G.MAdj d c) ∧
        (∀ S, r = .inr S → (∀ d ∈ ds, G.MAdj d c) ∧
          ∀ x, x ∈ S ↔ x ∈ next ∨ x ∈ ds ∧ x ∉ visited ∧ G.Par x c ∧ G.At cur x .arrow) := by
  intro ds
  induction ds with
  | nil => intro acc _; exact ⟨.inr acc, rfl, by simp, by rintro S h; cases h; simp⟩
  | cons d ds ih =>
    intro acc hne
    obtain ⟨b, hb, hb'⟩ := proper_isConnected hG.type (hne d (by simp))
    cases b with
    | false =>
      refine ⟨.inl d, by simp [discScan, hb, bind, Except.bind, pure, Except.pure], ?_, by simp⟩
      rintro d' h
      cases h
      exact ⟨by simp, fun h => by simpa using hb'.2 h⟩
    | true =>
      have had := hb'.1 rfl
      by_cases hp : d ∉ visited ∧ G.isParent d c ∧ cur ∈ G.g d .arrow
      · obtain ⟨r, h1, h2, h3⟩ := ih (insert d acc) (fun x hx => hne x (by simp [hx]))
        refine ⟨r, by simp [discScan, hb, hp, h1, bind, Except.bind], ?_, ?_⟩
        · intro d' h
          exact ⟨by simp [(h2 d' h).1], (h2 d' h).2⟩
        · intro S hS
          obtain ⟨g1, g2⟩ := h3 S hS
          refine ⟨?_, fun x => ?_⟩
          · intro x hx
            rcases List.mem_cons.1 hx with rfl | hx
            · exact had
            · exact g1 x hx
          · rw [g2, Finset.mem_insert, List.mem_cons]
            have hp' : d ∉ visited ∧ G.Par d c ∧ G.At cur d .arrow := ⟨hp.1, isParent_iff.1 hp.2.1, hp.2.2⟩
            constructor
            · rintro ((rfl | h) | h)
              · exact Or.inr ⟨Or.inl rfl, hp'⟩
              · exact Or.inl h
              · exact Or.inr ⟨Or.inr h.1, h.2⟩
            · rintro (h | ⟨rfl | h, h'⟩)
              · exact Or.inl (Or.inr h)
              · exact Or.inl (Or.inl rfl)
              · exact Or.inr ⟨h, h'⟩
      · obtain ⟨r, h1, h2, h3⟩ := ih acc (fun x hx => hne x (by simp [hx]))
        refine ⟨r, ?_, ?_, ?_⟩
        · simp only [discScan, hb, bind, Except.bind, Bool.not_true, Bool.false_eq_true, if_false, if_neg hp, h1]
        · intro d' h
          exact ⟨by simp [(h2 d' h).1], (h2 d' h).2⟩
        · intro S hS
          obtain ⟨g1, g2⟩ := h3 S hS
          refine ⟨?_, fun x => ?_⟩
          · intro x hx
            rcases List.mem_cons.1 hx with rfl | hx
            · exact had
            · exact g1 x hx
          · rw [g2, List.mem_cons]
            have hp' : ¬ (d ∉ visited ∧ G.Par d c ∧ G.At cur d .arrow) := fun h => hp ⟨h.1, isParent_iff.2 h.2.1, h.2.2⟩
            constructor
            · rintro (h | h)
              · exact Or.inl h
              · exact Or.inr ⟨Or.inr h.1, h.2⟩
            · rintro (h | ⟨rfl | h, h'⟩)
              · exact Or.inl h
              · exact absurd h' hp'
              · exact Or.inr ⟨h, h'⟩

theorem discFrontier_spec (o : SetOrder α) {G : MG α} (hG : G.Proper) {b c : α} {pool visited : Finset α}
    (hb : b ∉ pool) (hc : c ∉ pool) :
    ∀ (curs : List α) (next : Finset α),
      ∃ r, discFrontier o G b c pool visited curs next = .ok r ∧
        (∀ d, r = .inl d → ∃ cur ∈ curs, d ∈ pool ∧ G.At d cur .arrow ∧ ¬ G.MAdj d c) ∧
        (∀ S, r = .inr S → (∀ cur ∈ curs, ∀ d ∈ pool, G.At d cur .arrow → G.MAdj d c) ∧
          ∀ x, x ∈ S ↔ x ∈ next ∨ x ∉ visited ∧ ∃ cur ∈ curs, G.DStep c pool cur x) := by
  intro curs
  induction curs with
  | nil => intro next; exact ⟨.inr next, rfl, by simp, by rintro S h; cases h; simp⟩
  | cons cur curs ih =>
    intro next
    have hmem : ∀ d, d ∈ o.iter (cur, visited) ((G.g cur .arrow \ {b, c}) ∩ pool) ↔ G.At d cur .arrow ∧ d ∈ pool := by
      intro d
      simp only [o.mem, Finset.mem_inter, Finset.mem_sdiff, Finset.mem_insert, Finset.mem_singleton, not_or, At]
      constructor
      · rintro ⟨⟨h1, _⟩, h2⟩
        exact ⟨h1, h2⟩
      · rintro ⟨h1, h2⟩
        refine ⟨⟨h1, ?_, ?_⟩, h2⟩
        · rintro rfl; exact hb h2
        · rintro rfl; exact hc h2
    obtain ⟨r, h1, h2, h3⟩ := discScan_spec hG (cur := cur) (c := c) (visited := visited)
      (o.iter (cur, visited) ((G.g cur .arrow \ {b, c}) ∩ pool)) next (by
        intro d hd
        rw [hmem] at hd
        rintro rfl
        exact hc hd.2)
    cases r with
    | inl d =>
      refine ⟨.inl d, by simp [discFrontier, h1, bind, Except.bind, pure, Except.pure], ?_, by simp⟩
      rintro d' hd'
      cases hd'
      obtain ⟨g1, g2⟩ := h2 d rfl
      rw [hmem] at g1
      exact ⟨cur, by simp, g1.2, g1.1, g2⟩
    | inr next' =>
      obtain ⟨g1, g2⟩ := h3 next' rfl
      obtain ⟨r, k1, k2, k3⟩ := ih next'
      refine ⟨r, by simp [discFrontier, h1, k1, bind, Except.bind], ?_, ?_⟩
      · intro d hd
        obtain ⟨cur', h, h'⟩ := k2 d hd
        exact ⟨cur', by simp [h], h'⟩
      · intro S hS
        obtain ⟨e1, e2⟩ := k3 S hS
        refine ⟨?_, fun x => ?_⟩
        · intro cur' hcur' d hd hda
          rcases List.mem_cons.1 hcur' with rfl | h
          · exact g1 d ((hmem d).2 ⟨hda, hd⟩)
          · exact e1 cur' h d hd hda
        · rw [e2, g2, hmem]
          simp only [List.mem_cons, exists_eq_or_imp, DStep]
          tauto

theorem discLoop_spec (o : SetOrder α) {G : MG α} (hG : G.Proper) {a b c : α} {pool : Finset α}
    (hb : b ∉ pool) (hc : c ∉ pool) :
    ∀ (n : Nat) (frontier visited : Finset α),
      (pool \ visited).card + 2 ≤ n ∨ (frontier.card = 0 ∧ 1 ≤ n) →
      (∀ x ∈ frontier, x ∈ visited ∧ ReflTransGen (G.DStep c pool) a x) →
      (∀ x, ReflTransGen (G.DStep c pool) a x → x ∈ visited → x ∉ frontier →
        (∀ t, G.DStep c pool x t → t ∈ visited) ∧ ∀ d ∈ pool, G.At d x .arrow → G.MAdj d c) →
      a ∈ visited →
      ∃ r, discLoop o G b c pool n frontier visited = .ok r ∧ (∀ d, r = some d → G.DSrc c pool a d) ∧
        (r = none → ∀ d, ¬ G.DSrc c pool a d) := by
  intro n
  induction n with
  | zero => intro f v h; omega
  | succ n ih =>
    intro frontier visited hfuel hf hcl ha
    by_cases hz : frontier.card = 0
    · refine ⟨none, by simp [discLoop, hz], by simp, fun _ d hd => ?_⟩
      have hfe : frontier = ∅ := Finset.card_eq_zero.1 hz
      obtain ⟨u, h1, h2, h3, h4⟩ := hd
      have hu : u ∈ visited ∧ ReflTransGen (G.DStep c pool) a u := by
        induction h1 with
        | refl => exact ⟨ha, .refl⟩
        | tail h5 h6 ih' =>
          refine ⟨?_, h5.tail h6⟩
          rename_i v w
          -- v is visited by induction on the walk
          have hv : v ∈ visited := by
            clear ih' h3 h6
            induction h5 with
            | refl => exact ha
            | tail h7 h8 ih'' => exact (hcl _ h7 ih'' (by simp [hfe])).1 _ h8
          exact (hcl v h5 hv (by simp [hfe])).1 _ h6
      exact h4 ((hcl u hu.2 hu.1 (by simp [hfe])).2 d h2 h3)
    · have hfuel' : (pool \ visited).card + 2 ≤ n + 1 := by
        rcases hfuel with h | h
        · exact h
        · exact absurd h.1 hz
      obtain ⟨r, h1, h2, h3⟩ := discFrontier_spec o hG (visited := visited) hb hc (o.iter n frontier) ∅
      cases r with
      | inl d =>
        refine ⟨some d, by simp [discLoop, hz, h1, bind, Except.bind, pure, Except.pure], ?_, by simp⟩
        rintro d' hd'
        cases hd'
        obtain ⟨cur, g1, g2, g3, g4⟩ := h2 d rfl
        rw [o.mem] at g1
        exact ⟨cur, (hf cur g1).2, g2, g3, g4⟩
      | inr next =>
        obtain ⟨g1, g2⟩ := h3 next rfl
        have hnext : ∀ x, x ∈ next ↔ x ∉ visited ∧ ∃ cur ∈ frontier, G.DStep c pool cur x := by
          intro x
          rw [g2]
          simp only [Finset.notMem_empty, false_or, o.mem]
        have hval : discLoop o G b c pool (n + 1) frontier visited = discLoop o G b c pool n next (visited ∪ next) := by
          simp only [discLoop, hz, if_false, h1, bind, Except.bind]
        rw [hval]
        apply ih
        · by_cases hne : next.card = 0
          · right
            refine ⟨hne, ?_⟩
            omega
          · left
            have hlt : (pool \ (visited ∪ next)).card < (pool \ visited).card := by
              apply Finset.card_lt_card
              refine Finset.ssubset_iff_subset_ne.2 ⟨?_, ?_⟩
              · intro x hx
                simp only [Finset.mem_sdiff, Finset.mem_union, not_or] at hx ⊢
                exact ⟨hx.1, hx.2.1⟩
              · intro h
                obtain ⟨x, hx⟩ := Finset.card_pos.1 (Nat.pos_of_ne_zero hne)
                have hx' := (hnext x).1 hx
                obtain ⟨cur, _, hcur⟩ := hx'.2
                have : x ∈ pool \ visited := Finset.mem_sdiff.2 ⟨hcur.2.2.2, hx'.1⟩
                rw [← h] at this
                simp [hx] at this
            omega
        · intro x hx
          obtain ⟨_, cur, hcur, hs⟩ := (hnext x).1 hx
          exact ⟨by simp [hx], (hf cur hcur).2.tail hs⟩
        · intro x hx hxv hxn
          have hxv' : x ∈ visited := by
            rcases Finset.mem_union.1 hxv with h | h
            · exact h
            · exact absurd h hxn
          by_cases hxf : x ∈ frontier
          · refine ⟨fun t ht => ?_, g1 x (by rw [o.mem]; exact hxf)⟩
            by_cases htv : t ∈ visited
            · simp [htv]
            · simp [(hnext t).2 ⟨htv, x, hxf, ht⟩]
          · obtain ⟨e1, e2⟩ := hcl x hx hxv' hxf
            exact ⟨fun t ht => by simp [e1 t ht], e2⟩
        · simp [ha]

theorem findDisc_src (o : SetOrder α) {G : MG α} (hG : G.Proper) (a b c : α) :
    ∃ r, G.findDisc o a b c = .ok r ∧ (∀ d, r = some d → G.DSrc c (G.nodes \ {a, b, c}) a d) ∧
      (r = none → ∀ d, ¬ G.DSrc c (G.nodes \ {a, b, c}) a d) := by
  refine discLoop_spec o hG (by simp) (by simp) _ {a} {a, b, c} ?_ ?_ ?_ (by simp)
  · left
    have : ((G.nodes \ {a, b, c}) \ {a, b, c}).card ≤ G.nodes.card :=
      Finset.card_le_card (Finset.sdiff_subset.trans Finset.sdiff_subset)
    omega
  · intro x hx
    rw [Finset.mem_singleton] at hx
    subst hx
    exact ⟨by simp, .refl⟩
  · intro x hx hv hf
    exfalso
    rcases ReflTransGen.cases_tail hx with rfl | ⟨w, _, h⟩
    · exact hf (by simp)
    · have := h.2.2.2
      simp only [Finset.mem_sdiff] at this
      exact this.2 hv

theorem findDiscRec_src (o : SetOrder α) {G : MG α} (hG : G.Proper) (a b c : α) :
    ∃ r, G.findDiscRec o a b c = .ok r ∧ (∀ d, r = some d → G.DSrc c (G.nodes \ {a, b, c}) a d) ∧
      (r = none → ∀ d, ¬ G.DSrc c (G.nodes \ {a, b, c}) a d) :=
  discRecFuel_spec o hG _ a _ (Nat.lt_succ_of_le (Finset.card_le_card Finset.sdiff_subset)) (by simp) (by simp) (by simp)

omit [DecidableEq α] in
theorem infix_two_cons {u v x : α} {l : List α} (h : [u, v] <:+: x :: l) :
    (x = u ∧ ∃ t, l = v :: t) ∨ [u, v] <:+: l := by
  rcases List.infix_cons_iff.1 h with ⟨t, ht⟩ | h
  · simp only [List.cons_append, List.nil_append, List.cons.injEq] at ht
    exact Or.inl ⟨ht.1.symm, t, ht.2.symm⟩
  · exact Or.inr h

/-- Sources of the search are the ends of discriminating paths. -/
theorem dsrc_iff {G : MG α} (hG : G.Proper) {a b c d : α} (hab : a ≠ b) (hac : a ≠ c) :
    G.DSrc c (G.nodes \ {a, b, c}) a d ↔ ∃ l, G.DiscPath a b c d l := by
  constructor
  · rintro ⟨u, h1, h2, h3, h4⟩
    simp only [Finset.mem_sdiff, Finset.mem_insert, Finset.mem_singleton, not_or] at h2
    obtain ⟨l, g1, g2, g3⟩ := exists_path_of_rtg h1
    have hl : ∀ v ∈ l, G.Par v c ∧ v ≠ b ∧ v ≠ c := by
      intro v hv
      obtain ⟨i, hi, rfl⟩ := List.getElem_of_mem hv
      rw [List.isChain_iff_getElem] at g2
      have := g2 i (by simpa using hi)
      simp only [List.getElem_cons_succ] at this
      have h5 := this.2.2.2
      simp only [Finset.mem_sdiff, Finset.mem_insert, Finset.mem_singleton, not_or] at h5
      exact ⟨this.2.2.1, h5.2.2.1, h5.2.2.2⟩
    have key : ∀ (P : Finset α) (l : List α) (a : α), (a :: l).IsChain (G.DStep c P) → (a :: l).getLast? = some u →
        (∀ x y, [x, y] <:+: a :: (l ++ [d]) → G.At y x .arrow) ∧
        (∀ x y z, [x, y, z] <:+: a :: (l ++ [d]) → G.At x y .arrow ∧ G.Par y c) := by
      intro P l
      induction l with
      | nil =>
        intro a _ h
        simp only [List.getLast?_singleton, Option.some.injEq] at h
        subst h
        refine ⟨fun x y h => ?_, fun x y z h => ?_⟩
        · rcases infix_two_cons h with ⟨rfl, t, ht⟩ | h
          · simp only [List.nil_append, List.cons.injEq] at ht
            rw [← ht.1]; exact h3
          · have := h.length_le
            simp at this
        · have := h.length_le
          simp at this
      | cons v l ih =>
        intro a hch hlast
        rw [List.isChain_cons_cons] at hch
        rw [List.getLast?_cons_cons] at hlast
        obtain ⟨k1, k2⟩ := ih v hch.2 hlast
        refine ⟨fun x y h => ?_, fun x y z h => ?_⟩
        · rcases infix_two_cons h with ⟨rfl, t, ht⟩ | h
          · simp only [List.cons_append, List.cons.injEq] at ht
            rw [← ht.1]; exact hch.1.1
          · exact k1 x y h
        · rcases infix_three_cons h with ⟨rfl, t, ht⟩ | h
          · simp only [List.cons_append, List.cons.injEq] at ht
            rw [← ht.1]; exact ⟨hch.1.2.1, hch.1.2.2.1⟩
          · exact k2 x y z h
    obtain ⟨k1, k2⟩ := key _ l a g2 g3
    refine ⟨a :: (l ++ [d]), ?_, rfl, ?_, by simp, ?_, ?_, k1, k2, h4⟩
    · rw [← List.cons_append, List.nodup_append]
      refine ⟨g1, by simp, ?_⟩
      intro x hx y hy
      simp only [List.mem_singleton] at hy
      subst hy
      rintro rfl
      rcases List.mem_cons.1 hx with h | h
      · exact h2.2.1 h
      · exact h4 (hl x h).1.adj
    · rw [← List.cons_append, List.getLast?_append_of_ne_nil _ (by simp)]; rfl
    · simp only [List.mem_cons, List.mem_append, List.not_mem_nil, or_false, not_or]
      exact ⟨Ne.symm hab, fun h => (hl b h).2.1 rfl, Ne.symm h2.2.2.1⟩
    · simp only [List.mem_cons, List.mem_append, List.not_mem_nil, or_false, not_or]
      exact ⟨Ne.symm hac, fun h => (hl c h).2.2 rfl, Ne.symm h2.2.2.2⟩
  · rintro ⟨l, h1, h2, h3, h4, h5, h6, h7, h8, h9⟩
    obtain ⟨t, rfl⟩ : ∃ t, l = a :: t := by
      cases l with
      | nil => simp at h2
      | cons x t => simp only [List.head?_cons, Option.some.injEq] at h2; exact ⟨t, by rw [h2]⟩
    have hpool : ∀ v ∈ t, v ∈ G.nodes → v ∈ G.nodes \ {a, b, c} := by
      intro v hv hn
      simp only [Finset.mem_sdiff, Finset.mem_insert, Finset.mem_singleton, not_or]
      refine ⟨hn, ?_, ?_, ?_⟩
      · rintro rfl; exact (List.nodup_cons.1 h1).1 hv
      · rintro rfl; exact h5 (List.mem_cons_of_mem _ hv)
      · rintro rfl; exact h6 (List.mem_cons_of_mem _ hv)
    have hlen : t ≠ [] := by rintro rfl; simp at h4
    have key : ∀ (t : List α) (s : α), t ≠ [] → (s :: t).getLast? = some d →
        (∀ x y, [x, y] <:+: s :: t → G.At y x .arrow) →
        (∀ x y z, [x, y, z] <:+: s :: t → G.At x y .arrow ∧ G.Par y c) →
        (∀ v ∈ t, v ∈ G.nodes → v ∈ G.nodes \ {a, b, c}) → G.DSrc c (G.nodes \ {a, b, c}) s d := by
      intro t
      induction t with
      | nil => intro s h; exact absurd rfl h
      | cons v t ih =>
        intro s _ hlast hh hcol hp
        rw [List.getLast?_cons_cons] at hlast
        have hsv : G.At v s .arrow := hh s v ⟨[], t, by simp⟩
        have hvn : v ∈ G.nodes \ {a, b, c} := hp v (by simp) (hG.mem _ _ _ hsv).1
        cases t with
        | nil =>
          simp only [List.getLast?_singleton, Option.some.injEq] at hlast
          subst hlast
          exact ⟨s, .refl, hvn, hsv, h9⟩
        | cons w t =>
          obtain ⟨c1, c2⟩ := hcol s v w ⟨[], t, by simp⟩
          obtain ⟨u, e1, e2⟩ := ih v (by simp) hlast (fun x y h => hh x y (h.trans (List.infix_cons (List.infix_refl _))))
            (fun x y z h => hcol x y z (h.trans (List.infix_cons (List.infix_refl _))))
            (fun x hx => hp x (List.mem_cons_of_mem _ hx))
          exact ⟨u, ReflTransGen.head ⟨hsv, c1, c2, hvn⟩ e1, e2⟩
    exact key t a hlen h3 h7 h8 hpool

/-! ### visible edges -/

theorem testEdgeVisible_spec (o : SetOrder α) {G : MG α} (hG : G.Proper) (a b : α) :
    ∃ v, G.testEdgeVisible o a b = .ok v ∧ (v = true ↔ G.Par a b ∧
      ((∃ c, ¬ G.MAdj b c ∧ c ≠ b ∧ G.At c a .arrow) ∨
        ∃ d e l, G.Bidir a d ∧ G.Par d b ∧ G.DiscPath d a b e l)) := by
  by_cases hp : G.Par a b
  · have hpar : G.isParent a b = true := isParent_iff.2 hp
    obtain ⟨cs, hcs, hcs'⟩ := setComp_spec (p := fun v => do return !(← G.isConnected b v)) (P := fun v => ¬ G.MAdj b v)
      (o.iter (a, b) (G.nodes \ {b})) (by
        intro v hv
        simp only [o.mem, Finset.mem_sdiff, Finset.mem_singleton] at hv
        obtain ⟨t, ht, ht'⟩ := proper_isConnected hG.type (i := b) (j := v) (Ne.symm hv.2)
        refine ⟨!t, by rw [ht]; rfl, ?_⟩
        rw [← ht']
        cases t <;> simp)
    have hcs'' : ∀ x, x ∈ ((cs.erase a).erase b) ∩ G.g a .arrow ↔ ¬ G.MAdj b x ∧ x ≠ b ∧ G.At x a .arrow := by
      intro x
      simp only [Finset.mem_inter, Finset.mem_erase, hcs', o.mem, Finset.mem_sdiff, Finset.mem_singleton]
      constructor
      · rintro ⟨⟨h1, h2, ⟨h3, h4⟩, h5⟩, h6⟩
        exact ⟨h5, h1, h6⟩
      · rintro ⟨h1, h2, h3⟩
        refine ⟨⟨h2, ?_, ⟨(hG.mem _ _ _ h3).1, h2⟩, h1⟩, h3⟩
        rintro rfl
        exact hG.irrefl _ _ h3
    have hds : ∀ d, d ∈ (G.findSpouses a).filter (fun d => G.isParent d b) ↔ G.Bidir a d ∧ G.Par d b := by
      intro d
      simp only [Finset.mem_filter, findSpouses, isParent_iff, Bidir, At]
      constructor
      · rintro ⟨⟨_, h1, h2⟩, h3⟩
        exact ⟨⟨h2, h1⟩, h3⟩
      · rintro ⟨⟨h1, h2⟩, h3⟩
        exact ⟨⟨(hG.mem d a _ h2).1, h2, h1⟩, h3⟩
    obtain ⟨t, ht, ht'⟩ := forAny_spec (f := fun d => do return (← G.findDisc o d a b).isSome)
      (P := fun d => ∃ e l, G.DiscPath d a b e l)
      (o.iter (a, b, 1) ((G.findSpouses a).filter (fun d => G.isParent d b))) (by
        intro d hd
        rw [o.mem, hds] at hd
        have hda : d ≠ a := by rintro rfl; exact hG.irrefl _ _ hd.1.1
        have hdb : d ≠ b := by rintro rfl; exact hG.irrefl _ _ hd.2.1
        obtain ⟨r, h1, h2, h3⟩ := findDisc_src o hG d a b
        refine ⟨r.isSome, by rw [h1]; rfl, ?_⟩
        cases r with
        | none =>
          simp only [Option.isSome_none, Bool.false_eq_true, false_iff]
          rintro ⟨e, l, h⟩
          exact h3 rfl e ((dsrc_iff hG hda hdb).2 ⟨l, h⟩)
        | some e =>
          simp only [Option.isSome_some, true_iff]
          exact ⟨e, (dsrc_iff hG hda hdb).1 (h2 e rfl)⟩)
    by_cases h1 : ((cs.erase a).erase b).card > 0 ∧ (((cs.erase a).erase b) ∩ G.g a .arrow).card > 0
    · refine ⟨true, ?_, ?_⟩
      · simp only [testEdgeVisible, hpar, Bool.not_true, Bool.false_eq_true, if_false]
        rw [hcs]
        simp only [bind, Except.bind, if_pos h1, pure, Except.pure]
      · simp only [true_iff]
        obtain ⟨x, hx⟩ := Finset.card_pos.1 h1.2
        exact ⟨hp, Or.inl ⟨x, (hcs'' x).1 hx⟩⟩
    · refine ⟨t, ?_, ?_⟩
      · simp only [testEdgeVisible, hpar, Bool.not_true, Bool.false_eq_true, if_false]
        rw [hcs]
        simp only [bind, Except.bind, if_neg h1]
        exact ht
      · rw [ht']
        constructor
        · rintro ⟨d, hd, e, l, h⟩
          rw [o.mem, hds] at hd
          exact ⟨hp, Or.inr ⟨d, e, l, hd.1, hd.2, h⟩⟩
        · rintro ⟨_, ⟨x, hx⟩ | ⟨d, e, l, h2, h3, h4⟩⟩
          · exfalso
            have hx' := (hcs'' x).2 hx
            exact h1 ⟨Finset.card_pos.2 ⟨x, (Finset.mem_inter.1 hx').1⟩, Finset.card_pos.2 ⟨x, hx'⟩⟩
          · exact ⟨d, by rw [o.mem, hds]; exact ⟨h2, h3⟩, e, l, h4⟩
  · refine ⟨false, ?_, by simp [hp]⟩
    have : G.isParent a b = false := by
      rw [← Bool.not_eq_true, isParent_iff]; exact hp
    simp [testEdgeVisible, this, pure, Except.pure]

end MG
end Verif
