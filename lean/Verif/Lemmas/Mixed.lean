import Verif.Spec.Mixed
import Verif.Lemmas.Reach
import Verif.Lemmas.DagMisc
import Verif.Lemmas.PdagRules

/-!
# Lemmas about mixed graphs
-/

namespace Verif
open Relation
variable {α : Type} [DecidableEq α]

theorem popSet_eq_some {τ : Type} {o : SetOrder α} {t : τ} {S R : Finset α} {x : α}
    (h : popSet o t S = some (x, R)) : x ∈ S ∧ R = S.erase x := by
  unfold popSet at h
  cases hl : o.iter t S with
  | nil => rw [hl] at h; cases h
  | cons y ys =>
    rw [hl] at h
    simp only [Option.some.injEq, Prod.mk.injEq] at h
    obtain ⟨rfl, rfl⟩ := h
    refine ⟨?_, rfl⟩
    rw [← o.mem t, hl]; simp

/-! ### Reachable sets -/

section reach
variable {R : α → α → Prop}

omit [DecidableEq α] in
theorem tg_mem {pool : Finset α} {x y : α} (h : TransGen (fun a b => R a b ∧ b ∈ pool) x y) : y ∈ pool := by
  cases h with
  | single h => exact h.2
  | tail _ h => exact h.2

/-- Nodes that are not reachable from `a` are reached from others without nodes reachable from `a`. -/
theorem tg_avoid {pool r : Finset α} (hcl : ∀ x ∈ r, ∀ y, R x y → y ∈ pool → y ∈ r) {v y : α}
    (h : TransGen (fun a b => R a b ∧ b ∈ pool) v y) (hy : y ∉ r) :
    TransGen (fun a b => R a b ∧ b ∈ pool \ r) v y := by
  induction h with
  | single h => exact TransGen.single ⟨h.1, by simp [h.2, hy]⟩
  | @tail b c _ h2 ih =>
    have hb : b ∉ r := fun hb => hy (hcl b hb c h2.1 h2.2)
    exact TransGen.tail (ih hb) ⟨h2.1, by simp [h2.2, hy]⟩

end reach

namespace MG

theorem mem_findAdjacent_none {G : MG α} {i y : α} {pool : Finset α} :
    y ∈ G.findAdjacentNodes i (some pool) none ↔ G.Nbr none i y ∧ y ∈ pool := by
  have : ∀ (l : List Mark) (s : Finset α), y ∈ l.foldl (fun acc m => acc ∪ G.g i m) s ↔ y ∈ s ∨ ∃ m ∈ l, y ∈ G.g i m := by
    intro l
    induction l with
    | nil => simp
    | cons m l ih => intro s; simp only [List.foldl_cons, ih, Finset.mem_union, List.mem_cons, exists_eq_or_imp]; tauto
  simp only [findAdjacentNodes, Finset.mem_inter, this, Finset.notMem_empty, false_or, Nbr, At]

theorem mem_findAdjacent_some {G : MG α} {i y : α} {pool : Finset α} {t : Mark × Mark} :
    y ∈ G.findAdjacentNodes i (some pool) (some t) ↔ (G.At y i t.1 ∧ G.At i y t.2) ∧ y ∈ pool := by
  simp only [findAdjacentNodes, Finset.mem_inter, Finset.mem_filter, At]

theorem mem_nbrs {G : MG α} {i y : α} {pool : Finset α} {types : Option (List (Mark × Mark))} :
    y ∈ G.nbrs i pool types ↔ G.Nbr types i y ∧ y ∈ pool := by
  cases types with
  | none => exact mem_findAdjacent_none
  | some l =>
    have : ∀ (l : List (Mark × Mark)) (s : Finset α),
        y ∈ l.foldl (fun acc t => acc ∪ G.findAdjacentNodes i (some pool) (some t)) s ↔
          y ∈ s ∨ ∃ t ∈ l, (G.At y i t.1 ∧ G.At i y t.2) ∧ y ∈ pool := by
      intro l
      induction l with
      | nil => simp
      | cons m l ih =>
        intro s
        simp only [List.foldl_cons, ih, Finset.mem_union, List.mem_cons, exists_eq_or_imp, mem_findAdjacent_some]
        tauto
    simp only [nbrs, this, Finset.notMem_empty, false_or, Nbr]
    constructor
    · rintro ⟨t, h1, h2, h3⟩; exact ⟨⟨t, h1, h2⟩, h3⟩
    · rintro ⟨⟨t, h1, h2⟩, h3⟩; exact ⟨t, h1, h2, h3⟩

/-- The loop of the recursive version. -/
theorem reachRecLoop_spec {G : MG α} {types : Option (List (Mark × Mark))} {rec : α → Finset α → Py (Finset α)} {n : Nat}
    (hrec : ∀ v pool, pool.card < n → ∃ r, rec v pool = .ok r ∧ ∀ y, y ∈ r ↔ G.ReachIn types pool v y) :
    ∀ (vs : List α) (reach pool : Finset α), pool.card < n →
      ∃ st, reachRecLoop rec vs (reach, pool) = .ok st ∧
        ∀ y, y ∈ st.1 ↔ y ∈ reach ∨ ∃ v ∈ vs, G.ReachIn types pool v y := by
  intro vs
  induction vs with
  | nil => intro reach pool _; exact ⟨_, rfl, by simp⟩
  | cons v vs ih =>
    intro reach pool hc
    obtain ⟨r, h1, h2⟩ := hrec v pool hc
    obtain ⟨st, h3, h4⟩ := ih (reach ∪ r) (pool \ r)
      (lt_of_le_of_lt (Finset.card_le_card Finset.sdiff_subset) hc)
    refine ⟨st, by simp only [reachRecLoop, h1]; exact h3, fun y => ?_⟩
    rw [h4]
    simp only [Finset.mem_union, h2, List.mem_cons, exists_eq_or_imp]
    constructor
    · rintro ((h | h) | ⟨u, hu, h⟩)
      · exact Or.inl h
      · exact Or.inr (Or.inl h)
      · exact Or.inr (Or.inr ⟨u, hu, tg_mono (fun a b h => ⟨h.1, (Finset.mem_sdiff.mp h.2).1⟩) h⟩)
    · rintro (h | h | ⟨u, hu, h⟩)
      · exact Or.inl (Or.inl h)
      · exact Or.inl (Or.inr h)
      · by_cases hy : G.ReachIn types pool v y
        · exact Or.inl (Or.inr hy)
        · refine Or.inr ⟨u, hu, tg_avoid (r := r) ?_ h (fun h => hy ((h2 y).mp h))⟩
          intro a ha b hab hb
          exact (h2 b).mpr (TransGen.tail ((h2 a).mp ha) ⟨hab, hb⟩)

theorem findReachableSetRec_spec (o : SetOrder α) (G : MG α) (types : Option (List (Mark × Mark))) :
    ∀ (n : Nat) (a : α) (pool : Finset α), pool.card < n →
      ∃ r, findReachableSetRec o G types n a pool = .ok r ∧ ∀ y, y ∈ r ↔ G.ReachIn types pool a y := by
  intro n
  induction n with
  | zero => intro a pool h; omega
  | succ n ih =>
    intro a pool hc
    have hno : pool.card = 0 → ∀ y, ¬ G.ReachIn types pool a y := by
      intro h y hy
      have := tg_mem hy
      rw [Finset.card_eq_zero.mp h] at this
      simp at this
    by_cases hp : pool.card = 0
    · exact ⟨∅, by simp [findReachableSetRec, hp], fun y => by simp [hno hp y]⟩
    · by_cases hn : (G.nbrs a pool types).card = 0
      · refine ⟨∅, by simp [findReachableSetRec, hp, hn], fun y => ?_⟩
        simp only [Finset.notMem_empty, false_iff]
        intro hy
        have hemp := Finset.card_eq_zero.mp hn
        obtain ⟨b, hb, -⟩ := TransGen.head'_iff.mp hy
        have := mem_nbrs.mpr hb
        rw [hemp] at this
        simp at this
      · have hlt : (pool \ G.nbrs a pool types).card < n := by
          have hsub : G.nbrs a pool types ⊆ pool := fun x hx => (mem_nbrs.mp hx).2
          have := Finset.card_sdiff_add_card_eq_card hsub
          omega
        obtain ⟨st, h1, h2⟩ := reachRecLoop_spec ih (o.iter (a, pool) (G.nbrs a pool types))
          (G.nbrs a pool types) (pool \ G.nbrs a pool types) hlt
        refine ⟨st.1, by simp only [findReachableSetRec, hp, hn, if_false, h1]; rfl, fun y => ?_⟩
        rw [h2]
        simp only [o.mem, mem_nbrs]
        constructor
        · rintro (h | ⟨v, hv, h⟩)
          · exact TransGen.single h
          · exact TransGen.head hv (tg_mono (fun a b h => ⟨h.1, (Finset.mem_sdiff.mp h.2).1⟩) h)
        · intro h
          by_cases hy : G.Nbr types a y ∧ y ∈ pool
          · exact Or.inl hy
          · right
            -- last neighbour of `a` on the path
            have key : ∀ y, G.ReachIn types pool a y → ¬ (G.Nbr types a y ∧ y ∈ pool) →
                ∃ v, (G.Nbr types a v ∧ v ∈ pool) ∧ G.ReachIn types (pool \ G.nbrs a pool types) v y := by
              intro y hy
              induction hy with
              | single h => intro hn; exact absurd h hn
              | @tail b c _ h2 ih =>
                intro hn
                have hc : c ∈ pool \ G.nbrs a pool types := by
                  simp only [Finset.mem_sdiff, mem_nbrs]; exact ⟨h2.2, hn⟩
                by_cases hb : G.Nbr types a b ∧ b ∈ pool
                · exact ⟨b, hb, TransGen.single ⟨h2.1, hc⟩⟩
                · obtain ⟨v, hv, hvb⟩ := ih hb
                  exact ⟨v, hv, TransGen.tail hvb ⟨h2.1, hc⟩⟩
            exact key y h hy

/-- The loop of the iterative version. -/
theorem reachLoop_spec (o : SetOrder α) (G : MG α) (types : Option (List (Mark × Mark))) {anchor : α} {pool : Finset α} :
    ∀ (n : Nat) (reach allowed frontier : Finset α),
      allowed.card + 2 ≤ n ∨ (frontier.card = 0 ∧ 1 ≤ n) →
      (∀ x, x ∈ allowed ↔ x ∈ pool ∧ x ∉ reach) →
      (∀ x ∈ reach, G.ReachIn types pool anchor x) →
      (∀ x ∈ frontier, x = anchor ∨ x ∈ reach) →
      (∀ x, x = anchor ∨ x ∈ reach → x ∉ frontier → ∀ y, G.Nbr types x y → y ∈ pool → y ∈ reach) →
      ∃ r, reachLoop o G types n reach allowed frontier = .ok r ∧ ∀ y, y ∈ r ↔ G.ReachIn types pool anchor y := by
  intro n
  induction n with
  | zero => intro _ _ _ h; omega
  | succ n ih =>
    intro reach allowed frontier hn hal hsound hfr hcl
    by_cases hf : frontier.card = 0
    · refine ⟨reach, by simp [reachLoop, hf], fun y => ⟨hsound y, fun hy => ?_⟩⟩
      have hempty := Finset.card_eq_zero.mp hf
      subst hempty
      induction hy with
      | single h => exact hcl _ (Or.inl rfl) (by simp) _ h.1 h.2
      | tail _ h2 ih' => exact hcl _ (Or.inr ih') (by simp) _ h2.1 h2.2
    · have hn' : allowed.card + 2 ≤ n + 1 := by rcases hn with h | h; exact h; exact absurd h.1 hf
      set next := (o.iter (reach, allowed) frontier).foldl (fun acc v => acc ∪ G.nbrs v allowed types) ∅ with hnext
      have hmem : ∀ y, y ∈ next ↔ ∃ v ∈ frontier, G.Nbr types v y ∧ y ∈ allowed := by
        intro y
        have : ∀ (l : List α) (s : Finset α), y ∈ l.foldl (fun acc v => acc ∪ G.nbrs v allowed types) s ↔
            y ∈ s ∨ ∃ v ∈ l, G.Nbr types v y ∧ y ∈ allowed := by
          intro l
          induction l with
          | nil => simp
          | cons m l ih =>
            intro s
            simp only [List.foldl_cons, ih, Finset.mem_union, List.mem_cons, exists_eq_or_imp, mem_nbrs]; tauto
        rw [hnext, this]; simp [o.mem]
      have hsub : next ⊆ allowed := by
        intro y hy; obtain ⟨_, _, _, h⟩ := (hmem y).mp hy; exact h
      obtain ⟨r, h1, h2⟩ := ih (reach ∪ next) (allowed \ next) next
        (by
          by_cases hz : next.card = 0
          · exact Or.inr ⟨hz, by omega⟩
          · have := Finset.card_sdiff_add_card_eq_card hsub
            left; omega)
        (by intro x; simp only [Finset.mem_sdiff, hal, Finset.mem_union]; tauto)
        (by
          intro x hx
          rcases Finset.mem_union.mp hx with hx | hx
          · exact hsound x hx
          · obtain ⟨v, hv, hvx, hxa⟩ := (hmem x).mp hx
            have hxp := ((hal x).mp hxa).1
            rcases hfr v hv with rfl | hv
            · exact TransGen.single ⟨hvx, hxp⟩
            · exact TransGen.tail (hsound v hv) ⟨hvx, hxp⟩)
        (by intro x hx; exact Or.inr (Finset.mem_union_right _ hx))
        (by
          intro x hx hxn y hxy hy
          by_cases hxf : x ∈ frontier
          · by_cases hyr : y ∈ reach
            · exact Finset.mem_union_left _ hyr
            · exact Finset.mem_union_right _ ((hmem y).mpr ⟨x, hxf, hxy, (hal y).mpr ⟨hy, hyr⟩⟩)
          · refine Finset.mem_union_left _ (hcl x ?_ hxf y hxy hy)
            rcases hx with rfl | hx
            · exact Or.inl rfl
            · rcases Finset.mem_union.mp hx with hx | hx
              · exact Or.inr hx
              · exact absurd hx hxn)
      refine ⟨r, ?_, h2⟩
      simp only [reachLoop, hf, if_false]
      exact h1

theorem findReachableSet_spec (o : SetOrder α) (G : MG α) (anchor : α) (pool : Finset α)
    (types : Option (List (Mark × Mark))) :
    ∃ r, findReachableSet o G anchor pool types = .ok r ∧ ∀ y, y ∈ r ↔ G.ReachIn types pool anchor y := by
  by_cases hp : pool.card = 0
  · refine ⟨∅, by simp [findReachableSet, hp], fun y => ?_⟩
    simp only [Finset.notMem_empty, false_iff]
    intro hy
    have := tg_mem hy
    rw [Finset.card_eq_zero.mp hp] at this
    simp at this
  · obtain ⟨r, h1, h2⟩ := reachLoop_spec o G types (anchor := anchor) (pool := pool) (pool.card + 2) ∅ pool {anchor}
      (Or.inl le_rfl) (by simp) (by simp) (by simp) (by
        intro x hx hxn
        simp at hx hxn
        exact absurd hx hxn)
    exact ⟨r, by simp only [findReachableSet, hp, if_false]; exact h1, h2⟩

/-! ### Connected components -/

omit [DecidableEq α] in
theorem joined_symm {G : MG α} {types : Option (List (Mark × Mark))} (hs : ∀ x y, G.Nbr types x y → G.Nbr types y x)
    {pool : Finset α} {x y : α} (h : G.Joined types pool x y) : G.Joined types pool y x := by
  induction h with
  | refl => exact ReflTransGen.refl
  | tail _ h2 ih => exact ReflTransGen.head ⟨hs _ _ h2.1, h2.2.2, h2.2.1⟩ ih

theorem subgraphsLoop_spec (o : SetOrder α) (G : MG α) (types : Option (List (Mark × Mark)))
    (hs : ∀ x y, G.Nbr types x y → G.Nbr types y x) :
    ∀ (n : Nat) (nodes : Finset α), nodes.card < n →
      ∃ L, subgraphsLoop o G types n nodes = .ok L ∧ (∀ x, (∃ S ∈ L, x ∈ S) ↔ x ∈ nodes) ∧
        L.Pairwise Disjoint ∧ ∀ S ∈ L, ∀ x ∈ S, ∀ y, y ∈ S ↔ G.Joined types nodes x y := by
  intro n
  induction n with
  | zero => intro nodes h; omega
  | succ n ih =>
    intro nodes hc
    cases hpop : popSet o n nodes with
    | none =>
      refine ⟨[], by simp [subgraphsLoop, hpop], fun x => ?_, List.Pairwise.nil, by simp⟩
      rw [Dag.popSet_none hpop]; simp
    | some p =>
      obtain ⟨i, rest⟩ := p
      obtain ⟨hi, rfl⟩ := popSet_eq_some hpop
      obtain ⟨r, h1, h2⟩ := findReachableSet_spec o G i (nodes.erase i) types
      have hrsub : r ⊆ nodes.erase i := fun y hy => tg_mem ((h2 y).mp hy)
      have hcard : (nodes.erase i \ r).card < n := by
        have := Finset.card_le_card (Finset.sdiff_subset (s := nodes.erase i) (t := r))
        rw [Finset.card_erase_of_mem hi] at this
        have := Finset.card_pos.mpr ⟨i, hi⟩
        omega
      obtain ⟨L, g1, g2, g3, g4⟩ := ih (nodes.erase i \ r) hcard
      -- the component of `i`
      have hcomp : ∀ y, y ∈ insert i r ↔ G.Joined types nodes i y := by
        intro y
        simp only [Finset.mem_insert, h2]
        constructor
        · rintro (rfl | h)
          · exact ReflTransGen.refl
          · induction h with
            | single h => exact ReflTransGen.single ⟨h.1, hi, Finset.mem_of_mem_erase h.2⟩
            | @tail b c hb h ih' =>
              exact ReflTransGen.tail ih' ⟨h.1, Finset.mem_of_mem_erase (tg_mem hb), Finset.mem_of_mem_erase h.2⟩
        · intro h
          induction h with
          | refl => exact Or.inl rfl
          | @tail b c _ h ih' =>
            by_cases hc : c = i
            · exact Or.inl hc
            · have hc' : c ∈ nodes.erase i := Finset.mem_erase.mpr ⟨hc, h.2.2⟩
              rcases ih' with rfl | ih'
              · exact Or.inr (TransGen.single ⟨h.1, hc'⟩)
              · exact Or.inr (TransGen.tail ih' ⟨h.1, hc'⟩)
      -- outside the component nothing changes
      have hout : ∀ x ∈ nodes.erase i \ r, ∀ y, G.Joined types (nodes.erase i \ r) x y ↔ G.Joined types nodes x y := by
        intro x hx y
        constructor
        · exact rtg_mono (fun a b h => ⟨h.1, Finset.mem_of_mem_erase (Finset.mem_sdiff.mp h.2.1).1,
            Finset.mem_of_mem_erase (Finset.mem_sdiff.mp h.2.2).1⟩)
        · intro h
          have hxi : ¬ G.Joined types nodes x i := by
            intro hj
            have := (hcomp x).mpr (joined_symm hs hj)
            simp only [Finset.mem_insert, Finset.mem_sdiff, Finset.mem_erase] at this hx
            tauto
          induction h with
          | refl => exact ReflTransGen.refl
          | @tail b c hb h ih' =>
            have hnot : ∀ z, G.Joined types nodes x z → z ∈ nodes → z ∈ nodes.erase i \ r := by
              intro z hz hzn
              have : z ∉ insert i r := fun hz' =>
                hxi (hz.trans (joined_symm hs ((hcomp z).mp hz')))
              simp only [Finset.mem_insert, not_or] at this
              simp only [Finset.mem_sdiff, Finset.mem_erase]
              exact ⟨⟨this.1, hzn⟩, this.2⟩
            exact ReflTransGen.tail ih' ⟨h.1, hnot b hb h.2.1, hnot c (ReflTransGen.tail hb h) h.2.2⟩
      refine ⟨insert i r :: L, by simp only [subgraphsLoop, hpop, h1, g1, bind, Except.bind]; rfl, ?_, ?_, ?_⟩
      · intro x
        simp only [List.mem_cons, exists_eq_or_imp, g2, Finset.mem_insert, Finset.mem_sdiff, Finset.mem_erase]
        constructor
        · rintro ((rfl | h) | h)
          · exact hi
          · exact Finset.mem_of_mem_erase (hrsub h)
          · exact h.1.2
        · intro hx
          by_cases hxi : x = i
          · exact Or.inl (Or.inl hxi)
          · by_cases hxr : x ∈ r
            · exact Or.inl (Or.inr hxr)
            · exact Or.inr ⟨⟨hxi, hx⟩, hxr⟩
      · refine List.Pairwise.cons ?_ g3
        intro S hS
        rw [Finset.disjoint_left]
        intro x hx hxS
        have := (g2 x).mp ⟨S, hS, hxS⟩
        simp only [Finset.mem_insert, Finset.mem_sdiff, Finset.mem_erase] at hx this
        tauto
      · intro S hS x hx y
        rcases List.mem_cons.mp hS with rfl | hS
        · rw [hcomp]
          have hix := (hcomp x).mp hx
          exact ⟨fun h => (joined_symm hs hix).trans h, fun h => hix.trans h⟩
        · rw [g4 S hS x hx y]
          exact hout x ((g2 x).mp ⟨S, hS, hx⟩) y

theorem connectedLoop_spec (o : SetOrder α) (G : MG α) {v : α} {nodes : Finset α} :
    ∀ (n : Nat) (toReach starting : Finset α), toReach.card + starting.card < n → toReach.card ≠ 0 →
      toReach ⊆ nodes →
      (∀ x ∈ starting, x ∈ nodes ∧ x ∉ toReach ∧ G.Joined none nodes v x) →
      (∀ x ∈ nodes, x ∉ toReach → G.Joined none nodes v x) →
      (∀ x ∈ nodes, x ∉ toReach → x ∉ starting → ∀ y, G.Nbr none x y → y ∈ nodes → y ∉ toReach) →
      v ∈ nodes → v ∉ toReach →
      ∃ b, connectedLoop o G n toReach starting = .ok b ∧ (b = true ↔ ∀ x ∈ nodes, G.Joined none nodes v x) := by
  intro n
  induction n with
  | zero => intro _ _ h; omega
  | succ n ih =>
    intro toReach starting hn hne hsub hst hsound hcl hv hvt
    cases hpop : popSet o (toReach, starting) starting with
    | none =>
      refine ⟨false, by simp [connectedLoop, hpop], ?_⟩
      have he := Dag.popSet_none hpop
      subst he
      simp only [Bool.false_eq_true, false_iff]
      intro hall
      obtain ⟨z, hz⟩ := Finset.card_pos.mp (Nat.pos_of_ne_zero hne)
      have : ∀ y, G.Joined none nodes v y → y ∉ toReach := by
        intro y hy
        induction hy with
        | refl => exact hvt
        | tail _ h ih' => exact hcl _ h.2.1 ih' (by simp) _ h.1 h.2.2
      exact this z (hall z (hsub hz)) hz
    | some p =>
      obtain ⟨u, rest⟩ := p
      obtain ⟨hu, rfl⟩ := popSet_eq_some hpop
      obtain ⟨hun, hut, huj⟩ := hst u hu
      simp only [connectedLoop, hpop]
      set A := G.findAdjacentNodes u (some toReach) none with hA
      have hmem : ∀ y, y ∈ A ↔ G.Nbr none u y ∧ y ∈ toReach := fun y => mem_findAdjacent_none
      have hAsub : A ⊆ toReach := fun y hy => ((hmem y).mp hy).2
      have hsound' : ∀ x ∈ nodes, x ∉ toReach \ A → G.Joined none nodes v x := by
        intro x hx hxn
        by_cases hxt : x ∈ toReach
        · have hxA : x ∈ A := by by_contra h; exact hxn (Finset.mem_sdiff.mpr ⟨hxt, h⟩)
          exact ReflTransGen.tail huj ⟨((hmem x).mp hxA).1, hun, hx⟩
        · exact hsound x hx hxt
      by_cases hz : (toReach \ A).card = 0
      · refine ⟨true, if_pos hz, ?_⟩
        simp only [true_iff]
        intro x hx
        exact hsound' x hx (by rw [Finset.card_eq_zero.mp hz]; simp)
      · rw [if_neg hz]
        refine ih (toReach \ A) (starting.erase u ∪ A) ?_ hz (Finset.sdiff_subset.trans hsub) ?_ hsound' ?_ hv
          (fun h => hvt (Finset.mem_sdiff.mp h).1)
        · have h1 := Finset.card_sdiff_add_card_eq_card hAsub
          have h2 := Finset.card_union_le (starting.erase u) A
          rw [Finset.card_erase_of_mem hu] at h2
          have := Finset.card_pos.mpr ⟨u, hu⟩
          omega
        · intro x hx
          rcases Finset.mem_union.mp hx with hx | hx
          · obtain ⟨h1, h2, h3⟩ := hst x (Finset.mem_of_mem_erase hx)
            exact ⟨h1, fun h => h2 (Finset.mem_sdiff.mp h).1, h3⟩
          · have := hsub (hAsub hx)
            exact ⟨this, fun h => (Finset.mem_sdiff.mp h).2 hx, hsound' x this (fun h => (Finset.mem_sdiff.mp h).2 hx)⟩
        · intro x hx hxt hxs y hxy hy hyt
          simp only [Finset.mem_union, Finset.mem_erase, not_or, Finset.mem_sdiff, not_and, not_not] at hxt hxs hyt
          by_cases hxu : x = u
          · subst hxu
            exact hyt.2 ((hmem y).mpr ⟨hxy, hyt.1⟩)
          · have hx1 : x ∉ toReach := fun h => hxs.2 (hxt h)
            exact hcl x hx hx1 (hxs.1 hxu) y hxy hy hyt.1

end MG
end Verif
