import Verif.Lemmas.VermaPearl
import Verif.Lemmas.DagMisc

/-!
# DAGs without unshielded colliders

Parents of a node are pairwise adjacent. D-separation is then separation in the undirected skeleton, and two nodes that are separated by
at most `n` nodes are separated by at most `n` nodes each of which cannot be separated from the first one by at most `n` nodes.
-/

namespace Verif
open Relation
variable {α : Type}

namespace Dag
variable {D : Dag α}

/-- Connected by a path of adjacent nodes all of which (except perhaps the first) satisfy `P`. -/
def Conn (D : Dag α) (P : α → Prop) (i j : α) : Prop := ReflTransGen (fun a b => D.Adj a b ∧ P b) i j

theorem Conn.mono {P Q : α → Prop} (h : ∀ a, P a → Q a) {i j : α} (hc : D.Conn P i j) : D.Conn Q i j :=
  rtg_mono (fun _ _ x => ⟨x.1, h _ x.2⟩) hc

/-- The nodes that are parents of a common child are equal or adjacent. -/
def NoUCol (D : Dag α) : Prop := ∀ a b c, ¬ D.UCol a b c

theorem NoUCol.adj (h : D.NoUCol) {a b c : α} (h1 : D.Edge a b) (h2 : D.Edge c b) : a = c ∨ D.Adj a c := by
  by_contra hc
  push Not at hc
  exact h a b c ⟨h1, h2, hc.1, hc.2⟩

/-- A node whose neighbours are pairwise adjacent can be avoided. -/
theorem Conn.avoid {P : α → Prop} {i v : α} (hiv : i ≠ v) (hi : P i)
    (hv : ∀ a b, P a → P b → D.Adj a v → D.Adj b v → a = b ∨ D.Adj a b) {j : α} (hc : D.Conn P i j) (hj : j ≠ v) :
    D.Conn (fun x => P x ∧ x ≠ v) i j := by
  have key : (j ≠ v → D.Conn (fun x => P x ∧ x ≠ v) i j) ∧
      (j = v → ∃ y, D.Adj y v ∧ P y ∧ D.Conn (fun x => P x ∧ x ≠ v) i y) := by
    clear hj
    induction hc with
    | refl => exact ⟨fun _ => .refl, fun h => absurd h hiv⟩
    | @tail b c hb hbc ih =>
      by_cases hbv : b = v
      · obtain ⟨y, y1, y2, y3⟩ := ih.2 hbv
        refine ⟨fun hcv => ?_, fun hcv => ⟨y, y1, y2, y3⟩⟩
        subst hbv
        rcases hv y c y2 hbc.2 y1 hbc.1.symm with rfl | h
        · exact y3
        · exact y3.tail ⟨h, hbc.2, hcv⟩
      · refine ⟨fun hcv => (ih.1 hbv).tail ⟨hbc.1, hbc.2, hcv⟩, fun hcv => ?_⟩
        subst hcv
        refine ⟨b, hbc.1, ?_, ih.1 hbv⟩
        rcases ReflTransGen.cases_tail hb with rfl | ⟨d, _, h⟩
        · exact hi
        · exact h.2
  exact key.1 hj

theorem Conn.symm {P : α → Prop} {i j : α} (hc : D.Conn P i j) (hi : P i) : D.Conn P j i := by
  induction hc with
  | refl => exact .refl
  | @tail b c hb hbc ih =>
    have hPb : P b := by
      rcases ReflTransGen.cases_tail hb with rfl | ⟨d, _, h⟩
      · exact hi
      · exact h.2
    exact ReflTransGen.head ⟨hbc.1.symm, hPb⟩ ih

theorem Conn.last {P : α → Prop} {i j : α} (hc : D.Conn P i j) (hi : P i) : P j := by
  rcases ReflTransGen.cases_tail hc with rfl | ⟨d, _, h⟩
  · exact hi
  · exact h.2

/-- The path lies in the set of nodes reached by it. -/
theorem Conn.self {P : α → Prop} {i j : α} (hc : D.Conn P i j) : D.Conn (D.Conn P i) i j := by
  induction hc with
  | refl => exact .refl
  | tail hb hbc ih => exact ih.tail ⟨hbc.1, hb.tail hbc⟩

section
variable [DecidableEq α]

theorem Conn.exists_finset {P : α → Prop} {i j : α} (hc : D.Conn P i j) (hi : P i) :
    ∃ X : Finset α, (∀ x ∈ X, P x) ∧ i ∈ X ∧ j ∈ X ∧ D.Conn (· ∈ X) i j := by
  induction hc with
  | refl => exact ⟨{i}, by simpa using hi, by simp, by simp, .refl⟩
  | @tail b c hb hbc ih =>
    obtain ⟨X, h1, h2, h3, h4⟩ := ih
    refine ⟨insert c X, ?_, by simp [h2], by simp, ?_⟩
    · intro x hx
      rcases Finset.mem_insert.1 hx with rfl | hx
      · exact hbc.2
      · exact h1 x hx
    · exact (h4.mono (fun a ha => Finset.mem_insert_of_mem ha)).tail ⟨hbc.1, Finset.mem_insert_self _ _⟩

/-- A smallest connection: none of its inner nodes has pairwise adjacent neighbours in it. -/
theorem Conn.exists_min {P : α → Prop} {i j : α} (hc : D.Conn P i j) (hi : P i) :
    ∃ X : Finset α, (∀ x ∈ X, P x) ∧ i ∈ X ∧ j ∈ X ∧ D.Conn (· ∈ X) i j ∧
      ∀ v ∈ X, v ≠ i → v ≠ j → ¬ ∀ a ∈ X, ∀ b ∈ X, D.Adj a v → D.Adj b v → a = b ∨ D.Adj a b := by
  obtain ⟨X, h1, h2, h3, h4⟩ := hc.exists_finset hi
  have key : ∀ (n : Nat) (X : Finset α), X.card = n → (∀ x ∈ X, P x) → i ∈ X → j ∈ X → D.Conn (· ∈ X) i j →
      ∃ X : Finset α, (∀ x ∈ X, P x) ∧ i ∈ X ∧ j ∈ X ∧ D.Conn (· ∈ X) i j ∧
      ∀ v ∈ X, v ≠ i → v ≠ j → ¬ ∀ a ∈ X, ∀ b ∈ X, D.Adj a v → D.Adj b v → a = b ∨ D.Adj a b := by
    intro n
    induction n with
    | zero => intro X h0 _ hi; exact absurd hi (by simp [Finset.card_eq_zero.1 h0])
    | succ n ih =>
      intro X hX h1 h2 h3 h4
      by_cases hv : ∃ v ∈ X, v ≠ i ∧ v ≠ j ∧ ∀ a ∈ X, ∀ b ∈ X, D.Adj a v → D.Adj b v → a = b ∨ D.Adj a b
      · obtain ⟨v, v1, v2, v3, v4⟩ := hv
        refine ih (X.erase v) (by rw [Finset.card_erase_of_mem v1, hX]; rfl) (fun x hx => h1 x (Finset.mem_of_mem_erase hx))
          (Finset.mem_erase.2 ⟨v2.symm, h2⟩) (Finset.mem_erase.2 ⟨v3.symm, h3⟩) ?_
        exact (h4.avoid v2.symm h2 (fun a b ha hb => v4 a ha b hb) v3.symm).mono (fun a ha => Finset.mem_erase.2 ⟨ha.2, ha.1⟩)
      · push Not at hv
        refine ⟨X, h1, h2, h3, h4, fun v v1 v2 v3 v4 => ?_⟩
        obtain ⟨a, a1, b, b1, b2, b3, b4, b5⟩ := hv v v1 v2 v3
        rcases v4 a a1 b b1 b2 b3 with h | h
        · exact b4 h
        · exact b5 h
  exact key _ X rfl h1 h2 h3 h4

/-- The nodes of a smallest connection are ancestors of its ends. -/
theorem NoUCol.anc (hm : D.NoUCol) (hac : D.Acyclic) {X : Finset α} {i j : α}
    (hX : ∀ v ∈ X, v ≠ i → v ≠ j → ¬ ∀ a ∈ X, ∀ b ∈ X, D.Adj a v → D.Adj b v → a = b ∨ D.Adj a b) {x : α} (hx : x ∈ X) :
    D.DPath x i ∨ D.DPath x j := by
  classical
  obtain ⟨v, hv, hs⟩ := exists_sink hac (S := X.filter (D.DPath x)) ⟨x, Finset.mem_filter.2 ⟨hx, .refl⟩⟩
  rw [Finset.mem_filter] at hv
  by_cases hi : v = i
  · exact Or.inl (hi ▸ hv.2)
  by_cases hj : v = j
  · exact Or.inr (hj ▸ hv.2)
  refine absurd ?_ (hX v hv.1 hi hj)
  have hp : ∀ a ∈ X, D.Adj a v → D.Edge a v := fun a ha h =>
    h.elim id (fun h => absurd h (hs a (Finset.mem_filter.2 ⟨ha, hv.2.tail h⟩)))
  exact fun a ha b hb h1 h2 => hm.adj (hp a ha h1) (hp b hb h2)

/-- Without unshielded colliders d-separation is separation in the skeleton. -/
theorem NoUCol.dseparated (hm : D.NoUCol) (hac : D.Acyclic) {Z : Finset α} {i j : α} (hi : i ∉ Z) (hj : j ∉ Z) :
    D.DSeparated i j Z ↔ ¬ D.Conn (· ∉ Z) i j := by
  rw [DSeparated, activePath_iff_aug hac hi hj, ← moralConn_iff hac, not_iff_not]
  constructor
  · intro h
    have key : ∀ c, ReflTransGen (fun a b => (D.Adj a b ∨ ∃ c, D.Edge a c ∧ D.Edge b c ∧
        ∃ w, (w = i ∨ w = j ∨ w ∈ Z) ∧ D.DPath c w) ∧ (∃ w, (w = i ∨ w = j ∨ w ∈ Z) ∧ D.DPath b w) ∧ b ∉ Z) i c →
        D.Conn (· ∉ Z) i c := by
      intro c hc
      induction hc with
      | refl => exact .refl
      | tail _ hbc ih =>
        obtain ⟨h | ⟨d, d1, d2, -⟩, -, h2⟩ := hbc
        · exact ih.tail ⟨h, h2⟩
        · rcases hm.adj d1 d2 with rfl | h
          · exact ih
          · exact ih.tail ⟨h, h2⟩
    exact key j h
  · intro h
    obtain ⟨X, h1, h2, h3, h4, h5⟩ := h.exists_min hi
    refine rtg_mono (fun a b hab => ⟨Or.inl hab.1, ?_, h1 b hab.2⟩) h4
    rcases hm.anc hac h5 hab.2 with h | h
    · exact ⟨i, Or.inl rfl, h⟩
    · exact ⟨j, Or.inr (Or.inl rfl), h⟩

/-- Two nodes that are joined through two sets without edges between them are adjacent. -/
theorem NoUCol.chord (hm : D.NoUCol) (hac : D.Acyclic) {A C : α → Prop} (hAC : ∀ a c, A a → C c → a ≠ c ∧ ¬ D.Adj a c) {s t : α}
    (hst : s ≠ t) (h1 : D.Conn (fun x => A x ∨ x = s ∨ x = t) s t) (h2 : D.Conn (fun x => C x ∨ x = s ∨ x = t) s t) : D.Adj s t := by
  by_contra hn
  obtain ⟨X, x1, x2, x3, x4, x5⟩ := h1.exists_min (Or.inr (Or.inl rfl))
  obtain ⟨Y, y1, y2, y3, y4, y5⟩ := h2.exists_min (Or.inr (Or.inl rfl))
  obtain ⟨v, hv, hs⟩ := exists_sink hac (S := X ∪ Y) ⟨s, Finset.mem_union_left _ x2⟩
  have hp : ∀ a ∈ X ∪ Y, D.Adj a v → D.Edge a v := fun a ha h => h.elim id (fun h => absurd h (hs a ha))
  have hend : ∀ (Q : α → Prop) (W : Finset α), (∀ x ∈ W, Q x ∨ x = s ∨ x = t) → s ∈ W → D.Conn (· ∈ W) s t →
      (∃ x ∈ W, Q x ∧ D.Adj x s) ∧ ∃ x ∈ W, Q x ∧ D.Adj x t := by
    intro Q W w1 w2 w3
    constructor
    · rcases ReflTransGen.cases_head w3 with rfl | ⟨x, hx, -⟩
      · exact absurd rfl hst
      · refine ⟨x, hx.2, ?_, hx.1.symm⟩
        rcases w1 x hx.2 with h | rfl | rfl
        · exact h
        · exact absurd hx.1 (fun h => h.elim (irrefl hac _) (irrefl hac _))
        · exact absurd hx.1 hn
    · rcases ReflTransGen.cases_tail w3 with h | ⟨x, hx, hxt⟩
      · exact absurd h.symm hst
      · have hxW : x ∈ W := Conn.last (D := D) (P := (· ∈ W)) hx w2
        refine ⟨x, hxW, ?_, hxt.1⟩
        rcases w1 x hxW with h | rfl | rfl
        · exact h
        · exact absurd hxt.1 hn
        · exact absurd hxt.1 (fun h => h.elim (irrefl hac _) (irrefl hac _))
  obtain ⟨⟨a, a1, a2, a3⟩, a', a1', a2', a3'⟩ := hend A X x1 x2 x4
  obtain ⟨⟨c, c1, c2, c3⟩, c', c1', c2', c3'⟩ := hend C Y y1 y2 y4
  by_cases hvs : v = s
  · subst hvs
    rcases hm.adj (hp a (Finset.mem_union_left _ a1) a3) (hp c (Finset.mem_union_right _ c1) c3) with h | h
    · exact (hAC a c a2 c2).1 h
    · exact (hAC a c a2 c2).2 h
  by_cases hvt : v = t
  · subst hvt
    rcases hm.adj (hp a' (Finset.mem_union_left _ a1') a3') (hp c' (Finset.mem_union_right _ c1') c3') with h | h
    · exact (hAC a' c' a2' c2').1 h
    · exact (hAC a' c' a2' c2').2 h
  rcases Finset.mem_union.1 hv with h | h
  · exact x5 v h hvs hvt (fun a ha b hb e1 e2 => hm.adj (hp a (Finset.mem_union_left _ ha) e1) (hp b (Finset.mem_union_left _ hb) e2))
  · exact y5 v h hvs hvt (fun a ha b hb e1 e2 => hm.adj (hp a (Finset.mem_union_right _ ha) e1) (hp b (Finset.mem_union_right _ hb) e2))

/-- A node of a smallest separating set has a neighbour on the side of the first node. -/
theorem exists_nbr {S : Finset α} {i j s : α} (hs : ¬ D.Conn (· ∉ S) i j) (hc : D.Conn (· ∉ S.erase s) i j) :
    ∃ a, D.Conn (· ∉ S) i a ∧ D.Adj a s := by
  have key : ∀ y, D.Conn (· ∉ S.erase s) i y → D.Conn (· ∉ S) i y ∨ ∃ a, D.Conn (· ∉ S) i a ∧ D.Adj a s := by
    intro y hy
    induction hy with
    | refl => exact Or.inl .refl
    | @tail b c _ hbc ih =>
      rcases ih with h | h
      · by_cases hcs : c = s
        · exact Or.inr ⟨b, h, hcs ▸ hbc.1⟩
        · exact Or.inl (h.tail ⟨hbc.1, fun h' => hbc.2 (Finset.mem_erase.2 ⟨hcs, h'⟩)⟩)
      · exact Or.inr h
  exact (key j hc).resolve_left hs

/-- The nodes of a smallest separating set are pairwise adjacent. -/
theorem NoUCol.clique (hm : D.NoUCol) (hac : D.Acyclic) {S : Finset α} {i j : α} (hi : i ∉ S) (hj : j ∉ S)
    (hs : ¬ D.Conn (· ∉ S) i j) (hmin : ∀ Z : Finset α, Z.card < S.card → i ∉ Z → j ∉ Z → D.Conn (· ∉ Z) i j) {s t : α}
    (h1 : s ∈ S) (h2 : t ∈ S) (hst : s ≠ t) : D.Adj s t := by
  have hs' : ¬ D.Conn (· ∉ S) j i := fun h => hs (h.symm hj)
  have hce : ∀ x ∈ S, D.Conn (· ∉ S.erase x) i j := fun x hx => hmin _ (Finset.card_erase_lt_of_mem hx)
    (fun h => hi (Finset.mem_of_mem_erase h)) (fun h => hj (Finset.mem_of_mem_erase h))
  have hside : ∀ k, k ∉ S → (∀ x ∈ S, ∃ a, D.Conn (· ∉ S) k a ∧ D.Adj a x) →
      D.Conn (fun x => D.Conn (· ∉ S) k x ∨ x = s ∨ x = t) s t := by
    intro k hk hn
    obtain ⟨a, a1, a2⟩ := hn s h1
    obtain ⟨b, b1, b2⟩ := hn t h2
    have ha : D.Conn (D.Conn (· ∉ S) k) a b := (a1.self.symm .refl).trans b1.self
    exact (ReflTransGen.head ⟨a2.symm, Or.inl a1⟩ (ha.mono (fun _ => Or.inl))).tail ⟨b2, Or.inr (Or.inr rfl)⟩
  refine hm.chord hac (A := D.Conn (· ∉ S) i) (C := D.Conn (· ∉ S) j) ?_ hst (hside i hi fun x hx => exists_nbr hs (hce x hx))
    (hside j hj fun x hx => exists_nbr hs' ((hce x hx).symm (fun h => hi (Finset.mem_of_mem_erase h))))
  intro a c ha hc
  have hcj : D.Conn (· ∉ S) c j := hc.symm hj
  exact ⟨fun h => hs (ha.trans (h ▸ hcj)), fun h => hs ((ha.tail ⟨h, hc.last hj⟩).trans hcj)⟩

/-- Among the smallest separating sets of `i` and `j` there is one no node of which can be separated from `i` by as few nodes. -/
theorem NoUCol.closest (hm : D.NoUCol) (hac : D.Acyclic) (hD : D.WF) {Z : Finset α} {i j : α} (hi : i ∉ Z) (hj : j ∉ Z)
    (hs : ¬ D.Conn (· ∉ Z) i j) (hmin : ∀ T : Finset α, T.card < Z.card → i ∉ T → j ∉ T → D.Conn (· ∉ T) i j) :
    ∃ S : Finset α, S.card = Z.card ∧ S ⊆ D.nodes ∧ i ∉ S ∧ j ∉ S ∧ ¬ D.Conn (· ∉ S) i j ∧
      ∀ s ∈ S, ∀ T : Finset α, T.card ≤ Z.card → i ∉ T → s ∉ T → D.Conn (· ∉ T) i s := by
  classical
  let μ : Finset α → Nat := fun T => (D.nodes.filter (D.Conn (· ∉ T) i)).card
  obtain ⟨S, ⟨s1, s2, s3, s4⟩, smin⟩ : ∃ S : Finset α, (S.card = Z.card ∧ i ∉ S ∧ j ∉ S ∧ ¬ D.Conn (· ∉ S) i j) ∧
      ∀ T : Finset α, (T.card = Z.card ∧ i ∉ T ∧ j ∉ T ∧ ¬ D.Conn (· ∉ T) i j) → μ S ≤ μ T := by
    have hne : {T : Finset α | T.card = Z.card ∧ i ∉ T ∧ j ∉ T ∧ ¬ D.Conn (· ∉ T) i j}.Nonempty := ⟨Z, rfl, hi, hj, hs⟩
    refine ⟨Function.argminOn μ _ hne, Function.argminOn_mem μ _ hne, fun T hT => Function.argminOn_le μ _ hT⟩
  rw [← s1] at hmin
  have hce : ∀ x ∈ S, D.Conn (· ∉ S.erase x) i j := fun x hx => hmin _ (Finset.card_erase_lt_of_mem hx)
    (fun h => s2 (Finset.mem_of_mem_erase h)) (fun h => s3 (Finset.mem_of_mem_erase h))
  refine ⟨S, s1, ?_, s2, s3, s4, ?_⟩
  · intro x hx
    obtain ⟨a, -, h | h⟩ := exists_nbr s4 (hce x hx)
    · exact (hD _ _ h).2
    · exact (hD _ _ h).1
  intro s hsS T hT hiT hsT
  by_contra hc
  -- the side of `i` without `T` does not meet `S`
  have hBS : ∀ x, D.Conn (· ∉ T) i x → x ∉ S := by
    intro x hx hxS
    by_cases hxs : x = s
    · exact hc (hxs ▸ hx)
    · exact hc (hx.tail ⟨hm.clique hac s2 s3 s4 hmin hxS hsS hxs, hsT⟩)
  have hBA : ∀ x, D.Conn (· ∉ T) i x → D.Conn (· ∉ S) i x := fun x hx => hx.self.mono hBS
  have hjT : ∀ y, D.Conn (· ∉ T.erase j) i y → D.Conn (· ∉ T) i y := by
    intro y hy
    induction hy with
    | refl => exact .refl
    | @tail b c _ hbc ih =>
      by_cases hcj : c = j
      · exact absurd ((hBA b ih).tail ⟨hcj ▸ hbc.1, s3⟩) s4
      · exact ih.tail ⟨hbc.1, fun h => hbc.2 (Finset.mem_erase.2 ⟨hcj, h⟩)⟩
  have hsep : ¬ D.Conn (· ∉ T.erase j) i j := fun h => s4 (hBA j (hjT j h))
  have hi' : i ∉ T.erase j := fun h => hiT (Finset.mem_of_mem_erase h)
  have hcard : (T.erase j).card = Z.card := by
    have h1 := Finset.card_le_card (Finset.erase_subset j T)
    by_contra hne
    exact hsep (hmin _ (by omega) hi' (by simp))
  have hsub : D.nodes.filter (D.Conn (· ∉ T.erase j) i) ⊆ D.nodes.filter (D.Conn (· ∉ S) i) := by
    intro x hx
    rw [Finset.mem_filter] at hx ⊢
    exact ⟨hx.1, hBA x (hjT x hx.2)⟩
  have heq := Finset.eq_of_subset_of_card_le hsub (smin (T.erase j) ⟨hcard, hi', by simp, hsep⟩)
  obtain ⟨a, a1, a2⟩ := exists_nbr s4 (hce s hsS)
  have han : a ∈ D.nodes := a2.elim (fun h => (hD _ _ h).1) (fun h => (hD _ _ h).2)
  have : a ∈ D.nodes.filter (D.Conn (· ∉ T.erase j) i) := heq ▸ Finset.mem_filter.2 ⟨han, a1⟩
  exact hc ((hjT a (Finset.mem_filter.1 this).2).tail ⟨a2, hsT⟩)

/-- No set of fewer than `n` other nodes separates `i` and `j`. -/
def Tied (D : Dag α) (n : Nat) (i j : α) : Prop := ∀ T : Finset α, T.card < n → i ∉ T → j ∉ T → D.Conn (· ∉ T) i j

omit [DecidableEq α] in
theorem Tied.mono {m n : Nat} (h : m ≤ n) {i j : α} (hi : D.Tied n i j) : D.Tied m i j :=
  fun T hT => hi T (lt_of_lt_of_le hT h)

omit [DecidableEq α] in
theorem Tied.symm {n : Nat} {i j : α} (h : D.Tied n i j) : D.Tied n j i :=
  fun T hT hj hi => (h T hT hi hj).symm hi

omit [DecidableEq α] in
theorem tied_of_adj {i j : α} (h : D.Adj i j) (n : Nat) : D.Tied n i j :=
  fun _ _ _ hj => .single ⟨h, hj⟩

/-- Nodes that are not adjacent are separated by a smallest set whose nodes are as close to `i` as this allows. -/
theorem NoUCol.exists_closest (hm : D.NoUCol) (hac : D.Acyclic) (hD : D.WF) {i j : α} (hij : i ≠ j) (hn : ¬ D.Adj i j) :
    ∃ S : Finset α, S ⊆ D.nodes ∧ i ∉ S ∧ j ∉ S ∧ D.DSeparated i j S ∧ D.Tied S.card i j ∧ ∀ s ∈ S, D.Tied (S.card + 1) i s := by
  classical
  have hex : ∃ n, ∃ Z : Finset α, Z.card = n ∧ i ∉ Z ∧ j ∉ Z ∧ ¬ D.Conn (· ∉ Z) i j := by
    by_cases hp : D.DPath i j
    · have hp' : ¬ D.DPath j i := by
        intro h
        rcases ReflTransGen.cases_head hp with rfl | ⟨c, hc, hcj⟩
        · exact hij rfl
        · exact hac i (TransGen.head' hc (hcj.trans h))
      have hj : j ∉ D.par j := irrefl hac j
      have hi : i ∉ D.par j := fun h => hn (Or.inl h)
      refine ⟨_, D.par j, rfl, hi, hj, ?_⟩
      rw [← hm.dseparated hac hi hj, dseparated_symm hac]
      exact dseparated_parents hac hij.symm (fun h => hn h.symm) hp'
    · have hi : i ∉ D.par i := irrefl hac i
      have hj : j ∉ D.par i := fun h => hn (Or.inr h)
      refine ⟨_, D.par i, rfl, hi, hj, ?_⟩
      rw [← hm.dseparated hac hi hj]
      exact dseparated_parents hac hij hn hp
  obtain ⟨Z, z1, z2, z3, z4⟩ := Nat.find_spec hex
  have hmin : D.Tied Z.card i j := by
    intro T hT hi hj
    by_contra hc
    exact Nat.find_min hex (z1 ▸ hT) ⟨T, rfl, hi, hj, hc⟩
  obtain ⟨S, s1, s2, s3, s4, s5, s6⟩ := hm.closest hac hD z2 z3 z4 hmin
  exact ⟨S, s2, s3, s4, (hm.dseparated hac s3 s4).2 s5, s1 ▸ hmin, fun s hs T hT => s6 s hs T (by omega)⟩

/-- A set that separates `i` and `j` separates every other node from one of them. -/
theorem NoUCol.not_both (hm : D.NoUCol) (hac : D.Acyclic) {S : Finset α} {i j z : α} (hi : i ∉ S) (hj : j ∉ S)
    (hs : D.DSeparated i j S) (hz : z ∉ S) {n : Nat} (hn : S.card < n) (h1 : D.Tied n i z) (h2 : D.Tied n j z) : False :=
  (hm.dseparated hac hi hj).1 hs ((h1 S hn hi hz).trans (h2.symm S hn hz hj))

end

end Dag
end Verif
