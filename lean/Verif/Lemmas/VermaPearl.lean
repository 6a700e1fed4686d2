import Verif.Lemmas.Markov
import Verif.Lemmas.Meek

/-!
# Markov equivalent DAGs have the same d-separations

The proof goes through reversals of covered edges (Chickering 1995): an edge `x --> y` is covered if `x` and `y` have the same other
parents. Reversing one keeps all d-separations, and a DAG can be turned into every equivalent one by such reversals.
-/

namespace Verif
open Relation
variable {α : Type}

namespace Dag
variable {D H : Dag α} {x y : α}

/-- `x --> y`, and the other parents of `y` are the parents of `x`. -/
structure Covered (D : Dag α) (x y : α) : Prop where
  edge : D.Edge x y
  par : ∀ z, z ≠ x → (D.Edge z y ↔ D.Edge z x)

/-- `E` is `D` with the edge `x --> y` reversed. -/
def IsFlip (D E : Dag α) (x y : α) : Prop :=
  E.nodes = D.nodes ∧ ∀ a b, E.Edge a b ↔ (D.Edge a b ∧ ¬ (a = x ∧ b = y)) ∨ (a = y ∧ b = x)

theorem exists_flip [DecidableEq α] (D : Dag α) (x y : α) : ∃ E, D.IsFlip E x y := by
  refine ⟨⟨D.nodes, fun b => (if b = y then D.par b \ {x} else D.par b) ∪ if b = x then {y} else ∅⟩, rfl, fun a b => ?_⟩
  simp only [Edge, Finset.mem_union]
  split_ifs with h1 h2 h2 <;> simp only [Finset.mem_sdiff, Finset.mem_singleton, Finset.notMem_empty] <;> tauto

variable {E : Dag α}

theorem Covered.ne (hac : D.Acyclic) (h : D.Covered x y) : x ≠ y := by
  rintro rfl
  exact irrefl hac _ h.edge

theorem IsFlip.edge_of (hf : D.IsFlip E x y) {a b : α} (h : D.Edge a b) (hn : ¬ (a = x ∧ b = y)) : E.Edge a b :=
  (hf.2 a b).2 (Or.inl ⟨h, hn⟩)

theorem IsFlip.acyclic (hac : D.Acyclic) (hc : D.Covered x y) (hf : D.IsFlip E x y) : E.Acyclic := by
  have key : ∀ a b, TransGen E.Edge a b → TransGen (fun a b => D.Edge a b ∧ ¬ (a = x ∧ b = y)) a b ∨
      (ReflTransGen (fun a b => D.Edge a b ∧ ¬ (a = x ∧ b = y)) a y ∧
        ReflTransGen (fun a b => D.Edge a b ∧ ¬ (a = x ∧ b = y)) x b) := by
    intro a b h
    induction h with
    | single h =>
      rcases (hf.2 _ _).1 h with h | ⟨rfl, rfl⟩
      · exact Or.inl (.single h)
      · exact Or.inr ⟨.refl, .refl⟩
    | tail _ h ih =>
      rcases (hf.2 _ _).1 h with h | ⟨rfl, rfl⟩
      · rcases ih with ih | ⟨i1, i2⟩
        · exact Or.inl (ih.tail h)
        · exact Or.inr ⟨i1, i2.tail h⟩
      · rcases ih with ih | ⟨i1, i2⟩
        · exact Or.inr ⟨ih.to_reflTransGen, .refl⟩
        · exact Or.inr ⟨i1, .refl⟩
  intro v hv
  rcases key v v hv with h | ⟨h1, h2⟩
  · exact hac v (tg_mono (fun _ _ h => h.1) h)
  · rcases ReflTransGen.cases_tail (h2.trans h1) with h | ⟨w, h3, h4⟩
    · exact hc.ne hac h.symm
    · have hwx : w ≠ x := fun e => h4.2 ⟨e, rfl⟩
      exact hac x (TransGen.tail' (h3.lift id fun _ _ h => h.1) ((hc.par w hwx).1 h4.1))

theorem IsFlip.wf (hD : D.WF) (hc : D.Covered x y) (hf : D.IsFlip E x y) : E.WF := by
  intro a b h
  rw [hf.1]
  rcases (hf.2 a b).1 h with h | ⟨rfl, rfl⟩
  · exact hD _ _ h.1
  · exact (hD _ _ hc.edge).symm

theorem IsFlip.adj (hc : D.Covered x y) (hf : D.IsFlip E x y) (a b : α) : E.Adj a b ↔ D.Adj a b := by
  have hE := hc.edge
  simp only [Adj, hf.2]
  constructor
  · rintro ((h | ⟨rfl, rfl⟩) | (h | ⟨rfl, rfl⟩))
    exacts [Or.inl h.1, Or.inr hE, Or.inr h.1, Or.inl hE]
  · rintro (h | h)
    · by_cases e : a = x ∧ b = y
      · exact Or.inr (Or.inr ⟨e.2, e.1⟩)
      · exact Or.inl (Or.inl ⟨h, e⟩)
    · by_cases e : b = x ∧ a = y
      · exact Or.inl (Or.inr ⟨e.2, e.1⟩)
      · exact Or.inr (Or.inl ⟨h, e⟩)

/-- The reversed edge is covered, and reversing it again gives the same graph. -/
theorem IsFlip.covered (hac : D.Acyclic) (hc : D.Covered x y) (hf : D.IsFlip E x y) : E.Covered y x := by
  have hxy := hc.ne hac
  refine ⟨(hf.2 _ _).2 (Or.inr ⟨rfl, rfl⟩), fun z hz => ?_⟩
  rw [hf.2, hf.2]
  by_cases hzx : z = x
  · subst hzx
    simp [hxy, irrefl hac]
  · simp [hz, hzx, hc.par z hzx]

theorem IsFlip.symm (hac : D.Acyclic) (hc : D.Covered x y) (hf : D.IsFlip E x y) : E.IsFlip D y x := by
  refine ⟨hf.1.symm, fun a b => ?_⟩
  rw [hf.2]
  have hE := hc.edge
  constructor
  · intro h
    by_cases e : a = x ∧ b = y
    · exact Or.inr e
    · refine Or.inl ⟨Or.inl ⟨h, e⟩, ?_⟩
      rintro ⟨rfl, rfl⟩
      exact not_edge_of_edge hac h hE
  · rintro (⟨h | h, h'⟩ | ⟨rfl, rfl⟩)
    · exact h.1
    · exact absurd h h'
    · exact hE

theorem IsFlip.ucol_of (hc : D.Covered x y) (hf : D.IsFlip E x y) {a b c : α} (h : D.UCol a b c) :
    E.UCol a b c := by
  obtain ⟨h1, h2, h3, h4⟩ := h
  refine ⟨hf.edge_of h1 ?_, hf.edge_of h2 ?_, h3, fun h => h4 ((hf.adj hc _ _).1 h)⟩
  · rintro ⟨rfl, rfl⟩
    exact h4 (Or.inr ((hc.par c h3.symm).1 h2))
  · rintro ⟨rfl, rfl⟩
    exact h4 (Or.inl ((hc.par a h3).1 h1))

theorem IsFlip.ucol (hac : D.Acyclic) (hc : D.Covered x y) (hf : D.IsFlip E x y) (a b c : α) :
    E.UCol a b c ↔ D.UCol a b c :=
  ⟨(hf.symm hac hc).ucol_of (hf.covered hac hc), hf.ucol_of hc⟩

/-- `i` and `j` are connected outside `Z` in the moral graph of the ancestors of `i`, `j` and `Z`. -/
def MoralConn (D : Dag α) (Z : Finset α) (i j : α) : Prop :=
  ReflTransGen (fun a b => (D.Adj a b ∨ ∃ c, D.Edge a c ∧ D.Edge b c ∧
    ∃ w, (w = i ∨ w = j ∨ w ∈ Z) ∧ D.DPath c w) ∧ (∃ w, (w = i ∨ w = j ∨ w ∈ Z) ∧ D.DPath b w) ∧ b ∉ Z) i j

theorem moralConn_iff (hac : D.Acyclic) {Z : Finset α} {i j : α} : D.MoralConn Z i j ↔
    ReflTransGen (Walk.augStep D.Adj D.Edge (Walk.InA D.Edge (· ∈ Z) i j) (· ∈ Z)) i j := by
  have hA : Walk.InA D.Edge (· ∈ Z) i j = fun v => ∃ w, (w = i ∨ w = j ∨ w ∈ Z) ∧ D.DPath v w := by
    funext v
    simp only [Walk.InA, dir_eq hac, DPath]
  have hs : Walk.augStep D.Adj D.Edge (Walk.InA D.Edge (· ∈ Z) i j) (· ∈ Z) = fun a b => (D.Adj a b ∨ ∃ c, D.Edge a c ∧ D.Edge b c ∧
      ∃ w, (w = i ∨ w = j ∨ w ∈ Z) ∧ D.DPath c w) ∧ (∃ w, (w = i ∨ w = j ∨ w ∈ Z) ∧ D.DPath b w) ∧ b ∉ Z := by
    funext a b
    simp only [Walk.augStep, Walk.aug, cw_iff hac, hA]
    refine propext (and_congr_left' (or_congr_right (exists_congr fun c => ?_)))
    constructor
    · rintro ⟨⟨h1, h2⟩, -, h3⟩
      exact ⟨h1, h3, h2⟩
    · rintro ⟨h1, h2, h3⟩
      exact ⟨⟨h1, h3⟩, Or.inl h2, h2⟩
  rw [hs, MoralConn]

/-- Reversing a covered edge keeps connections. -/
theorem IsFlip.connected (hac : D.Acyclic) (hc : D.Covered x y) (hf : D.IsFlip E x y) {Z : Finset α} {i j : α}
    (h : D.MoralConn Z i j) : E.MoralConn Z i j := by
  rw [MoralConn] at h ⊢
  set A : α → Prop := fun v => ∃ w, (w = i ∨ w = j ∨ w ∈ Z) ∧ D.DPath v w with hA
  set A' : α → Prop := fun v => ∃ w, (w = i ∨ w = j ∨ w ∈ Z) ∧ E.DPath v w with hA'
  have hhead : ∀ a b, E.Edge a b → A' b → A' a := fun a b h ⟨w, h1, h2⟩ => ⟨w, h1, ReflTransGen.head h h2⟩
  have hbase : ∀ v, (v = i ∨ v = j ∨ v ∈ Z) → A' v := fun v h => ⟨v, h, .refl⟩
  have hadj := hf.adj hc
  have hAA : ∀ v, A v → A' v ∨ (v = x ∧ A' y) := by
    rintro v ⟨w, hw, hp⟩
    induction hp using ReflTransGen.head_induction_on with
    | refl => exact Or.inl (hbase _ hw)
    | @head v u h _ ih =>
      rcases ih with ih | ⟨rfl, ih⟩
      · by_cases e : v = x ∧ u = y
        · exact Or.inr ⟨e.1, e.2 ▸ ih⟩
        · exact Or.inl (hhead _ _ (hf.edge_of h e) ih)
      · have hv : v ≠ u := by rintro rfl; exact irrefl hac _ h
        exact Or.inl (hhead _ _ (hf.edge_of ((hc.par v hv).2 h) (fun e => hv e.1)) ih)
  have hpar : ∀ p, D.Edge p x → E.Edge p y := fun p hp => by
    have hpx : p ≠ x := by rintro rfl; exact irrefl hac _ hp
    exact hf.edge_of ((hc.par p hpx).2 hp) (fun e => hpx e.1)
  by_cases hx : A x ∧ ¬ A' x
  · obtain ⟨hx1, hx2⟩ := hx
    have hy : A' y := ((hAA x hx1).resolve_left hx2).2
    have hne : ∀ v, v ≠ x → A v → A' v := fun v hv h => (hAA v h).resolve_right (fun h' => hv h'.1)
    have hix : i ≠ x := fun e => hx2 (e ▸ hbase i (Or.inl rfl))
    have hjx : j ≠ x := fun e => hx2 (e ▸ hbase j (Or.inr (Or.inl rfl)))
    -- the neighbours of `x`
    have hN : ∀ u, u ≠ x → A u → (D.Adj u x ∨ ∃ c, D.Edge u c ∧ D.Edge x c ∧ A c) → u = y ∨ D.Edge u x := by
      intro u hu hAu h
      have hch : ∀ c, D.Edge x c → A c → c = y := by
        intro c h1 h2
        by_contra hcy
        exact hx2 (hhead _ _ (hf.edge_of h1 (fun e => hcy e.2)) (hne c (by rintro rfl; exact irrefl hac _ h1) h2))
      rcases h with (h | h) | ⟨c, h1, h2, h3⟩
      · exact Or.inr h
      · exact Or.inl (hch u h hAu)
      · obtain rfl := hch c h2 h3
        exact Or.inr ((hc.par u hu).1 h1)
    have main : ∀ v, ReflTransGen (fun a b => (D.Adj a b ∨ ∃ c, D.Edge a c ∧ D.Edge b c ∧ A c) ∧ A b ∧ b ∉ Z) i v →
        (v = i ∨ A v) ∧ ((v ≠ x ∧ ReflTransGen (fun a b => (E.Adj a b ∨ ∃ c, E.Edge a c ∧ E.Edge b c ∧ A' c) ∧ A' b ∧ b ∉ Z) i v) ∨
        (v = x ∧ ∃ u, (u = y ∨ D.Edge u x) ∧
          ReflTransGen (fun a b => (E.Adj a b ∨ ∃ c, E.Edge a c ∧ E.Edge b c ∧ A' c) ∧ A' b ∧ b ∉ Z) i u)) := by
      intro v h
      induction h with
      | refl => exact ⟨Or.inl rfl, Or.inl ⟨hix, .refl⟩⟩
      | @tail v b _ hst ih =>
        obtain ⟨hst, hAb, hbZ⟩ := hst
        refine ⟨Or.inr hAb, ?_⟩
        have hAv : A v := ih.1.elim (fun e => ⟨i, Or.inl rfl, e ▸ .refl⟩) id
        rcases ih.2 with ⟨hvx, hC⟩ | ⟨rfl, u, hu, hC⟩
        · by_cases hbx : b = x
          · subst hbx
            exact Or.inr ⟨rfl, v, hN v hvx hAv hst, hC⟩
          · refine Or.inl ⟨hbx, hC.tail ⟨?_, hne b hbx hAb, hbZ⟩⟩
            rcases hst with h | ⟨c, h1, h2, h3⟩
            · exact Or.inl ((hadj _ _).2 h)
            · right
              by_cases hcx : c = x
              · subst hcx
                exact ⟨y, hpar _ h1, hpar _ h2, hy⟩
              · exact ⟨c, hf.edge_of h1 (fun e => hvx e.1), hf.edge_of h2 (fun e => hbx e.1), hne c hcx h3⟩
        · by_cases hbx : b = v
          · exact Or.inr ⟨hbx, u, hu, hC⟩
          · refine Or.inl ⟨hbx, ?_⟩
            have hb := hN b hbx hAb (by
              rcases hst with h | ⟨c, h1, h2, h3⟩
              · exact Or.inl h.symm
              · exact Or.inr ⟨c, h2, h1, h3⟩)
            by_cases hub : u = b
            · exact hub ▸ hC
            · refine hC.tail ⟨?_, hne b hbx hAb, hbZ⟩
              rcases hu with rfl | hu
              · rcases hb with rfl | hb
                · exact absurd rfl hub
                · exact Or.inl (Or.inr (hpar _ hb))
              · rcases hb with rfl | hb
                · exact Or.inl (Or.inl (hpar _ hu))
                · exact Or.inr ⟨y, hpar _ hu, hpar _ hb, hy⟩
    rcases (main j h).2 with h | h
    · exact h.2
    · exact absurd h.1 hjx
  · have hsub : ∀ v, A v → A' v := by
      intro v hv
      rcases hAA v hv with h | ⟨rfl, -⟩
      · exact h
      · by_contra hn
        exact hx ⟨hv, hn⟩
    refine ReflTransGen.trans_induction_on (motive := fun {a b} _ => ReflTransGen (fun a b => (E.Adj a b ∨ ∃ c, E.Edge a c ∧ E.Edge b c ∧ A' c) ∧ A' b ∧ b ∉ Z) a b) h (fun _ => .refl) ?_ (fun _ _ h1 h2 => h1.trans h2)
    rintro a b ⟨hst, hAb, hbZ⟩
    by_cases hab : a = b
    · exact hab ▸ .refl
    · refine .single ⟨?_, hsub b hAb, hbZ⟩
      rcases hst with h | ⟨c, h1, h2, h3⟩
      · exact Or.inl ((hadj _ _).2 h)
      · by_cases ea : a = x ∧ c = y
        · obtain ⟨rfl, rfl⟩ := ea
          exact Or.inl ((hadj _ _).2 (Or.inr ((hc.par b (Ne.symm hab)).1 h2)))
        · by_cases eb : b = x ∧ c = y
          · obtain ⟨rfl, rfl⟩ := eb
            exact Or.inl ((hadj _ _).2 (Or.inl ((hc.par a hab).1 h1)))
          · exact Or.inr ⟨c, hf.edge_of h1 ea, hf.edge_of h2 eb, hsub c h3⟩

theorem IsFlip.moralConn (hac : D.Acyclic) (hc : D.Covered x y) (hf : D.IsFlip E x y) {Z : Finset α} {i j : α} :
    D.MoralConn Z i j ↔ E.MoralConn Z i j :=
  ⟨hf.connected hac hc, (hf.symm hac hc).connected (hf.acyclic hac hc) (hf.covered hac hc)⟩

/-- Two different equivalent DAGs: an edge of the first that is covered and reversed in the second. -/
theorem Equivalent.exists_covered (hD : D.WF) (hac : D.Acyclic) (he : D.Equivalent H)
    (hne : ∃ a b, D.Edge a b ∧ H.Edge b a) : ∃ x y, D.Covered x y ∧ H.Edge y x := by
  classical
  have hacT : ∀ v, ¬ TransGen (TransGen D.Edge) v v := fun v h => hac v (by rwa [transGen_eq_self] at h)
  have hacF : ∀ v, ¬ TransGen (fun a b => TransGen D.Edge b a) v v := by
    intro v h
    refine hacT v ?_
    rw [← transGen_swap] at h
    exact h
  obtain ⟨a, b, hab, hba⟩ := hne
  obtain ⟨y, hy, hymin⟩ := exists_sink hacF (S := D.nodes.filter (fun y => ∃ x, D.Edge x y ∧ H.Edge y x))
    ⟨b, Finset.mem_filter.2 ⟨(hD _ _ hab).2, a, hab, hba⟩⟩
  obtain ⟨hyn, x0, hx0, hx0'⟩ := Finset.mem_filter.1 hy
  obtain ⟨x, hx, hxmax⟩ := exists_sink hacT (S := D.nodes.filter (fun x => D.Edge x y ∧ H.Edge y x))
    ⟨x0, Finset.mem_filter.2 ⟨(hD _ _ hx0).1, hx0, hx0'⟩⟩
  obtain ⟨hxn, hxy, hyx⟩ := Finset.mem_filter.1 hx
  -- edges into ancestors of `y` are the same in `H`
  have hanc : ∀ z w, TransGen D.Edge w y → D.Edge z w → H.Edge z w := by
    intro z w hw hz
    rcases (he.adj z w).2 (Or.inl hz) with h | h
    · exact h
    · exact absurd hw (hymin w (Finset.mem_filter.2 ⟨(hD _ _ hz).2, z, hz, h⟩))
  have hmax : ∀ z, TransGen D.Edge x z → D.Edge z y → H.Edge z y := by
    intro z hz hzy
    rcases (he.adj z y).2 (Or.inl hzy) with h | h
    · exact h
    · exact absurd hz (hxmax z (Finset.mem_filter.2 ⟨(hD _ _ hzy).1, hzy, h⟩))
  refine ⟨x, y, ⟨hxy, fun z hzx => ⟨fun hzy => ?_, fun hz => ?_⟩⟩, hyx⟩
  · have hadj : D.Adj z x := by
      by_contra hn
      have := (he.ucol z y x).2 ⟨hzy, hxy, hzx, hn⟩
      exact not_edge_of_edge he.acyclic this.2.1 hyx
    rcases hadj with h | h
    · exact h
    · exfalso
      have h1 := hmax z (.single h) hzy
      have h2 := hanc x z (.single hzy) h
      exact he.acyclic x (TransGen.tail (TransGen.tail (.single h2) h1) hyx)
  · have h1 := hanc z x (.single hxy) hz
    have hzy : z ≠ y := by
      rintro rfl
      exact not_edge_of_edge hac hxy hz
    have hadj : D.Adj z y := by
      by_contra hn
      have := (he.ucol z x y).1 ⟨h1, hyx, hzy, fun h => hn ((he.adj _ _).1 h)⟩
      exact not_edge_of_edge hac this.2.1 hxy
    rcases hadj with h | h
    · exact h
    · exact absurd (TransGen.tail (TransGen.tail (.single h) hz) hxy) (hac y)

/-- Markov equivalent DAGs have the same connections in moral graphs. -/
theorem Equivalent.moralConn (hD : D.WF) (hac : D.Acyclic) (he : D.Equivalent H) {Z : Finset α} {i j : α} :
    D.MoralConn Z i j ↔ H.MoralConn Z i j := by
  classical
  obtain ⟨n, hn⟩ : ∃ n, ((D.nodes ×ˢ D.nodes).filter (fun p => D.Edge p.1 p.2 ∧ H.Edge p.2 p.1)).card = n := ⟨_, rfl⟩
  induction n using Nat.strong_induction_on generalizing D with
  | _ n ih =>
    by_cases hne : ∃ a b, D.Edge a b ∧ H.Edge b a
    · obtain ⟨x, y, hc, hyx⟩ := he.exists_covered hD hac hne
      obtain ⟨E, hf⟩ := D.exists_flip x y
      have hacE := hf.acyclic hac hc
      have heE : E.Equivalent H := ⟨he.nodes.trans hf.1.symm, he.wf, he.acyclic, fun a b => (he.adj a b).trans (hf.adj hc a b).symm,
        fun a b c => (he.ucol a b c).trans (hf.ucol hac hc a b c).symm⟩
      rw [hf.moralConn hac hc]
      refine ih _ ?_ (hf.wf hD hc) hacE heE rfl
      rw [← hn]
      apply Finset.card_lt_card
      rw [Finset.ssubset_iff_of_subset]
      · refine ⟨(x, y), ?_, ?_⟩
        · simp only [Finset.mem_filter, Finset.mem_product]
          exact ⟨hD _ _ hc.edge, hc.edge, hyx⟩
        · simp only [Finset.mem_filter, hf.2, not_and]
          rintro - (h | h)
          · exact absurd h.2 (by simp)
          · exact absurd h.1 (hc.ne hac)
      · rintro ⟨a, b⟩ h
        simp only [Finset.mem_filter, Finset.mem_product, hf.1, hf.2] at h ⊢
        refine ⟨h.1, ?_, h.2.2⟩
        rcases h.2.1 with h1 | ⟨rfl, rfl⟩
        · exact h1.1
        · exact absurd h.2.2 (not_edge_of_edge he.acyclic hyx)
    · have hDH : D = H := by
        have hpar : D.par = H.par := by
          funext b
          ext a
          constructor
          · intro h
            rcases (he.adj a b).2 (Or.inl h) with h' | h'
            · exact h'
            · exact absurd ⟨a, b, h, h'⟩ hne
          · intro h
            rcases (he.adj a b).1 (Or.inl h) with h' | h'
            · exact h'
            · exact absurd ⟨b, a, h', h⟩ hne
        cases D; cases H
        simp only [mk.injEq]
        exact ⟨he.nodes.symm, hpar⟩
      rw [hDH]

/-- Verma and Pearl: Markov equivalent DAGs have the same d-separations. -/
theorem Equivalent.dseparated (hD : D.WF) (hac : D.Acyclic) (he : D.Equivalent H) {Z : Finset α} {i j : α}
    (hi : i ∉ Z) (hj : j ∉ Z) : D.DSeparated i j Z ↔ H.DSeparated i j Z := by
  rw [DSeparated, DSeparated, activePath_iff_aug hac hi hj, activePath_iff_aug he.acyclic hi hj, ← moralConn_iff hac,
    ← moralConn_iff he.acyclic, he.moralConn hD hac]

/-- DAGs over the same nodes with the same d-separations are Markov equivalent. -/
theorem equivalent_of_dseparated (hD : D.WF) (hac : D.Acyclic) (hH : H.WF) (hacH : H.Acyclic) (hn : H.nodes = D.nodes)
    (hs : ∀ i ∈ D.nodes, ∀ j ∈ D.nodes, i ≠ j → ∀ Z ⊆ D.nodes, i ∉ Z → j ∉ Z → (D.DSeparated i j Z ↔ H.DSeparated i j Z)) :
    D.Equivalent H := by
  -- a separating set among the nodes for every pair that is not adjacent
  have hsep : ∀ {G : Dag α}, G.WF → G.Acyclic → ∀ i ∈ G.nodes, ∀ j ∈ G.nodes, i ≠ j → ¬ G.Adj i j →
      ∃ Z ⊆ G.nodes, i ∉ Z ∧ j ∉ Z ∧ G.DSeparated i j Z := by
    intro G hG hacG i hi j hj hij hn
    by_cases hp : G.DPath i j
    · have hp' : ¬ G.DPath j i := by
        intro h'
        rcases reflTransGen_iff_eq_or_transGen.mp hp with e | h
        · exact hij e.symm
        · exact hacG i (h.trans_left h')
      exact ⟨G.par j, fun v hv => (hG v j hv).1, fun h => hn (Or.inl h), fun h => irrefl hacG j h,
        (dseparated_symm hacG).1 (dseparated_parents hacG (Ne.symm hij) (fun h => hn h.symm) hp')⟩
    · exact ⟨G.par i, fun v hv => (hG v i hv).1, fun h => irrefl hacG i h, fun h => hn (Or.inr h),
        dseparated_parents hacG hij hn hp⟩
  have hmem : ∀ {G : Dag α}, G.WF → ∀ {a b}, G.Adj a b → a ∈ G.nodes ∧ b ∈ G.nodes := by
    intro G hG a b h
    rcases h with h | h
    · exact hG _ _ h
    · exact (hG _ _ h).symm
  have hne : ∀ {G : Dag α}, G.Acyclic → ∀ {a b}, G.Adj a b → a ≠ b := by
    rintro G hacG a b h rfl
    rcases h with h | h <;> exact irrefl hacG _ h
  have hadj : ∀ a b, H.Adj a b ↔ D.Adj a b := by
    intro a b
    constructor
    · intro h
      by_contra hn'
      obtain ⟨ha, hb⟩ := hmem hH h
      rw [hn] at ha hb
      obtain ⟨Z, h1, h2, h3, h4⟩ := hsep hD hac a ha b hb (hne hacH h) hn'
      exact not_dseparated_of_adj hacH h ((hs a ha b hb (hne hacH h) Z h1 h2 h3).1 h4)
    · intro h
      by_contra hn'
      obtain ⟨ha, hb⟩ := hmem hD h
      obtain ⟨Z, h1, h2, h3, h4⟩ := hsep hH hacH a (hn ▸ ha) b (hn ▸ hb) (hne hac h) hn'
      exact not_dseparated_of_adj hac h ((hs a ha b hb (hne hac h) Z (hn ▸ h1) h2 h3).2 h4)
  -- the separating set decides which unshielded triples are colliders
  have key : ∀ {G K : Dag α}, G.WF → G.Acyclic → K.Acyclic → K.nodes = G.nodes → (∀ a b, K.Adj a b ↔ G.Adj a b) →
      (∀ i ∈ G.nodes, ∀ j ∈ G.nodes, i ≠ j → ∀ Z ⊆ G.nodes, i ∉ Z → j ∉ Z → (G.DSeparated i j Z → K.DSeparated i j Z)) →
      ∀ a b c, G.UCol a b c → K.UCol a b c := by
    rintro G K hG hacG hacK - hadj hs a b c ⟨h1, h2, h3, h4⟩
    obtain ⟨Z, z1, z2, z3, z4⟩ := hsep hG hacG a (hG _ _ h1).1 c (hG _ _ h2).1 h3 h4
    have hb := not_mem_sepset_of_collider hacG h3 h1 h2 z4
    have hK := hs a (hG _ _ h1).1 c (hG _ _ h2).1 h3 Z z1 z2 z3 z4
    by_contra hcon
    refine hb (mem_sepset_of_noncollider hacK h3 ((hadj a b).2 (Or.inl h1)) ((hadj b c).2 (Or.inr h2)) ?_ hK)
    rintro ⟨k1, k2⟩
    exact hcon ⟨k1, k2, h3, fun h => h4 ((hadj _ _).1 h)⟩
  refine ⟨hn, hH, hacH, hadj, fun a b c => ⟨?_, ?_⟩⟩
  · exact key hH hacH hac hn.symm (fun a b => (hadj a b).symm) (fun i hi j hj hij Z hZ h1 h2 =>
      (hs i (hn ▸ hi) j (hn ▸ hj) hij Z (hn ▸ hZ) h1 h2).2) a b c
  · exact key hD hac hacH hn hadj (fun i hi j hj hij Z hZ h1 h2 => (hs i hi j hj hij Z hZ h1 h2).1) a b c

end Dag
end Verif
