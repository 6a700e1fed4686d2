import Verif.Lemmas.Markov
import Mathlib.Data.Fintype.Card
import Mathlib.Order.WellFounded
import Mathlib.Data.Fintype.EquivFin
import Mathlib.Order.RelClasses

/-!
# Lemmas for topological order, connectivity, adjacency matrices, `disconnect_node`
-/

namespace Verif
open Relation
variable {α : Type}

/-- In a finite non-empty set an acyclic relation has an element without successor in the set. -/
theorem exists_sink {R : α → α → Prop} (hac : ∀ v, ¬ TransGen R v v) {S : Finset α} (hS : S.Nonempty) :
    ∃ x ∈ S, ∀ y ∈ S, ¬ R x y := by
  let R' : S → S → Prop := fun a b => TransGen R b.1 a.1
  have : IsTrans S R' := ⟨fun a b c h1 h2 => h2.trans h1⟩
  have : Std.Irrefl R' := ⟨fun a h => hac _ h⟩
  have wf : WellFounded R' := Finite.wellFounded_of_trans_of_irrefl R'
  obtain ⟨x, hx⟩ := hS
  obtain ⟨m, -, hm⟩ := wf.has_min Set.univ ⟨⟨x, hx⟩, trivial⟩
  exact ⟨m.1, m.2, fun y hy h => hm ⟨y, hy⟩ trivial (TransGen.single h)⟩

theorem tg_mono {R R' : α → α → Prop} (h : ∀ a b, R a b → R' a b) {a b : α} (hab : TransGen R a b) :
    TransGen R' a b := by
  induction hab with
  | single h' => exact TransGen.single (h _ _ h')
  | tail _ h' ih => exact TransGen.tail ih (h _ _ h')

variable [DecidableEq α]
namespace Dag

theorem topoGroupsFuel_spec (o : SetOrder α) {G : Dag α} :
    ∀ (n : Nat) (S : Finset α), S ⊆ G.nodes → S.card < n →
      (G.AcyclicIn S → ∃ gs, topoGroupsFuel o G n S = .ok gs ∧ G.TopoGroups S gs) ∧
      (¬ G.AcyclicIn S → topoGroupsFuel o G n S = .error .assertionError) := by
  intro n
  induction n with
  | zero => intro S _ h; exact absurd h (Nat.not_lt_zero _)
  | succ n ih =>
    intro S hS hn
    by_cases h0 : S.card = 0
    · have : S = ∅ := Finset.card_eq_zero.mp h0
      subst this
      refine ⟨fun _ => ⟨[], by simp [topoGroupsFuel], ⟨by simp, by simp, by simp, by simp⟩⟩, ?_⟩
      intro h
      exfalso; apply h
      intro v hv
      obtain ⟨p, _, h2⟩ := TransGen.tail'_iff.mp hv
      simpa using h2.1
    · obtain ⟨P, hP, hP'⟩ := foldlM_union (f := fun v => do return (← G.parents v) ∩ S)
        (P := fun v x => x ∈ G.par v ∧ x ∈ S) (o.iter () S) ∅ (by
          intro z hz
          rw [o.mem] at hz
          exact ⟨G.par z ∩ S, by simp [parents_ok (hS hz), bind, Except.bind, pure, Except.pure],
            fun x => by simp⟩)
      have hPS : ∀ x, x ∈ P ↔ x ∈ S ∧ ∃ v ∈ S, G.Edge x v := by
        intro x; rw [hP']; simp only [o.mem, Edge]
        constructor
        · rintro (h | ⟨z, h1, h2, h3⟩)
          · simp at h
          · exact ⟨h3, z, h1, h2⟩
        · rintro ⟨h1, v, h2, h3⟩; exact Or.inr ⟨v, h2, h3, h1⟩
      have hsub : P ⊆ S := fun x hx => ((hPS x).mp hx).1
      have hac : G.AcyclicIn P ↔ G.AcyclicIn S := by
        constructor
        · intro h v hv
          refine h v ?_
          have key : ∀ a b, TransGen (G.EdgeIn S) a b → b ∈ P → TransGen (G.EdgeIn P) a b := by
            intro a b hab
            induction hab using TransGen.head_induction_on with
            | single h =>
              intro hb
              exact TransGen.single ⟨(hPS _).mpr ⟨h.1, _, h.2.1, h.2.2⟩, hb, h.2.2⟩
            | head h hr ih' =>
              intro hb
              have hr' := ih' hb
              refine TransGen.head ⟨(hPS _).mpr ⟨h.1, _, h.2.1, h.2.2⟩, ?_, h.2.2⟩ hr'
              obtain ⟨c, hc, _⟩ := TransGen.head'_iff.mp hr'
              exact hc.1
          obtain ⟨c, hc, _⟩ := TransGen.head'_iff.mp hv
          exact key v v hv ((hPS v).mpr ⟨hc.1, c, hc.2.1, hc.2.2⟩)
        · intro h v hv
          exact h v (tg_mono (fun a b h => ⟨hsub h.1, hsub h.2.1, h.2.2⟩) hv)
      have hunf : topoGroupsFuel o G (n + 1) S =
          (if (S \ P).card > 0 then (do
            let high ← topoGroupsFuel o G n P
            return high ++ [S \ P]) else .error .assertionError) := by
        have hP2 : (o.iter () S).foldlM (fun acc v => do
            return acc ∪ ((← G.parents v) ∩ S)) ∅ = .ok P := by
          rw [← hP]
          congr 1
          funext acc v
          simp only [bind, Except.bind, pure, Except.pure]
          cases G.parents v <;> rfl
        simp only [topoGroupsFuel, h0, if_false]
        rw [hP2]
        rfl
      by_cases hl : (S \ P).card > 0
      · have hlt : P.card < n := by
          have : P.card < S.card := by
            apply Finset.card_lt_card
            rw [Finset.ssubset_iff_of_subset hsub]
            obtain ⟨x, hx⟩ := Finset.card_pos.mp hl
            rw [Finset.mem_sdiff] at hx
            exact ⟨x, hx.1, hx.2⟩
          omega
        obtain ⟨ih1, ih2⟩ := ih P (hsub.trans hS) hlt
        rw [hunf, if_pos hl]
        constructor
        · intro h
          obtain ⟨gs, hgs, hT⟩ := ih1 (hac.mpr h)
          refine ⟨gs ++ [S \ P], by simp [hgs, bind, Except.bind, pure, Except.pure], ?_⟩
          refine ⟨?_, ?_, ?_, ?_⟩
          · intro g hg
            rcases List.mem_append.mp hg with hg | hg
            · exact hT.nonempty g hg
            · rw [List.mem_singleton] at hg; subst hg; exact Finset.card_pos.mp hl
          · intro x
            constructor
            · intro hx
              by_cases hxP : x ∈ P
              · obtain ⟨g, hg, hxg⟩ := (hT.cover x).mp hxP
                exact ⟨g, by simp [hg], hxg⟩
              · exact ⟨S \ P, by simp, by simp [hx, hxP]⟩
            · rintro ⟨g, hg, hxg⟩
              rcases List.mem_append.mp hg with hg | hg
              · exact hsub ((hT.cover x).mpr ⟨g, hg, hxg⟩)
              · rw [List.mem_singleton] at hg; subst hg
                exact (Finset.mem_sdiff.mp hxg).1
          · rw [List.pairwise_append]
            refine ⟨hT.disjoint, by simp, ?_⟩
            intro g hg g' hg'
            rw [List.mem_singleton] at hg'; subst hg'
            rw [Finset.disjoint_left]
            intro x hx hx'
            exact (Finset.mem_sdiff.mp hx').2 ((hT.cover x).mpr ⟨g, hg, hx⟩)
          · intro p q gp gq a b hp hq ha hb hab
            have hin : ∀ (r : Nat) (gr : Finset α), (gs ++ [S \ P])[r]? = some gr →
                (r < gs.length ∧ gs[r]? = some gr) ∨ (r = gs.length ∧ gr = S \ P) := by
              intro r gr h
              rcases lt_or_ge r gs.length with hr | hr
              · left; rw [List.getElem?_append_left hr] at h; exact ⟨hr, h⟩
              · right
                rw [List.getElem?_append_right hr] at h
                rcases hr.lt_or_eq with hr' | hr'
                · have : r - gs.length ≠ 0 := by omega
                  rw [List.getElem?_singleton] at h; simp [this] at h
                · subst hr'; simp at h; exact ⟨rfl, h.symm⟩
            have hbS : b ∈ S := by
              rcases hin q gq hq with ⟨_, h⟩ | ⟨_, rfl⟩
              · exact hsub ((hT.cover b).mpr ⟨gq, List.mem_of_getElem? h, hb⟩)
              · exact (Finset.mem_sdiff.mp hb).1
            rcases hin p gp hp with ⟨hpl, hp'⟩ | ⟨rfl, rfl⟩
            · rcases hin q gq hq with ⟨_, hq'⟩ | ⟨rfl, rfl⟩
              · exact hT.ordered p q gp gq a b hp' hq' ha hb hab
              · exact hpl
            · rw [Finset.mem_sdiff] at ha
              exact absurd ((hPS a).mpr ⟨ha.1, b, hbS, hab⟩) ha.2
        · intro h
          rw [ih2 (fun h' => h (hac.mp h'))]; rfl
      · rw [hunf, if_neg hl]
        refine ⟨?_, fun _ => rfl⟩
        intro h
        exfalso
        obtain ⟨x, hx, hx'⟩ := exists_sink h (Finset.card_pos.mp (Nat.pos_of_ne_zero h0))
        apply hl
        refine Finset.card_pos.mpr ⟨x, Finset.mem_sdiff.mpr ⟨hx, ?_⟩⟩
        intro hxP
        obtain ⟨_, v, hv, hxv⟩ := (hPS x).mp hxP
        exact hx' v hv ⟨hx, hv, hxv⟩

/-! ### is_graph_connected -/

theorem findChildren_ok {G : Dag α} {v : α} {S : Finset α} (h : S ⊆ G.nodes) :
    G.findChildren v S = .ok (S.filter (fun x => v ∈ G.par x)) := by
  simp [findChildren, h]

theorem popSet_some {τ : Type} {o : SetOrder α} {t : τ} {S : Finset α} (h : S.Nonempty) :
    ∃ x ∈ S, popSet o t S = some (x, S.erase x) := by
  obtain ⟨y, hy⟩ := h
  rw [← o.mem t] at hy
  unfold popSet
  cases hl : o.iter t S with
  | nil => rw [hl] at hy; simp at hy
  | cons x xs =>
    refine ⟨x, ?_, rfl⟩
    rw [← o.mem t, hl]; simp

theorem popSet_none {τ : Type} {o : SetOrder α} {t : τ} {S : Finset α} (h : popSet o t S = none) : S = ∅ := by
  by_contra hne
  obtain ⟨x, _, hx⟩ := popSet_some (o := o) (t := t) (Finset.nonempty_iff_ne_empty.mpr hne)
  rw [hx] at h; cases h

theorem connectedLoop_spec (o : SetOrder α) {G : Dag α} {S : Finset α} (hS : S ⊆ G.nodes) (v0 : α)
    (hv0 : v0 ∈ S) :
    ∀ (n : Nat) (T W : Finset α), T ⊆ S → W ⊆ S \ T → v0 ∉ T → T.Nonempty →
      (∀ x ∈ S \ T, G.JoinedIn S v0 x) →
      (∀ x ∈ S \ T, x ∉ W → ∀ y ∈ T, ¬ G.Adj x y) →
      T.card + W.card < n →
      ∃ b, connectedLoop o G n T W = .ok b ∧ (b = true ↔ ∀ x ∈ S, G.JoinedIn S v0 x) := by
  intro n
  induction n with
  | zero => intro T W _ _ _ _ _ _ h; exact absurd h (Nat.not_lt_zero _)
  | succ n ih =>
    intro T W hT hW hv0T hTne hreach hclosed hn
    cases hp : popSet o (T, W) W with
    | none =>
      have hW0 := popSet_none hp
      subst hW0
      refine ⟨false, by simp [connectedLoop, hp], ?_⟩
      simp only [Bool.false_eq_true, false_iff]
      intro hall
      obtain ⟨t, ht⟩ := hTne
      have : ∀ y, G.JoinedIn S v0 y → y ∉ T := by
        intro y hy
        induction hy with
        | refl => exact hv0T
        | @tail b c hab hbc ih' =>
          have hbS : b ∈ S := by
            rcases ReflTransGen.cases_tail hab with h | ⟨_, _, h⟩
            · rw [h]; exact hv0
            · exact h.1
          exact fun hc => hclosed b (Finset.mem_sdiff.mpr ⟨hbS, ih'⟩) (by simp) c hc hbc.2
      exact this t (hall t (hT ht)) ht
    | some r =>
      obtain ⟨v, hv, hpe⟩ := popSet_some (o := o) (t := (T, W)) (S := W) (by
        rw [Finset.nonempty_iff_ne_empty]; rintro rfl
        have h0 : o.iter (T, (∅ : Finset α)) ∅ = [] := by
          rw [List.eq_nil_iff_forall_not_mem]; intro a ha; rw [o.mem] at ha; simp at ha
        simp [popSet, h0] at hp)
      rw [hpe] at hp
      cases hp
      have hvS : v ∈ S \ T := hW hv
      have hvn : v ∈ G.nodes := hS (Finset.mem_sdiff.mp hvS).1
      have hT1 : T \ (G.par v ∩ T) ⊆ G.nodes := fun x hx => hS (hT (Finset.mem_sdiff.mp hx).1)
      simp only [connectedLoop, hpe, parents_ok hvn, bind, Except.bind, findChildren_ok hT1]
      set T1 := T \ (G.par v ∩ T) with hT1d
      set Ch := T1.filter (fun x => v ∈ G.par x) with hCh
      set T2 := T1 \ Ch with hT2d
      have hT2 : ∀ x, x ∈ T2 ↔ x ∈ T ∧ ¬ G.Adj v x := by
        intro x
        simp only [hT2d, hCh, hT1d, Finset.mem_sdiff, Finset.mem_filter, Finset.mem_inter, Adj, Edge]
        tauto
      have hjoin : ∀ x ∈ S \ T2, G.JoinedIn S v0 x := by
        intro x hx
        rw [Finset.mem_sdiff, hT2] at hx
        by_cases hxT : x ∈ T
        · have : G.Adj v x := by by_contra h; exact hx.2 ⟨hxT, h⟩
          exact ReflTransGen.tail (hreach v hvS) ⟨hx.1, this⟩
        · exact hreach x (Finset.mem_sdiff.mpr ⟨hx.1, hxT⟩)
      by_cases h0 : T2.card = 0
      · refine ⟨true, by simp [h0, pure, Except.pure], ?_⟩
        simp only [true_iff]
        intro x hx
        apply hjoin
        rw [Finset.card_eq_zero] at h0
        rw [h0]; simpa using hx
      · rw [if_neg h0]
        have hPC : ∀ x, x ∈ (W.erase v ∪ (G.par v ∩ T)) ∪ Ch ↔ (x ∈ W ∧ x ≠ v) ∨ (x ∈ T ∧ G.Adj v x) := by
          intro x
          simp only [hCh, hT1d, Finset.mem_union, Finset.mem_erase, Finset.mem_inter, Finset.mem_filter,
            Finset.mem_sdiff, Adj, Edge]
          tauto
        apply ih
        · intro x hx; exact hT ((hT2 x).mp hx).1
        · intro x hx
          rw [hPC] at hx
          rw [Finset.mem_sdiff, hT2]
          rcases hx with hx | hx
          · have := Finset.mem_sdiff.mp (hW hx.1)
            exact ⟨this.1, fun h => this.2 h.1⟩
          · exact ⟨hT hx.1, fun h => h.2 hx.2⟩
        · intro h; exact hv0T ((hT2 _).mp h).1
        · exact Finset.card_pos.mp (Nat.pos_of_ne_zero h0)
        · exact hjoin
        · intro x hx hxW y hy
          rw [hPC] at hxW
          rw [Finset.mem_sdiff, hT2] at hx
          rw [hT2] at hy
          by_cases hxv : x = v
          · subst hxv; exact hy.2
          · by_cases hxT : x ∈ T
            · exfalso
              have : G.Adj v x := by by_contra h; exact hx.2 ⟨hxT, h⟩
              exact hxW (Or.inr ⟨hxT, this⟩)
            · refine hclosed x (Finset.mem_sdiff.mpr ⟨hx.1, hxT⟩) ?_ y hy.1
              intro h; exact hxW (Or.inl ⟨h, hxv⟩)
        · have hsubW : (W.erase v).card = W.card - 1 := Finset.card_erase_of_mem hv
          have hWpos : 0 < W.card := Finset.card_pos.mpr ⟨v, hv⟩
          have h1 : (((W.erase v ∪ (G.par v ∩ T)) ∪ Ch)).card ≤ (W.erase v).card + (T \ T2).card := by
            refine (Finset.card_le_card ?_).trans (Finset.card_union_le _ _)
            intro x hx
            rw [hPC] at hx
            simp only [Finset.mem_union, Finset.mem_erase, Finset.mem_sdiff, hT2]
            tauto
          have h2 : (T \ T2).card + T2.card = T.card := by
            apply Finset.card_sdiff_add_card_eq_card
            intro x hx; exact ((hT2 x).mp hx).1
          omega

omit [DecidableEq α] in
theorem joinedIn_symm {G : Dag α} {S : Finset α} {a b : α} (ha : a ∈ S) (h : G.JoinedIn S a b) :
    G.JoinedIn S b a := by
  induction h with
  | refl => exact ReflTransGen.refl
  | @tail b c hab hbc ih =>
    refine ReflTransGen.head ⟨?_, hbc.2.symm⟩ ih
    rcases ReflTransGen.cases_tail hab with h | ⟨_, _, h⟩
    · rw [h]; exact ha
    · exact h.1

theorem isGraphConnected_spec (o : SetOrder α) {G : Dag α} {S : Finset α} (hS : S ⊆ G.nodes) (hc : 1 < S.card) :
    ∃ b, isGraphConnected o G S = .ok b ∧ (b = true ↔ ∀ x ∈ S, ∀ y ∈ S, G.JoinedIn S x y) := by
  obtain ⟨v, hv, hp⟩ := popSet_some (o := o) (t := ()) (S := S) (Finset.card_pos.mp (by omega))
  have hce : (S.erase v).card = S.card - 1 := Finset.card_erase_of_mem hv
  obtain ⟨b, hb, hb'⟩ := connectedLoop_spec o hS v hv (S.card + 1) (S.erase v) {v} (Finset.erase_subset _ _)
    (by intro x hx; rw [Finset.mem_singleton] at hx; subst hx; simp [hv]) (by simp)
    (Finset.card_pos.mp (by omega))
    (by
      intro x hx
      simp only [Finset.mem_sdiff, Finset.mem_erase, not_and] at hx
      have : x = v := by by_contra h; exact h (by by_contra h'; exact (hx.2 h') hx.1)
      subst this; exact ReflTransGen.refl)
    (by
      intro x hx hxv
      simp only [Finset.mem_sdiff, Finset.mem_erase, not_and] at hx
      simp only [Finset.mem_singleton] at hxv
      exact absurd hx.1 (hx.2 hxv))
    (by rw [Finset.card_singleton]; omega)
  refine ⟨b, ?_, ?_⟩
  · simp only [isGraphConnected, gt_iff_lt, hc, if_true, hp]; exact hb
  · rw [hb']
    constructor
    · intro h x hx y hy
      exact (joinedIn_symm hv (h x hx)).trans (h y hy)
    · intro h x hx; exact h v hv x hx

end Dag
end Verif
