import Verif.Spec.PagComp
import Verif.Lemmas.PagMsep
import Mathlib.Data.List.Sort

/-!
# Buckets and possible c-components
-/

namespace Verif
open Relation
variable {α : Type} [DecidableEq α]

namespace MG

/-! ### ordered buckets -/

theorem isSink_iff {G : MG α} {S ex : Finset α} : G.isSetPossibleSink S ex = true ↔
    ∀ v ∈ S, ∀ w ∈ ex, ¬ G.At w v .tail ∧ ¬ G.At w v .circle := by
  simp only [isSetPossibleSink, decide_eq_true_eq, Finset.disjoint_left, At]
  constructor
  · intro h v hv w hw
    exact ⟨fun h' => (h v hv).1 h' hw, fun h' => (h v hv).2 h' hw⟩
  · intro h v hv
    exact ⟨fun w h1 h2 => (h v hv w h2).1 h1, fun w h1 h2 => (h v hv w h2).2 h1⟩

omit [DecidableEq α] in
theorem into_iff {G : MG α} (hG : G.Proper) {B C : Finset α} : G.Into B C ↔
    ∀ v ∈ C, ∀ w ∈ B, ¬ G.At w v .tail ∧ ¬ G.At w v .circle := by
  constructor
  · intro h v hv w hw
    refine ⟨fun h' => ?_, fun h' => ?_⟩
    · exact absurd (hG.one _ _ _ _ h' (h w hw v hv (Or.inl ⟨_, h'⟩))) (by simp)
    · exact absurd (hG.one _ _ _ _ h' (h w hw v hv (Or.inl ⟨_, h'⟩))) (by simp)
  · intro h u hu v hv hadj
    obtain ⟨m, hm⟩ := hG.adj_iff.1 hadj
    cases m with
    | tail => exact absurd hm (h v hv u hu).1
    | arrow => exact hm
    | circle => exact absurd hm (h v hv u hu).2

theorem takeSink_some {G : MG α} {R : Finset α} : ∀ {bs : List (Finset α)} {b rest},
    takeSink G R bs = some (b, rest) → G.isSetPossibleSink b (R \ b) = true ∧ ∃ l1 l2, bs = l1 ++ b :: l2 ∧ rest = l1 ++ l2 := by
  intro bs
  induction bs with
  | nil => intro b rest h; simp [takeSink] at h
  | cons x bs ih =>
    intro b rest h
    unfold takeSink at h
    split_ifs at h with hx
    · cases h
      exact ⟨hx, [], bs, rfl, rfl⟩
    · cases hr : takeSink G R bs with
      | none => rw [hr] at h; simp at h
      | some r =>
        rw [hr] at h
        simp only [Option.map_some, Option.some.injEq, Prod.mk.injEq] at h
        obtain ⟨rfl, rfl⟩ := h
        obtain ⟨h1, l1, l2, h2, h3⟩ := ih (b := r.1) (rest := r.2) hr
        exact ⟨h1, x :: l1, l2, by rw [h2]; rfl, by rw [h3]; rfl⟩

theorem takeSink_none {G : MG α} {R : Finset α} : ∀ {bs : List (Finset α)},
    takeSink G R bs = none ↔ ∀ b ∈ bs, ¬ G.isSetPossibleSink b (R \ b) = true := by
  intro bs
  induction bs with
  | nil => simp [takeSink]
  | cons x bs ih =>
    unfold takeSink
    split_ifs with hx
    · simp [hx]
    · simp only [Option.map_eq_none_iff, ih, List.mem_cons, forall_eq_or_imp]
      exact ⟨fun h => ⟨hx, h⟩, And.right⟩

/-- The union of a list of sets. -/
def unionAll (l : List (Finset α)) : Finset α := l.foldl (fun acc b => acc ∪ b) ∅

theorem mem_foldl_union {x : α} : ∀ (l : List (Finset α)) (s : Finset α),
    x ∈ l.foldl (fun acc b => acc ∪ b) s ↔ x ∈ s ∨ ∃ b ∈ l, x ∈ b := by
  intro l
  induction l with
  | nil => intro s; simp
  | cons b l ih =>
    intro s
    rw [List.foldl_cons, ih, Finset.mem_union]
    simp only [List.mem_cons, exists_eq_or_imp, or_assoc]

/-- An order of removal: each set can be removed before the later ones. -/
def SinkSeq (G : MG α) (l : List (Finset α)) : Prop := l.Pairwise (fun b c => ∀ v ∈ b, ∀ w ∈ c, ¬ G.At w v .tail ∧ ¬ G.At w v .circle)

theorem rest_remaining {l1 l2 : List (Finset α)} {b R : Finset α} (hd : (l1 ++ b :: l2).Pairwise Disjoint)
    (hR : ∀ x, x ∈ R ↔ ∃ c ∈ l1 ++ b :: l2, x ∈ c) : ∀ x, x ∈ R \ b ↔ ∃ c ∈ l1 ++ l2, x ∈ c := by
  intro x
  rw [Finset.mem_sdiff, hR]
  simp only [List.mem_append, List.mem_cons]
  rw [List.pairwise_append, List.pairwise_cons] at hd
  constructor
  · rintro ⟨⟨c, h | rfl | h, hx⟩, hb⟩
    · exact ⟨c, Or.inl h, hx⟩
    · exact absurd hx hb
    · exact ⟨c, Or.inr h, hx⟩
  · rintro ⟨c, h | h, hx⟩
    · exact ⟨⟨c, Or.inl h, hx⟩, fun hb => Finset.disjoint_left.1 (hd.2.2 c h b (by simp)) hx hb⟩
    · exact ⟨⟨c, Or.inr (Or.inr h), hx⟩, fun hb => Finset.disjoint_left.1 (hd.2.1.1 c h) hb hx⟩

theorem bucketsLoop_ok {G : MG α} : ∀ (n : Nat) (bs ord : List (Finset α)) (R : Finset α) (L : List (Finset α)),
    bs.Pairwise Disjoint → (∀ x, x ∈ R ↔ ∃ c ∈ bs, x ∈ c) → bucketsLoop G n bs ord R = .ok L →
    ∃ M, M.Perm bs ∧ G.SinkSeq M ∧ L = (ord ++ M).reverse := by
  intro n
  induction n with
  | zero => intro bs ord R L _ _ h; cases h
  | succ n ih =>
    intro bs ord R L hd hR h
    unfold bucketsLoop at h
    by_cases hlen : bs.length > 0
    · rw [if_pos hlen] at h
      cases hs : takeSink G R bs with
      | none =>
        rw [hs] at h
        simp only at h
        by_cases h0 : ord.length = 0
        · rw [if_pos h0] at h; cases h
        · rw [if_neg h0] at h
          exact ih bs ord R L hd hR h
      | some r =>
        obtain ⟨b, rest⟩ := r
        rw [hs] at h
        simp only at h
        obtain ⟨h1, l1, l2, rfl, rfl⟩ := takeSink_some hs
        have hR' := rest_remaining hd hR
        obtain ⟨M, k1, k2, k3⟩ := ih (l1 ++ l2) (ord ++ [b]) (R \ b) L
          (hd.sublist (List.Sublist.append (List.Sublist.refl l1) (List.sublist_cons_self b l2))) hR' h
        refine ⟨b :: M, ?_, ?_, by rw [k3]; simp⟩
        · exact (k1.cons b).trans List.perm_middle.symm
        · refine List.pairwise_cons.2 ⟨fun c hc v hv w hw => ?_, k2⟩
          exact isSink_iff.1 h1 v hv w ((hR' w).2 ⟨c, k1.mem_iff.1 hc, hw⟩)
    · have : bs = [] := by
        cases bs with
        | nil => rfl
        | cons => simp at hlen
      subst this
      rw [if_neg hlen] at h
      cases h
      exact ⟨[], .refl _, List.Pairwise.nil, by simp⟩

theorem bucketsLoop_complete {G : MG α} : ∀ (n : Nat) (bs ord : List (Finset α)) (R : Finset α),
    bs.Pairwise Disjoint → (∀ x, x ∈ R ↔ ∃ c ∈ bs, x ∈ c) → (∃ M, M.Perm bs ∧ G.SinkSeq M) → bs.length < n →
    ∃ L, ∀ k, n ≤ k → bucketsLoop G k bs ord R = .ok L := by
  intro n
  induction n with
  | zero => intro bs ord R _ _ _ h; omega
  | succ n ih =>
    intro bs ord R hd hR hM hn
    obtain ⟨M, hM1, hM2⟩ := hM
    by_cases hlen : bs.length > 0
    · cases hs : takeSink G R bs with
      | none =>
        exfalso
        cases M with
        | nil => have := hM1.length_eq; simp at this; omega
        | cons b M =>
          have hb : b ∈ bs := hM1.mem_iff.1 (by simp)
          refine takeSink_none.1 hs b hb (isSink_iff.2 fun v hv w hw => ?_)
          rw [Finset.mem_sdiff, hR] at hw
          obtain ⟨⟨c, hc, hwc⟩, hwb⟩ := hw
          have hc' : c ∈ b :: M := hM1.mem_iff.2 hc
          rcases List.mem_cons.1 hc' with rfl | hc'
          · exact absurd hwc hwb
          · exact (List.pairwise_cons.1 hM2).1 c hc' v hv w hwc
      | some r =>
        obtain ⟨b, rest⟩ := r
        obtain ⟨h1, l1, l2, rfl, rfl⟩ := takeSink_some hs
        have hR' := rest_remaining hd hR
        obtain ⟨L, hL⟩ := ih (l1 ++ l2) (ord ++ [b]) (R \ b)
          (hd.sublist (List.Sublist.append (List.Sublist.refl l1) (List.sublist_cons_self b l2))) hR'
          ⟨M.erase b, by
            have := hM1.erase b
            refine this.trans ?_
            have := (List.perm_middle (a := b) (l₁ := l1) (l₂ := l2)).erase b
            simpa using this, hM2.sublist List.erase_sublist⟩
          (by simp only [List.length_append, List.length_cons] at hn ⊢; omega)
        refine ⟨L, fun k hk => ?_⟩
        cases k with
        | zero => omega
        | succ k =>
          unfold bucketsLoop
          rw [if_pos hlen, hs]
          exact hL k (by omega)
    · refine ⟨ord.reverse, fun k hk => ?_⟩
      cases k with
      | zero => omega
      | succ k =>
        unfold bucketsLoop
        rw [if_neg hlen]

theorem bucketsLoop_error {G : MG α} : ∀ (n : Nat) (bs ord : List (Finset α)) (R : Finset α), ord ≠ [] →
    bucketsLoop G n bs ord R = .error .outOfFuel ∨ ∃ L, bucketsLoop G n bs ord R = .ok L := by
  intro n
  induction n with
  | zero => intro bs ord R _; exact Or.inl rfl
  | succ n ih =>
    intro bs ord R h
    unfold bucketsLoop
    by_cases hlen : bs.length > 0
    · rw [if_pos hlen]
      cases hs : takeSink G R bs with
      | none =>
        simp only
        rw [if_neg (by simpa using h)]
        exact ih bs ord R h
      | some r => exact ih _ _ _ (by simp)
    · rw [if_neg hlen]
      exact Or.inr ⟨_, rfl⟩

theorem subgraphsLoop_nonempty (o : SetOrder α) {G : MG α} {types : Option (List (Mark × Mark))} :
    ∀ (n : Nat) (nodes : Finset α) (L : List (Finset α)), subgraphsLoop o G types n nodes = .ok L → ∀ S ∈ L, S.Nonempty := by
  intro n
  induction n with
  | zero => intro nodes L h; cases h
  | succ n ih =>
    intro nodes L h S hS
    unfold subgraphsLoop at h
    cases hp : popSet o n nodes with
    | none => rw [hp] at h; cases h; cases hS
    | some p =>
      obtain ⟨i, rest⟩ := p
      rw [hp] at h
      simp only at h
      cases h1 : G.findReachableSet o i rest types with
      | error e => rw [h1] at h; cases h
      | ok r =>
        rw [h1] at h
        cases h2 : subgraphsLoop o G types n (rest \ r) with
        | error e => simp only [bind, Except.bind, h2] at h; cases h
        | ok M =>
          simp only [bind, Except.bind, h2] at h
          cases h
          rcases List.mem_cons.1 hS with rfl | hS
          · exact ⟨i, by simp⟩
          · exact ih _ _ h2 S hS

theorem foldl_union_eq {bs : List (Finset α)} (x : α) :
    x ∈ bs.foldl (fun acc b => acc ∪ b) ∅ ↔ ∃ c ∈ bs, x ∈ c := by
  rw [mem_foldl_union]; simp

/-- The buckets of a graph. -/
theorem findBuckets_spec (o : SetOrder α) (G : MG α) (hT : Mark.circle ∈ G.types) (en : Finset α) :
    ∃ L, G.findBuckets o en = .ok L ∧ (∀ x, (∃ S ∈ L, x ∈ S) ↔ x ∈ en) ∧ L.Pairwise Disjoint ∧
      (∀ S ∈ L, S.Nonempty) ∧ ∀ S ∈ L, ∀ x ∈ S, ∀ y, y ∈ S ↔ G.SameBucket en x y := by
  obtain ⟨L, h1, h2, h3, h4⟩ := components_mark o G en .circle hT
  refine ⟨L, h1, h2, h3, ?_, h4⟩
  rw [findUnconnectedSubgraphs] at h1
  exact subgraphsLoop_nonempty o _ _ _ h1

theorem sinkSeq_rank {G : MG α} (hG : G.Proper) : ∀ {M : List (Finset α)}, M.Pairwise Disjoint → G.SinkSeq M →
    ∃ r : α → Nat, (∀ x, r x ≤ M.length) ∧ (∀ S ∈ M, ∀ u ∈ S, ∀ v ∈ S, r u = r v) ∧
      ∀ S ∈ M, ∀ T ∈ M, ∀ u ∈ S, ∀ v ∈ T, v ∉ S → G.MAdj u v → r u ≤ r v → G.At u v .arrow := by
  intro M
  induction M with
  | nil => intro _ _; exact ⟨fun _ => 0, by simp⟩
  | cons b M ih =>
    intro hd hs
    rw [List.pairwise_cons] at hd
    have hs' := List.pairwise_cons.1 hs
    obtain ⟨r, h1, h2, h3⟩ := ih hd.2 hs'.2
    have hdis : ∀ S ∈ M, ∀ u ∈ S, u ∉ b := fun S hS u hu hb => Finset.disjoint_left.1 (hd.1 S hS) hb hu
    refine ⟨fun x => if x ∈ b then M.length + 1 else r x, fun x => ?_, ?_, ?_⟩
    · have := h1 x
      simp only [List.length_cons]
      split_ifs <;> omega
    · intro S hS u hu v hv
      rcases List.mem_cons.1 hS with rfl | hS
      · simp only [if_pos hu, if_pos hv]
      · simp only [if_neg (hdis S hS u hu), if_neg (hdis S hS v hv)]
        exact h2 S hS u hu v hv
    · intro S hS T hT u hu v hv hvS hadj hle
      rcases List.mem_cons.1 hS with rfl | hS'
      · rcases List.mem_cons.1 hT with rfl | hT
        · exact absurd hv hvS
        · simp only [if_pos hu, if_neg hvS] at hle
          have := h1 v
          omega
      · rcases List.mem_cons.1 hT with rfl | hT
        · obtain ⟨m, hm⟩ := hG.adj_iff.1 hadj
          have := hs'.1 S hS' v hv u hu
          cases m with
          | tail => exact absurd hm this.1
          | arrow => exact hm
          | circle => exact absurd hm this.2
        · simp only [if_neg (hdis S hS' u hu), if_neg (hdis T hT v hv)] at hle
          exact h3 S hS' T hT u hu v hv hvS hadj hle

theorem orderable_iff {G : MG α} (hG : G.Proper) {en : Finset α} {L : List (Finset α)} (h1 : ∀ x, (∃ S ∈ L, x ∈ S) ↔ x ∈ en)
    (h2 : L.Pairwise Disjoint) (h4 : ∀ S ∈ L, ∀ x ∈ S, ∀ y, y ∈ S ↔ G.SameBucket en x y) :
    (∃ M, M.Perm L ∧ G.SinkSeq M) ↔ G.Orderable en := by
  classical
  constructor
  · rintro ⟨M, hM1, hM2⟩
    have hd : M.Pairwise Disjoint := hM1.symm.pairwise h2 (fun h => h.symm)
    obtain ⟨r, _, k2, k3⟩ := sinkSeq_rank hG hd hM2
    refine ⟨r, fun u hu v hv huv => ?_, fun u hu v hv huv hadj hle => ?_⟩
    · obtain ⟨S, hS, huS⟩ := (h1 u).2 hu
      exact k2 S (hM1.mem_iff.2 hS) u huS v ((h4 S hS u huS v).2 huv)
    · obtain ⟨S, hS, huS⟩ := (h1 u).2 hu
      obtain ⟨T, hT, hvT⟩ := (h1 v).2 hv
      exact k3 S (hM1.mem_iff.2 hS) T (hM1.mem_iff.2 hT) u huS v hvT (fun h => huv ((h4 S hS u huS v).1 h)) hadj hle
  · rintro ⟨r, hr1, hr2⟩
    let rk : Finset α → Nat := fun S => if h : S.Nonempty then r h.choose else 0
    have hrk : ∀ S ∈ L, ∀ x ∈ S, rk S = r x := by
      intro S hS x hx
      have hne : S.Nonempty := ⟨x, hx⟩
      simp only [rk, dif_pos hne]
      exact hr1 _ ((h1 _).1 ⟨S, hS, hne.choose_spec⟩) _ ((h1 _).1 ⟨S, hS, hx⟩) ((h4 S hS _ hne.choose_spec x).1 hx)
    let le : Finset α → Finset α → Prop := fun S T => rk T ≤ rk S
    have : Std.Total le := ⟨fun S T => Nat.le_total _ _⟩
    have : IsTrans (Finset α) le := ⟨fun S T U (h1 : rk T ≤ rk S) (h2 : rk U ≤ rk T) => Nat.le_trans h2 h1⟩
    have hp := List.perm_insertionSort le L
    refine ⟨L.insertionSort le, hp, ?_⟩
    have hs := List.pairwise_insertionSort le L
    have hd : (L.insertionSort le).Pairwise Disjoint := hp.symm.pairwise h2 (fun h => h.symm)
    refine (hs.and hd).imp_of_mem ?_
    rintro b c hb hc ⟨hle, hdis⟩ v hv w hw
    have hb := hp.mem_iff.1 hb
    have hc := hp.mem_iff.1 hc
    have hle : r w ≤ r v := by rw [← hrk b hb v hv, ← hrk c hc w hw]; exact hle
    have hns : ¬ G.SameBucket en w v := fun h => Finset.disjoint_left.1 hdis hv ((h4 c hc w hw v).2 h)
    have hwe := (h1 w).1 ⟨c, hc, hw⟩
    have hve := (h1 v).1 ⟨b, hb, hv⟩
    refine ⟨fun h => ?_, fun h => ?_⟩
    · exact absurd (hG.one _ _ _ _ h (hr2 w hwe v hve hns (Or.inl ⟨_, h⟩) hle)) (by simp)
    · exact absurd (hG.one _ _ _ _ h (hr2 w hwe v hve hns (Or.inl ⟨_, h⟩) hle)) (by simp)

theorem noLast_iff {G : MG α} (hG : G.Proper) {en : Finset α} {L : List (Finset α)} (h1 : ∀ x, (∃ S ∈ L, x ∈ S) ↔ x ∈ en)
    (h3 : ∀ S ∈ L, S.Nonempty) (h4 : ∀ S ∈ L, ∀ x ∈ S, ∀ y, y ∈ S ↔ G.SameBucket en x y) {R : Finset α}
    (hR : ∀ x, x ∈ R ↔ ∃ c ∈ L, x ∈ c) : (L ≠ [] ∧ takeSink G R L = none) ↔ G.NoLast en := by
  have hR' : ∀ x, x ∈ R ↔ x ∈ en := fun x => (hR x).trans (h1 x)
  rw [takeSink_none]
  constructor
  · rintro ⟨hne, h⟩
    obtain ⟨S, hS⟩ := List.exists_mem_of_ne_nil L hne
    obtain ⟨x, hx⟩ := h3 S hS
    refine ⟨⟨x, (h1 x).1 ⟨S, hS, hx⟩⟩, fun x hx => ?_⟩
    obtain ⟨S, hS, hxS⟩ := (h1 x).2 hx
    have := h S hS
    rw [isSink_iff] at this
    push Not at this
    obtain ⟨v, hv, w, hw, hvw⟩ := this
    rw [Finset.mem_sdiff, hR'] at hw
    have hve := (h1 v).1 ⟨S, hS, hv⟩
    refine ⟨v, hve, w, hw.1, (h4 S hS x hxS v).1 hv, fun h => hw.2 ((h4 S hS x hxS w).2 h), ?_⟩
    by_cases ht : G.At w v .tail
    · exact ⟨Or.inl ⟨_, ht⟩, fun ha => absurd (hG.one _ _ _ _ ht ha) (by simp)⟩
    · have hc := hvw ht
      exact ⟨Or.inl ⟨_, hc⟩, fun ha => absurd (hG.one _ _ _ _ hc ha) (by simp)⟩
  · rintro ⟨⟨x, hx⟩, h⟩
    obtain ⟨S0, hS0, _⟩ := (h1 x).2 hx
    refine ⟨List.ne_nil_of_mem hS0, fun S hS hsink => ?_⟩
    obtain ⟨x, hxS⟩ := h3 S hS
    obtain ⟨v, hv, w, hw, k1, k2, k3, k4⟩ := h x ((h1 x).1 ⟨S, hS, hxS⟩)
    have hvS := (h4 S hS x hxS v).2 k1
    have hwS : w ∉ S := fun h => k2 ((h4 S hS x hxS w).1 h)
    have := isSink_iff.1 hsink v hvS w (by rw [Finset.mem_sdiff, hR']; exact ⟨hw, hwS⟩)
    obtain ⟨m, hm⟩ := hG.adj_iff.1 k3
    cases m with
    | tail => exact this.1 hm
    | arrow => exact k4 hm
    | circle => exact this.2 hm

/-! ### possible c-components -/

/-- Picking the component of a node in a list of components. -/
theorem find_component {R : α → α → Prop} {L : List (Finset α)} {en : Finset α} (h1 : ∀ x, (∃ S ∈ L, x ∈ S) ↔ x ∈ en)
    (h2 : ∀ S ∈ L, ∀ x ∈ S, ∀ y, y ∈ S ↔ R x y) (v w : α) :
    w ∈ ((L.find? (fun S => v ∈ S)).getD ∅) ↔ v ∈ en ∧ R v w := by
  cases hf : L.find? (fun S => decide (v ∈ S)) with
  | none =>
    rw [List.find?_eq_none] at hf
    simp only [Option.getD_none, Finset.notMem_empty, false_iff, not_and]
    intro hv
    obtain ⟨S, hS, hvS⟩ := (h1 v).2 hv
    exact absurd hvS (by simpa using hf S hS)
  | some S =>
    have hS := List.mem_of_find?_eq_some hf
    have hvS : v ∈ S := by simpa using List.find?_some hf
    simp only [Option.getD_some]
    rw [h2 S hS v hvS]
    exact ⟨fun h => ⟨(h1 v).1 ⟨S, hS, hvS⟩, h⟩, And.right⟩

theorem mem_foldl_map_union {β : Type} {f : β → Finset α} {x : α} : ∀ (l : List β) (s : Finset α),
    x ∈ l.foldl (fun acc b => acc ∪ f b) s ↔ x ∈ s ∨ ∃ b ∈ l, x ∈ f b := by
  intro l
  induction l with
  | nil => intro s; simp
  | cons b l ih =>
    intro s
    rw [List.foldl_cons, ih, Finset.mem_union]
    simp only [List.mem_cons, exists_eq_or_imp, or_assoc]

/-- What `find_union_pc_components_for_node` computes; `ys` is the iteration order of the invisible children. -/
def PcCoded (G : MG α) (vis : Finset (α × α)) (en : Finset α) (ys : List α) (x w : α) : Prop :=
  w = x ∨ G.InvisNb vis en x w ∨ G.ValidDc vis en x w ∨
    w ∈ en ∧ ∃ z y, G.ValidDc vis en x z ∧ z ≠ x ∧ G.At w z .arrow ∧ ys.getLast? = some y ∧ (w, y) ∉ vis

theorem unionPc_spec (o : SetOrder α) {G : MG α} (hG : G.Proper) (hT : Mark.arrow ∈ G.types) (vis : Finset (α × α)) (x : α)
    (en : Finset α) {L : List (Finset α)} (hL : G.dcComponents o en = .ok L) {dc : Option (List (Finset α))}
    (hdc : dc = none ∨ dc = some L) :
    ∃ Y R, (∀ y, y ∈ Y ↔ G.InvisCh vis en x y) ∧ G.unionPcComponents o (some vis) x en dc = .ok R ∧
      ∀ w, w ∈ R ↔ G.PcCoded vis en (o.iter x Y) x w := by
  let N := (G.findAdjacentNodes x (some en) none).filter (fun v => (x, v) ∉ vis ∧ (v, x) ∉ vis)
  let Y := N.filter (fun y => x ∈ G.g y .arrow)
  have hN : ∀ v, v ∈ N ↔ G.InvisNb vis en x v := by
    intro v
    simp only [N, Finset.mem_filter, mem_findAdjacent_none, hG.nbr_iff, InvisNb]
    tauto
  have hY : ∀ v, v ∈ Y ↔ G.InvisCh vis en x v := by
    intro v
    simp only [Y, Finset.mem_filter, hN, InvisCh, At]
  obtain ⟨L', hL', c1, _, c3⟩ := components_mark o G en .arrow hT
  have : L' = L := by
    have h := hL
    rw [dcComponents, hL'] at h
    exact Except.ok.inj h
  subst this
  let V := (o.iter x Y).foldl (fun acc y => acc ∪ ((L'.find? (fun S => y ∈ S)).getD ∅)) ∅
  have hV : ∀ z, z ∈ V ↔ G.ValidDc vis en x z := by
    intro z
    simp only [V]
    rw [mem_foldl_map_union]
    simp only [Finset.notMem_empty, false_or, o.mem]
    constructor
    · rintro ⟨y, hy, h⟩
      exact ⟨y, (hY y).1 hy, ((find_component c1 c3 y z).1 h).2⟩
    · rintro ⟨y, hy, h⟩
      exact ⟨y, (hY y).2 hy, (find_component c1 c3 y z).2 ⟨hy.1.1, h⟩⟩
  have hloop : ∀ (l : List α) (acc : Finset α), (∀ z ∈ l, z ∈ V) →
      ∃ P, l.foldlM (fun (acc : Finset α) z =>
        match (o.iter x Y).getLast? with
        | none => (.error .attributeError : Py (Finset α))
        | some y => .ok (acc ∪ (en \ (Y ∪ V)).filter (fun w => w ∈ G.g z .arrow ∧ (w, y) ∉ vis))) acc = .ok P ∧
        ∀ w, w ∈ P ↔ w ∈ acc ∨ (w ∈ en ∧ w ∉ Y ∧ w ∉ V) ∧ ∃ z ∈ l, ∃ y, (o.iter x Y).getLast? = some y ∧
          G.At w z .arrow ∧ (w, y) ∉ vis := by
    intro l
    induction l with
    | nil => intro acc _; exact ⟨acc, rfl, by simp⟩
    | cons z l ih =>
      intro acc hl
      obtain ⟨y, hy, _⟩ := (hV z).1 (hl z (by simp))
      have hmem : y ∈ o.iter x Y := (o.mem _ _ _).2 ((hY y).2 hy)
      obtain ⟨y0, hy0⟩ : ∃ y0, (o.iter x Y).getLast? = some y0 := by
        exact ⟨_, List.getLast?_eq_getLast_of_ne_nil (List.ne_nil_of_mem hmem)⟩
      obtain ⟨P, h1, h2⟩ := ih (acc ∪ (en \ (Y ∪ V)).filter (fun w => w ∈ G.g z .arrow ∧ (w, y0) ∉ vis))
        (fun z hz => hl z (List.mem_cons_of_mem _ hz))
      refine ⟨P, ?_, fun w => ?_⟩
      · rw [List.foldlM_cons]
        simp only [hy0] at h1 ⊢
        exact h1
      · rw [h2]
        simp only [Finset.mem_union, Finset.mem_filter, Finset.mem_sdiff, not_or, List.mem_cons, exists_eq_or_imp, hy0,
          Option.some.injEq, exists_eq_left', At]
        tauto
  obtain ⟨P, p1, p2⟩ := hloop (o.iter (x, 1) (V.erase x)) ∅ (fun z hz => Finset.mem_of_mem_erase ((o.mem _ _ _).1 hz))
  refine ⟨Y, insert x (Y ∪ V ∪ P ∪ N), hY, ?_, fun w => ?_⟩
  · unfold unionPcComponents
    rcases hdc with rfl | rfl
    · simp only
      rw [py_bind hL]
      exact (py_bind p1 _).trans rfl
    · simp only
      rw [py_bind (rfl : (.ok L' : Py (List (Finset α))) = .ok L')]
      exact (py_bind p1 _).trans rfl
  · simp only [Finset.mem_insert, Finset.mem_union, p2, Finset.notMem_empty, false_or, o.mem, Finset.mem_erase]
    simp only [PcCoded, hN, hV, hY]
    constructor
    · rintro (h | ((h | h) | ⟨⟨h1, h2, h3⟩, z, ⟨h4, h5⟩, y, h6, h7, h8⟩) | h)
      · exact Or.inl h
      · exact Or.inr (Or.inl h.1)
      · exact Or.inr (Or.inr (Or.inl h))
      · exact Or.inr (Or.inr (Or.inr ⟨h1, z, y, h5, h4, h7, h6, h8⟩))
      · exact Or.inr (Or.inl h)
    · rintro (h | h | h | ⟨h1, z, y, h5, h4, h7, h6, h8⟩)
      · exact Or.inl h
      · exact Or.inr (Or.inr h)
      · exact Or.inr (Or.inl (Or.inl (Or.inr h)))
      · by_cases k1 : G.InvisCh vis en x w
        · exact Or.inr (Or.inl (Or.inl (Or.inl k1)))
        · by_cases k2 : G.ValidDc vis en x w
          · exact Or.inr (Or.inl (Or.inl (Or.inr k2)))
          · exact Or.inr (Or.inl (Or.inr ⟨⟨h1, k1, k2⟩, z, ⟨h4, h5⟩, y, h6, h7, h8⟩))

end MG
end Verif
