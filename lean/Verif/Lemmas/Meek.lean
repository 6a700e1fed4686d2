import Verif.Spec.Pdag
import Verif.Lemmas.Chordal
import Verif.Lemmas.DagMisc

/-!
# Meek's rules R1–R3: soundness, confluence and completeness

For a DAG `G`, `Der G x y` says that the orientation `x --> y` can be derived from the unshielded colliders of `G` by
the rules. A pattern closed under the rules contains exactly the derivable orientations, and these are exactly the
edges on which all Markov equivalent DAGs agree.
-/

namespace Verif
open Relation
namespace Dag
variable {α : Type}

/-- Orientations derivable from unshielded colliders and adjacencies of `G`. -/
inductive Der (G : Dag α) : α → α → Prop
  | vs {a b c : α} : G.UCol a b c → Der G a b
  | r1 {z x y : α} : Der G z x → G.Adj x y → z ≠ y → ¬ G.Adj z y → ¬ G.UCol z x y → Der G x y
  | r2 {x z y : α} : Der G x z → Der G z y → G.Adj x y → Der G x y
  | r3 {x w z y : α} : Der G w y → Der G z y → w ≠ z → ¬ G.Adj w z → G.Adj x w → G.Adj x z → G.Adj x y →
      ¬ G.UCol w x z → Der G x y

variable {G H : Dag α}

theorem Adj.symm {a b : α} (h : G.Adj a b) : G.Adj b a := Or.symm h

theorem UCol.swap {a b c : α} (h : G.UCol a b c) : G.UCol c b a :=
  ⟨h.2.1, h.1, Ne.symm h.2.2.1, fun h' => h.2.2.2 h'.symm⟩

theorem Der.sound (hac : G.Acyclic) {x y : α} (h : Der G x y) : G.Edge x y := by
  induction h with
  | vs h => exact h.1
  | @r1 z x y _ hadj hne hn hu ih =>
    rcases hadj with h | h
    · exact h
    · exact absurd ⟨ih, h, hne, hn⟩ hu
  | @r2 x z y _ _ hadj ih1 ih2 =>
    rcases hadj with h | h
    · exact h
    · exact absurd (TransGen.head ih1 (TransGen.head ih2 (TransGen.single h))) (hac x)
  | @r3 x w z y _ _ hne hn hxw hxz hxy hu ih1 ih2 =>
    rcases hxy with h | h
    · exact h
    · have key : ∀ v, G.Adj x v → G.Edge v y → G.Edge v x := by
        intro v hv hvy
        rcases hv with h' | h'
        · exact absurd (TransGen.head h' (TransGen.head hvy (TransGen.single h))) (hac x)
        · exact h'
      exact absurd ⟨key w hxw ih1, key z hxz ih2, hne, hn⟩ hu

theorem Der.adj (hac : G.Acyclic) {x y : α} (h : Der G x y) : G.Adj x y := Or.inl (h.sound hac)

/-- Derivability depends only on adjacencies and unshielded colliders. -/
theorem Der.transfer (he : ∀ a b, H.Adj a b ↔ G.Adj a b) (hu : ∀ a b c, H.UCol a b c ↔ G.UCol a b c) {x y : α}
    (h : Der G x y) : Der H x y := by
  induction h with
  | vs h => exact Der.vs ((hu _ _ _).mpr h)
  | r1 _ h1 h2 h3 h4 ih =>
    exact Der.r1 ih ((he _ _).mpr h1) h2 (fun h => h3 ((he _ _).mp h)) (fun h => h4 ((hu _ _ _).mp h))
  | r2 _ _ h1 ih1 ih2 => exact Der.r2 ih1 ih2 ((he _ _).mpr h1)
  | r3 _ _ h1 h2 h3 h4 h5 h6 ih1 ih2 =>
    exact Der.r3 ih1 ih2 h1 (fun h => h2 ((he _ _).mp h)) ((he _ _).mpr h3) ((he _ _).mpr h4) ((he _ _).mpr h5)
      (fun h => h6 ((hu _ _ _).mp h))

/-- Adjacent, and oriented in neither direction by `D`. -/
def UndOf (G : Dag α) (D : α → α → Prop) (a b : α) : Prop := G.Adj a b ∧ ¬ D a b ∧ ¬ D b a

theorem UndOf.symm {D : α → α → Prop} {a b : α} (h : G.UndOf D a b) : G.UndOf D b a :=
  ⟨h.1.symm, h.2.2, h.2.1⟩

/-- `D` orients all unshielded colliders, only derivable edges, and no rule R1–R3 applies. -/
structure ClosedPattern (G : Dag α) (D : α → α → Prop) : Prop where
  der : ∀ a b, D a b → Der G a b
  vs : ∀ a b c, G.UCol a b c → D a b
  c1 : ∀ z x y, D z x → G.UndOf D x y → z ≠ y → G.Adj z y
  c2 : ∀ x z y, D x z → D z y → ¬ G.UndOf D x y
  c3 : ∀ x w z y, D w y → D z y → w ≠ z → ¬ G.Adj w z → G.UndOf D x w → G.UndOf D x z → ¬ G.UndOf D x y

variable {D : α → α → Prop}

theorem ClosedPattern.trichotomy {a b : α} (h : G.Adj a b) : D a b ∨ D b a ∨ G.UndOf D a b := by
  by_cases h1 : D a b
  · exact Or.inl h1
  · by_cases h2 : D b a
    · exact Or.inr (Or.inl h2)
    · exact Or.inr (Or.inr ⟨h, h1, h2⟩)

/-- Confluence: a closed pattern contains all derivable orientations. -/
theorem ClosedPattern.of_der (hac : G.Acyclic) (hc : ClosedPattern G D) {x y : α} (h : Der G x y) : D x y := by
  induction h with
  | vs h => exact hc.vs _ _ _ h
  | @r1 z x y hd hadj hne hn hu ih =>
    have hxy : G.Edge x y := (Der.r1 hd hadj hne hn hu).sound hac
    rcases trichotomy (D := D) hadj with h | h | h
    · exact h
    · exact absurd ((hc.der _ _ h).sound hac) (not_edge_of_edge hac hxy)
    · exact absurd (hc.c1 z x y ih h hne) hn
  | @r2 x z y hd1 hd2 hadj ih1 ih2 =>
    have hxy : G.Edge x y := (Der.r2 hd1 hd2 hadj).sound hac
    rcases trichotomy (D := D) hadj with h | h | h
    · exact h
    · exact absurd ((hc.der _ _ h).sound hac) (not_edge_of_edge hac hxy)
    · exact absurd h (hc.c2 x z y ih1 ih2)
  | @r3 x w z y hd1 hd2 hne hn hxw hxz hxy hu ih1 ih2 =>
    have hE : G.Edge x y := (Der.r3 hd1 hd2 hne hn hxw hxz hxy hu).sound hac
    rcases trichotomy (D := D) hxy with h | h | h
    · exact h
    · exact absurd ((hc.der _ _ h).sound hac) (not_edge_of_edge hac hE)
    · exfalso
      rcases trichotomy (D := D) hxw with hw | hw | hw
      · exact hc.c2 x w y hw ih1 h
      · rcases trichotomy (D := D) hxz with hz | hz | hz
        · exact hc.c2 x z y hz ih2 h
        · exact hu ⟨(hc.der _ _ hw).sound hac, (hc.der _ _ hz).sound hac, hne, hn⟩
        · exact hn (hc.c1 w x z hw hz hne)
      · rcases trichotomy (D := D) hxz with hz | hz | hz
        · exact hc.c2 x z y hz ih2 h
        · exact hn (hc.c1 z x w hz hw (Ne.symm hne)).symm
        · exact hc.c3 x w z y ih1 ih2 hne hn hw hz h

theorem ClosedPattern.iff_der (hac : G.Acyclic) (hc : ClosedPattern G D) (x y : α) : D x y ↔ Der G x y :=
  ⟨hc.der x y, hc.of_der hac⟩

/-- Meek's lemma: `a --> b --- c` implies `a --> c`. -/
theorem ClosedPattern.absorb (hac : G.Acyclic) (hc : ClosedPattern G D) {a b : α} (h : Der G a b) :
    ∀ c, G.UndOf D b c → D a c := by
  -- common part: otherwise `a --- c`
  have start : ∀ a b c, Der G a b → G.UndOf D b c → ¬ D a c → G.UndOf D a c ∧ a ≠ c := by
    intro a b c hab hbc hn
    have hDab := hc.of_der hac hab
    have hne : a ≠ c := by rintro rfl; exact hbc.2.2 hDab
    have hadj := hc.c1 a b c hDab hbc hne
    refine ⟨⟨hadj, hn, ?_⟩, hne⟩
    intro hca
    exact hc.c2 c a b hca hDab hbc.symm
  induction h with
  | @vs a b d h =>
    intro c hbc
    by_contra hn
    obtain ⟨hac', hne⟩ := start a b c (Der.vs h) hbc hn
    have hDab := hc.vs _ _ _ h
    have hDdb := hc.vs _ _ _ h.swap
    have hdc : d ≠ c := by rintro rfl; exact hbc.2.2 hDdb
    have hadj := hc.c1 d b c hDdb hbc hdc
    rcases trichotomy (D := D) hadj with h1 | h1 | h1
    · exact h.swap.2.2.2 (hc.c1 d c a h1 hac'.symm (Ne.symm h.2.2.1))
    · exact hc.c2 c d b h1 hDdb hbc.symm
    · exact hc.c3 c a d b hDab hDdb h.2.2.1 h.2.2.2 hac'.symm h1.symm hbc.symm
  | @r1 d a b hd hadj hne hn hu ih =>
    intro c hbc
    by_contra hn'
    obtain ⟨hac', _⟩ := start a b c (Der.r1 hd hadj hne hn hu) hbc hn'
    have hdc := ih c hac'
    exact hn (hc.c1 d c b hdc hbc.symm hne)
  | @r2 a d b hd1 hd2 hadj ih1 ih2 =>
    intro c hbc
    by_contra hn'
    obtain ⟨hac', _⟩ := start a b c (Der.r2 hd1 hd2 hadj) hbc hn'
    exact hc.c2 a d c (hc.of_der hac hd1) (ih2 c hbc) hac'
  | @r3 a w z b hd1 hd2 hne hn haw haz hab hu ih1 ih2 =>
    intro c hbc
    by_contra hn'
    obtain ⟨hac', _⟩ := start a b c (Der.r3 hd1 hd2 hne hn haw haz hab hu) hbc hn'
    have hwc := ih1 c hbc
    have hzc := ih2 c hbc
    rcases trichotomy (D := D) haw with hw | hw | hw
    · exact hc.c2 a w c hw hwc hac'
    · rcases trichotomy (D := D) haz with hz | hz | hz
      · exact hc.c2 a z c hz hzc hac'
      · exact hu ⟨(hc.der _ _ hw).sound hac, (hc.der _ _ hz).sound hac, hne, hn⟩
      · exact hn (hc.c1 w a z hw hz hne)
    · rcases trichotomy (D := D) haz with hz | hz | hz
      · exact hc.c2 a z c hz hzc hac'
      · exact hn (hc.c1 z a w hz hw (Ne.symm hne)).symm
      · exact hc.c3 a w z c hwc hzc hne hn hw hz hac'

/-- The undirected part of a closed pattern is chordal. -/
theorem ClosedPattern.chord [DecidableEq α] (hac : G.Acyclic) (hc : ClosedPattern G D) (S : Finset α) :
    Chord (G.UndOf D) S := by
  intro T _ hne
  obtain ⟨v, hv, hsink⟩ := exists_sink hac hne
  refine ⟨v, hv, ?_⟩
  intro a ha b hb hav hbv hab
  have h1 : G.Edge a v := hav.1.resolve_right (hsink a ha)
  have h2 : G.Edge b v := hbv.1.resolve_right (hsink b hb)
  have hadj : G.Adj a b := by
    by_contra hn
    exact hav.2.1 (hc.vs a v b ⟨h1, h2, hab, hn⟩)
  refine ⟨hadj, ?_, ?_⟩
  · intro h
    exact hav.2.1 (hc.absorb hac (hc.der _ _ h) v hbv)
  · intro h
    exact hbv.2.1 (hc.absorb hac (hc.der _ _ h) v hav)

/-- Completeness: every edge left undirected by a closed pattern can be oriented either way by a Markov equivalent
DAG. -/
theorem ClosedPattern.complete [DecidableEq α] (hG : G.WF) (hac : G.Acyclic) (hc : ClosedPattern G D) {x y : α}
    (hxy : G.UndOf D x y) : ∃ H : Dag α, G.Equivalent H ∧ H.Edge x y := by
  classical
  have hirr : ∀ a, ¬ G.UndOf D a a := fun a h => by
    rcases h.1 with h | h <;> exact irrefl hac a h
  have hnode : ∀ a b, G.Adj a b → a ∈ G.nodes ∧ b ∈ G.nodes := by
    rintro a b (h | h)
    · exact hG _ _ h
    · exact (hG _ _ h).symm
  obtain ⟨f, hf1, hf2, hf3⟩ := exists_rank (U := G.UndOf D) (fun a b h => h.symm) hirr x _ G.nodes rfl
    (hc.chord hac G.nodes)
  let E : α → α → Prop := fun u v => D u v ∨ (G.UndOf D u v ∧ f u < f v)
  have hDE : ∀ a b, D a b → G.Edge a b := fun a b h => (hc.der a b h).sound hac
  have hEadj : ∀ a b, E a b → G.Adj a b := by
    rintro a b (h | h)
    · exact Or.inl (hDE a b h)
    · exact h.1.1
  let H : Dag α := ⟨G.nodes, fun v => G.nodes.filter (fun u => E u v)⟩
  have hHE : ∀ a b, H.Edge a b ↔ E a b := by
    intro a b
    simp only [H, Edge, Finset.mem_filter, and_iff_right_iff_imp]
    intro h; exact (hnode a b (hEadj a b h)).1
  have hHadj : ∀ a b, H.Adj a b ↔ G.Adj a b := by
    intro a b
    simp only [Adj, hHE]
    constructor
    · rintro (h | h)
      · exact hEadj a b h
      · exact (hEadj b a h).symm
    · intro h
      rcases trichotomy (D := D) h with h1 | h1 | h1
      · exact Or.inl (Or.inl h1)
      · exact Or.inr (Or.inl h1)
      · obtain ⟨ha, hb⟩ := hnode a b h
        have hne : f a ≠ f b := fun heq => hirr a (by have := hf1 a ha b hb heq; rw [← this] at h1; exact h1)
        rcases Nat.lt_or_gt_of_ne hne with hlt | hlt
        · exact Or.inl (Or.inr ⟨h1, hlt⟩)
        · exact Or.inr (Or.inr ⟨h1.symm, hlt⟩)
  -- acyclicity
  let UT : α → α → Prop := fun u v => G.UndOf D u v ∧ f u < f v
  have hUTlt : ∀ a b, TransGen UT a b → f a < f b := by
    intro a b h
    induction h with
    | single h => exact h.2
    | tail _ h ih => exact ih.trans h.2
  have hDU : ∀ c b, TransGen D c b → ∀ d, UT b d → TransGen D c d := by
    intro c b h d hbd
    cases h with
    | single h => exact TransGen.single (hc.absorb hac (hc.der _ _ h) d hbd.1)
    | tail h1 h2 => exact TransGen.tail h1 (hc.absorb hac (hc.der _ _ h2) d hbd.1)
  have hDUs : ∀ b d, ReflTransGen UT b d → ∀ c, TransGen D c b → TransGen D c d := by
    intro b d h
    induction h with
    | refl => intro c h; exact h
    | tail _ h ih => intro c hcb; exact hDU c _ (ih c hcb) _ h
  have hpath : ∀ a b, TransGen E a b → TransGen UT a b ∨ ∃ c, ReflTransGen UT a c ∧ TransGen D c b := by
    intro a b h
    induction h with
    | single h =>
      rcases h with h | h
      · exact Or.inr ⟨a, ReflTransGen.refl, TransGen.single h⟩
      · exact Or.inl (TransGen.single h)
    | @tail b d _ h ih =>
      rcases ih with ih | ⟨c, h1, h2⟩
      · rcases h with h | h
        · exact Or.inr ⟨b, ih.to_reflTransGen, TransGen.single h⟩
        · exact Or.inl (TransGen.tail ih h)
      · rcases h with h | h
        · exact Or.inr ⟨c, h1, TransGen.tail h2 h⟩
        · exact Or.inr ⟨c, h1, hDU c b h2 d h⟩
  have hHac : H.Acyclic := by
    intro v hv
    have hv' : TransGen E v v := tg_mono (fun a b h => (hHE a b).mp h) hv
    rcases hpath v v hv' with h | ⟨c, h1, h2⟩
    · exact lt_irrefl _ (hUTlt v v h)
    · exact hac c (tg_mono hDE (hDUs v c h1 c h2))
  refine ⟨H, ⟨rfl, ?_, hHac, hHadj, ?_⟩, ?_⟩
  · intro a b h
    exact hnode a b (hEadj a b ((hHE a b).mp h))
  · intro a b c
    have hadjs : H.Adj a c ↔ G.Adj a c := hHadj a c
    simp only [UCol, hHE, hadjs]
    constructor
    · rintro ⟨h1, h2, hne, hn⟩
      rcases h1 with h1 | h1
      · rcases h2 with h2 | h2
        · exact ⟨hDE _ _ h1, hDE _ _ h2, hne, hn⟩
        · exact absurd (Or.inl (hDE _ _ (hc.absorb hac (hc.der _ _ h1) c h2.1.symm))) hn
      · rcases h2 with h2 | h2
        · exact absurd (Or.inr (hDE _ _ (hc.absorb hac (hc.der _ _ h2) a h1.1.symm))) hn
        · have hb := (hnode a b h1.1.1)
          have hcn := (hnode c b h2.1.1)
          exact absurd (hf3 b hb.2 a hb.1 c hcn.1 h1.1 h2.1 hne h1.2 h2.2).1 hn
    · rintro ⟨h1, h2, hne, hn⟩
      exact ⟨Or.inl (hc.vs a b c ⟨h1, h2, hne, hn⟩), Or.inl (hc.vs c b a (UCol.swap ⟨h1, h2, hne, hn⟩)), hne, hn⟩
  · rw [hHE]
    right
    obtain ⟨hx, hy⟩ := hnode x y hxy.1
    exact ⟨hxy, hf2 y hy hx (by rintro rfl; exact hirr _ hxy)⟩

/-- An edge is oriented `x --> y` by a closed pattern exactly if it is in every Markov equivalent DAG. -/
theorem ClosedPattern.iff_essential [DecidableEq α] (hG : G.WF) (hac : G.Acyclic) (hc : ClosedPattern G D) (x y : α) :
    D x y ↔ G.Edge x y ∧ ∀ H : Dag α, G.Equivalent H → H.Edge x y := by
  constructor
  · intro h
    have hd := hc.der x y h
    exact ⟨hd.sound hac, fun H hH => (hd.transfer hH.adj hH.ucol).sound hH.acyclic⟩
  · rintro ⟨hE, hall⟩
    by_contra hn
    have hu : G.UndOf D y x := ⟨Or.inr hE, fun h => not_edge_of_edge hac hE ((hc.der _ _ h).sound hac), hn⟩
    obtain ⟨H, hH, hyx⟩ := hc.complete hG hac hu
    exact not_edge_of_edge hH.acyclic hyx (hall H hH)

end Dag
end Verif
