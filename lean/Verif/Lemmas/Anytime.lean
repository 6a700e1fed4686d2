import Verif.Lemmas.SepOne
import Verif.Lemmas.Fci
import Verif.Lemmas.MagDag
import Verif.Spec.Anytime

/-!
# Orientation rules in graphs whose edges are only tested with some conditioning sets
-/

namespace Verif
open Relation
variable {α : Type}

/-- A path can be cut where it meets its end point for the first time. -/
theorem rtg_first {r : α → α → Prop} {a b : α} (h : ReflTransGen r a b) (hab : a ≠ b) :
    ∃ p, ReflTransGen (fun x y => r x y ∧ y ≠ b) a p ∧ r p b := by
  induction h using ReflTransGen.head_induction_on with
  | refl => exact absurd rfl hab
  | @head a c h1 h2 ih =>
    by_cases hc : c = b
    · subst hc
      exact ⟨a, .refl, h1⟩
    · obtain ⟨p, p1, p2⟩ := ih hc
      exact ⟨p, .head ⟨h1, hc⟩ p1, p2⟩

/-- A path can be cut where it leaves its start for the last time. -/
theorem rtg_last {r : α → α → Prop} {a b : α} (h : ReflTransGen r a b) (hab : b ≠ a) :
    ∃ p, p ≠ a ∧ r a p ∧ ReflTransGen (fun x y => r x y ∧ y ≠ a) p b := by
  induction h with
  | refl => exact absurd rfl hab
  | @tail x y h1 h2 ih =>
    by_cases hx : x = a
    · subst hx
      exact ⟨y, hab, h2, .refl⟩
    · obtain ⟨p, p0, p1, p2⟩ := ih hx
      exact ⟨p, p0, p1, .tail p2 ⟨h2, hab⟩⟩

namespace Dag
variable {D : Dag α}

/-- Ancestors of `u` or `v`. -/
def Anc (D : Dag α) (u v x : α) : Prop := D.DPath x u ∨ D.DPath x v

/-- Adjacent in the moral graph of the nodes in `A`. -/
def MoralAdj (D : Dag α) (A : α → Prop) (x y : α) : Prop := D.Adj x y ∨ ∃ c, A c ∧ D.Edge x c ∧ D.Edge y c

/-- One step in the moral graph of the nodes in `A` without those in `S`. -/
def MStep (D : Dag α) (A : α → Prop) (S : Finset α) (x y : α) : Prop :=
  D.MoralAdj A x y ∧ A x ∧ A y ∧ x ∉ S ∧ y ∉ S

theorem MStep.symm {A : α → Prop} {S : Finset α} {x y : α} (h : D.MStep A S x y) : D.MStep A S y x :=
  ⟨h.1.elim (fun h => Or.inl h.symm) (fun ⟨c, h1, h2, h3⟩ => Or.inr ⟨c, h1, h3, h2⟩), h.2.2.1, h.2.1, h.2.2.2.2, h.2.2.2.1⟩

theorem MStep.rsymm {A : α → Prop} {S : Finset α} {x y : α} (h : ReflTransGen (D.MStep A S) x y) : ReflTransGen (D.MStep A S) y x := by
  induction h with
  | refl => exact .refl
  | tail _ h2 ih => exact .head h2.symm ih

theorem MStep.mono {A B : α → Prop} {S : Finset α} (hAB : ∀ x, A x → B x) {x y : α} (h : ReflTransGen (D.MStep A S) x y) :
    ReflTransGen (D.MStep B S) x y := by
  refine ReflTransGen.mono ?_ _ _ h
  rintro a b ⟨h1, h2, h3, h4⟩
  refine ⟨?_, hAB _ h2, hAB _ h3, h4⟩
  rcases h1 with h1 | ⟨c, h1, h5⟩
  · exact Or.inl h1
  · exact Or.inr ⟨c, hAB _ h1, h5⟩

/-- Connection by a set of ancestors, in terms of the moral graph. -/
theorem not_dsep_iff (hac : D.Acyclic) {u v : α} {Z : Finset α} (hu : u ∉ Z) (hv : v ∉ Z) (hZ : ∀ z ∈ Z, D.Anc u v z) :
    ¬ D.DSeparated u v Z ↔ ReflTransGen (D.MStep (D.Anc u v) Z) u v := by
  have hA : ∀ x, Walk.InA D.Edge (· ∈ Z) u v x ↔ D.Anc u v x := by
    intro x
    constructor
    · rintro ⟨w, hw, hp⟩
      rw [dir_eq hac] at hp
      rcases hw with rfl | rfl | hw
      · exact Or.inl hp
      · exact Or.inr hp
      · exact (hZ w hw).imp (ReflTransGen.trans hp) (ReflTransGen.trans hp)
    · rintro (h | h)
      · exact ⟨u, Or.inl rfl, by rw [dir_eq hac]; exact h⟩
      · exact ⟨v, Or.inr (Or.inl rfl), by rw [dir_eq hac]; exact h⟩
  rw [DSeparated, not_not, activePath_iff_aug hac hu hv]
  have hstep : ∀ x y, Walk.augStep D.Adj D.Edge (Walk.InA D.Edge (· ∈ Z) u v) (· ∈ Z) x y ↔
      D.MoralAdj (D.Anc u v) x y ∧ D.Anc u v y ∧ y ∉ Z := by
    intro x y
    rw [Walk.augStep, hA, Walk.aug, MoralAdj]
    simp only [cw_iff hac, hA]
    refine and_congr_left (fun _ => or_congr_right ⟨?_, ?_⟩)
    · rintro ⟨c, ⟨h1, h2⟩, -, h3⟩
      exact ⟨c, h2, h1, h3⟩
    · rintro ⟨c, h2, h1, h3⟩
      exact ⟨c, ⟨h1, h2⟩, Or.inl h3, h3⟩
  constructor
  · intro h
    have : D.Anc u v v ∧ v ∉ Z := ⟨Or.inr .refl, hv⟩
    have key : ∀ x, ReflTransGen (Walk.augStep D.Adj D.Edge (Walk.InA D.Edge (· ∈ Z) u v) (· ∈ Z)) u x →
        (D.Anc u v x ∧ x ∉ Z) ∧ ReflTransGen (D.MStep (D.Anc u v) Z) u x := by
      intro x hx
      induction hx with
      | refl => exact ⟨⟨Or.inl .refl, hu⟩, .refl⟩
      | tail _ h2 ih =>
        rw [hstep] at h2
        exact ⟨h2.2, .tail ih.2 ⟨h2.1, ih.1.1, h2.2.1, ih.1.2, h2.2.2⟩⟩
    exact (key v h).2
  · intro h
    refine ReflTransGen.mono ?_ _ _ h
    rintro x y ⟨h1, -, h3, -, h5⟩
    exact (hstep x y).mpr ⟨h1, h3, h5⟩

/-- The ancestors in a separating set separate. -/
theorem DSeparated.ancestors (hac : D.Acyclic) {u v : α} {S T : Finset α} (hu : u ∉ S) (hv : v ∉ S)
    (hT : ∀ x, x ∈ T ↔ x ∈ S ∧ D.Anc u v x) (h : D.DSeparated u v S) : D.DSeparated u v T := by
  by_contra hn
  have hu' : u ∉ T := fun h => hu ((hT u).mp h).1
  have hv' : v ∉ T := fun h => hv ((hT v).mp h).1
  have hp := (not_dsep_iff hac hu' hv' (fun z hz => ((hT z).mp hz).2)).mp hn
  refine h ((activePath_iff_aug hac hu hv).mpr ?_)
  have hA : ∀ x, D.Anc u v x → Walk.InA D.Edge (· ∈ S) u v x := by
    rintro x (h | h)
    · exact ⟨u, Or.inl rfl, by rw [dir_eq hac]; exact h⟩
    · exact ⟨v, Or.inr (Or.inl rfl), by rw [dir_eq hac]; exact h⟩
  refine ReflTransGen.mono ?_ _ _ hp
  rintro x y ⟨h1, h2, h3, h4, h5⟩
  refine ⟨?_, hA y h3, fun hy => h5 ((hT y).mpr ⟨hy, h3⟩)⟩
  rcases h1 with h1 | ⟨c, k1, k2, k3⟩
  · exact Or.inl h1
  · exact Or.inr ⟨c, (cw_iff hac).mpr ⟨k2, hA c k1⟩, Or.inl k3, k3⟩

variable [DecidableEq α]

theorem linkSet_spec {S : Finset α} {u v x : α} : x ∈ D.linkSet S u v ↔ x ∈ S ∧ D.Anc u v x ∧ x ≠ u ∧ x ≠ v := by
  classical
  simp [linkSet, Anc]

theorem Linked.path (hac : D.Acyclic) {S : Finset α} {u v : α} (h : D.Linked S u v) :
    ReflTransGen (D.MStep (D.Anc u v) (D.linkSet S u v)) u v :=
  (not_dsep_iff hac (fun h => (linkSet_spec.mp h).2.2.1 rfl) (fun h => (linkSet_spec.mp h).2.2.2 rfl)
    (fun _ hz => (linkSet_spec.mp hz).2.1)).mp h

/-- Linked nodes outside `S` are connected outside `S`. -/
theorem Linked.transport (hac : D.Acyclic) {S : Finset α} {u v : α} (h : D.Linked S u v) (hu : u ∉ S) (hv : v ∉ S) :
    ReflTransGen (D.MStep (D.Anc u v) S) u v := by
  refine ReflTransGen.mono ?_ _ _ (h.path hac)
  have : ∀ x, D.Anc u v x → x ∉ D.linkSet S u v → x ∉ S := by
    intro x hx hn hS
    refine hn (linkSet_spec.mpr ⟨hS, hx, ?_, ?_⟩)
    · rintro rfl; exact hu hS
    · rintro rfl; exact hv hS
  rintro x y ⟨h1, h2, h3, h4, h5⟩
  exact ⟨h1, h2, h3, this x h2 h4, this y h3 h5⟩

omit [DecidableEq α] in
/-- A moral neighbour of `v` among the ancestors of `u` and `v` is a parent of `v` if `v` is not an ancestor of `u`. -/
theorem moral_parent (hac : D.Acyclic) {u v p : α} (hv : ¬ D.DPath v u) (h : D.MoralAdj (D.Anc u v) p v) (hp : D.Anc u v p) :
    D.Edge p v := by
  have no : ∀ c, D.Edge v c → ¬ D.Anc u v c := by
    rintro c hc (h | h)
    · exact hv (.head hc h)
    · exact hac v (TransGen.head' hc h)
  rcases h with (h | h) | ⟨c, h1, -, h3⟩
  · exact h
  · exact absurd hp (no p h)
  · exact absurd h1 (no c h3)

/-- A path that ends in a node that is not an ancestor of its start arrives through a parent. -/
theorem Linked.into (hac : D.Acyclic) {S : Finset α} {u v : α} (h : D.Linked S u v) (huv : u ≠ v) (hu : u ∉ S) (hv : ¬ D.DPath v u) :
    ∃ p, D.Edge p v ∧ p ∉ S ∧ ReflTransGen (D.MStep (D.Anc u v) S) u p := by
  obtain ⟨p, p1, p2⟩ := rtg_first (h.path hac) huv
  have key : ∀ x, ReflTransGen (fun x y => D.MStep (D.Anc u v) (D.linkSet S u v) x y ∧ y ≠ v) u x →
      x ∉ S ∧ ReflTransGen (D.MStep (D.Anc u v) S) u x := by
    intro x hx
    induction hx with
    | refl => exact ⟨hu, .refl⟩
    | @tail y z _ h2 ih =>
      have hz : z ∉ S := by
        intro hz
        refine h2.1.2.2.2.2 (linkSet_spec.mpr ⟨hz, h2.1.2.2.1, ?_, h2.2⟩)
        rintro rfl; exact hu hz
      exact ⟨hz, .tail ih.2 ⟨h2.1.1, h2.1.2.1, h2.1.2.2.1, ih.1, hz⟩⟩
  obtain ⟨k1, k2⟩ := key p p1
  exact ⟨p, moral_parent hac hv p2.1 p2.2.1, k1, k2⟩

/-- If neither end is an ancestor of the other, the path leaves and arrives through parents. -/
theorem Linked.both (hac : D.Acyclic) {S : Finset α} {u v : α} (h : D.Linked S u v) (huv : u ≠ v) (hu : ¬ D.DPath u v) (hv : ¬ D.DPath v u) :
    ∃ p q, D.Edge p u ∧ D.Edge q v ∧ p ∉ S ∧ q ∉ S ∧ D.Anc u v p ∧ ReflTransGen (D.MStep (D.Anc u v) S) p q := by
  obtain ⟨q, q1, q2⟩ := rtg_first (h.path hac) huv
  have hq := moral_parent hac hv q2.1 q2.2.1
  have hqu : q ≠ u := by rintro rfl; exact hu (.single hq)
  obtain ⟨p, p0, p1, p2⟩ := rtg_last q1 hqu
  have hout : ∀ x, D.Anc u v x → x ∉ D.linkSet S u v → x ≠ u → x ≠ v → x ∉ S :=
    fun x h1 h2 h3 h4 h5 => h2 (linkSet_spec.mpr ⟨h5, h1, h3, h4⟩)
  have hpS : p ∉ S := hout p p1.1.2.2.1 p1.1.2.2.2.2 p0 p1.2
  have key : ∀ x, ReflTransGen (fun x y => (D.MStep (D.Anc u v) (D.linkSet S u v) x y ∧ y ≠ v) ∧ y ≠ u) p x →
      x ∉ S ∧ ReflTransGen (D.MStep (D.Anc u v) S) p x := by
    intro x hx
    induction hx with
    | refl => exact ⟨hpS, .refl⟩
    | @tail y z _ h2 ih =>
      have hz : z ∉ S := hout z h2.1.1.2.2.1 h2.1.1.2.2.2.2 h2.2 h2.1.2
      exact ⟨hz, .tail ih.2 ⟨h2.1.1.1, h2.1.1.2.1, h2.1.1.2.2.1, ih.1, hz⟩⟩
  obtain ⟨k1, k2⟩ := key q p2
  have hcomm : ∀ x, D.Anc u v x ↔ D.Anc v u x := fun x => or_comm
  refine ⟨p, q, ?_, hq, hpS, k1, p1.1.2.2.1, k2⟩
  refine moral_parent hac (u := v) (v := u) hu ?_ ((hcomm p).mp p1.1.2.2.1)
  rcases p1.1.1 with h | ⟨c, h1, h2, h3⟩
  · exact Or.inl h.symm
  · exact Or.inr ⟨c, (hcomm c).mp h1, h3, h2⟩

/-- The facts about recorded sets that make the orientation rules sound. -/
structure SepFacts (D : Dag α) (G : MG α) (a c : α) (S : Finset α) : Prop where
  left : a ∉ S
  right : c ∉ S
  sep : D.DSeparated a c S
  anc : ∀ z ∈ S, D.Anc a c z ∨ ∀ u, G.MAdj z u → D.Anc a c u → D.Adj z u
  link : ∀ u v, G.MAdj u v → D.Anc a c u → D.Anc a c v → D.Linked S u v

namespace SepFacts
variable {G : MG α} {a c : α} {S : Finset α}

/-- `x` can be reached from `a` outside `S` in the moral graph of the ancestors of `a` and `c`. -/
def Reach (D : Dag α) (a c : α) (S : Finset α) (x : α) : Prop := ReflTransGen (D.MStep (D.Anc a c) S) a x

omit [DecidableEq α] in
theorem not_reach (hac : D.Acyclic) (h : SepFacts D G a c S) : ¬ Reach D a c S c := by
  classical
  intro hr
  have hT : ∀ x, x ∈ S.filter (fun x => D.Anc a c x) ↔ x ∈ S ∧ D.Anc a c x := fun x => by simp
  refine (not_dsep_iff hac (fun h' => h.left ((hT a).mp h').1) (fun h' => h.right ((hT c).mp h').1) (fun z hz => ((hT z).mp hz).2)).mpr
    (ReflTransGen.mono ?_ _ _ hr) (h.sep.ancestors hac h.left h.right hT)
  rintro x y ⟨h1, h2, h3, h4, h5⟩
  exact ⟨h1, h2, h3, fun h' => h4 ((hT x).mp h').1, fun h' => h5 ((hT y).mp h').1⟩

omit [DecidableEq α] in
/-- A common neighbour in `S` is an ancestor of one of the ends. -/
theorem anc_mid (hac : D.Acyclic) (h : SepFacts D G a c S) {b : α} (hb : b ∈ S) (h1 : G.MAdj a b) (h2 : G.MAdj c b) : D.Anc a c b := by
  by_contra hA
  have hd := (h.anc b hb).resolve_left hA
  have e1 : D.Edge a b := (hd a h1.symm (Or.inl .refl)).resolve_left (fun h' => hA (Or.inl (.single h')))
  have e2 : D.Edge c b := (hd c h2.symm (Or.inr .refl)).resolve_left (fun h' => hA (Or.inr (.single h')))
  refine h.sep ((activePath_iff_aug hac h.left h.right).mpr (.single ⟨Or.inr ⟨b, (cw_iff hac).mpr ⟨e1, b, Or.inr (Or.inr hb), ?_⟩,
    Or.inl e2, e2⟩, ⟨c, Or.inr (Or.inl rfl), ?_⟩, h.right⟩))
  · rw [dir_eq hac]
  · rw [dir_eq hac]

omit [DecidableEq α] in
theorem Reach.anc {x : α} (h : Reach D a c S x) : D.Anc a c x := by
  cases h with
  | refl => exact Or.inl .refl
  | tail _ h2 => exact h2.2.2.1

omit [DecidableEq α] in
theorem Reach.ext {x y : α} (h : Reach D a c S x) {u v : α} (hu : D.Anc a c u) (hv : D.Anc a c v)
    (hp : ReflTransGen (D.MStep (D.Anc u v) S) x y) : Reach D a c S y := by
  refine ReflTransGen.trans h (MStep.mono ?_ hp)
  rintro z (hz | hz)
  · exact hu.imp (ReflTransGen.trans hz) (ReflTransGen.trans hz)
  · exact hv.imp (ReflTransGen.trans hz) (ReflTransGen.trans hz)

omit [DecidableEq α] in
/-- Parents of a common ancestor are married. -/
theorem Reach.marry {p q x : α} (h : Reach D a c S p) (hp : p ∉ S) (hx : D.Anc a c x) (h1 : D.Edge p x) (h2 : D.Edge q x) (hq : q ∉ S) :
    Reach D a c S q :=
  ReflTransGen.tail h ⟨Or.inr ⟨x, hx, h1, h2⟩, h.anc, hx.imp (ReflTransGen.head h2) (ReflTransGen.head h2), hp, hq⟩

/-- A node outside `S` that is adjacent to both ends is an ancestor of neither. -/
theorem collider (hac : D.Acyclic) (h : SepFacts D G a c S) {b : α} (h1 : G.MAdj a b) (h2 : G.MAdj b c) (hb : b ∉ S) : ¬ D.Anc a c b := by
  intro hA
  have r1 : Reach D a c S b := Reach.ext (x := a) .refl (Or.inl .refl) hA
    ((h.link a b h1 (Or.inl .refl) hA).transport hac h.left hb)
  exact h.not_reach hac (r1.ext hA (Or.inr .refl) ((h.link b c h2 hA (Or.inr .refl)).transport hac hb h.right))

end SepFacts

end Dag

namespace MG
variable {D : Dag α} [DecidableEq α]

/-- What the orientation rules keep: the marks are true, and the unshielded triples with a middle node outside the recorded set
are oriented. -/
structure MarksOk (D : Dag α) (sep : α → α → Py (Finset α)) (G : MG α) : Prop where
  arrows : D.ArrowsTrue G
  tails : D.TailsTrue G
  vs : ∀ u v w, VTriple sep G u v w → G.At u v .arrow

/-- The recorded sets of all pairs that are not adjacent satisfy `SepFacts`. -/
structure SepOk (D : Dag α) (sep : α → α → Py (Finset α)) (G : MG α) : Prop where
  symm : ∀ a c, sep a c = sep c a
  facts : ∀ a ∈ G.nodes, ∀ c ∈ G.nodes, a ≠ c → ¬ G.MAdj a c → ∃ S, sep a c = .ok S ∧ Dag.SepFacts D G a c S

omit [DecidableEq α] in
theorem SepOk.congr {sep : α → α → Py (Finset α)} {G H : MG α} (h : SepOk D sep G) (hn : H.nodes = G.nodes)
    (hadj : ∀ a b, H.MAdj a b ↔ G.MAdj a b) : SepOk D sep H := by
  refine ⟨h.symm, fun a ha c hc hac hn' => ?_⟩
  obtain ⟨S, h1, h2⟩ := h.facts a (hn ▸ ha) c (hn ▸ hc) hac (fun h' => hn' ((hadj a c).mpr h'))
  exact ⟨S, h1, h2.left, h2.right, h2.sep, fun z hz => (h2.anc z hz).imp_right fun h u hu => h u ((hadj z u).mp hu), fun u v huv => h2.link u v ((hadj u v).mp huv)⟩

omit [DecidableEq α] in
/-- The rules for a node with a circle between two nodes that are not adjacent: it is in the recorded set. -/
theorem MarksOk.mem_of_circle (hD : D.Acyclic) {sep : α → α → Py (Finset α)} {G : MG α} (hG : G.Proper) (hs : SepOk D sep G) (h : MarksOk D sep G)
    {a b c : α} (h1 : G.At a b .circle) (h2 : G.MAdj c b) (hac : a ≠ c) (hn : ¬ G.MAdj a c) : D.Anc a c b := by
  obtain ⟨S, s1, s2⟩ := hs.facts a (hG.mem _ _ _ h1).1 c (hG.mem_adj h2).1 hac hn
  by_contra hA
  have hb : b ∉ S := fun hb => hA (s2.anc_mid hD hb (Or.inl ⟨_, h1⟩) h2)
  have := h.vs a b c ⟨hac, Or.inl ⟨_, h1⟩, h2, hn, S, s1, hb⟩
  exact absurd (hG.one _ _ _ _ h1 this) (by simp)

/-- The nodes of a discriminating path are in the recorded set of its ends, and a parent of each can be reached from the far end. -/
theorem disc_reach (hac : D.Acyclic) {G : MG α} (hG : G.Proper) (hA : D.ArrowsTrue G) (hT : D.TailsTrue G) {c d : α} {S : Finset α}
    (hS : Dag.SepFacts D G d c S) : ∀ l : List α, l.getLast? = some d →
      (∀ u v, [u, v] <:+: l → G.At v u .arrow) → (∀ u v w, [u, v, w] <:+: l → G.At u v .arrow ∧ G.Par v c) →
      ∀ a t, l = a :: t → t ≠ [] → G.Par a c →
      a ∈ S ∧ ∃ p, D.Edge p a ∧ p ∉ S ∧ Dag.SepFacts.Reach D d c S p := by
  intro l
  induction l with
  | nil => intro _ _ _ a t h; cases h
  | cons a t ih =>
    rintro hl heads cols _ _ ⟨⟩ ht hpar
    have hac' : D.Anc d c a := Or.inr (hT _ _ hpar.2)
    have haa : G.MAdj a c := Or.inl ⟨_, hpar.1⟩
    have hr := hS.not_reach hac
    -- a parent of `a` that can be reached puts `a` into `S`
    have fin : ∀ p, D.Edge p a → p ∉ S → Dag.SepFacts.Reach D d c S p → a ∈ S := by
      intro p h1 h2 h3
      by_contra haS
      have : Dag.SepFacts.Reach D d c S a := .tail h3 ⟨Or.inl (Or.inl h1), h3.anc, hac', h2, haS⟩
      exact hr (this.ext hac' (Or.inr .refl) ((hS.link a c haa hac' (Or.inr .refl)).transport hac haS hS.right))
    cases t with
    | nil => exact absurd rfl ht
    | cons b t =>
      have hab : G.At b a .arrow := heads a b ⟨[], t, by simp⟩
      have hadj : G.MAdj b a := Or.inl ⟨_, hab⟩
      have hne : b ≠ a := hG.ne hadj
      cases t with
      | nil =>
        have : b = d := by simpa using hl
        subst this
        have hd : D.Anc b c b := Or.inl .refl
        obtain ⟨p, p1, p2, p3⟩ := (hS.link b a hadj hd hac').into hac hne hS.left (hA _ _ hab)
        have p4 : Dag.SepFacts.Reach D b c S p := Dag.SepFacts.Reach.ext (x := b) .refl hd hac' p3
        exact ⟨fin p p1 p2 p4, p, p1, p2, p4⟩
      | cons e t =>
        obtain ⟨hba, hbpar⟩ := cols a b e ⟨[], t, by simp⟩
        obtain ⟨-, q, q1, q2, q3⟩ := ih (by simpa using hl) (fun u v h => heads u v (h.trans (List.suffix_cons _ _).isInfix))
          (fun u v w h => cols u v w (h.trans (List.suffix_cons _ _).isInfix)) b (e :: t) rfl (by simp) hbpar
        have hbc' : D.Anc d c b := Or.inr (hT _ _ hbpar.2)
        obtain ⟨x, y, x1, y1, x2, y2, -, xy⟩ := (hS.link b a hadj hbc' hac').both hac hne (hA _ _ hba) (hA _ _ hab)
        have rx := q3.marry q2 hbc' q1 x1 x2
        have ry := rx.ext hbc' hac' xy
        exact ⟨fin y y1 y2 ry, y, y1, y2, ry⟩

/-- Rule 4, first case: the node is an ancestor of the end. -/
theorem disc_in (hac : D.Acyclic) {G : MG α} (hG : G.Proper) (hA : D.ArrowsTrue G) (hT : D.TailsTrue G) {a b c d : α} {l : List α}
    {S : Finset α} (hS : Dag.SepFacts D G d c S) (hcb : G.MAdj c b) (hpar : G.Par a c) (hba : G.At b a .arrow)
    (hl : G.DiscPath a b c d l) (hb : b ∈ S) : D.DPath b c := by
  obtain ⟨t, rfl⟩ : ∃ t, l = a :: t := by
    have := hl.first
    cases l with
    | nil => simp at this
    | cons x t => exact ⟨t, by simpa using this⟩
  have ht : t ≠ [] := by
    rintro rfl
    have := hl.long
    simp at this
  obtain ⟨-, p, p1, p2, p3⟩ := disc_reach hac hG hA hT hS _ hl.last hl.heads hl.colliders a t rfl ht hpar
  by_contra hbc
  have hab : ¬ D.DPath b a := fun h => hbc (h.trans (hT _ _ hpar.2))
  have aA : D.Anc d c a := Or.inr (hT _ _ hpar.2)
  have hadj : G.MAdj a b := Or.inr ⟨_, hba⟩
  have bA : D.Anc d c b := by
    rcases hS.anc b hb with h | h
    · exact h
    · rcases h a hadj.symm aA with h | h
      · exact absurd (.single h) hab
      · exact absurd (.single h) (hA _ _ hba)
  obtain ⟨x, y, x1, y1, x2, y2, -, xy⟩ := (hS.link a b hadj aA bA).both hac (hG.ne hadj) (hA _ _ hba) hab
  have ry := (p3.marry p2 aA p1 x1 x2).ext aA bA xy
  obtain ⟨z, z1, z2, z3⟩ := (hS.link c b hcb (Or.inr .refl) bA).into hac (hG.ne hcb) hS.right hbc
  exact hS.not_reach hac ((ry.marry y2 bA y1 z1 z2).ext (Or.inr .refl) bA (Dag.MStep.rsymm z3))

/-- Rule 4, second case: the node is not an ancestor of the end. -/
theorem disc_out (hac : D.Acyclic) {G : MG α} (hG : G.Proper) (hA : D.ArrowsTrue G) (hT : D.TailsTrue G) {a b c d : α} {l : List α}
    {S : Finset α} (hS : Dag.SepFacts D G d c S) (hcb : G.MAdj c b) (hpar : G.Par a c) (hba : G.At b a .arrow)
    (hl : G.DiscPath a b c d l) (hb : b ∉ S) : ¬ D.DPath b c := by
  obtain ⟨t, rfl⟩ : ∃ t, l = a :: t := by
    have := hl.first
    cases l with
    | nil => simp at this
    | cons x t => exact ⟨t, by simpa using this⟩
  have ht : t ≠ [] := by
    rintro rfl
    have := hl.long
    simp at this
  obtain ⟨-, p, p1, p2, p3⟩ := disc_reach hac hG hA hT hS _ hl.last hl.heads hl.colliders a t rfl ht hpar
  intro hbc
  have aA : D.Anc d c a := Or.inr (hT _ _ hpar.2)
  have bA : D.Anc d c b := Or.inr hbc
  have hadj : G.MAdj b a := Or.inl ⟨_, hba⟩
  obtain ⟨x, x1, x2, x3⟩ := (hS.link b a hadj bA aA).into hac (hG.ne hadj) hb (hA _ _ hba)
  have rb := (p3.marry p2 aA p1 x1 x2).ext bA aA (Dag.MStep.rsymm x3)
  exact hS.not_reach hac (rb.ext bA (Or.inr .refl) ((hS.link b c hcb.symm bA (Or.inr .refl)).transport hac hb hS.right))

omit [DecidableEq α] in
/-- A node outside the recorded set would be a collider. -/
theorem MarksOk.mem_of_not_arrow (hD : D.Acyclic) {sep : α → α → Py (Finset α)} {G : MG α} (hG : G.Proper) (hs : SepOk D sep G) (h : MarksOk D sep G)
    {a b c : α} (h1 : ¬ G.At a b .arrow) (h1' : G.MAdj a b) (h2 : G.MAdj c b) (hac : a ≠ c) (hn : ¬ G.MAdj a c) : D.Anc a c b := by
  obtain ⟨S, s1, s2⟩ := hs.facts a (hG.mem_adj h1').1 c (hG.mem_adj h2).1 hac hn
  by_contra hA
  exact h1 (h.vs a b c ⟨hac, h1', h2, hn, S, s1, fun hb => hA (s2.anc_mid hD hb h1' h2)⟩)

omit [DecidableEq α] in
/-- Ancestry is passed on along an uncovered path without arrowheads against its direction. -/
theorem MarksOk.follow (hac : D.Acyclic) {sep : α → α → Py (Finset α)} {G : MG α} (hG : G.Proper) (hs : SepOk D sep G)
    (h : MarksOk D sep G) : ∀ (t : List α) (x y z : α), x ≠ y →
      (∀ u v, [u, v] <:+: x :: y :: t → G.MAdj u v) →
      (∀ u v w, [u, v, w] <:+: x :: y :: t → u ≠ w ∧ ¬ G.MAdj u w ∧ ¬ G.At w v .arrow) →
      (x :: y :: t).getLast? = some z → D.DPath x y → D.DPath y z := by
  intro t
  induction t with
  | nil =>
    intro x y z _ _ _ hl _
    have : y = z := by simpa using hl
    exact this ▸ .refl
  | cons w t ih =>
    intro x y z hxy hadj htr hl hp
    obtain ⟨h1, h2, h3⟩ := htr x y w ⟨[], t, rfl⟩
    have hyw := hadj y w ⟨[x], t, rfl⟩
    have hyw' : D.DPath y w := by
      rcases h.mem_of_not_arrow hac hG hs h3 hyw.symm (hadj x y ⟨[], w :: t, rfl⟩) h1.symm (fun h => h2 h.symm) with h | h
      · exact h
      · exact absurd (Dag.dpath_antisymm hac hp h) hxy
    refine hyw'.trans (ih y w z (hG.ne hyw) (fun u v hi => hadj u v ?_) (fun u v q hi => htr u v q ?_) (by simpa using hl) hyw')
    · exact List.infix_cons_iff.2 (Or.inr hi)
    · exact List.infix_cons_iff.2 (Or.inr hi)

omit [DecidableEq α] in
theorem infix_three_concat {u v w x : α} {l : List α} (h : [u, v, w] <:+: l ++ [x]) :
    [u, v, w] <:+: l ∨ (w = x ∧ [u, v] <:+ l) := by
  obtain ⟨s, t, e⟩ := h
  rcases List.eq_nil_or_concat t with rfl | ⟨t', y, rfl⟩
  · right
    have e' : (s ++ [u, v]) ++ [w] = l ++ [x] := by simpa using e
    have := List.append_inj' e' rfl
    exact ⟨by simpa using this.2, s, this.1⟩
  · left
    have e' : (s ++ [u, v, w] ++ t') ++ [y] = l ++ [x] := by simpa using e
    exact ⟨s, t', (List.append_inj' e' rfl).1⟩

omit [DecidableEq α] in
/-- Rule 5 has no instance. -/
theorem MarksOk.no_r5 (hac : D.Acyclic) {sep : α → α → Py (Finset α)} {G : MG α} (hG : G.Proper) (hs : SepOk D sep G)
    (h : MarksOk D sep G) {a b na nb : α} {p : List α} (h1 : G.UncovPath G.CircCirc G.nodes a b na nb p) (h2 : na ≠ nb)
    (h3 : ¬ G.MAdj b na) (h4 : ¬ G.MAdj a nb)
    (h5 : ∀ u v, [u, v] = [a, b] ∨ [u, v] = [a, na] ∨ [u, v] = [b, nb] →
      G.MAdj u v ∧ ¬ G.At u v .arrow ∧ ¬ G.At v u .arrow) : False := by
  have pair : ∀ u v, [u, v] <:+: a :: (p ++ [b, a]) → G.MAdj u v ∧ ¬ G.At u v .arrow ∧ ¬ G.At v u .arrow := by
    intro u v hi
    rcases cycle_pair h1.first h1.last hi with ⟨rfl, rfl⟩ | hi | ⟨rfl, rfl⟩ | ⟨rfl, rfl⟩
    · exact h5 _ _ (by simp)
    · obtain ⟨c1, c2⟩ := infix_two_chain h1.chain hi
      exact ⟨Or.inl ⟨_, c1⟩, fun h => absurd (hG.one _ _ _ _ c1 h) (by simp), fun h => absurd (hG.one _ _ _ _ c2 h) (by simp)⟩
    · obtain ⟨k1, k2, k3⟩ := h5 v u (by simp)
      exact ⟨k1.symm, k3, k2⟩
    · obtain ⟨k1, k2, k3⟩ := h5 v u (by simp)
      exact ⟨k1.symm, k3, k2⟩
  have hnd := h1.nodup
  have hp1 : na ∈ p := List.mem_of_mem_head? (by simp [h1.first])
  have hp2 : nb ∈ p := List.mem_of_getLast? h1.last
  obtain ⟨hn1, hn2⟩ := List.nodup_cons.1 hnd
  have hanb : a ≠ nb := fun e => hn1 (by simp [e, hp2])
  have hbna : b ≠ na := by
    rintro rfl
    have := (List.nodup_append.1 hn2).2.2 b hp1 b (by simp)
    exact this rfl
  have eL : a :: (p ++ [b, a]) = (a :: (p ++ [b])) ++ [a] := by simp
  have trip : ∀ u v w, [u, v, w] <:+: a :: (p ++ [b, a]) → u ≠ w ∧ ¬ G.MAdj u w := by
    intro u v w hi
    rw [eL] at hi
    rcases infix_three_concat hi with hi | ⟨rfl, s, hs'⟩
    · exact ⟨infix_three_nodup hnd hi, h1.uncovered _ _ _ hi⟩
    · have e' : (s ++ [u]) ++ [v] = (w :: p) ++ [b] := by simpa using hs'
      have e2 := (List.append_inj' e' rfl).1
      have : u = nb := by
        have h6 : (w :: p).getLast? = some u := by rw [← e2]; simp
        rw [List.getLast?_cons, h1.last] at h6
        simpa using h6.symm
      subst this
      exact ⟨hanb.symm, fun h => h4 h.symm⟩
  obtain ⟨k1, k2, k3⟩ := h5 a na (by simp)
  obtain ⟨l1, l2, l3⟩ := h5 a b (by simp)
  obtain ⟨q, rfl⟩ : ∃ q, p = na :: q := by
    have := h1.first
    cases p with
    | nil => simp at this
    | cons x q => exact ⟨q, by simpa using this⟩
  rcases h.mem_of_not_arrow hac hG hs l3 l1.symm k1.symm hbna h3 with hA | hA
  · -- backwards
    have e : a :: b :: ((na :: q).reverse ++ [a]) = (a :: ((na :: q) ++ [b, a])).reverse := by simp
    have hr2 : ∀ u v, [u, v] <:+: a :: b :: ((na :: q).reverse ++ [a]) → [v, u] <:+: a :: ((na :: q) ++ [b, a]) := by
      intro u v hi
      rw [e] at hi
      simpa using List.reverse_infix.2 hi
    have hr3 : ∀ u v w, [u, v, w] <:+: a :: b :: ((na :: q).reverse ++ [a]) → [w, v, u] <:+: a :: ((na :: q) ++ [b, a]) := by
      intro u v w hi
      rw [e] at hi
      simpa using List.reverse_infix.2 hi
    have := h.follow hac hG hs ((na :: q).reverse ++ [a]) a b a (hG.ne l1) (fun u v hi => (pair _ _ (hr2 u v hi)).1.symm)
      (fun u v w hi => ?_) (by rw [List.getLast?_cons_cons, List.getLast?_cons]; simp) hA
    · exact absurd (Dag.dpath_antisymm hac hA this) (hG.ne l1)
    · obtain ⟨t1, t2⟩ := trip _ _ _ (hr3 u v w hi)
      have hi' : [w, v] <:+: a :: ((na :: q) ++ [b, a]) := List.IsInfix.trans ⟨[], [u], rfl⟩ (hr3 u v w hi)
      exact ⟨t1.symm, fun h => t2 h.symm, (pair _ _ hi').2.1⟩
  · have := h.follow hac hG hs (q ++ [b, a]) a na a (hG.ne k1) (fun u v hi => (pair _ _ hi).1)
      (fun u v w hi => ?_) (by rw [List.getLast?_cons_cons, List.getLast?_cons]; simp) hA
    · exact absurd (Dag.dpath_antisymm hac hA this) (hG.ne k1)
    · obtain ⟨t1, t2⟩ := trip _ _ _ hi
      have hi' : [v, w] <:+: a :: ((na :: q) ++ [b, a]) := List.IsInfix.trans ⟨[u], [], rfl⟩ hi
      exact ⟨t1, t2, (pair _ _ hi').2.2⟩

omit [DecidableEq α] in
/-- Rule 9. -/
theorem MarksOk.r9 (hac : D.Acyclic) {sep : α → α → Py (Finset α)} {G : MG α} (hG : G.Proper) (hs : SepOk D sep G)
    (h : MarksOk D sep G) {a b c d : α} {p : List α} (h1 : G.At c a .circle) (h2 : G.PossPar a b) (h3 : ¬ G.MAdj b c)
    (h4 : G.PossPar d c) (h5 : G.UncovPath G.PossPar G.nodes a c b d p) : D.DPath a c := by
  have hnd := h5.nodup
  obtain ⟨hn1, hn2⟩ := List.nodup_cons.1 hnd
  have hbp : b ∈ p := List.mem_of_mem_head? (by simp [h5.first])
  have hbc : b ≠ c := by
    rintro rfl
    exact (List.nodup_append.1 hn2).2.2 b hbp b (by simp) rfl
  rcases h.mem_of_circle hac hG hs h1 h2.1.symm hbc.symm (fun h => h3 h.symm) with hA | hA
  · exact hA
  obtain ⟨q, rfl⟩ : ∃ q, p = b :: q := by
    have := h5.first
    cases p with
    | nil => simp at this
    | cons x q => exact ⟨q, by simpa using this⟩
  have pair : ∀ u v, [u, v] <:+: a :: ((b :: q) ++ [c]) → G.PossPar u v := by
    intro u v hi
    rcases infix_two_cons hi with ⟨rfl, t, ht⟩ | hi
    · simp only [List.cons_append, List.cons.injEq] at ht
      exact ht.1 ▸ h2
    · obtain ⟨s, t, e⟩ := hi
      rcases List.eq_nil_or_concat t with rfl | ⟨t', y, rfl⟩
      · have e' : (s ++ [u]) ++ [v] = (b :: q) ++ [c] := by simpa using e
        have e2 := List.append_inj' e' rfl
        obtain rfl : v = c := by simpa using e2.2
        have : u = d := by
          have h6 := h5.last
          rw [← e2.1] at h6
          simpa using h6
        exact this ▸ h4
      · have e' : (s ++ [u, v] ++ t') ++ [y] = (b :: q) ++ [c] := by simpa using e
        exact infix_two_chain h5.chain ⟨s, t', (List.append_inj' e' rfl).1⟩
  refine hA.trans (h.follow hac hG hs (q ++ [c]) a b c (hG.ne h2.1) (fun u v hi => (pair _ _ hi).1) (fun u v w hi => ?_)
    (by rw [List.getLast?_cons_cons, List.getLast?_cons]; simp) hA)
  have hi' : [v, w] <:+: a :: ((b :: q) ++ [c]) := List.IsInfix.trans ⟨[u], [], rfl⟩ hi
  exact ⟨infix_three_nodup hnd hi, h5.uncovered _ _ _ hi, (pair _ _ hi').2.2⟩

omit [DecidableEq α] in
/-- Writing true marks keeps the invariant. -/
theorem MarksOk.upd {sep : α → α → Py (Finset α)} {G H : MG α} (h : MarksOk D sep G) (hO : Oriented H G)
    {F : α → α → Mark → Prop} (hu : Upd G H F)
    (hF : ∀ u v m, F u v m → (m = .arrow ∧ ¬ D.DPath v u) ∨ (m = .tail ∧ D.DPath v u)) : MarksOk D sep H := by
  refine ⟨fun u v hm => ?_, fun u v hm => ?_, fun u v w hv => ?_⟩
  · rcases (hu.marks _ _ _).1 hm with hf | ⟨-, hg⟩
    · rcases hF _ _ _ hf with ⟨-, k⟩ | ⟨e, -⟩
      · exact k
      · cases e
    · exact h.arrows _ _ hg
  · rcases (hu.marks _ _ _).1 hm with hf | ⟨-, hg⟩
    · rcases hF _ _ _ hf with ⟨e, -⟩ | ⟨-, k⟩
      · cases e
      · exact k
    · exact h.tails _ _ hg
  · have hg := h.vs u v w ⟨hv.1, (hO.adj _ _).1 hv.2.1, (hO.adj _ _).1 hv.2.2.1, fun h => hv.2.2.2.1 ((hO.adj _ _).2 h), hv.2.2.2.2⟩
    refine (hu.marks _ _ _).2 ?_
    by_cases hf : ∃ m, F u v m
    · obtain ⟨m, hf⟩ := hf
      rcases hF _ _ _ hf with ⟨rfl, -⟩ | ⟨-, k⟩
      · exact Or.inl hf
      · exact absurd k (h.arrows _ _ hg)
    · push Not at hf
      exact Or.inr ⟨hf, hg⟩

/-- Rules 1 to 9 write true marks. -/
theorem MarksOk.step (hac : D.Acyclic) {sep : α → α → Py (Finset α)} {G H : MG α} {idx : Nat} (hG : G.Proper) (hT : ∀ m, m ∈ G.types)
    (hs : SepOk D sep G) (h : MarksOk D sep G) (hidx : idx ≠ 10) (hst : PagStep sep G H idx) : MarksOk D sep H := by
  have hO := hst.oriented hG hT
  have cyc : ∀ {u v : α}, D.DPath u v → u ≠ v → ¬ D.DPath v u := fun h1 h2 h3 => h2 (Dag.dpath_antisymm hac h1 h3)
  have ends : ∀ {a b c d : α} {l : List α} {S : Finset α}, G.DiscPath a b c d l → G.Par a c → sep d c = .ok S → Dag.SepFacts D G d c S := by
    intro a b c d l S hl hpar hS
    have hdl : d ∈ l := List.mem_of_getLast? hl.last
    have hdc : d ≠ c := by rintro rfl; exact hl.notC hdl
    have hd : d ∈ G.nodes := by
      obtain ⟨s, e⟩ := List.getLast?_eq_some_iff.1 hl.last
      rcases List.eq_nil_or_concat s with rfl | ⟨s', x, rfl⟩
      · have := hl.long
        rw [e] at this
        simp at this
      · exact (hG.mem _ _ _ (hl.heads x d ⟨s', [], by rw [e]; simp⟩)).1
    obtain ⟨S', s1, s2⟩ := hs.facts d hd c (hG.mem _ _ _ hpar.1).2 hdc hl.far
    rw [hS] at s1
    cases s1
    exact s2
  cases hst with
  | r1 a b c h1 h2 h3 h4 u =>
    have hbc : D.DPath b c := by
      rcases h.mem_of_circle hac hG hs h2 (Or.inl ⟨_, h1⟩) h3.symm (fun h => h4 h.symm) with k | k
      · exact k
      · exact absurd k (h.arrows _ _ h1)
    have hne : c ≠ b := hG.ne (Or.inl ⟨_, h2⟩)
    refine h.upd hO u ?_
    rintro u v m (⟨rfl, rfl, rfl⟩ | ⟨rfl, rfl, rfl⟩)
    · exact Or.inr ⟨rfl, hbc⟩
    · exact Or.inl ⟨rfl, cyc hbc hne.symm⟩
  | r2 a b c h1 h2 h3 h4 u =>
    refine h.upd hO u ?_
    rintro u v m ⟨rfl, rfl, rfl⟩
    refine Or.inl ⟨rfl, fun hp => ?_⟩
    rcases h3 with h3 | h3
    · exact h.arrows _ _ h1 ((h.tails _ _ h3).trans hp)
    · exact h.arrows _ _ h2 (hp.trans (h.tails _ _ h3))
  | r3 a b c d h1 h2 h3 h4 h5 h6 h7 u =>
    refine h.upd hO u ?_
    rintro u v m ⟨rfl, rfl, rfl⟩
    refine Or.inl ⟨rfl, fun hp => ?_⟩
    rcases h.mem_of_circle hac hG hs h5 (Or.inl ⟨_, h6⟩) h1 h4 with k | k
    · exact h.arrows _ _ h2 (hp.trans k)
    · exact h.arrows _ _ h3 (hp.trans k)
  | r4in a b c d l S h1 h2 h3 h4 h5 h6 u =>
    have hbc := disc_in hac hG h.arrows h.tails (ends h4 h2 h5) h1 h2 h3 h4 h6
    refine h.upd hO u ?_
    rintro u v m (⟨rfl, rfl, rfl⟩ | ⟨rfl, rfl, rfl⟩)
    · exact Or.inl ⟨rfl, cyc hbc (hG.ne h1).symm⟩
    · exact Or.inr ⟨rfl, hbc⟩
  | r4out a b c d l S h1 h2 h3 h4 h5 h6 u =>
    have hbc := disc_out hac hG h.arrows h.tails (ends h4 h2 h5) h1 h2 h3 h4 h6
    have hac' := h.tails _ _ h2.2
    have hab := h.arrows _ _ h3
    refine h.upd hO u ?_
    rintro u v m ⟨⟨rfl, rfl | rfl⟩ | ⟨rfl | rfl, rfl⟩, rfl⟩
    · exact Or.inl ⟨rfl, hab⟩
    · exact Or.inl ⟨rfl, fun hp => hab (hac'.trans hp)⟩
    · exact Or.inl ⟨rfl, fun hp => hbc (hp.trans hac')⟩
    · exact Or.inl ⟨rfl, hbc⟩
  | r5 a b na nb p h1 h2 h3 h4 h5 u => exact (h.no_r5 hac hG hs h1 h2 h3 h4 h5).elim
  | r6 a b c h1 h2 h3 h4 u =>
    exact absurd (h.tails _ _ h1) (cyc (h.tails _ _ h2) (hG.ne (Or.inl ⟨_, h1⟩)))
  | r7 a b c h1 h2 h3 h4 h5 h6 u =>
    refine h.upd hO u ?_
    rintro u v m ⟨rfl, rfl, rfl⟩
    refine Or.inr ⟨rfl, ?_⟩
    have hab := h.tails _ _ h2
    rcases h.mem_of_not_arrow hac hG hs h3 (Or.inr ⟨_, h2⟩) h4 h1 h5 with k | k
    · exact absurd k (cyc hab (hG.ne (Or.inr ⟨_, h2⟩)))
    · exact k
  | r8 a b c h1 h2 h3 h4 u =>
    refine h.upd hO u ?_
    rintro u v m ⟨rfl, rfl, rfl⟩
    exact Or.inr ⟨rfl, (h.tails _ _ h1).trans (h.tails _ _ h2.2)⟩
  | r9 a b c d p h1 h2 h3 h4 h5 h6 u =>
    have := h.r9 hac hG hs h1 h3 h4 h5 h6
    refine h.upd hO u ?_
    rintro u v m ⟨rfl, rfl, rfl⟩
    exact Or.inr ⟨rfl, this⟩
  | r10 => exact absurd rfl hidx

theorem MarksOk.steps (hac : D.Acyclic) {sep : α → α → Py (Finset α)} {G H : MG α} {rules : List Nat} (hG : G.Proper)
    (hT : ∀ m, m ∈ G.types) (hs : SepOk D sep G) (h : MarksOk D sep G) (hr : 10 ∉ rules) (hst : PagSteps sep rules G H) :
    MarksOk D sep H ∧ Oriented H G := by
  induction hst with
  | refl => exact ⟨h, .refl hG⟩
  | tail _ hst ih =>
    obtain ⟨idx, hidx, hst⟩ := hst
    have hT' := fun m => (ih.2.types ▸ hT m : m ∈ _)
    exact ⟨ih.1.step hac ih.2.proper hT' (hs.congr ih.2.nodes ih.2.adj) (fun e => hr (e ▸ hidx)) hst,
      ih.2.trans (hst.oriented ih.2.proper hT')⟩

/-- The v-structures of a graph with true marks and without tails. -/
theorem marksOk_vs (hac : D.Acyclic) {sep : α → α → Py (Finset α)} {G H : MG α} (hs : SepOk D sep G) (hG : G.Proper)
    (h1 : D.ArrowsTrue G) (h2 : D.TailsTrue G) (hu : Upd G H (fun u v m => m = .arrow ∧ ∃ w, VTriple sep G u v w)) (hO : Oriented H G) :
    MarksOk D sep H := by
  have col : ∀ u v w, VTriple sep G u v w → ¬ D.DPath v u := by
    rintro u v w ⟨k1, k2, k3, k4, S, k5, k6⟩
    obtain ⟨S', s1, s2⟩ := hs.facts u (hG.mem_adj k2).1 w (hG.mem_adj k3).1 k1 k4
    rw [k5] at s1
    cases s1
    exact fun hp => s2.collider hac k2 k3.symm k6 (Or.inl hp)
  refine ⟨fun u v hm => ?_, fun u v hm => ?_, fun u v w hv => ?_⟩
  · rcases (hu.marks _ _ _).1 hm with ⟨-, w, hw⟩ | ⟨-, hg⟩
    · exact col u v w hw
    · exact h1 _ _ hg
  · rcases (hu.marks _ _ _).1 hm with ⟨e, -⟩ | ⟨-, hg⟩
    · cases e
    · exact h2 _ _ hg
  · refine (hu.marks _ _ _).2 (Or.inl ⟨rfl, w, ?_⟩)
    exact ⟨hv.1, (hO.adj _ _).1 hv.2.1, (hO.adj _ _).1 hv.2.2.1, fun h => hv.2.2.2.1 ((hO.adj _ _).2 h), hv.2.2.2.2⟩

end MG
end Verif
