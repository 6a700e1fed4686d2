import Verif.Lemmas.Meek
import Verif.Lemmas.FciSound
import Verif.Lemmas.Cpdag

/-!
# Arrowheads of a PAG without latent variables are the orientations derivable by Meek's rules

`ClosedFor G D` collects what is known of a graph on which rules R1–R4 have stopped when the truth is the DAG `D`.
-/

namespace Verif
open Relation
variable {α : Type}

/-- The derivable orientations are the edges of all Markov equivalent DAGs. -/
theorem Dag.der_iff_essential [LinearOrder α] (o : SetOrder α) {D : Dag α} (hD : D.WF) (hac : D.Acyclic) (x y : α) :
    D.Der x y ↔ ∀ H, D.Equivalent H → H.Edge x y := by
  obtain ⟨P, -, -, hP⟩ := Dag.convertToCpdag_spec o (rules := [1, 2, 3]) (by simp) hD hac
  rw [← hP.iff_der hac, hP.iff_essential hD hac]
  exact ⟨fun h => h.2, fun h => ⟨h D ⟨rfl, hD, hac, fun _ _ => Iff.rfl, fun _ _ _ => Iff.rfl⟩, h⟩⟩

namespace MG

/-- A graph compatible with the DAG `D`, closed under R1–R3, whose tails all belong to directed edges. -/
structure ClosedFor (G : MG α) (D : Dag α) : Prop where
  proper : G.Proper
  adj : ∀ a b, G.MAdj a b ↔ D.Adj a b
  arrow : ∀ a b, G.At a b .arrow → D.Edge a b
  vs : ∀ a b c, D.UCol a b c → G.At a b .arrow
  tail : ∀ a b, G.At b a .tail → G.At a b .arrow
  p1 : ¬ G.PagPattern 1
  p2 : ¬ G.PagPattern 2
  p3 : ¬ G.PagPattern 3

namespace ClosedFor
variable {G : MG α} {D : Dag α}

theorem cases (h : G.ClosedFor D) {a b : α} (hab : D.Adj a b) : G.At a b .arrow ∨ G.At a b .tail ∨ G.At a b .circle := by
  obtain ⟨m, hm⟩ := h.proper.adj_iff.1 ((h.adj a b).2 hab)
  cases m
  all_goals simp_all

theorem noBoth (h : G.ClosedFor D) (hac : D.Acyclic) {a b : α} (h1 : G.At a b .arrow) (h2 : G.At b a .arrow) : False :=
  hac a (TransGen.head (h.arrow _ _ h1) (.single (h.arrow _ _ h2)))

theorem tailEdge (h : G.ClosedFor D) {a b : α} (h1 : G.At b a .tail) : D.Edge a b := h.arrow _ _ (h.tail _ _ h1)

theorem one (h : G.ClosedFor D) {a b : α} {m m' : Mark} (h1 : G.At a b m) (h2 : G.At a b m') (hne : m ≠ m') : False :=
  hne (h.proper.one _ _ _ _ h1 h2)

theorem rule1 (h : G.ClosedFor D) {a b c : α} (h1 : G.At a b .arrow) (h2 : G.At c b .circle) : D.Adj a c := by
  by_contra hn
  exact h.p1 ⟨a, b, c, h1, h2, fun h' => hn ((h.adj _ _).1 h')⟩

theorem rule2 (h : G.ClosedFor D) (hac : D.Acyclic) {a b c : α} (h1 : G.At a b .arrow) (h2 : G.At b c .arrow)
    (h3 : G.At c b .tail ∨ G.At b a .tail) (h4 : D.Adj a c) : G.At a c .arrow := by
  rcases h.cases h4 with h5 | h5 | h5
  · exact h5
  · exact absurd (TransGen.head (h.arrow _ _ h1) (TransGen.head (h.arrow _ _ h2) (.single (h.tailEdge h5)))) (hac a)
  · exact absurd ⟨a, b, c, h1, h2, h3, h5⟩ h.p2

/-- No tail at a node `c` from `x` when `x *→ b o-* c`. -/
theorem notTail (h : G.ClosedFor D) (hac : D.Acyclic) {x b c : α} (h1 : G.At x b .arrow) (h2 : G.At c b .circle) :
    ¬ G.At x c .tail := by
  intro h3
  have h4 := h.tail _ _ h3
  have h5 : D.Adj c b := (h.adj _ _).1 (Or.inl ⟨_, h2⟩)
  exact h.one h2 (h.rule2 hac h4 h1 (Or.inr h3) h5) (by simp)

/-- The step of R3. -/
theorem rule3 (h : G.ClosedFor D) (hac : D.Acyclic) {x w z t : α} (h1 : G.At w t .arrow) (h2 : G.At z t .arrow)
    (hne : w ≠ z) (hn : ¬ D.Adj w z) (hw : D.Adj x w) (hz : D.Adj x z) (hu : ¬ D.UCol w x z) (ht : D.Adj x t)
    (hnt : ¬ G.At x t .tail) : G.At x t .arrow := by
  have key : ∀ v, G.At v t .arrow → G.At v x .tail → G.At x t .arrow := fun v h3 h4 =>
    h.rule2 hac (h.tail _ _ h4) h3 (Or.inr h4) ht
  rcases h.cases hw.symm with a1 | a1 | a1
  · rcases h.cases hz.symm with a2 | a2 | a2
    · exact absurd ⟨h.arrow _ _ a1, h.arrow _ _ a2, hne, hn⟩ hu
    · exact key z h2 a2
    · exact absurd (h.rule1 a1 a2) hn
  · exact key w h1 a1
  · rcases h.cases hz.symm with a2 | a2 | a2
    · exact absurd (h.rule1 a2 a1).symm hn
    · exact key z h2 a2
    · rcases h.cases ht with h5 | h5 | h5
      · exact h5
      · exact absurd h5 hnt
      · exact absurd ⟨w, t, z, x, hne, h1, h2, fun h' => hn ((h.adj _ _).1 h'), a1, a2, h5⟩ h.p3

/-- Everything derivable is found; moreover an edge into a node with a circle continues along the circle. -/
theorem complete (h : G.ClosedFor D) (hac : D.Acyclic) {a b : α} (hd : D.Der a b) :
    G.At a b .arrow ∧ ∀ c, G.At c b .circle → G.At a c .arrow := by
  induction hd with
  | @vs a b d hu =>
    have h1 := h.vs _ _ _ hu
    have h2 := h.vs _ _ _ hu.swap
    refine ⟨h1, fun c hc => ?_⟩
    rcases h.cases (h.rule1 h1 hc) with h3 | h3 | h3
    · exact h3
    · exact absurd h3 (h.notTail hac h1 hc)
    · exfalso
      rcases h.cases (h.rule1 h2 hc) with h4 | h4 | h4
      · exact hu.2.2.2 (h.rule1 h4 h3).symm
      · exact h.notTail hac h2 hc h4
      · exact h.p3 ⟨a, b, d, c, hu.2.2.1, h1, h2, fun h' => hu.2.2.2 ((h.adj _ _).1 h'), h3, h4, hc⟩
  | @r1 z x y hz hxy hne hn hu ih =>
    have ht : G.At y x .tail := by
      rcases h.cases hxy.symm with h1 | h1 | h1
      · exact absurd ⟨h.arrow _ _ ih.1, h.arrow _ _ h1, hne, hn⟩ hu
      · exact h1
      · exact absurd (h.rule1 ih.1 h1) hn
    have hA := h.tail _ _ ht
    refine ⟨hA, fun c hc => ?_⟩
    have hcy : D.Adj c y := (h.adj _ _).1 (Or.inl ⟨_, hc⟩)
    rcases h.cases (h.rule1 hA hc) with h3 | h3 | h3
    · exact h3
    · exact absurd h3 (h.notTail hac hA hc)
    · rcases h.cases (h.rule1 hA hc).symm with h4 | h4 | h4
      · exact absurd (h.rule2 hac h4 hA (Or.inl ht) hcy) (fun h' => h.one hc h' (by simp))
      · exact h.tail _ _ h4
      · have h5 := ih.2 c h4
        rcases h.cases hcy.symm with h6 | h6 | h6
        · exact h.rule2 hac hA h6 (Or.inr ht) (h.rule1 hA hc)
        · exact absurd (h.tail _ _ h6) (fun h' => h.one hc h' (by simp))
        · exact absurd (h.rule1 h5 h6) hn
  | @r2 x z y h1 h2 hxy ih1 ih2 =>
    have hA : G.At x y .arrow := by
      rcases h.cases (h2.adj hac).symm with h3 | h3 | h3
      · exact (h.noBoth hac h3 ih2.1).elim
      · exact h.rule2 hac ih1.1 ih2.1 (Or.inl h3) hxy
      · exact ih1.2 y h3
    refine ⟨hA, fun c hc => ?_⟩
    have h3 := ih2.2 c hc
    have hzc : D.Adj z c := (h.adj _ _).1 (Or.inl ⟨_, h3⟩)
    rcases h.cases (h.rule1 hA hc) with h4 | h4 | h4
    · exact h4
    · exact absurd h4 (h.notTail hac hA hc)
    · rcases h.cases hzc.symm with h5 | h5 | h5
      · exact (h.noBoth hac h5 h3).elim
      · exact h.rule2 hac ih1.1 h3 (Or.inl h5) (h.rule1 hA hc)
      · exact ih1.2 c h5
  | @r3 x w z y h1 h2 hne hn hxw hxz hxy hu ih1 ih2 =>
    have hE := (Dag.Der.r3 h1 h2 hne hn hxw hxz hxy hu).sound hac
    have hA : G.At x y .arrow := h.rule3 hac ih1.1 ih2.1 hne hn hxw hxz hu hxy
      (fun h' => hac x (TransGen.head hE (.single (h.tailEdge h'))))
    refine ⟨hA, fun c hc => ?_⟩
    exact h.rule3 hac (ih1.2 c hc) (ih2.2 c hc) hne hn hxw hxz hu (h.rule1 hA hc) (h.notTail hac hA hc)

end ClosedFor

/-- What the steps R1–R4 keep when the truth is the DAG `D`: tails belong to directed edges, arrowheads are derivable. -/
structure DerInv (G : MG α) (D : Dag α) : Prop where
  tail : ∀ a b, G.At b a .tail → G.At a b .arrow
  der : ∀ a b, G.At a b .arrow → D.Der a b

theorem DerInv.upd {G H : MG α} {D : Dag α} {F : α → α → Mark → Prop} (h : G.DerInv D) (hu : Upd G H F)
    (hc : ∀ u v, ¬ F u v .circle) (ht : ∀ u v, F u v .tail → F v u .arrow) (ha : ∀ u v, F u v .arrow → D.Der u v)
    (hov : ∀ u v, F u v .tail → ¬ G.At u v .arrow) : H.DerInv D := by
  constructor
  · intro a b hm
    rw [hu.marks]
    rcases (hu.marks _ _ _).1 hm with h1 | ⟨-, h1⟩
    · exact Or.inl (ht _ _ h1)
    · by_cases hf : ∃ m, F a b m
      · obtain ⟨m, hf⟩ := hf
        cases m with
        | arrow => exact Or.inl hf
        | circle => exact absurd hf (hc _ _)
        | tail => exact absurd (h.tail _ _ h1) (hov _ _ hf)
      · push Not at hf
        exact Or.inr ⟨hf, h.tail _ _ h1⟩
  · intro a b hm
    rcases (hu.marks _ _ _).1 hm with h1 | ⟨-, h1⟩
    · exact ha _ _ h1
    · exact h.der _ _ h1

theorem Compatible.notUCol [DecidableEq α] {G : MG α} {D : Dag α} (hD : D.WF) (hG : G.Proper) (hC : Compatible G D.toMg) {a b c : α}
    (h : G.At c b .circle) : ¬ D.UCol a b c := fun hu =>
  absurd (hG.one _ _ _ _ h (hC.colliders a b c hu.2.2.1 hu.1 hu.2.1 (fun h' => hu.2.2.2 ((Dag.toMg_adj hD).mp h'))).2)
    (by simp)

/-- One step of R1–R4. R4 cannot find a collider that the other rules miss when there are no latent variables. -/
theorem DerInv.step [DecidableEq α] {sep : α → α → Py (Finset α)} {G H : MG α} {D : Dag α} (hD : D.WF) (hac : D.Acyclic)
    (hG : G.Proper) (h : G.DerInv D) (hC : Compatible G D.toMg) (hC' : Compatible H D.toMg) {idx : Nat}
    (hidx : idx ∈ [1, 2, 3, 4]) (hs : PagStep sep G H idx) : H.DerInv D := by
  have hadj : ∀ a b, G.MAdj a b ↔ D.Adj a b := fun a b => (hC.adj a b).trans (Dag.toMg_adj hD)
  have hov : ∀ u v, H.At u v .tail → ¬ G.At u v .arrow := fun u v h1 h2 =>
    hac u (TransGen.head (hC.arrow _ _ h2) (.single ((Dag.toMg_tail hD).mp (hC'.tail _ _ h1))))
  cases hs with
  | r1 a b c h1 h2 h3 h4 hu =>
    refine h.upd hu (by simp) ?_ ?_ (fun u v hF => hov u v ((hu.marks _ _ _).2 (Or.inl hF)))
    · rintro u v (⟨rfl, rfl, -⟩ | ⟨-, -, h⟩)
      · exact Or.inr ⟨rfl, rfl, rfl⟩
      · exact absurd h (by simp)
    · rintro u v (⟨-, -, h⟩ | ⟨rfl, rfl, -⟩)
      · exact absurd h (by simp)
      · exact .r1 (h.der _ _ h1) ((hadj _ _).1 (Proper.adj_of' h2)) h3 (fun h' => h4 ((hadj _ _).2 h'))
          (hC.notUCol hD hG h2)
  | r2 a b c h1 h2 h3 h4 hu =>
    refine h.upd hu (by simp) (by simp) ?_ (by simp)
    rintro u v ⟨rfl, rfl, -⟩
    exact .r2 (h.der _ _ h1) (h.der _ _ h2) ((hadj _ _).1 (Proper.adj_of h4))
  | r3 a b c d h1 h2 h3 h4 h5 h6 h7 hu =>
    refine h.upd hu (by simp) (by simp) ?_ (by simp)
    rintro u v ⟨rfl, rfl, -⟩
    exact .r3 (h.der _ _ h2) (h.der _ _ h3) h1 (fun h' => h4 ((hadj _ _).2 h')) ((hadj _ _).1 (Proper.adj_of' h5))
      ((hadj _ _).1 (Proper.adj_of' h6)) ((hadj _ _).1 h7) (hC.notUCol hD hG h6)
  | r4in a b c d l S h1 h2 h3 h4 h5 h6 hu =>
    refine h.upd hu (by simp) ?_ ?_ (fun u v hF => hov u v ((hu.marks _ _ _).2 (Or.inl hF)))
    · rintro u v (⟨-, -, h⟩ | ⟨rfl, rfl, -⟩)
      · exact absurd h (by simp)
      · exact Or.inl ⟨rfl, rfl, rfl⟩
    · rintro u v (⟨rfl, rfl, -⟩ | ⟨-, -, h⟩)
      · exact .r2 (h.der _ _ h3) (h.der _ _ h2.1) ((hadj _ _).1 h1.symm)
      · exact absurd h (by simp)
  | r4out a b c d l S h1 h2 h3 h4 h5 h6 hu =>
    exfalso
    have e1 := hC'.arrow b a ((hu.marks _ _ _).2 (Or.inl ⟨Or.inl ⟨rfl, Or.inl rfl⟩, rfl⟩))
    have e2 := hC'.arrow a b ((hu.marks _ _ _).2 (Or.inl ⟨Or.inr ⟨Or.inl rfl, rfl⟩, rfl⟩))
    exact hac b (TransGen.head e1 (.single e2))
  | _ => simp at hidx

theorem DerInv.steps [DecidableEq α] {sep : α → α → Py (Finset α)} {G H : MG α} {D : Dag α} (hD : D.WF) (hac : D.Acyclic)
    (hG : G.Proper) (hT : ∀ m, m ∈ G.types) (h : G.DerInv D) (hC : Compatible G D.toMg) (hsep : SepIn sep D.toMg)
    (hs : PagSteps sep [1, 2, 3, 4] G H) : H.DerInv D := by
  have hM := Dag.toMg_ancestral hD hac
  have : Oriented H G ∧ Compatible H D.toMg ∧ H.DerInv D := by
    induction hs with
    | refl => exact ⟨.refl hG, hC, h⟩
    | tail _ hst ih =>
      obtain ⟨idx, hidx, hst⟩ := hst
      have hT' := fun m => (ih.1.types ▸ hT m : m ∈ _)
      have hC' := pagStep_sound ih.1.proper hT' hM ih.2.1 (fun _ => hsep)
        (fun e => by subst e; simp at hidx) hst
      exact ⟨ih.1.trans (hst.oriented ih.1.proper hT'), hC', ih.2.2.step hD hac ih.1.proper ih.2.1 hC' hidx hst⟩
  exact this.2.2

end MG

namespace Fci
open MG
variable [LinearOrder α]

/-- The orientation of a PAG from scratch, when the truth is a DAG over the same nodes: the arrowheads are the derivable
orientations. -/
theorem reorient_essential (o : SetOrder α) (sep : SepSet α) {G H : MG α} {D : Dag α} (hD : D.WF) (hac : D.Acyclic)
    (hG : G.Proper) (ht : G.types = pagTypes)
    (hkey : ∀ i ∈ G.nodes, ∀ j ∈ G.nodes, i ≠ j → ∃ S, sep.get i j = .ok S) (hn : D.nodes = G.nodes)
    (hadj : ∀ a b, G.MAdj a b ↔ D.Adj a b) (hsep : SepIn sep.get D.toMg) (hH : reorient o sep G = .ok H) (a b : α) :
    H.At a b .arrow ↔ ∀ K, D.Equivalent K → K.Edge a b := by
  rw [← Dag.der_iff_essential o hD hac]
  obtain ⟨H', k1, k2, k3, k4⟩ := reorient_spec o sep hG ht hkey
  rw [hH] at k1
  cases k1
  have hM := Dag.toMg_ancestral hD hac
  have hadjM : ∀ a b, G.MAdj a b ↔ D.toMg.MAdj a b := fun a b => (hadj a b).trans (Dag.toMg_adj hD).symm
  have hCH := k4 D.toMg hM hn hadjM hsep
  have hT : ∀ m, m ∈ G.types := by rw [ht]; exact pagTypes_all
  obtain ⟨G1, g1, g2, g3, g4⟩ := resetOrientations_spec o hG.type (S := G.nodes) (hT .circle)
  have hG1 := hG.resetOrientations o g1
  have hat : ∀ a b m, G1.At a b m → m = .circle := by
    intro a b m
    rw [g4]
    by_cases h : G.MAdj a b
    · rw [if_pos ⟨(hG.mem_adj h).1, (hG.mem_adj h).2, hG.ne h, h⟩]; exact id
    · rw [if_neg (fun h' => h h'.2.2.2)]
      exact fun h' => absurd (Or.inl ⟨_, h'⟩) h
  have hadj1 : ∀ a b, G1.MAdj a b ↔ G.MAdj a b := by
    intro a b
    have : ∀ a b, (∃ m, G1.At a b m) ↔ G.MAdj a b := by
      intro a b
      by_cases h : G.MAdj a b
      · refine iff_of_true ⟨.circle, ?_⟩ h
        rw [g4, if_pos ⟨(hG.mem_adj h).1, (hG.mem_adj h).2, hG.ne h, h⟩]
      · refine iff_of_false ?_ h
        rintro ⟨m, hm⟩
        rw [g4, if_neg (fun h' => h h'.2.2.2)] at hm
        exact h (Or.inl ⟨_, hm⟩)
    exact ⟨fun h => h.elim (this _ _).1 (fun h => ((this _ _).1 h).symm), fun h => Or.inl ((this _ _).2 h)⟩
  have hT1 : ∀ m, m ∈ G1.types := by rw [g3]; exact hT
  obtain ⟨G2, v1, v2, v3⟩ := pagVStructures_spec o sep hG1 hT1 (by rw [g2]; exact hkey)
  have hT2 : ∀ m, m ∈ G2.types := by rw [v2.types]; exact hT1
  have hC2 := vs_compatible (H := G2) hM (hn.trans g2.symm) (fun a b => (hadj1 a b).trans (hadjM a b)) hsep hG1
      (by rw [g2]; exact hkey) (fun a b m h => Or.inl (hat _ _ _ h)) v2 v3
  obtain ⟨G3, r1, r2, r3, r4⟩ := pagMaxOrient_spec o sep (rules := [1, 2, 3, 4]) (by decide) v2.proper hT2
    (by intro _; rw [v2.nodes, g2]; exact hkey)
  rw [reorient, py_bind g1, py_bind v1, r1] at hH
  obtain rfl : G3 = H := by injection hH
  have hI2 : G2.DerInv D := by
    constructor
    · intro a b h
      rcases (v3.marks _ _ _).1 h with h1 | ⟨-, h1⟩
      · exact absurd h1.1 (by simp)
      · exact absurd (hat _ _ _ h1) (by simp)
    · intro a b h
      rcases (v3.marks _ _ _).1 h with ⟨-, w, h1⟩ | ⟨-, h1⟩
      · obtain ⟨n1, n2, n3, n4, S, n5, n6⟩ := h1
        have m1 : G.MAdj w b := (hadj1 _ _).1 n3
        have m2 : G.MAdj a b := (hadj1 _ _).1 n2
        have n4' : ¬ G.MAdj a w := fun h' => n4 ((hadj1 _ _).2 h')
        have hS := hsep a (by rw [show D.toMg.nodes = D.nodes from rfl, hn]; exact (hG.mem_adj m2).1) w
          (by rw [show D.toMg.nodes = D.nodes from rfl, hn]; exact (hG.mem_adj m1).1) n1
          (fun h' => n4' ((hadjM _ _).2 h')) S n5
        have hcol := (hS.collider_iff hM.proper ((hadjM _ _).1 m2) ((hadjM _ _).1 m1) n1).1 n6
        exact .vs ⟨hcol.1, hcol.2, n1, fun h' => n4' ((hadj _ _).2 h')⟩
      · exact absurd (hat _ _ _ h1) (by simp)
  have hI := hI2.steps hD hac v2.proper hT2 hC2 hsep r3
  refine ⟨hI.der a b, fun h => ?_⟩
  have hcl : G3.ClosedFor D := ⟨k2.proper, fun a b => (k2.adj a b).trans (hadj a b), hCH.arrow,
    fun a b c hu => (hCH.colliders a b c hu.2.2.1 hu.1 hu.2.1 (fun h' => hu.2.2.2 ((Dag.toMg_adj hD).1 h'))).1, hI.tail,
    k3 1 (by simp), k3 2 (by simp), k3 3 (by simp)⟩
  exact (hcl.complete hac h).1

end Fci
end Verif
