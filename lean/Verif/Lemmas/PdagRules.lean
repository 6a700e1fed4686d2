import Verif.Lemmas.Meek
import Verif.Lemmas.Dsep
import Mathlib.Algebra.Order.BigOperators.Group.Finset

/-!
# Lemmas about the PDAG orientation rules
-/

namespace Verif
open Relation
namespace MG
variable {α : Type}

theorem PAdj.symm {G : MG α} {a b : α} (h : G.PAdj a b) : G.PAdj b a := by
  rcases h with h | h | h | h
  · exact Or.inr (Or.inl h)
  · exact Or.inl h
  · exact Or.inr (Or.inr (Or.inr h))
  · exact Or.inr (Or.inr (Or.inl h))

variable [DecidableEq α]

theorem mem_upd {G : MG α} {v : α} {m : Mark} {f : Finset α → Finset α} {a b : α} {m' : Mark} :
    a ∈ (G.upd v m f).g b m' ↔ if b = v ∧ m' = m then a ∈ f (G.g b m') else a ∈ G.g b m' := by
  simp only [upd]; split <;> rfl

theorem isConnected_spec {G : MG α} (hG : G.PdagWF) {i j : α} (hij : i ≠ j) :
    ∃ b, G.isConnected i j = .ok b ∧ (b = true ↔ G.PAdj i j) := by
  refine ⟨_, if_neg hij, ?_⟩
  simp only [Bool.or_eq_true, List.any_eq_true, decide_eq_true_eq, hG.types, PAdj, Arrow, Und]
  constructor
  · rintro (⟨m, rfl | rfl, h⟩ | ⟨m, rfl | rfl, h⟩) <;> tauto
  · rintro (h | h | h | h)
    · exact Or.inl ⟨_, Or.inr rfl, h⟩
    · exact Or.inr ⟨_, Or.inr rfl, h⟩
    · exact Or.inl ⟨_, Or.inl rfl, h⟩
    · exact Or.inr ⟨_, Or.inl rfl, h⟩

/-! ### orient_edge -/

theorem orientEdge_nodes {G : MG α} {s t : α} : (G.orientEdge s t).nodes = G.nodes := rfl

theorem orientEdge_arrow {G : MG α} {s t a b : α} :
    (G.orientEdge s t).Arrow a b ↔ G.Arrow a b ∨ (a = s ∧ b = t) := by
  simp only [Arrow, orientEdge, mem_upd, reduceCtorEq, and_false, if_false, and_true]
  split
  · rename_i h; subst h; simp only [Finset.mem_insert, and_true]; tauto
  · rename_i h; simp [h]

theorem orientEdge_und {G : MG α} {s t a b : α} :
    (G.orientEdge s t).Und a b ↔ G.Und a b ∧ ¬ (a = s ∧ b = t) ∧ ¬ (a = t ∧ b = s) := by
  simp only [Und, orientEdge]
  by_cases hs : b = s <;> by_cases ht : b = t <;> simp [hs, ht, mem_upd] <;> split_ifs <;> tauto

theorem orientEdge_circle {G : MG α} {s t a b : α} :
    a ∈ (G.orientEdge s t).g b .circle ↔ a ∈ G.g b .circle := by
  simp [orientEdge, mem_upd]

theorem orientEdge_wf {G : MG α} (hG : G.PdagWF) {s t : α} (hst : s ≠ t) (hs : s ∈ G.nodes) (ht : t ∈ G.nodes) :
    (G.orientEdge s t).PdagWF where
  types := hG.types
  mem := by
    intro a b m h
    cases m with
    | arrow =>
      rcases orientEdge_arrow.mp h with h | ⟨rfl, rfl⟩
      · exact hG.mem _ _ _ h
      · exact ⟨hs, ht⟩
    | tail => exact hG.mem _ _ _ (orientEdge_und.mp h).1
    | circle => exact hG.mem _ _ _ (orientEdge_circle.mp h)
  irrefl := by
    intro a m h
    cases m with
    | arrow =>
      rcases orientEdge_arrow.mp h with h | ⟨rfl, rfl⟩
      · exact hG.irrefl _ _ h
      · exact hst rfl
    | tail => exact hG.irrefl _ _ (orientEdge_und.mp h).1
    | circle => exact hG.irrefl _ _ (orientEdge_circle.mp h)
  symm := by
    intro a b h
    obtain ⟨h1, h2, h3⟩ := orientEdge_und.mp h
    exact orientEdge_und.mpr ⟨hG.symm _ _ h1, fun h => h3 h.symm, fun h => h2 h.symm⟩
  excl := by
    intro a b h h'
    obtain ⟨h1, h2, _⟩ := orientEdge_und.mp h'
    rcases orientEdge_arrow.mp h with h | h
    · exact hG.excl _ _ h h1
    · exact h2 h

theorem orientEdge_padj {G : MG α} {s t : α} (h : G.PAdj s t) (a b : α) :
    (G.orientEdge s t).PAdj a b ↔ G.PAdj a b := by
  simp only [PAdj, orientEdge_arrow, orientEdge_und]
  have h' := h.symm
  simp only [PAdj] at h h'
  constructor
  · rintro ((h1 | ⟨rfl, rfl⟩) | (h1 | ⟨rfl, rfl⟩) | h1 | h1)
    · exact Or.inl h1
    · exact h
    · exact Or.inr (Or.inl h1)
    · exact h'
    · exact Or.inr (Or.inr (Or.inl h1.1))
    · exact Or.inr (Or.inr (Or.inr h1.1))
  · intro h3
    by_cases h1 : a = s ∧ b = t
    · exact Or.inl (Or.inr h1)
    · by_cases h2 : a = t ∧ b = s
      · exact Or.inr (Or.inl (Or.inr h2.symm))
      · have h1' : ¬ (b = t ∧ a = s) := fun h => h1 h.symm
        have h2' : ¬ (b = s ∧ a = t) := fun h => h2 h.symm
        rcases h3 with h3 | h3 | h3 | h3
        · exact Or.inl (Or.inl h3)
        · exact Or.inr (Or.inl (Or.inl h3))
        · exact Or.inr (Or.inr (Or.inl ⟨h3, h1, h2⟩))
        · exact Or.inr (Or.inr (Or.inr ⟨h3, h2', h1'⟩))

/-! ### the rules -/

theorem cond1_spec (o : SetOrder α) {G : MG α} (hG : G.PdagWF) {x y : α} (h : G.Und x y) :
    ∃ b, cond1 o G y x = .ok b ∧ (b = true ↔ G.RulePattern 1 x y) := by
  obtain ⟨b, hb, hb'⟩ := forAny_spec (f := fun z => do return !(← G.isConnected z y)) (P := fun z => ¬ G.PAdj z y)
    (o.iter (y, x) (G.parents x)) (by
      intro z hz
      rw [o.mem] at hz
      have hne : z ≠ y := by rintro rfl; exact hG.excl _ _ hz (hG.symm _ _ h)
      obtain ⟨b, hb, hb'⟩ := isConnected_spec hG hne
      exact ⟨!b, by rw [hb]; rfl, by simp [← hb']⟩)
  refine ⟨b, hb, hb'.trans ?_⟩
  simp only [o.mem, RulePattern, h, true_and]; rfl

theorem cond2_spec (o : SetOrder α) {G : MG α} {x y : α} (h : G.Und x y) :
    ∃ b, cond2 o G y x = .ok b ∧ (b = true ↔ G.RulePattern 2 x y) := by
  obtain ⟨b, hb, hb'⟩ := forAny_spec (f := fun z => .ok (decide (x ∈ G.parents z))) (P := fun z => x ∈ G.parents z)
    (o.iter (y, x) (G.parents y)) (fun z _ => ⟨_, rfl, by simp⟩)
  refine ⟨b, hb, hb'.trans ?_⟩
  simp only [o.mem, RulePattern, h, true_and, Arrow, parents]
  exact exists_congr fun z => and_comm

theorem cond3_spec (o : SetOrder α) {G : MG α} (hG : G.PdagWF) {x y : α} (h : G.Und x y) :
    ∃ b, cond3 o G y x = .ok b ∧ (b = true ↔ G.RulePattern 3 x y) := by
  obtain ⟨b, hb, hb'⟩ := forAny_spec (f := fun (wz : α × α) => do return !(← G.isConnected wz.1 wz.2))
    (P := fun wz => ¬ G.PAdj wz.1 wz.2) (pairs (o.iter (y, x) (G.und x ∩ G.parents y))) (by
      rintro ⟨w, z⟩ hz
      obtain ⟨b, hb, hb'⟩ := isConnected_spec hG (mem_pairs_ne (o.nodup _ _) hz)
      exact ⟨!b, by simp only [hb]; rfl, by simp [← hb']⟩)
  refine ⟨b, hb, hb'.trans ?_⟩
  simp only [RulePattern, h, true_and]
  constructor
  · rintro ⟨⟨w, z⟩, hp, hn⟩
    have h1 := mem_pairs_left hp
    have h2 := mem_pairs_right hp
    rw [o.mem, Finset.mem_inter] at h1 h2
    exact ⟨w, z, mem_pairs_ne (o.nodup _ _) hp, h1.1, h2.1, h1.2, h2.2, hn⟩
  · rintro ⟨w, z, hne, h1, h2, h3, h4, hn⟩
    have hw : w ∈ o.iter (y, x) (G.und x ∩ G.parents y) := (o.mem _ _ _).mpr (Finset.mem_inter.mpr ⟨h1, h3⟩)
    have hz : z ∈ o.iter (y, x) (G.und x ∩ G.parents y) := (o.mem _ _ _).mpr (Finset.mem_inter.mpr ⟨h2, h4⟩)
    rcases mem_pairs_or hw hz hne with hp | hp
    · exact ⟨_, hp, hn⟩
    · exact ⟨_, hp, fun h => hn h.symm⟩

theorem cond4_spec (o : SetOrder α) {G : MG α} (hG : G.PdagWF) {x y : α} (h : G.Und x y) :
    ∃ b, cond4 o G y x = .ok b ∧ (b = true ↔ G.RulePattern 4 x y) := by
  obtain ⟨b, hb, hb'⟩ := forAny_spec (f := fun z => do
    if ← G.isConnected z x then return decide ((G.parents z ∩ G.und x).card > 0)
    else return false) (P := fun z => G.PAdj z x ∧ ∃ w, G.Und w x ∧ G.Arrow w z)
    (o.iter (y, x) (G.parents y)) (by
      intro z hz
      rw [o.mem] at hz
      have hne : z ≠ x := by rintro rfl; exact hG.excl _ _ hz h
      obtain ⟨b, hb, hb'⟩ := isConnected_spec hG hne
      cases b with
      | false =>
        exact ⟨false, by simp only [hb]; rfl, by simp [← hb']⟩
      | true =>
        refine ⟨_, by simp only [hb]; rfl, ?_⟩
        rw [← hb']
        simp only [decide_eq_true_eq, true_and, gt_iff_lt, Finset.card_pos, Finset.Nonempty, Finset.mem_inter]
        exact exists_congr fun w => and_comm)
  refine ⟨b, hb, hb'.trans ?_⟩
  simp only [o.mem, RulePattern, h, true_and]
  constructor
  · rintro ⟨z, hz, hp, w, h1, h2⟩; exact ⟨w, z, h1, h2, hz, hp.symm⟩
  · rintro ⟨w, z, h1, h2, h3, h4⟩; exact ⟨z, h3, h4.symm, w, h1, h2⟩

/-- One orientation licensed by one of the rules. -/
def Step (rules : List Nat) (G G' : MG α) : Prop :=
  ∃ idx ∈ rules, ∃ x y, G.RulePattern idx x y ∧ G' = G.orientEdge x y

omit [DecidableEq α] in
theorem RulePattern.und {G : MG α} {idx : Nat} {x y : α} (h : G.RulePattern idx x y) : G.Und x y := h.1

theorem Step.wf {rules : List Nat} {G G' : MG α} (h : Step rules G G') (hG : G.PdagWF) : G'.PdagWF := by
  obtain ⟨_, _, x, y, h, rfl⟩ := h
  have hm := hG.mem _ _ _ h.und
  exact orientEdge_wf hG (by rintro rfl; exact hG.irrefl _ _ h.und) hm.1 hm.2

theorem Step.numUnd_lt {rules : List Nat} {G G' : MG α} (h : Step rules G G') (hG : G.PdagWF) :
    G'.numUnd < G.numUnd := by
  obtain ⟨_, _, x, y, h, rfl⟩ := h
  have hm := hG.mem _ _ _ h.und
  apply Finset.sum_lt_sum
  · intro v _
    apply Finset.card_le_card
    intro a ha
    exact (orientEdge_und.mp ha).1
  · refine ⟨y, hm.2, Finset.card_lt_card ?_⟩
    rw [Finset.ssubset_iff_of_subset]
    · exact ⟨x, h.und, fun h' => (orientEdge_und.mp h').2.1 ⟨rfl, rfl⟩⟩
    · intro a ha
      exact (orientEdge_und.mp ha).1

theorem steps_wf {rules : List Nat} {G G' : MG α} (h : ReflTransGen (Step rules) G G') (hG : G.PdagWF) :
    G'.PdagWF := by
  induction h with
  | refl => exact hG
  | tail _ h ih => exact h.wf ih

theorem steps_numUnd {rules : List Nat} {G G' : MG α} (h : TransGen (Step rules) G G') (hG : G.PdagWF) :
    G'.numUnd < G.numUnd := by
  induction h with
  | single h => exact h.numUnd_lt hG
  | tail h1 h2 ih => exact (h2.numUnd_lt (steps_wf h1.to_reflTransGen hG)).trans ih

theorem steps_refines {rules : List Nat} {G G' : MG α} (h : ReflTransGen (Step rules) G G') (hG : G.PdagWF) :
    Refines G G' := by
  induction h with
  | refl => exact ⟨rfl, fun _ _ => Iff.rfl, fun _ _ h => h, fun _ _ h => h, fun _ _ h => Or.inl h⟩
  | @tail H K hGH h ih =>
    have hH := steps_wf hGH hG
    obtain ⟨_, _, x, y, h, rfl⟩ := h
    refine ⟨ih.nodes, fun a b => ?_, fun a b h' => ?_, fun a b h' => ?_, fun a b h' => ?_⟩
    · rw [orientEdge_padj (Or.inr (Or.inr (Or.inl h.und))), ih.adj]
    · exact orientEdge_arrow.mpr (Or.inl (ih.arrow a b h'))
    · exact ih.und a b (orientEdge_und.mp h').1
    · rw [orientEdge_arrow]
      rcases orientEdge_arrow.mp h' with h1 | ⟨rfl, rfl⟩
      · rcases ih.new a b h1 with h2 | ⟨h2, h3⟩
        · exact Or.inl h2
        · refine Or.inr ⟨h2, ?_⟩
          rintro (h4 | ⟨rfl, rfl⟩)
          · exact h3 h4
          · exact hH.excl _ _ h1 (hH.symm _ _ h.und)
      · refine Or.inr ⟨ih.und _ _ h.und, ?_⟩
        rintro (h4 | ⟨rfl, _⟩)
        · exact hH.excl _ _ h4 (hH.symm _ _ h.und)
        · exact hH.irrefl _ _ h.und

section loops
variable {rules : List Nat} {idx : Nat} {cond : MG α → α → α → Py Bool}

theorem orientXs_spec (hidx : idx ∈ rules) (hcond : ∀ (G : MG α) x y, G.PdagWF → G.Und x y →
      ∃ b, cond G y x = .ok b ∧ (b = true ↔ G.RulePattern idx x y)) (y : α) :
    ∀ (xs : List α) (G : MG α) (m : Bool), G.PdagWF → xs.Nodup → (∀ x ∈ xs, G.Und x y) →
      ∃ G' m', orientXs cond y xs (G, m) = .ok (G', m') ∧
        ((m' = m ∧ G' = G ∧ ∀ x ∈ xs, ¬ G.RulePattern idx x y) ∨ (m' = true ∧ TransGen (Step rules) G G')) := by
  intro xs
  induction xs with
  | nil => intro G m _ _ _; exact ⟨G, m, rfl, Or.inl ⟨rfl, rfl, by simp⟩⟩
  | cons x xs ih =>
    intro G m hG hnd hx
    rw [List.nodup_cons] at hnd
    have hxy := hx x (by simp)
    obtain ⟨b, hb, hb'⟩ := hcond G x y hG hxy
    simp only [orientXs, hb, bind, Except.bind]
    cases b with
    | false =>
      have hno : ¬ G.RulePattern idx x y := by rw [← hb']; simp
      obtain ⟨G', m', h1, h2⟩ := ih G m hG hnd.2 (fun z hz => hx z (List.mem_cons_of_mem _ hz))
      refine ⟨G', m', h1, ?_⟩
      rcases h2 with ⟨h2, h3, h4⟩ | h2
      · refine Or.inl ⟨h2, h3, fun z hz => ?_⟩
        rcases List.mem_cons.mp hz with rfl | hz
        · exact hno
        · exact h4 z hz
      · exact Or.inr h2
    | true =>
      have hstep : Step rules G (G.orientEdge x y) := ⟨idx, hidx, x, y, hb'.mp rfl, rfl⟩
      have hund : ∀ z ∈ xs, (G.orientEdge x y).Und z y := by
        intro z hz
        refine orientEdge_und.mpr ⟨hx z (List.mem_cons_of_mem _ hz), ?_, ?_⟩
        · rintro ⟨rfl, _⟩; exact hnd.1 hz
        · rintro ⟨_, rfl⟩; exact hG.irrefl _ _ hxy
      obtain ⟨G', m', h1, h2⟩ := ih (G.orientEdge x y) true (hstep.wf hG) hnd.2 hund
      refine ⟨G', m', h1, Or.inr ?_⟩
      rcases h2 with ⟨h2, h3, _⟩ | ⟨h2, h3⟩
      · subst h3; exact ⟨h2, TransGen.single hstep⟩
      · exact ⟨h2, TransGen.head hstep h3⟩

theorem orientYs_spec (o : SetOrder α) (hidx : idx ∈ rules) (hcond : ∀ (G : MG α) x y, G.PdagWF → G.Und x y →
      ∃ b, cond G y x = .ok b ∧ (b = true ↔ G.RulePattern idx x y)) :
    ∀ (ys : List α) (G : MG α) (m : Bool), G.PdagWF →
      ∃ G' m', orientYs o cond ys (G, m) = .ok (G', m') ∧
        ((m' = m ∧ G' = G ∧ ∀ y ∈ ys, ∀ x, ¬ G.RulePattern idx x y) ∨ (m' = true ∧ TransGen (Step rules) G G')) := by
  intro ys
  induction ys with
  | nil => intro G m _; exact ⟨G, m, rfl, Or.inl ⟨rfl, rfl, by simp⟩⟩
  | cons y ys ih =>
    intro G m hG
    obtain ⟨G1, m1, h1, h2⟩ := orientXs_spec hidx hcond y (o.iter (y, 0) (G.und y)) G m hG (o.nodup _ _)
      (fun x hx => (o.mem _ _ _).mp hx)
    simp only [orientYs, h1, bind, Except.bind]
    have hG1 : G1.PdagWF := by
      rcases h2 with ⟨_, rfl, _⟩ | ⟨_, h⟩
      · exact hG
      · exact steps_wf h.to_reflTransGen hG
    obtain ⟨G2, m2, h3, h4⟩ := ih G1 m1 hG1
    refine ⟨G2, m2, h3, ?_⟩
    rcases h2 with ⟨rfl, rfl, h2⟩ | ⟨rfl, h2⟩
    · rcases h4 with ⟨rfl, rfl, h4⟩ | ⟨rfl, h4⟩
      · refine Or.inl ⟨rfl, rfl, fun z hz x hp => ?_⟩
        rcases List.mem_cons.mp hz with rfl | hz
        · exact h2 x ((o.mem _ _ _).mpr hp.und) hp
        · exact h4 z hz x hp
      · exact Or.inr ⟨rfl, h4⟩
    · rcases h4 with ⟨rfl, rfl, _⟩ | ⟨rfl, h4⟩
      · exact Or.inr ⟨rfl, h2⟩
      · exact Or.inr ⟨rfl, h2.trans h4⟩

end loops

theorem applyRule_spec (o : SetOrder α) {rules : List Nat} {idx : Nat} (hidx : idx ∈ rules) (hr : 1 ≤ idx ∧ idx ≤ 4)
    (en : Finset α) {G : MG α} (hG : G.PdagWF) :
    ∃ G' m', applyRule o idx en G = .ok (G', m') ∧
      ((m' = false ∧ G' = G ∧ ∀ y ∈ en, ∀ x, ¬ G.RulePattern idx x y) ∨
        (m' = true ∧ TransGen (Step rules) G G')) := by
  have main : ∀ cond : MG α → α → α → Py Bool, (∀ (G : MG α) x y, G.PdagWF → G.Und x y →
      ∃ b, cond G y x = .ok b ∧ (b = true ↔ G.RulePattern idx x y)) →
      ∃ G' m', orientYs o cond (o.iter () en) (G, false) = .ok (G', m') ∧
      ((m' = false ∧ G' = G ∧ ∀ y ∈ en, ∀ x, ¬ G.RulePattern idx x y) ∨
        (m' = true ∧ TransGen (Step rules) G G')) := by
    intro cond hcond
    obtain ⟨G', m', h1, h2⟩ := orientYs_spec o hidx hcond (o.iter () en) G false hG
    refine ⟨G', m', h1, ?_⟩
    simpa only [o.mem] using h2
  have : idx = 1 ∨ idx = 2 ∨ idx = 3 ∨ idx = 4 := by omega
  rcases this with rfl | rfl | rfl | rfl
  · exact main _ (fun G x y hG h => cond1_spec o hG h)
  · exact main _ (fun G x y hG h => cond2_spec o h)
  · exact main _ (fun G x y hG h => cond3_spec o hG h)
  · exact main _ (fun G x y hG h => cond4_spec o hG h)

theorem rulesLoop_spec (o : SetOrder α) {rules : List Nat} (en : Finset α) :
    ∀ (rs : List Nat) (G : MG α) (m : Bool), G.PdagWF → (∀ r ∈ rs, r ∈ rules ∧ 1 ≤ r ∧ r ≤ 4) →
      ∃ G' m', rulesLoop o en rs (G, m) = .ok (G', m') ∧
        ((m' = m ∧ G' = G ∧ ∀ r ∈ rs, ∀ y ∈ en, ∀ x, ¬ G.RulePattern r x y) ∨
          (m' = true ∧ TransGen (Step rules) G G')) := by
  intro rs
  induction rs with
  | nil => intro G m _ _; exact ⟨G, m, rfl, Or.inl ⟨rfl, rfl, by simp⟩⟩
  | cons r rs ih =>
    intro G m hG hrs
    obtain ⟨G1, m1, h1, h2⟩ := applyRule_spec o (hrs r (by simp)).1 (hrs r (by simp)).2 en hG
    simp only [rulesLoop, h1, bind, Except.bind]
    have hG1 : G1.PdagWF := by
      rcases h2 with ⟨_, rfl, _⟩ | ⟨_, h⟩
      · exact hG
      · exact steps_wf h.to_reflTransGen hG
    obtain ⟨G2, m2, h3, h4⟩ := ih G1 (m || m1) hG1 (fun r' hr' => hrs r' (List.mem_cons_of_mem _ hr'))
    refine ⟨G2, m2, h3, ?_⟩
    rcases h2 with ⟨rfl, rfl, h2⟩ | ⟨rfl, h2⟩
    · rcases h4 with ⟨rfl, rfl, h4⟩ | ⟨rfl, h4⟩
      · refine Or.inl ⟨by simp, rfl, fun r' hr' => ?_⟩
        rcases List.mem_cons.mp hr' with rfl | hr'
        · exact h2
        · exact h4 r' hr'
      · exact Or.inr ⟨rfl, h4⟩
    · rcases h4 with ⟨rfl, rfl, _⟩ | ⟨rfl, h4⟩
      · exact Or.inr ⟨by simp, h2⟩
      · exact Or.inr ⟨rfl, h2.trans h4⟩

theorem maxOrientLoop_spec (o : SetOrder α) {rules : List Nat} (hr : ∀ r ∈ rules, 1 ≤ r ∧ r ≤ 4) (en : Finset α) :
    ∀ (n : Nat) (G : MG α), G.PdagWF → G.numUnd < n →
      ∃ G', maxOrientLoop o rules en n G = .ok G' ∧ ReflTransGen (Step rules) G G' ∧
        ∀ r ∈ rules, ∀ y ∈ en, ∀ x, ¬ G'.RulePattern r x y := by
  intro n
  induction n with
  | zero => intro G _ h; exact absurd h (Nat.not_lt_zero _)
  | succ n ih =>
    intro G hG hn
    obtain ⟨G1, m1, h1, h2⟩ := rulesLoop_spec o (rules := rules) en rules G false hG (fun r h => ⟨h, hr r h⟩)
    simp only [maxOrientLoop, h1, bind, Except.bind]
    rcases h2 with ⟨rfl, rfl, h2⟩ | ⟨rfl, h2⟩
    · exact ⟨G1, rfl, ReflTransGen.refl, h2⟩
    · have := steps_numUnd h2 hG
      obtain ⟨G2, h3, h4, h5⟩ := ih G1 (steps_wf h2.to_reflTransGen hG) (by omega)
      exact ⟨G2, h3, h2.to_reflTransGen.trans h4, h5⟩

theorem maximallyOrient_spec (o : SetOrder α) {rules : List Nat} (hr : ∀ r ∈ rules, 1 ≤ r ∧ r ≤ 4) (en : Finset α)
    {G : MG α} (hG : G.PdagWF) :
    ∃ G', maximallyOrient o rules en G = .ok G' ∧ ReflTransGen (Step rules) G G' ∧
      ∀ r ∈ rules, ∀ y ∈ en, ∀ x, ¬ G'.RulePattern r x y :=
  maxOrientLoop_spec o hr en _ G hG (Nat.lt_succ_self _)

theorem rulesLoop_keyError (o : SetOrder α) (en : Finset α) :
    ∀ (rs : List Nat) (G : MG α) (m : Bool), G.PdagWF → (∃ r ∈ rs, r = 0 ∨ 4 < r) →
      rulesLoop o en rs (G, m) = .error .keyError := by
  intro rs
  induction rs with
  | nil => rintro _ _ _ ⟨r, hr, _⟩; simp at hr
  | cons r rs ih =>
    intro G m hG h
    by_cases hr : r = 0 ∨ 4 < r
    · have : applyRule o r en G = .error .keyError := by
        unfold applyRule
        split <;> first | omega | rfl
      simp only [rulesLoop, this, bind, Except.bind]
    · have h' : ∃ r ∈ rs, r = 0 ∨ 4 < r := by
        obtain ⟨r', hr', h'⟩ := h
        rcases List.mem_cons.mp hr' with rfl | hr'
        · exact absurd h' hr
        · exact ⟨r', hr', h'⟩
      obtain ⟨G1, m1, h1, h2⟩ := applyRule_spec o (rules := [r]) (idx := r) (by simp) (by omega) en hG
      simp only [rulesLoop, h1, bind, Except.bind]
      apply ih _ _ _ h'
      rcases h2 with ⟨_, rfl, _⟩ | ⟨_, h⟩
      · exact hG
      · exact steps_wf h.to_reflTransGen hG

end MG
end Verif
