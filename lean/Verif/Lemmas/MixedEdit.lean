import Verif.Lemmas.Mixed
import Verif.Lemmas.AdjMat
import Verif.Spec.Pdag
import Mathlib.Data.Set.Card
import Mathlib.Combinatorics.Enumerative.DoubleCounting

/-!
# Lemmas about editing mixed graphs, counting edges and skeletons
-/

namespace Verif
open Relation
variable {α : Type} [DecidableEq α]

namespace MG

theorem upd_at {G : MG α} {v a b : α} {m m' : Mark} {f : Finset α → Finset α} :
    (G.upd v m f).At a b m' ↔ if b = v ∧ m' = m then a ∈ f (G.g b m') else G.At a b m' := by
  simp only [At, upd]
  split_ifs <;> rfl

theorem upd_nodes {G : MG α} {v : α} {m : Mark} {f : Finset α → Finset α} :
    (G.upd v m f).nodes = G.nodes ∧ (G.upd v m f).types = G.types := ⟨rfl, rfl⟩

theorem proper_isConnected {G : MG α} (hT : ∀ a b m, G.At a b m → m ∈ G.types) {i j : α} (hij : i ≠ j) :
    ∃ b, G.isConnected i j = .ok b ∧ (b = true ↔ G.MAdj i j) := by
  refine ⟨_, if_neg hij, ?_⟩
  simp only [Bool.or_eq_true, List.any_eq_true, decide_eq_true_eq, MAdj, At]
  constructor
  · rintro (⟨m, _, h⟩ | ⟨m, _, h⟩)
    · exact Or.inl ⟨m, h⟩
    · exact Or.inr ⟨m, h⟩
  · rintro (⟨m, h⟩ | ⟨m, h⟩)
    · exact Or.inl ⟨m, hT _ _ _ h, h⟩
    · exact Or.inr ⟨m, hT _ _ _ h, h⟩

omit [DecidableEq α] in
theorem Proper.adj_iff {G : MG α} (hG : G.Proper) {a b : α} : G.MAdj a b ↔ ∃ m, G.At a b m := by
  constructor
  · rintro (h | ⟨m, h⟩)
    · exact h
    · exact hG.both _ _ _ h
  · exact Or.inl

omit [DecidableEq α] in
theorem MAdj.symm {G : MG α} {a b : α} (h : G.MAdj a b) : G.MAdj b a := Or.symm h

theorem getEdgeMark_spec {G : MG α} (hG : G.Proper) {a b : α} {m : Mark} :
    G.getEdgeMark a b = some m ↔ G.At a b m := by
  simp only [getEdgeMark]
  constructor
  · intro h
    have := List.find?_some h
    simp only [decide_eq_true_eq] at this
    exact this
  · intro h
    cases hf : G.types.find? (fun m => decide (a ∈ G.g b m)) with
    | none =>
      have := List.find?_eq_none.mp hf m (hG.type _ _ _ h)
      simp at this
      exact absurd h this
    | some m' =>
      have h' : G.At a b m' := by have := List.find?_some hf; simp only [decide_eq_true_eq] at this; exact this
      rw [hG.one _ _ _ _ h' h]

/-! ### delete_edge -/

theorem deleteEdge_spec {G : MG α} (hT : ∀ a b m, G.At a b m → m ∈ G.types) {i j : α} :
    (G.deleteEdge i j).nodes = G.nodes ∧ (G.deleteEdge i j).types = G.types ∧
      ∀ a b m, (G.deleteEdge i j).At a b m ↔ G.At a b m ∧ ¬ (a = i ∧ b = j) ∧ ¬ (a = j ∧ b = i) := by
  have key : ∀ (l : List Mark) (H : MG α),
      (l.foldl (fun G m => (G.upd i m (fun s => s.erase j)).upd j m (fun s => s.erase i)) H).nodes = H.nodes ∧
      (l.foldl (fun G m => (G.upd i m (fun s => s.erase j)).upd j m (fun s => s.erase i)) H).types = H.types ∧
      ∀ a b m, (l.foldl (fun G m => (G.upd i m (fun s => s.erase j)).upd j m (fun s => s.erase i)) H).At a b m ↔
        H.At a b m ∧ (m ∈ l → ¬ (a = i ∧ b = j) ∧ ¬ (a = j ∧ b = i)) := by
    intro l
    induction l with
    | nil => intro H; simp
    | cons m0 l ih =>
      intro H
      obtain ⟨h1, h2, h3⟩ := ih ((H.upd i m0 (fun s => s.erase j)).upd j m0 (fun s => s.erase i))
      refine ⟨h1, h2, fun a b m => ?_⟩
      simp only [List.foldl_cons]
      rw [h3]
      simp only [At, upd, List.mem_cons]
      by_cases hm : m = m0
      · subst hm
        simp only [and_true, true_or, true_implies]
        by_cases hbj : b = j <;> by_cases hbi : b = i
        · subst hbj; subst hbi; simp; tauto
        · simp only [if_pos hbj, if_neg hbi, Finset.mem_erase]; tauto
        · simp only [if_pos hbi, if_neg hbj, Finset.mem_erase]; tauto
        · simp only [if_neg hbi, if_neg hbj]; tauto
      · simp [hm]
  obtain ⟨h1, h2, h3⟩ := key G.types G
  refine ⟨h1, h2, fun a b m => ?_⟩
  rw [deleteEdge, h3]
  constructor
  · rintro ⟨h, h'⟩; exact ⟨h, h' (hT _ _ _ h)⟩
  · rintro ⟨h, h'⟩; exact ⟨h, fun _ => h'⟩

/-! ### replace_edge_mark -/

theorem replaceEdgeMark_spec {G : MG α} (hT : ∀ a b m, G.At a b m → m ∈ G.types) {s t : α} {m : Mark}
    (hm : m ∈ G.types) :
    ∃ H, G.replaceEdgeMark s t m = .ok H ∧ H.nodes = G.nodes ∧ H.types = G.types ∧
      ∀ a b m', H.At a b m' ↔ if a = s ∧ b = t then m' = m else G.At a b m' := by
  have key : ∀ (l : List Mark) (H : MG α),
      (l.foldl (fun G m' => G.upd t m' (fun x => x.erase s)) H).nodes = H.nodes ∧
      (l.foldl (fun G m' => G.upd t m' (fun x => x.erase s)) H).types = H.types ∧
      ∀ a b m', (l.foldl (fun G m' => G.upd t m' (fun x => x.erase s)) H).At a b m' ↔
        H.At a b m' ∧ (m' ∈ l → ¬ (a = s ∧ b = t)) := by
    intro l
    induction l with
    | nil => intro H; simp
    | cons m0 l ih =>
      intro H
      obtain ⟨h1, h2, h3⟩ := ih (H.upd t m0 (fun x => x.erase s))
      refine ⟨h1, h2, fun a b m' => ?_⟩
      simp only [List.foldl_cons]
      rw [h3]
      simp only [At, upd, List.mem_cons]
      by_cases hm : m' = m0
      · subst hm
        by_cases hbt : b = t
        · simp only [hbt, and_true, if_true, Finset.mem_erase]; tauto
        · simp only [hbt, false_and, if_false]; tauto
      · simp [hm]
  obtain ⟨h1, h2, h3⟩ := key G.types G
  refine ⟨_, if_pos hm, h1, h2, fun a b m' => ?_⟩
  rw [upd_at]
  by_cases hb : b = t ∧ m' = m
  · obtain ⟨rfl, rfl⟩ := hb
    simp only [and_self, if_true, Finset.mem_insert, and_true]
    by_cases ha : a = s
    · simp [ha]
    · simp only [ha, false_or, if_false]
      have := h3 a b m'
      simp only [At] at this ⊢
      rw [this]
      simp [ha]
  · rw [if_neg hb, h3]
    by_cases hab : a = s ∧ b = t
    · rw [if_pos hab]
      constructor
      · rintro ⟨h, h'⟩; exact absurd hab (h' (hT _ _ _ h))
      · rintro rfl; exact absurd ⟨hab.2, rfl⟩ hb
    · rw [if_neg hab]; tauto

theorem replaceEdgeMark_err {G : MG α} {s t : α} {m : Mark} (hm : m ∉ G.types) :
    G.replaceEdgeMark s t m = .error .assertionError := if_neg hm

/-! ### add_edge -/

theorem addEdge_spec {G : MG α} (hT : ∀ a b m, G.At a b m → m ∈ G.types) {i j : α} {mi mj : Mark} (hij : i ≠ j)
    (hadj : ¬ G.MAdj i j) (hi : mi ∈ G.types) (hj : mj ∈ G.types) :
    ∃ H, G.addEdge i j mi mj = .ok H ∧ H.nodes = G.nodes ∧ H.types = G.types ∧
      ∀ a b m, H.At a b m ↔ G.At a b m ∨ (a = j ∧ b = i ∧ m = mi) ∨ (a = i ∧ b = j ∧ m = mj) := by
  obtain ⟨c, hc, hc'⟩ := proper_isConnected hT hij
  have : c = false := by
    cases c
    · rfl
    · exact absurd (hc'.mp rfl) hadj
  subst this
  refine ⟨(G.upd i mi (insert j)).upd j mj (insert i), ?_, rfl, rfl, fun a b m => ?_⟩
  · simp only [addEdge, hc, hi, hj]
    rfl
  · have h1 : ∀ a b m, (G.upd i mi (insert j)).At a b m ↔ G.At a b m ∨ (a = j ∧ b = i ∧ m = mi) := by
      intro a b m
      rw [upd_at]
      by_cases h : b = i ∧ m = mi
      · rw [if_pos h]; simp only [Finset.mem_insert, At]; tauto
      · rw [if_neg h]; tauto
    rw [upd_at]
    by_cases h : b = j ∧ m = mj
    · rw [if_pos h]
      have := h1 a b m
      simp only [At] at this
      simp only [Finset.mem_insert, this, At]
      tauto
    · rw [if_neg h, h1]; tauto

theorem addEdge_err {G : MG α} (hT : ∀ a b m, G.At a b m → m ∈ G.types) {i j : α} {mi mj : Mark}
    (h : i = j ∨ G.MAdj i j ∨ mi ∉ G.types ∨ mj ∉ G.types) : G.addEdge i j mi mj = .error .assertionError := by
  by_cases hij : i = j
  · simp [addEdge, isConnected, hij, bind, Except.bind]
  · obtain ⟨c, hc, hc'⟩ := proper_isConnected hT hij
    cases c with
    | true => simp [addEdge, hc, bind, Except.bind, throw, throwThe, MonadExceptOf.throw]
    | false =>
      have hna : ¬ G.MAdj i j := fun h => by have := hc'.mpr h; simp at this
      have : ¬ (mi ∈ G.types ∧ mj ∈ G.types) := by tauto
      simp only [addEdge, hc, this, bind, Except.bind, throw, throwThe, MonadExceptOf.throw]
      rfl

/-! ### reset_orientations -/

open Classical in
theorem resetOrientations_spec (o : SetOrder α) {G : MG α} (hT : ∀ a b m, G.At a b m → m ∈ G.types)
    {S : Finset α} {m : Mark} (hm : m ∈ G.types) :
    ∃ H, G.resetOrientations o m S = .ok H ∧ H.nodes = G.nodes ∧ H.types = G.types ∧
      ∀ a b m', H.At a b m' ↔ if a ∈ S ∧ b ∈ S ∧ a ≠ b ∧ G.MAdj a b then m' = m else G.At a b m' := by
  classical
  obtain ⟨H, h1, h2, h3, h4⟩ := foldlM_ok_inv
    (f := fun (G : MG α) (xy : α × α) => do
      if ← G.isConnected xy.1 xy.2 then
        let G ← G.replaceEdgeMark xy.1 xy.2 m
        G.replaceEdgeMark xy.2 xy.1 m
      else return G)
    (fun done (H : MG α) => H.nodes = G.nodes ∧ H.types = G.types ∧
      ∀ a b m', H.At a b m' ↔ if ((a, b) ∈ done ∨ (b, a) ∈ done) ∧ G.MAdj a b then m' = m else G.At a b m')
    (pairs (o.iter () S)) [] G ⟨rfl, rfl, by simp⟩ (by
      rintro done ⟨x, y⟩ H hxy ⟨hn, ht, hat⟩
      have hne : x ≠ y := mem_pairs_ne (o.nodup () S) hxy
      have hT' : ∀ a b m, H.At a b m → m ∈ H.types := by
        intro a b m' h
        rw [hat] at h
        rw [ht]
        split_ifs at h with hc
        · rw [h]; exact hm
        · exact hT _ _ _ h
      have hadj : H.MAdj x y ↔ G.MAdj x y := by
        have hH : H.MAdj x y ↔ (∃ m, H.At x y m) ∨ ∃ m, H.At y x m := Iff.rfl
        rw [hH]
        simp only [hat]
        by_cases hG : G.MAdj x y
        · have hG' := hG.symm
          simp only [hG, hG', and_true]
          by_cases hd : (x, y) ∈ done ∨ (y, x) ∈ done
          · simp [hd]
          · have hd' : ¬ ((y, x) ∈ done ∨ (x, y) ∈ done) := by tauto
            simp only [if_neg hd, if_neg hd']
            exact ⟨fun _ => trivial, fun _ => hG⟩
        · have hG' : ¬ G.MAdj y x := fun h => hG h.symm
          simp only [hG, hG', and_false, if_false]
          exact ⟨hG, False.elim⟩
      obtain ⟨c, hc, hc'⟩ := proper_isConnected hT' hne
      simp only [hc, bind, Except.bind]
      cases c with
      | false =>
        have hG : ¬ G.MAdj x y := fun h => by have := hc'.mpr (hadj.mpr h); simp at this
        refine ⟨H, rfl, hn, ht, fun a b m' => ?_⟩
        rw [hat]
        have : (((a, b) ∈ done ++ [(x, y)] ∨ (b, a) ∈ done ++ [(x, y)]) ∧ G.MAdj a b) ↔
            ((a, b) ∈ done ∨ (b, a) ∈ done) ∧ G.MAdj a b := by
          simp only [List.mem_append, List.mem_singleton, Prod.mk.injEq]
          constructor
          · rintro ⟨(h | ⟨rfl, rfl⟩) | (h | ⟨rfl, rfl⟩), ha⟩
            · exact ⟨Or.inl h, ha⟩
            · exact absurd ha hG
            · exact ⟨Or.inr h, ha⟩
            · exact absurd ha.symm hG
          · rintro ⟨h | h, ha⟩
            · exact ⟨Or.inl (Or.inl h), ha⟩
            · exact ⟨Or.inr (Or.inl h), ha⟩
        simp only [this]
      | true =>
        have hG : G.MAdj x y := hadj.mp (hc'.mp rfl)
        obtain ⟨H1, e1, n1, t1, a1⟩ := replaceEdgeMark_spec hT' (s := x) (t := y) (m := m) (by rw [ht]; exact hm)
        have hT1 : ∀ a b m, H1.At a b m → m ∈ H1.types := by
          intro a b m' h
          rw [a1] at h
          rw [t1]
          split_ifs at h with hc
          · rw [h, ht]; exact hm
          · exact hT' _ _ _ h
        obtain ⟨H2, e2, n2, t2, a2⟩ := replaceEdgeMark_spec hT1 (s := y) (t := x) (m := m)
          (by rw [t1, ht]; exact hm)
        refine ⟨H2, by simp only [if_true, e1]; exact e2, by rw [n2, n1, hn], by rw [t2, t1, ht], fun a b m' => ?_⟩
        rw [a2, a1, hat]
        by_cases h1 : a = y ∧ b = x
        · obtain ⟨rfl, rfl⟩ := h1
          simp [hG.symm]
        · rw [if_neg h1]
          by_cases h2 : a = x ∧ b = y
          · obtain ⟨rfl, rfl⟩ := h2
            simp [hG]
          · rw [if_neg h2]
            have : (((a, b) ∈ done ++ [(x, y)] ∨ (b, a) ∈ done ++ [(x, y)]) ∧ G.MAdj a b) ↔
                ((a, b) ∈ done ∨ (b, a) ∈ done) ∧ G.MAdj a b := by
              simp only [List.mem_append, List.mem_singleton, Prod.mk.injEq]
              tauto
            simp only [this])
  refine ⟨H, by simp only [resetOrientations, if_pos hm]; exact h1, h2, h3, fun a b m' => ?_⟩
  rw [h4]
  have : (((a, b) ∈ [] ++ pairs (o.iter () S) ∨ (b, a) ∈ [] ++ pairs (o.iter () S)) ∧ G.MAdj a b) ↔
      a ∈ S ∧ b ∈ S ∧ a ≠ b ∧ G.MAdj a b := by
    simp only [List.nil_append]
    constructor
    · rintro ⟨h | h, ha⟩
      · exact ⟨(o.mem _ _ _).mp (mem_pairs_left h), (o.mem _ _ _).mp (mem_pairs_right h),
          mem_pairs_ne (o.nodup _ _) h, ha⟩
      · exact ⟨(o.mem _ _ _).mp (mem_pairs_right h), (o.mem _ _ _).mp (mem_pairs_left h),
          (mem_pairs_ne (o.nodup _ _) h).symm, ha⟩
    · rintro ⟨h1, h2, h3, h4⟩
      exact ⟨mem_pairs_or ((o.mem _ _ _).mpr h1) ((o.mem _ _ _).mpr h2) h3, h4⟩
  simp only [this]

/-! ### Histories of edits -/

omit [DecidableEq α] in
theorem empty_proper (nodes : Finset α) (types : List Mark) : (MG.empty nodes types).Proper := by
  constructor <;> intros <;> simp_all [MG.empty, At]

theorem complete_at {nodes : Finset α} {types : List Mark} {mark m : Mark} {a b : α} :
    (MG.complete nodes types mark).At a b m ↔ a ∈ nodes ∧ b ∈ nodes ∧ a ≠ b ∧ m = mark := by
  simp only [complete, At]
  split_ifs with h
  · simp only [Finset.mem_erase]; tauto
  · simp only [Finset.notMem_empty, false_iff]; tauto

theorem complete_proper {nodes : Finset α} {types : List Mark} {mark : Mark} (h : mark ∈ types) :
    (MG.complete nodes types mark).Proper where
  type := by intro a b m hm; rw [complete_at] at hm; rw [hm.2.2.2]; exact h
  mem := by intro a b m hm; rw [complete_at] at hm; exact ⟨hm.1, hm.2.1⟩
  irrefl := by intro a m hm; rw [complete_at] at hm; exact hm.2.2.1 rfl
  one := by intro a b m m' h1 h2; rw [complete_at] at h1 h2; rw [h1.2.2.2, h2.2.2.2]
  both := by intro a b m hm; rw [complete_at] at hm; exact ⟨mark, complete_at.mpr ⟨hm.2.1, hm.1, hm.2.2.1.symm, rfl⟩⟩

theorem Proper.deleteEdge {G : MG α} (hG : G.Proper) (i j : α) : (G.deleteEdge i j).Proper := by
  obtain ⟨h1, h2, h3⟩ := deleteEdge_spec hG.type (i := i) (j := j)
  constructor
  · intro a b m h; rw [h3] at h; rw [h2]; exact hG.type _ _ _ h.1
  · intro a b m h; rw [h3] at h; rw [h1]; exact hG.mem _ _ _ h.1
  · intro a m h; rw [h3] at h; exact hG.irrefl _ _ h.1
  · intro a b m m' h h'; rw [h3] at h h'; exact hG.one _ _ _ _ h.1 h'.1
  · intro a b m h
    rw [h3] at h
    obtain ⟨m', h'⟩ := hG.both _ _ _ h.1
    exact ⟨m', (h3 _ _ _).mpr ⟨h', by tauto, by tauto⟩⟩

theorem Proper.replaceEdgeMark {G H : MG α} (hG : G.Proper) {s t : α} {m : Mark} (hst : G.MAdj s t)
    (h : G.replaceEdgeMark s t m = .ok H) : H.Proper := by
  have hm : m ∈ G.types := by
    by_contra hm
    rw [replaceEdgeMark_err hm] at h
    cases h
  obtain ⟨H', h0, h1, h2, h3⟩ := replaceEdgeMark_spec hG.type (s := s) (t := t) hm
  rw [h] at h0
  cases h0
  obtain ⟨ms, hms⟩ := hG.adj_iff.mp hst
  obtain ⟨hsn, htn⟩ := hG.mem _ _ _ hms
  have hne : s ≠ t := by rintro rfl; exact hG.irrefl _ _ hms
  constructor
  · intro a b m' h
    rw [h3] at h; rw [h2]
    split_ifs at h
    · rw [h]; exact hm
    · exact hG.type _ _ _ h
  · intro a b m' h
    rw [h3] at h; rw [h1]
    split_ifs at h with hc
    · rw [hc.1, hc.2]; exact ⟨hsn, htn⟩
    · exact hG.mem _ _ _ h
  · intro a m' h
    rw [h3] at h
    split_ifs at h with hc
    · exact hne (hc.1.symm.trans hc.2)
    · exact hG.irrefl _ _ h
  · intro a b m1 m2 h h'
    rw [h3] at h h'
    split_ifs at h h' with hc
    · rw [h, h']
    · exact hG.one _ _ _ _ h h'
  · intro a b m' h
    rw [h3] at h
    simp only [h3]
    by_cases hc : b = s ∧ a = t
    · exact ⟨m, by rw [if_pos hc]⟩
    · simp only [if_neg hc]
      split_ifs at h with hc'
      · rw [hc'.1, hc'.2]; exact hG.both _ _ _ hms
      · exact hG.both _ _ _ h

theorem Proper.addEdge {G H : MG α} (hG : G.Proper) {i j : α} {mi mj : Mark} (hi : i ∈ G.nodes) (hj : j ∈ G.nodes)
    (h : G.addEdge i j mi mj = .ok H) : H.Proper := by
  have hcond : ¬ (i = j ∨ G.MAdj i j ∨ mi ∉ G.types ∨ mj ∉ G.types) := by
    intro hc
    rw [addEdge_err hG.type hc] at h
    cases h
  push Not at hcond
  obtain ⟨hij, hadj, hmi, hmj⟩ := hcond
  obtain ⟨H', h0, h1, h2, h3⟩ := addEdge_spec hG.type hij hadj hmi hmj
  rw [h] at h0
  cases h0
  have hno : ∀ m, ¬ G.At i j m ∧ ¬ G.At j i m := fun m => ⟨fun h => hadj (Or.inl ⟨m, h⟩), fun h => hadj (Or.inr ⟨m, h⟩)⟩
  constructor
  · intro a b m h
    rw [h3] at h; rw [h2]
    rcases h with h | ⟨_, _, rfl⟩ | ⟨_, _, rfl⟩
    · exact hG.type _ _ _ h
    · exact hmi
    · exact hmj
  · intro a b m h
    rw [h3] at h; rw [h1]
    rcases h with h | ⟨rfl, rfl, _⟩ | ⟨rfl, rfl, _⟩
    · exact hG.mem _ _ _ h
    · exact ⟨hj, hi⟩
    · exact ⟨hi, hj⟩
  · intro a m h
    rw [h3] at h
    rcases h with h | ⟨rfl, rfl, _⟩ | ⟨rfl, rfl, _⟩
    · exact hG.irrefl _ _ h
    · exact hij rfl
    · exact hij rfl
  · intro a b m m' h h'
    rw [h3] at h h'
    rcases h with hx | ⟨rfl, rfl, rfl⟩ | ⟨rfl, rfl, rfl⟩ <;> rcases h' with h' | ⟨e1, e2, rfl⟩ | ⟨e1, e2, rfl⟩
    · exact hG.one _ _ _ _ hx h'
    · rw [e1, e2] at hx; exact absurd hx (hno _).2
    · rw [e1, e2] at hx; exact absurd hx (hno _).1
    · exact absurd h' (hno _).2
    · rfl
    · exact absurd e1.symm hij
    · exact absurd h' (hno _).1
    · exact absurd e1 hij
    · rfl
  · intro a b m h
    rw [h3] at h
    simp only [h3]
    rcases h with h | ⟨rfl, rfl, rfl⟩ | ⟨rfl, rfl, rfl⟩
    · obtain ⟨m', h'⟩ := hG.both _ _ _ h
      exact ⟨m', Or.inl h'⟩
    · exact ⟨mj, Or.inr (Or.inr ⟨rfl, rfl, rfl⟩)⟩
    · exact ⟨mi, Or.inr (Or.inl ⟨rfl, rfl, rfl⟩)⟩

theorem Proper.resetOrientations (o : SetOrder α) {G H : MG α} (hG : G.Proper) {S : Finset α} {m : Mark}
    (h : G.resetOrientations o m S = .ok H) : H.Proper := by
  classical
  have hm : m ∈ G.types := by
    by_contra hm
    simp [MG.resetOrientations, hm] at h
  obtain ⟨H', h0, h1, h2, h3⟩ := resetOrientations_spec o hG.type (S := S) hm
  rw [h] at h0
  cases h0
  have hmem : ∀ a b, G.MAdj a b → a ∈ G.nodes ∧ b ∈ G.nodes := by
    intro a b hab
    obtain ⟨m, hm⟩ := hG.adj_iff.mp hab
    exact hG.mem _ _ _ hm
  constructor
  · intro a b m' h
    rw [h3] at h; rw [h2]
    split_ifs at h
    · rw [h]; exact hm
    · exact hG.type _ _ _ h
  · intro a b m' h
    rw [h3] at h; rw [h1]
    split_ifs at h with hc
    · exact hmem _ _ hc.2.2.2
    · exact hG.mem _ _ _ h
  · intro a m' h
    rw [h3] at h
    split_ifs at h with hc
    · exact hc.2.2.1 rfl
    · exact hG.irrefl _ _ h
  · intro a b m1 m2 h h'
    rw [h3] at h h'
    split_ifs at h h' with hc
    · rw [h, h']
    · exact hG.one _ _ _ _ h h'
  · intro a b m' h
    rw [h3] at h
    simp only [h3]
    by_cases hc : b ∈ S ∧ a ∈ S ∧ b ≠ a ∧ G.MAdj b a
    · exact ⟨m, by rw [if_pos hc]⟩
    · simp only [if_neg hc]
      split_ifs at h with hc'
      · exact absurd ⟨hc'.2.1, hc'.1, hc'.2.2.1.symm, hc'.2.2.2.symm⟩ hc
      · exact hG.both _ _ _ h

end MG

/-! ### Counting edges -/

/-- The counting loop shared by all graph classes, for any `is_connected`. -/
def countPairs (conn : α → α → Py Bool) : List (α × α) → Nat × Nat → Py (Nat × Nat)
  | [], acc => .ok acc
  | (i, j) :: ps, acc => do
    if ← conn i j then countPairs conn ps (acc.1 + 1, acc.2)
    else countPairs conn ps (acc.1, acc.2 + 1)

omit [DecidableEq α] in
theorem countPairs_spec {conn : α → α → Py Bool} {P : α → α → Bool} :
    ∀ (ps : List (α × α)) (acc : Nat × Nat), (∀ p ∈ ps, conn p.1 p.2 = .ok (P p.1 p.2)) →
      countPairs conn ps acc = .ok (acc.1 + ps.countP (fun p => P p.1 p.2),
        acc.2 + ps.countP (fun p => !P p.1 p.2)) := by
  intro ps
  induction ps with
  | nil => intro acc _; rfl
  | cons p ps ih =>
    intro acc h
    obtain ⟨i, j⟩ := p
    have h0 := h (i, j) (by simp)
    simp only [countPairs] at h0 ⊢
    rw [h0]
    simp only [bind, Except.bind]
    have hps : ∀ p ∈ ps, conn p.1 p.2 = .ok (P p.1 p.2) := fun p hp => h p (List.mem_cons_of_mem _ hp)
    cases hP : P i j with
    | true => simp only [if_true]; rw [ih _ hps]; simp [hP]; omega
    | false =>
      simp only [Bool.false_eq_true, if_false]
      rw [ih _ hps]; simp [hP]; omega

theorem countP_pairs {P : α → α → Bool} (hsymm : ∀ a b, P a b = P b a) :
    ∀ l : List α, l.Nodup →
      2 * (pairs l).countP (fun p => P p.1 p.2) =
        ∑ a ∈ l.toFinset, ∑ b ∈ l.toFinset, if a ≠ b ∧ P a b = true then 1 else 0 := by
  intro l
  induction l with
  | nil => intro _; simp [pairs]
  | cons x xs ih =>
    intro hnd
    rw [List.nodup_cons] at hnd
    have hx : x ∉ xs.toFinset := by simpa using hnd.1
    rw [List.toFinset_cons, Finset.sum_insert hx]
    simp only [Finset.sum_insert hx]
    rw [Finset.sum_add_distrib, ← ih hnd.2]
    have h1 : ∑ b ∈ xs.toFinset, (if x ≠ b ∧ P x b = true then 1 else 0) = xs.countP (fun b => P x b) := by
      rw [Finset.sum_congr rfl (g := fun b => if P x b = true then 1 else 0) (by
        intro b hb
        have : x ≠ b := by rintro rfl; exact hx hb
        simp [this])]
      rw [Finset.sum_boole, ← List.toFinset_filter, List.toFinset_card_of_nodup (hnd.2.filter _),
        List.countP_eq_length_filter]
      rfl
    have h2 : ∑ b ∈ xs.toFinset, (if b ≠ x ∧ P b x = true then 1 else 0) = xs.countP (fun b => P x b) := by
      rw [← h1]
      refine Finset.sum_congr rfl (fun b _ => ?_)
      simp only [hsymm b x, ne_comm]
    rw [h1, h2]
    simp only [pairs, List.countP_append, List.countP_map, ne_eq, not_true_eq_false, false_and, if_false]
    have : ((fun p : α × α => P p.1 p.2) ∘ fun y => (x, y)) = fun b => P x b := rfl
    rw [this]
    omega

omit [DecidableEq α] in
theorem length_pairs (l : List α) : 2 * (pairs l).length = l.length * (l.length - 1) := by
  induction l with
  | nil => rfl
  | cons x xs ih =>
    simp only [pairs, List.length_append, List.length_map, List.length_cons, Nat.add_sub_cancel]
    rw [mul_add, ih]
    cases xs with
    | nil => rfl
    | cons y ys => simp only [List.length_cons, Nat.add_sub_cancel]; rw [mul_comm 2, ← mul_add, mul_comm]; congr 1; omega

omit [DecidableEq α] in
theorem ncard_pairs {S : Finset α} (Q : α → α → Prop) [DecidableRel Q] :
    {p : α × α | p.1 ∈ S ∧ p.2 ∈ S ∧ Q p.1 p.2}.ncard = ∑ a ∈ S, ∑ b ∈ S, if Q a b then 1 else 0 := by
  have : {p : α × α | p.1 ∈ S ∧ p.2 ∈ S ∧ Q p.1 p.2} = ((S ×ˢ S).filter (fun p => Q p.1 p.2) : Finset (α × α)) := by
    ext ⟨a, b⟩; simp [and_assoc]
  rw [this, Set.ncard_coe_finset, Finset.card_filter, Finset.sum_product]

/-- `number_of_edges` for any class with a symmetric adjacency. -/
theorem countPairs_edges (o : SetOrder α) {conn : α → α → Py Bool} {Q : α → α → Prop} {S : Finset α}
    (hok : ∀ i ∈ S, ∀ j ∈ S, i ≠ j → ∃ b, conn i j = .ok b ∧ (b = true ↔ Q i j)) (hQ : ∀ a b, Q a b → Q b a) :
    ∃ e m, countPairs conn (pairs (o.iter () S)) (0, 0) = .ok (e, m) ∧
      2 * e = {p : α × α | p.1 ∈ S ∧ p.2 ∈ S ∧ p.1 ≠ p.2 ∧ Q p.1 p.2}.ncard ∧
      2 * (e + m) = S.card * (S.card - 1) := by
  classical
  have hS : (o.iter () S).toFinset = S := by ext x; simp [o.mem]
  refine ⟨_, _, countPairs_spec (P := fun a b => decide (Q a b)) _ _ ?_, ?_, ?_⟩
  · rintro ⟨i, j⟩ hp
    obtain ⟨b, h1, h2⟩ := hok i ((o.mem _ _ _).mp (mem_pairs_left hp)) j ((o.mem _ _ _).mp (mem_pairs_right hp))
      (mem_pairs_ne (o.nodup _ _) hp)
    rw [h1]
    congr 1
    simp only
    by_cases hq : Q i j
    · simp [hq, h2]
    · simp only [hq, decide_false]
      cases b
      · rfl
      · exact absurd (h2.mp rfl) hq
  · rw [zero_add, countP_pairs (P := fun a b => decide (Q a b)) ?_ _ (o.nodup _ _), hS]
    · rw [ncard_pairs (S := S) (fun a b => a ≠ b ∧ Q a b)]
      simp
    · intro a b
      have : Q a b ↔ Q b a := ⟨hQ a b, hQ b a⟩
      simp [this]
  · have hlen : (o.iter () S).length = S.card := by
      rw [← List.toFinset_card_of_nodup (o.nodup () S), hS]
    rw [← hlen, ← length_pairs, List.length_eq_countP_add_countP (fun p => decide (Q p.1 p.2))]
    simp

theorem MG.countLoop_eq (G : MG α) : ∀ ps acc, G.countLoop ps acc = countPairs G.isConnected ps acc
  | [], _ => rfl
  | (i, j) :: ps, acc => by
    simp only [MG.countLoop, countPairs, MG.countLoop_eq G ps]

theorem UGraph.countLoop_eq (G : UGraph α) : ∀ ps acc, G.countLoop ps acc = countPairs G.isConnected ps acc
  | [], _ => rfl
  | (i, j) :: ps, acc => by
    simp only [UGraph.countLoop, countPairs, UGraph.countLoop_eq G ps]

theorem Dag.countLoop_eq (G : Dag α) : ∀ ps acc, G.countLoop ps acc = countPairs G.isConnected ps acc
  | [], _ => rfl
  | (i, j) :: ps, acc => by
    simp only [Dag.countLoop, countPairs, Dag.countLoop_eq G ps]

/-- `PDAG.get_num_edges`. -/
theorem MG.getNumEdges_spec {G : MG α} (hG : G.PdagWF) (hnb : ∀ a b, G.Arrow a b → ¬ G.Arrow b a) :
    2 * G.getNumEdges = {p : α × α | p.1 ∈ G.nodes ∧ p.2 ∈ G.nodes ∧ p.1 ≠ p.2 ∧ G.PAdj p.1 p.2}.ncard := by
  classical
  rw [ncard_pairs (S := G.nodes) (fun a b => a ≠ b ∧ G.PAdj a b)]
  have hpar : ∀ v, G.parents v = G.nodes.filter (fun u => G.Arrow u v) := by
    intro v; ext u
    rw [Finset.mem_filter]
    exact ⟨fun h => ⟨(hG.mem _ _ _ h).1, h⟩, And.right⟩
  have hund : ∀ v, G.und v = G.nodes.filter (fun u => G.Und u v) := by
    intro v; ext u
    rw [Finset.mem_filter]
    exact ⟨fun h => ⟨(hG.mem _ _ _ h).1, h⟩, And.right⟩
  have hsplit : ∀ a b, (if a ≠ b ∧ G.PAdj a b then 1 else 0) =
      (if G.Arrow a b then 1 else 0) + (if G.Arrow b a then 1 else 0) + (if G.Und a b then 1 else 0) := by
    intro a b
    have irr : ∀ m, a ∈ G.g b m → a ≠ b := by rintro m h rfl; exact hG.irrefl _ _ h
    have irr' : ∀ m, b ∈ G.g a m → a ≠ b := by rintro m h rfl; exact hG.irrefl _ _ h
    have h1 : G.Arrow a b → a ≠ b := irr _
    have h2 : G.Arrow b a → a ≠ b := irr' _
    have h3 : G.Und a b → a ≠ b := irr _
    have h4 : G.Und a b ↔ G.Und b a := ⟨hG.symm a b, hG.symm b a⟩
    have h5 : G.Arrow a b → ¬ G.Und a b := hG.excl a b
    have h6 : G.Arrow b a → ¬ G.Und b a := hG.excl b a
    have h7 := hnb a b
    simp only [PAdj]
    by_cases c1 : G.Arrow a b
    · have c2 := h7 c1
      have c3 := h5 c1
      have := h1 c1
      simp [c1, c2, c3, this]
    · by_cases c2 : G.Arrow b a
      · have c3 : ¬ G.Und a b := fun h => h6 c2 (h4.mp h)
        have := h2 c2; simp [c1, c2, c3, this]
      · by_cases c3 : G.Und a b
        · have := h3 c3; simp [c1, c2, c3, this]
        · have : ¬ G.Und b a := fun h => c3 (h4.mpr h)
          simp [c1, c2, c3, this]
  simp only [hsplit, Finset.sum_add_distrib]
  have e1 : ∑ v ∈ G.nodes, (G.parents v).card = ∑ a ∈ G.nodes, ∑ b ∈ G.nodes, if G.Arrow a b then 1 else 0 := by
    rw [Finset.sum_comm]
    refine Finset.sum_congr rfl (fun v _ => ?_)
    rw [hpar, Finset.card_filter]
  have e2 : ∑ v ∈ G.nodes, (G.parents v).card = ∑ a ∈ G.nodes, ∑ b ∈ G.nodes, if G.Arrow b a then 1 else 0 := by
    refine Finset.sum_congr rfl (fun v _ => ?_)
    rw [hpar, Finset.card_filter]
  have e3 : ∑ v ∈ G.nodes, (G.und v).card = ∑ a ∈ G.nodes, ∑ b ∈ G.nodes, if G.Und a b then 1 else 0 := by
    rw [Finset.sum_comm]
    refine Finset.sum_congr rfl (fun v _ => ?_)
    rw [hund, Finset.card_filter]
  -- the number of ordered undirected pairs is even
  have he := countP_pairs (P := fun a b => decide (G.Und a b))
    (fun a b => by simp [show G.Und a b ↔ G.Und b a from ⟨hG.symm a b, hG.symm b a⟩]) G.nodes.toList
    (Finset.nodup_toList _)
  have hu : ∀ a b, (if a ≠ b ∧ decide (G.Und a b) = true then 1 else 0) = if G.Und a b then 1 else 0 := by
    intro a b
    have : G.Und a b → a ≠ b := by rintro h rfl; exact hG.irrefl _ _ h
    by_cases c : G.Und a b
    · simp [c, this c]
    · simp [c]
  simp only [Finset.toList_toFinset, hu] at he
  rw [getNumEdges, ← e1, ← e2, e3, ← he]
  omega

/-! ### Skeletons -/

/-- `A` is the 0/1 matrix of the relation `P`. -/
def IsMat (A : Nat → Nat → Nat) (P : Nat → Nat → Prop) : Prop :=
  ∀ r c, (P r c → A r c = 1) ∧ (¬ P r c → A r c = 0)

theorem foldlM_mat {β : Type} {f : (Nat → Nat → Nat) → β → Py (Nat → Nat → Nat)} {E : β → Nat → Nat → Prop} :
    ∀ (l : List β) (A : Nat → Nat → Nat) (P : Nat → Nat → Prop), IsMat A P →
      (∀ x ∈ l, ∀ A P, IsMat A P → ∃ A', f A x = .ok A' ∧ IsMat A' (fun r c => P r c ∨ E x r c)) →
      ∃ A', l.foldlM f A = .ok A' ∧ IsMat A' (fun r c => P r c ∨ ∃ x ∈ l, E x r c) := by
  intro l
  induction l with
  | nil => intro A P hA _; exact ⟨A, rfl, by simpa using hA⟩
  | cons x l ih =>
    intro A P hA h
    obtain ⟨A1, h1, h2⟩ := h x (by simp) A P hA
    obtain ⟨A2, h3, h4⟩ := ih A1 _ h2 (fun y hy => h y (List.mem_cons_of_mem _ hy))
    refine ⟨A2, by simp only [List.foldlM_cons, h1]; exact h3, ?_⟩
    intro r c
    have := h4 r c
    simp only [List.mem_cons, exists_eq_or_imp, ← or_assoc]
    exact this

/-- `get_skeleton_mat` on any graph: entry (r, c) is 1 iff node `l[c]` stores a mark for `l[r]`. -/
theorem MG.getSkeletonMat_spec (o : SetOrder α) {G : MG α} {l : List α} (hnd : l.Nodup)
    (hl : ∀ x, x ∈ l ↔ x ∈ G.nodes) (hmem : ∀ a b m, G.At a b m → a ∈ G.nodes ∧ b ∈ G.nodes) :
    ∃ A, G.getSkeletonMat o l = .ok A ∧
      IsMat A (fun r c => ∃ a b, l[r]? = some a ∧ l[c]? = some b ∧ ∃ m ∈ G.types, G.At a b m) := by
  have hinner : ∀ v ∈ G.nodes, ∀ m ∈ G.types, ∀ A P, IsMat A P →
      ∃ A', (o.iter (v, m) (G.g v m)).foldlM (fun (A : Nat → Nat → Nat) p => do
        let r ← Dag.indexOf l p
        let c ← Dag.indexOf l v
        return fun r' c' => if r' = r ∧ c' = c then 1 else A r' c') A = .ok A' ∧
        IsMat A' (fun r c => P r c ∨ ∃ p ∈ o.iter (v, m) (G.g v m), l[r]? = some p ∧ l[c]? = some v) := by
    intro v hv m _ A P hA
    refine foldlM_mat _ A P hA ?_
    intro p hp A P hA
    have hp' : G.At p v m := (o.mem _ _ _).mp hp
    obtain ⟨r, hr1, hr2⟩ := Dag.indexOf_ok hnd ((hl p).mpr (hmem _ _ _ hp').1)
    obtain ⟨c, hc1, hc2⟩ := Dag.indexOf_ok hnd ((hl v).mpr hv)
    refine ⟨_, by simp only [hr1, hc1, bind, Except.bind]; rfl, ?_⟩
    intro r' c'
    simp only [hr2, hc2]
    by_cases h : r' = r ∧ c' = c
    · simp [h]
    · simp only [h, or_false, if_false]; exact hA r' c'
  have hmid : ∀ v ∈ o.iter 0 G.nodes, ∀ A P, IsMat A P →
      ∃ A', G.types.foldlM (fun A m =>
        (o.iter (v, m) (G.g v m)).foldlM (fun (A : Nat → Nat → Nat) p => do
        let r ← Dag.indexOf l p
        let c ← Dag.indexOf l v
        return fun r' c' => if r' = r ∧ c' = c then 1 else A r' c') A) A = .ok A' ∧
        IsMat A' (fun r c => P r c ∨ ∃ m ∈ G.types, ∃ p ∈ o.iter (v, m) (G.g v m), l[r]? = some p ∧ l[c]? = some v) := by
    intro v hv A P hA
    exact foldlM_mat _ A P hA (fun m hm A P hA => hinner v ((o.mem _ _ _).mp hv) m hm A P hA)
  obtain ⟨A, h1, h2⟩ := foldlM_mat (o.iter 0 G.nodes) (fun _ _ => 0) (fun _ _ => False) (by intro r c; simp) hmid
  refine ⟨A, h1, fun r c => ?_⟩
  have := h2 r c
  simp only [false_or] at this
  have heq : (∃ x ∈ o.iter 0 G.nodes, ∃ m ∈ G.types, ∃ p ∈ o.iter (x, m) (G.g x m), l[r]? = some p ∧ l[c]? = some x) ↔
      ∃ a b, l[r]? = some a ∧ l[c]? = some b ∧ ∃ m ∈ G.types, G.At a b m := by
    simp only [o.mem]
    constructor
    · rintro ⟨x, _, m, hm, p, hp, e1, e2⟩
      exact ⟨p, x, e1, e2, m, hm, hp⟩
    · rintro ⟨a, b, e1, e2, m, hm, hab⟩
      exact ⟨b, (hmem _ _ _ hab).2, m, hm, a, hab, e1, e2⟩
  simp only [← heq]
  exact this

/-- `get_skeleton_graph`. -/
theorem MG.getSkeletonGraph_spec (o : SetOrder α) {G : MG α} (hT : ∀ a b m, G.At a b m → m ∈ G.types)
    (en : Finset α) :
    ∃ U, G.getSkeletonGraph o en = .ok U ∧ U.nodes = en ∧
      ∀ a b, b ∈ U.adj a ↔ a ∈ en ∧ b ∈ en ∧ a ≠ b ∧ G.MAdj a b := by
  obtain ⟨U, h1, h2, h3⟩ := Dag.foldlM_ugraph
    (f := fun (U : UGraph α) (ij : α × α) => do
      if ← G.isConnected ij.1 ij.2 then U.addEdge ij.1 ij.2 else return U)
    (E := fun ij a b => G.MAdj ij.1 ij.2 ∧ ((a = ij.1 ∧ b = ij.2) ∨ (a = ij.2 ∧ b = ij.1)))
    (N := en) (pairs (o.iter () en)) (UGraph.empty en) rfl (by
      rintro ⟨i, j⟩ hij M hM
      have hi := (o.mem _ _ _).mp (mem_pairs_left hij)
      have hj := (o.mem _ _ _).mp (mem_pairs_right hij)
      obtain ⟨c, hc, hc'⟩ := proper_isConnected hT (mem_pairs_ne (o.nodup _ _) hij)
      simp only [hc, bind, Except.bind]
      cases c with
      | false =>
        have : ¬ G.MAdj i j := fun h => by have := hc'.mpr h; simp at this
        exact ⟨M, rfl, hM, by simp [this]⟩
      | true =>
        obtain ⟨M', m1, m2, m3⟩ := Dag.addEdge_spec (M := M) (i := i) (j := j) (by rw [hM]; exact hi)
          (by rw [hM]; exact hj)
        refine ⟨M', m1, m2.trans hM, ?_⟩
        intro a b
        rw [m3]
        simp [hc'.mp rfl])
  refine ⟨U, h1, h2, fun a b => ?_⟩
  rw [h3]
  simp only [UGraph.empty, Finset.notMem_empty, false_or]
  constructor
  · rintro ⟨⟨i, j⟩, hij, hadj, ⟨rfl, rfl⟩ | ⟨rfl, rfl⟩⟩
    · exact ⟨(o.mem _ _ _).mp (mem_pairs_left hij), (o.mem _ _ _).mp (mem_pairs_right hij),
        mem_pairs_ne (o.nodup _ _) hij, hadj⟩
    · exact ⟨(o.mem _ _ _).mp (mem_pairs_right hij), (o.mem _ _ _).mp (mem_pairs_left hij),
        (mem_pairs_ne (o.nodup _ _) hij).symm, hadj.symm⟩
  · rintro ⟨ha, hb, hne, hadj⟩
    rcases mem_pairs_or ((o.mem () _ _).mpr ha) ((o.mem () _ _).mpr hb) hne with h | h
    · exact ⟨_, h, hadj, Or.inl ⟨rfl, rfl⟩⟩
    · exact ⟨_, h, hadj.symm, Or.inr ⟨rfl, rfl⟩⟩

end Verif
