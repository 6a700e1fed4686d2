import Verif.Spec.PdsTree
import Verif.Lemmas.Py
import Verif.Lemmas.PySet
import Mathlib.Order.Bounds.Basic
import Mathlib.Data.List.Nodup
import Mathlib.Algebra.BigOperators.Group.Finset.Basic

/-!
# Lemmas for `PDSTree`
-/

namespace Verif
namespace PdsTree
variable {α : Type}

theorem ind {P : PdsTree α → Prop} (h : ∀ a d cs, (∀ c ∈ cs, P c) → P (node a d cs)) : ∀ t, P t
  | node a d cs => h a d cs (fun c _ => ind h c)

theorem isBranch_cons {t : PdsTree α} {v : α} {l : List α} :
    IsBranch t (v :: l) ↔ ∃ c ∈ t.children, c.origin = v ∧ IsBranch c l := by
  constructor
  · intro h
    cases h with
    | cons h1 h2 => exact ⟨_, h1, rfl, h2⟩
  · rintro ⟨c, h1, rfl, h2⟩
    exact .cons h1 h2

theorem IsBranch.prefix {l l' : List α} : ∀ {t : PdsTree α}, IsBranch t (l ++ l') → IsBranch t l := by
  induction l with
  | nil => intro t _; exact .nil t
  | cons x l ih =>
    intro t h
    rw [List.cons_append, isBranch_cons] at h
    obtain ⟨c, h1, h2, h3⟩ := h
    exact isBranch_cons.mpr ⟨c, h1, h2, ih h3⟩

variable [DecidableEq α]

/-! ### get_max_depth -/

omit [DecidableEq α] in
theorem maxDepthLoop_spec : ∀ (cs : List (PdsTree α)) (m : Nat),
    m ≤ maxDepthLoop cs m ∧ (∀ c ∈ cs, c.maxDepth ≤ maxDepthLoop cs m) ∧
      (maxDepthLoop cs m = m ∨ ∃ c ∈ cs, maxDepthLoop cs m = c.maxDepth) := by
  intro cs
  induction cs with
  | nil => intro m; simp [maxDepthLoop]
  | cons c cs ih =>
    intro m
    rw [maxDepthLoop]
    by_cases h : c.maxDepth > m
    · rw [if_pos h]
      obtain ⟨h1, h2, h3⟩ := ih c.maxDepth
      refine ⟨by omega, ?_, Or.inr ?_⟩
      · intro x hx
        rcases List.mem_cons.mp hx with rfl | hx
        · exact h1
        · exact h2 x hx
      · rcases h3 with h3 | ⟨x, hx, h3⟩
        · exact ⟨c, by simp, h3⟩
        · exact ⟨x, by simp [hx], h3⟩
    · rw [if_neg h]
      obtain ⟨h1, h2, h3⟩ := ih m
      refine ⟨h1, ?_, ?_⟩
      · intro x hx
        rcases List.mem_cons.mp hx with rfl | hx
        · omega
        · exact h2 x hx
      · rcases h3 with h3 | ⟨x, hx, h3⟩
        · exact Or.inl h3
        · exact Or.inr ⟨x, by simp [hx], h3⟩

omit [DecidableEq α] in
theorem maxDepth_spec (t : PdsTree α) :
    (∀ l, IsBranch t l → l.length + 1 ≤ t.maxDepth) ∧ ∃ l, IsBranch t l ∧ t.maxDepth = l.length + 1 := by
  induction t using ind with
  | h a d cs ih =>
    rw [maxDepth]
    by_cases h0 : cs.length = 0
    · have : cs = [] := List.length_eq_zero_iff.mp h0
      subst this
      simp only [List.length_nil, if_true]
      refine ⟨?_, [], .nil _, rfl⟩
      intro l hl
      cases l with
      | nil => simp
      | cons v l =>
        rw [isBranch_cons] at hl
        obtain ⟨c, hc, -⟩ := hl
        simp [children] at hc
    · rw [if_neg h0]
      obtain ⟨h1, h2, h3⟩ := maxDepthLoop_spec cs 1
      constructor
      · intro l hl
        cases l with
        | nil => simp
        | cons v l =>
          rw [isBranch_cons] at hl
          obtain ⟨c, hc, -, hl⟩ := hl
          have := (ih c hc).1 l hl
          have := h2 c hc
          simp only [List.length_cons]
          omega
      · rcases h3 with h3 | ⟨c, hc, h3⟩
        · obtain ⟨c, hc⟩ := List.exists_mem_of_length_pos (Nat.pos_of_ne_zero h0)
          refine ⟨[c.origin], isBranch_cons.mpr ⟨c, hc, rfl, .nil _⟩, by rw [h3]; rfl⟩
        · obtain ⟨l, hl, hl'⟩ := (ih c hc).2
          exact ⟨c.origin :: l, isBranch_cons.mpr ⟨c, hc, rfl, hl⟩, by rw [h3, hl']; rfl⟩

/-! ### get_minimal_distance -/

/-- The depths below the root of `t` at which `v` is found. -/
def dists (t : PdsTree α) (v : α) : Set Nat := {n | ∃ l, IsBranch t (l ++ [v]) ∧ n = t.depth + l.length + 1}

/-- `m` is the least element of `X`, or `⊤` if there is none. -/
def Sol (X : Set Nat) (m : WithTop Nat) : Prop := (∀ n ∈ X, m ≤ WithTop.some n) ∧ (m = ⊤ ∨ ∃ n ∈ X, m = WithTop.some n)

omit [DecidableEq α] in
theorem dists_node {a v : α} {d : Nat} {cs : List (PdsTree α)} (hd : ∀ c ∈ cs, c.depth = d + 1) :
    dists (node a d cs) v = {n | ∃ c ∈ cs, (c.origin = v ∧ n = d + 1) ∨ n ∈ dists c v} := by
  ext n
  constructor
  · rintro ⟨l, hl, hn⟩
    cases l with
    | nil =>
      rw [List.nil_append, isBranch_cons] at hl
      obtain ⟨c, hc, h1, -⟩ := hl
      exact ⟨c, hc, Or.inl ⟨h1, by simpa [depth] using hn⟩⟩
    | cons x l =>
      rw [List.cons_append, isBranch_cons] at hl
      obtain ⟨c, hc, -, h1⟩ := hl
      refine ⟨c, hc, Or.inr ⟨l, h1, ?_⟩⟩
      rw [hd c hc, hn]
      simp only [depth, List.length_cons]
      omega
  · rintro ⟨c, hc, ⟨h1, rfl⟩ | ⟨l, hl, hn⟩⟩
    · exact ⟨[], isBranch_cons.mpr ⟨c, hc, h1, .nil _⟩, by simp [depth]⟩
    · refine ⟨c.origin :: l, isBranch_cons.mpr ⟨c, hc, rfl, hl⟩, ?_⟩
      rw [hn, hd c hc]
      simp only [depth, List.length_cons]
      omega

theorem Sol.min {X Y : Set Nat} {a b : WithTop Nat} (h : Sol X a) (h' : Sol Y b) : Sol (X ∪ Y) (min a b) := by
  refine ⟨?_, ?_⟩
  · rintro n (hn | hn)
    · exact le_trans (min_le_left _ _) (h.1 n hn)
    · exact le_trans (min_le_right _ _) (h'.1 n hn)
  · rcases min_choice a b with e | e
    · rw [e]
      exact h.2.imp id (fun ⟨n, hn, h⟩ => ⟨n, Or.inl hn, h⟩)
    · rw [e]
      exact h'.2.imp id (fun ⟨n, hn, h⟩ => ⟨n, Or.inr hn, h⟩)

theorem minDistLoop_spec {v : α} {d : Nat} : ∀ (cs : List (PdsTree α)) (X : Set Nat) (m : WithTop Nat), Sol X m →
    (∀ n ∈ X, d + 2 ≤ n) → (∀ c ∈ cs, c.depth = d + 1) → (∀ c ∈ cs, Sol (dists c v) (minDist v c)) →
    Sol (X ∪ {n | ∃ c ∈ cs, (c.origin = v ∧ n = d + 1) ∨ n ∈ dists c v}) (minDistLoop v cs m) := by
  intro cs
  induction cs with
  | nil =>
    intro X m h _ _ _
    rw [minDistLoop]
    simpa using h
  | cons c cs ih =>
    intro X m h hX hd hc
    have hge : ∀ c' ∈ c :: cs, ∀ n ∈ dists c' v, d + 2 ≤ n := by
      rintro c' hc' n ⟨l, -, rfl⟩
      rw [hd c' hc']
      omega
    rw [minDistLoop]
    by_cases hv : c.origin = v
    · rw [if_pos hv, hd c (by simp)]
      refine ⟨?_, Or.inr ⟨d + 1, Or.inr ⟨c, by simp, Or.inl ⟨hv, rfl⟩⟩, rfl⟩⟩
      rintro n (hn | ⟨c', hc', ⟨-, rfl⟩ | hn⟩)
      · have := hX n hn
        have h3 : d + 1 ≤ n := by omega
        exact WithTop.coe_le_coe.mpr h3
      · exact le_rfl
      · have := hge c' hc' n hn
        have h3 : d + 1 ≤ n := by omega
        exact WithTop.coe_le_coe.mpr h3
    · rw [if_neg hv]
      have := ih (X ∪ dists c v) (min m (minDist v c)) (h.min (hc c (by simp))) (by
        rintro n (hn | hn)
        · exact hX n hn
        · exact hge c (by simp) n hn) (fun c' hc' => hd c' (by simp [hc'])) (fun c' hc' => hc c' (by simp [hc']))
      convert this using 1
      ext n
      simp only [Set.mem_union, Set.mem_ofPred_eq, List.mem_cons, exists_eq_or_imp, hv, false_and, false_or, or_assoc]

theorem minDist_sol {v : α} {t : PdsTree α} (ht : t.Wf) : Sol (dists t v) (minDist v t) := by
  induction t using ind with
  | h a d cs ih =>
    cases ht with
    | mk _ _ _ h1 h2 h3 =>
      rw [minDist, dists_node h1]
      have := minDistLoop_spec (v := v) (d := d) cs ∅ ⊤ ⟨by simp, Or.inl rfl⟩ (by simp) h1
        (fun c hc => ih c hc (h3 c hc))
      simpa using this

/-! ### is_pds_path -/

theorem isPdsPathLoop_spec : ∀ (cs : List (PdsTree α)) (S : Finset α),
    isPdsPathLoop cs S = true ↔ ∃ c ∈ cs, c.origin ∈ S ∧ isPdsPath c (S \ {c.origin}) = true := by
  intro cs
  induction cs with
  | nil => intro S; simp [isPdsPathLoop]
  | cons c cs ih =>
    intro S
    rw [isPdsPathLoop]
    by_cases h : c.origin ∈ S ∧ isPdsPath c (S \ {c.origin}) = true
    · rw [if_pos h]; simp [h]
    · rw [if_neg h, ih]
      simp only [List.mem_cons, exists_eq_or_imp, h, false_or]

theorem isPdsPath_spec {t : PdsTree α} : ∀ {S : Finset α},
    isPdsPath t S = true ↔ ∃ l, IsBranch t l ∧ l.Nodup ∧ l.toFinset = S := by
  induction t using ind with
  | h a d cs ih =>
    intro S
    rw [isPdsPath]
    by_cases h0 : S.card = 0
    · rw [if_pos h0]
      simp only [true_iff]
      exact ⟨[], .nil _, List.nodup_nil, by rw [Finset.card_eq_zero.mp h0]; rfl⟩
    · rw [if_neg h0, isPdsPathLoop_spec]
      constructor
      · rintro ⟨c, hc, h1, h2⟩
        obtain ⟨l, l1, l2, l3⟩ := (ih c hc).mp h2
        refine ⟨c.origin :: l, isBranch_cons.mpr ⟨c, hc, rfl, l1⟩, List.nodup_cons.mpr ⟨?_, l2⟩, ?_⟩
        · intro h
          rw [← List.mem_toFinset, l3] at h
          simp at h
        · rw [List.toFinset_cons, l3]
          ext x
          simp only [Finset.mem_insert, Finset.mem_sdiff, Finset.mem_singleton]
          by_cases hx : x = c.origin
          · simp [hx, h1]
          · simp [hx]
      · rintro ⟨l, l1, l2, l3⟩
        cases l with
        | nil => rw [← l3] at h0; simp at h0
        | cons x l =>
          obtain ⟨c, hc, rfl, hb⟩ := isBranch_cons.mp l1
          refine ⟨c, hc, by rw [← l3]; simp, (ih c hc).mpr ⟨l, hb, (List.nodup_cons.mp l2).2, ?_⟩⟩
          ext y
          rw [← l3, List.mem_toFinset]
          simp only [Finset.mem_sdiff, List.mem_toFinset, List.mem_cons, Finset.mem_singleton]
          have := (List.nodup_cons.mp l2).1
          constructor
          · intro hy
            exact ⟨Or.inr hy, fun e => this (e ▸ hy)⟩
          · rintro ⟨hy | hy, hne⟩
            · exact absurd hy hne
            · exact hy

/-! ### is_reachable -/

theorem isReachableLoop_spec {v : α} {S : List α} : ∀ (cs : List (PdsTree α)),
    isReachableLoop v S cs = true ↔ ∃ c ∈ cs, c.origin = v ∨ (c.origin ∈ S ∧ isReachable v S c = true) := by
  intro cs
  induction cs with
  | nil => simp [isReachableLoop]
  | cons c cs ih =>
    rw [isReachableLoop]
    by_cases hv : c.origin = v
    · rw [if_pos hv]; simp [hv]
    · rw [if_neg hv]
      by_cases h : c.origin ∈ S ∧ isReachable v S c = true
      · rw [if_pos h]; simp [h]
      · rw [if_neg h, ih]
        simp only [List.mem_cons, exists_eq_or_imp, h, hv, false_or]

theorem isReachable_spec {v : α} {S : List α} {t : PdsTree α} :
    isReachable v S t = true ↔ S ≠ [] ∧ ∃ l, IsBranch t (l ++ [v]) ∧ ∀ x ∈ l, x ∈ S := by
  induction t using ind with
  | h a d cs ih =>
    rw [isReachable]
    by_cases h0 : S.length = 0
    · rw [if_pos h0]
      simp [List.length_eq_zero_iff.mp h0]
    · rw [if_neg h0, isReachableLoop_spec]
      have h0' : S ≠ [] := fun h => h0 (by simp [h])
      simp only [ne_eq, h0', not_false_eq_true, true_and]
      constructor
      · rintro ⟨c, hc, h | ⟨h1, h2⟩⟩
        · exact ⟨[], isBranch_cons.mpr ⟨c, hc, h, .nil _⟩, by simp⟩
        · obtain ⟨-, l, l1, l2⟩ := (ih c hc).mp h2
          refine ⟨c.origin :: l, isBranch_cons.mpr ⟨c, hc, rfl, l1⟩, ?_⟩
          intro x hx
          rcases List.mem_cons.mp hx with rfl | hx
          · exact h1
          · exact l2 x hx
      · rintro ⟨l, l1, l2⟩
        cases l with
        | nil =>
          obtain ⟨c, hc, h, -⟩ := isBranch_cons.mp l1
          exact ⟨c, hc, Or.inl h⟩
        | cons x l =>
          obtain ⟨c, hc, rfl, h⟩ := isBranch_cons.mp l1
          exact ⟨c, hc, Or.inr ⟨l2 _ (by simp), (ih c hc).mpr ⟨h0', l, h, fun y hy => l2 y (by simp [hy])⟩⟩⟩

theorem isLegal_spec {S : List α} {t : PdsTree α} :
    t.isLegal S = true ↔ ∀ v ∈ S, ∃ l, IsBranch t (l ++ [v]) ∧ ∀ x ∈ l, x ∈ S := by
  rw [isLegal, List.all_eq_true]
  constructor
  · intro h v hv
    exact (isReachable_spec.mp (h v hv)).2
  · intro h v hv
    exact isReachable_spec.mpr ⟨List.ne_nil_of_mem hv, h v hv⟩

/-! ### get_subsets_list -/

theorem combs_nodup {β : Type} : ∀ {k : Nat} {xs : List β}, xs.Nodup → (combs k xs).Nodup := by
  intro k xs
  induction xs generalizing k with
  | nil => cases k <;> simp [combs]
  | cons x xs ih =>
    intro h
    obtain ⟨h1, h2⟩ := List.nodup_cons.mp h
    cases k with
    | zero => simp [combs]
    | succ k =>
      rw [combs, List.nodup_append]
      refine ⟨(ih h2).map (fun a b hab => (List.cons.inj hab).2), ih h2, ?_⟩
      intro a ha b hb hab
      subst hab
      obtain ⟨l, -, rfl⟩ := List.mem_map.mp ha
      exact h1 ((mem_combs.mp hb).1.subset (by simp))

/-- Sublists of a list without duplicates are determined by their elements. -/
theorem sublist_toFinset_inj {xs l l' : List α} (hx : xs.Nodup) (h : l.Sublist xs) (h' : l'.Sublist xs)
    (e : l.toFinset = l'.toFinset) : l = l' := by
  have hm : ∀ x, x ∈ l ↔ x ∈ l' := fun x => by rw [← List.mem_toFinset, e, List.mem_toFinset]
  have key : ∀ {m : List α}, m.Sublist xs → m = xs.filter (fun x => decide (x ∈ m)) := by
    intro m hm
    have h1 : m.filter (fun x => decide (x ∈ m)) = m := List.filter_eq_self.mpr (by simp)
    have h2 : (m.filter (fun x => decide (x ∈ m))).Sublist (xs.filter (fun x => decide (x ∈ m))) := hm.filter _
    rw [h1] at h2
    refine h2.eq_of_length_le ?_
    have : (xs.filter (fun x => decide (x ∈ m))).Nodup := hx.filter _
    refine (List.Nodup.subperm this ?_).length_le
    intro x hx
    simpa using (List.mem_filter.mp hx).2
  rw [key h, key h']
  congr 1
  funext x
  simp [hm]

omit [DecidableEq α] in
theorem foldl_sum {f : α → WithTop Nat} : ∀ (l : List α) (s : WithTop Nat),
    l.foldl (fun s v => s + f v) s = s + (l.map f).sum := by
  intro l
  induction l with
  | nil => intro s; simp
  | cons x l ih => intro s; rw [List.foldl_cons, ih, List.map_cons, List.sum_cons, add_assoc]

theorem subsetsList_spec (o : SetOrder α) (t : PdsTree α) (S : Finset α) (size : Nat) :
    ((t.subsetsList o S size).map Prod.fst).Nodup ∧
    ∀ T d, (T, d) ∈ t.subsetsList o S size ↔
      T ⊆ S ∧ T.card = size ∧ (∀ v ∈ T, ∃ l, IsBranch t (l ++ [v]) ∧ ∀ x ∈ l, x ∈ T) ∧ d = ∑ v ∈ T, t.minDist v := by
  have hnd := o.nodup (size, 0) S
  constructor
  · rw [subsetsList, List.map_map]
    refine List.Nodup.map_on ?_ ((combs_nodup hnd).filter _)
    intro l hl l' hl' e
    exact sublist_toFinset_inj hnd (mem_combs.mp (List.mem_filter.mp hl).1).1
      (mem_combs.mp (List.mem_filter.mp hl').1).1 e
  · intro T d
    simp only [subsetsList, List.mem_map, List.mem_filter, mem_combs, isLegal_spec, Prod.mk.injEq, foldl_sum, zero_add]
    constructor
    · rintro ⟨l, ⟨⟨h1, h2⟩, h3⟩, rfl, rfl⟩
      have hl : l.Nodup := hnd.sublist h1
      refine ⟨?_, ?_, ?_, ?_⟩
      · intro x hx
        exact (o.mem _ _ _).mp (h1.subset (List.mem_toFinset.mp hx))
      · rw [List.toFinset_card_of_nodup hl, h2]
      · intro v hv
        obtain ⟨m, m1, m2⟩ := h3 v (List.mem_toFinset.mp hv)
        exact ⟨m, m1, fun x hx => List.mem_toFinset.mpr (m2 x hx)⟩
      · exact (List.sum_toFinset _ hl).symm
    · rintro ⟨h1, h2, h3, rfl⟩
      have e : ((o.iter (size, 0) S).filter (fun x => decide (x ∈ T))).toFinset = T := by
        ext x
        simp only [List.mem_toFinset, List.mem_filter, o.mem, decide_eq_true_eq]
        exact ⟨And.right, fun h => ⟨h1 h, h⟩⟩
      have hl := hnd.filter (fun x => decide (x ∈ T))
      refine ⟨_, ⟨⟨List.filter_sublist, ?_⟩, ?_⟩, e, ?_⟩
      · rw [← List.toFinset_card_of_nodup hl, e, h2]
      · intro v hv
        have hm : ∀ x, x ∈ (o.iter (size, 0) S).filter (fun x => decide (x ∈ T)) ↔ x ∈ T := by
          intro x; rw [← List.mem_toFinset, e]
        obtain ⟨m, m1, m2⟩ := h3 v ((hm v).mp hv)
        exact ⟨m, m1, fun x hx => (hm x).mpr (m2 x hx)⟩
      · rw [← List.sum_toFinset _ hl, e]

end PdsTree
end Verif
