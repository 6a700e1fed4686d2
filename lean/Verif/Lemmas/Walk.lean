import Mathlib.Logic.Relation
import Mathlib.Data.List.Chain
import Mathlib.Data.List.Infix
import Mathlib.Data.List.Nodup
import Mathlib.Tactic.Tauto

/-!
# Abstract theory of active walks in graphs whose edges carry arrowheads

`adj a b`: there is an edge between `a` and `b`; `into a b`: the edge between `a` and `b` has an arrowhead
at `b`. DAGs (`into a b` iff `a` is a parent of `b`) and graphs with `-->` and `<->` edges are instances.
-/

namespace Verif.Walk
open Relation

variable {α : Type}

/-- A directed edge `a --> b`. -/
def dir (into : α → α → Prop) (a b : α) : Prop := into a b ∧ ¬ into b a

/-- `b` is (reflexively) an ancestor of a member of `Z`. -/
def AnZ (into : α → α → Prop) (Z : α → Prop) (b : α) : Prop := ∃ z, Z z ∧ ReflTransGen (dir into) b z

/-- The middle node `b` of consecutive nodes `a, b, c` does not block, where colliders must satisfy `C`. -/
def okc (into : α → α → Prop) (C Z : α → Prop) (a b c : α) : Prop :=
  (into a b ∧ into c b → C b) ∧ (¬ (into a b ∧ into c b) → ¬ Z b)

/-- A walk (list of nodes) that is not blocked. -/
def Act (adj into : α → α → Prop) (C Z : α → Prop) : List α → Prop
  | [] => True
  | [_] => True
  | [a, b] => adj a b
  | a :: b :: c :: t => adj a b ∧ okc into C Z a b c ∧ Act adj into C Z (b :: c :: t)

variable {adj into : α → α → Prop} {C Z : α → Prop}

theorem okc_symm {a b c : α} (h : okc into C Z a b c) : okc into C Z c b a :=
  ⟨fun hh => h.1 ⟨hh.2, hh.1⟩, fun hh => h.2 (fun h' => hh ⟨h'.2, h'.1⟩)⟩

theorem Act.tail {a : α} {l : List α} (h : Act adj into C Z (a :: l)) : Act adj into C Z l := by
  match l, h with
  | [], _ => trivial
  | [_], _ => trivial
  | _ :: _ :: _, h => exact h.2.2

theorem Act.adj_head {a b : α} {l : List α} (h : Act adj into C Z (a :: b :: l)) : adj a b := by
  match l, h with
  | [], h => exact h
  | _ :: _, h => exact h.1

theorem act_cons {a b : α} {l : List α} :
    Act adj into C Z (a :: b :: l) ↔
      adj a b ∧ (∀ c t, l = c :: t → okc into C Z a b c) ∧ Act adj into C Z (b :: l) := by
  match l with
  | [] => simp [Act]
  | c :: t =>
    simp only [Act]
    constructor
    · rintro ⟨h1, h2, h3⟩
      refine ⟨h1, ?_, h3⟩
      rintro c' t' h; cases h; exact h2
    · rintro ⟨h1, h2, h3⟩
      exact ⟨h1, h2 c t rfl, h3⟩

/-- Suffixes of active walks are active. -/
theorem Act.suffix {p s : List α} (h : Act adj into C Z (p ++ s)) : Act adj into C Z s := by
  induction p with
  | nil => exact h
  | cons a p ih => exact ih h.tail

/-- Prefixes of active walks are active. -/
theorem Act.prefix {p s : List α} (h : Act adj into C Z (p ++ s)) : Act adj into C Z p := by
  induction p with
  | nil => trivial
  | cons a p ih =>
    match p, ih, h with
    | [], _, _ => trivial
    | b :: p, ih, h =>
      simp only [List.cons_append] at h ih
      rw [act_cons] at h
      rw [act_cons]
      refine ⟨h.1, ?_, ih h.2.2⟩
      rintro c t rfl
      exact h.2.1 c (t ++ s) rfl

/-- Gluing two walks at a common node `v`. -/
theorem Act.glue {p s : List α} {a v b : α} (h1 : Act adj into C Z (p ++ [a, v]))
    (h2 : Act adj into C Z (v :: b :: s)) (hv : okc into C Z a v b) :
    Act adj into C Z (p ++ a :: v :: b :: s) := by
  induction p with
  | nil =>
    simp only [List.nil_append] at *
    exact ⟨h1, hv, h2⟩
  | cons x p ih =>
    have h1' := ih h1.tail
    match p, h1, h1' with
    | [], h1, h1' =>
      simp only [List.nil_append, List.cons_append] at *
      exact ⟨h1.1, h1.2.1, h1'⟩
    | y :: p, h1, h1' =>
      simp only [List.cons_append] at *
      rw [act_cons] at h1 ⊢
      refine ⟨h1.1, ?_, h1'⟩
      rintro c t hc
      cases p with
      | nil =>
        simp only [List.nil_append, List.cons.injEq] at hc
        obtain ⟨rfl, rfl⟩ := hc
        exact h1.2.1 _ [v] rfl
      | cons z p =>
        simp only [List.cons_append, List.cons.injEq] at hc
        obtain ⟨rfl, rfl⟩ := hc
        exact h1.2.1 _ (p ++ [a, v]) rfl

theorem Act.mid_ok {p s : List α} {a b c : α} (h : Act adj into C Z (p ++ a :: b :: c :: s)) :
    okc into C Z a b c := by
  have h' := h.suffix
  exact h'.2.1

theorem act_reverse_aux (hs : ∀ a b, adj a b → adj b a) (l : List α)
    (h : Act adj into C Z l) : Act adj into C Z l.reverse := by
  match l with
  | [] => trivial
  | [_] => trivial
  | [a, b] => exact hs _ _ h
  | a :: b :: c :: t =>
    have ih := act_reverse_aux hs (b :: c :: t) h.2.2
    have hr : (a :: b :: c :: t).reverse = t.reverse ++ c :: b :: a :: [] := by simp
    rw [hr]
    have hr' : (b :: c :: t).reverse = t.reverse ++ [c, b] := by simp
    rw [hr'] at ih
    exact ih.glue (hs _ _ h.1) (okc_symm h.2.1)

theorem act_mono {C' : α → Prop} (hC : ∀ b, C b → C' b) {l : List α}
    (h : Act adj into C Z l) : Act adj into C' Z l := by
  match l, h with
  | [], _ => trivial
  | [_], _ => trivial
  | [_, _], h => exact h
  | _ :: _ :: _ :: _, h => exact ⟨h.1, ⟨fun hh => hC _ (h.2.1.1 hh), h.2.1.2⟩, act_mono hC h.2.2⟩

/-! ### Spec form: triples as infixes -/

theorem act_iff_infix {l : List α} :
    Act adj into C Z l ↔
      l.IsChain adj ∧ ∀ a b c, [a, b, c] <:+: l → okc into C Z a b c := by
  constructor
  · intro h
    constructor
    · induction l with
      | nil => exact List.IsChain.nil
      | cons a l ih =>
        cases l with
        | nil => exact List.IsChain.singleton _
        | cons b l => exact List.IsChain.cons_cons h.adj_head (ih h.tail)
    · rintro a b c ⟨p, s, rfl⟩
      have : p ++ [a, b, c] ++ s = p ++ a :: b :: c :: s := by simp
      rw [this] at h
      exact h.mid_ok
  · rintro ⟨h1, h2⟩
    induction l with
    | nil => trivial
    | cons a l ih =>
      cases l with
      | nil => trivial
      | cons b l =>
        rw [act_cons]
        refine ⟨by simpa using (List.isChain_cons_cons.mp h1).1, ?_, ?_⟩
        · rintro c t rfl
          exact h2 a b c ⟨[], t, by simp⟩
        · apply ih
          · exact (List.isChain_cons_cons.mp h1).2
          · intro x y z hxyz
            exact h2 x y z (hxyz.trans (List.suffix_cons _ _).isInfix)

/-! ### Active walks contain active paths -/

theorem anZ_of_dir {a b : α} (h : dir into a b) (hb : AnZ into Z b) : AnZ into Z a := by
  obtain ⟨z, hz, hbz⟩ := hb
  exact ⟨z, hz, ReflTransGen.head h hbz⟩

theorem anZ_of_path {a b : α} (h : ReflTransGen (dir into) a b) (hb : AnZ into Z b) : AnZ into Z a := by
  obtain ⟨z, hz, hbz⟩ := hb
  exact ⟨z, hz, h.trans hbz⟩

/-- Following a directed edge along an active walk one meets a collider, or arrives at the end. -/
theorem follow (hinto : ∀ a b, adj a b → into a b ∨ into b a) (t : List α) (u q : α)
    (h : Act adj into (AnZ into Z) Z (u :: q :: t)) (hd : dir into u q) :
    AnZ into Z u ∨ (ReflTransGen (dir into) u ((q :: t).getLast (by simp)) ∧
      ∀ p r w, u :: q :: t = p ++ [r, w] → into r w) := by
  induction t generalizing u q with
  | nil =>
    right
    refine ⟨ReflTransGen.single hd, ?_⟩
    intro p r w hprw
    have : p = [] := by
      cases p with
      | nil => rfl
      | cons x p =>
        exfalso
        have := congrArg List.length hprw
        simp at this
    subst this
    simp only [List.nil_append, List.cons.injEq, and_true] at hprw
    rw [← hprw.1, ← hprw.2]
    exact hd.1
  | cons c t ih =>
    have hok := h.2.1
    by_cases hc : into c q
    · left
      exact anZ_of_dir hd (hok.1 ⟨hd.1, hc⟩)
    · have hqc : dir into q c := ⟨by
        rcases hinto q c h.2.2.adj_head with h1 | h1
        · exact h1
        · exact absurd h1 hc, hc⟩
      rcases ih q c h.2.2 hqc with h1 | ⟨h1, h2⟩
      · exact Or.inl (anZ_of_dir hd h1)
      · right
        refine ⟨?_, ?_⟩
        · rw [List.getLast_cons (by simp)]
          exact ReflTransGen.head hd h1
        · intro p r w hprw
          cases p with
          | nil => exact absurd (congrArg List.length hprw) (by simp)
          | cons x p =>
            simp only [List.cons_append, List.cons.injEq] at hprw
            exact h2 p r w hprw.2

/-- Splicing out a loop `v ... v` keeps a walk active. -/
theorem splice (hirr : ∀ a, ¬ adj a a) (hinto : ∀ a b, adj a b → into a b ∨ into b a)
    {p m s : List α} {v : α}
    (h : Act adj into (AnZ into Z) Z (p ++ v :: m ++ v :: s)) :
    Act adj into (AnZ into Z) Z (p ++ v :: s) := by
  have hsuf : Act adj into (AnZ into Z) Z (v :: s) := h.suffix
  have hpre : Act adj into (AnZ into Z) Z (p ++ [v]) := by
    have : p ++ v :: m ++ v :: s = (p ++ [v]) ++ (m ++ v :: s) := by simp
    rw [this] at h; exact h.prefix
  rcases List.eq_nil_or_concat p with rfl | ⟨p', a, rfl⟩
  · simpa using hsuf
  cases s with
  | nil => simpa using hpre
  | cons b s =>
    cases m with
    | nil =>
      exfalso
      have h' : Act adj into (AnZ into Z) Z ((p' ++ [a]) ++ v :: v :: b :: s) := by simpa using h
      exact hirr v h'.suffix.adj_head
    | cons q m =>
      -- `r` is the node just before the second `v`
      obtain ⟨m', r, hr⟩ : ∃ m' r, q :: m = m' ++ [r] := by
        rcases List.eq_nil_or_concat (q :: m) with h0 | ⟨m', r, h0⟩
        · simp at h0
        · exact ⟨m', r, by simpa using h0⟩
      have hok1 : okc into (AnZ into Z) Z a v q := by
        have h' : Act adj into (AnZ into Z) Z (p' ++ a :: v :: q :: (m ++ v :: b :: s)) := by
          simpa using h
        exact h'.mid_ok
      have hok2 : okc into (AnZ into Z) Z r v b := by
        have h' : Act adj into (AnZ into Z) Z ((p' ++ a :: v :: m') ++ r :: v :: b :: s) := by
          have e : p'.concat a ++ v :: (q :: m) ++ v :: b :: s = (p' ++ a :: v :: m') ++ r :: v :: b :: s := by
            rw [hr]; simp
          rw [e] at h; exact h
        exact h'.mid_ok
      have hseg : Act adj into (AnZ into Z) Z (v :: q :: (m ++ [v])) := by
        have e : p'.concat a ++ v :: (q :: m) ++ v :: b :: s
            = (p' ++ [a]) ++ ((v :: q :: (m ++ [v])) ++ (b :: s)) := by simp
        rw [e] at h
        exact h.suffix.prefix
      have hok : okc into (AnZ into Z) Z a v b := by
        constructor
        · rintro ⟨hav, hbv⟩
          by_cases hqv : into q v
          · exact hok1.1 ⟨hav, hqv⟩
          by_cases hrv : into r v
          · exact hok2.1 ⟨hrv, hbv⟩
          have hdvq : dir into v q := by
            refine ⟨?_, hqv⟩
            rcases hinto v q hseg.adj_head with h1 | h1
            · exact h1
            · exact absurd h1 hqv
          rcases follow hinto _ _ _ hseg hdvq with h1 | ⟨_, h2⟩
          · exact h1
          · exfalso
            apply hrv
            apply h2 (v :: m')
            have : q :: (m ++ [v]) = (q :: m) ++ [v] := by simp
            rw [this, hr]; simp
        · intro hn
          by_cases hav : into a v
          · have hbv : ¬ into b v := fun hb => hn ⟨hav, hb⟩
            exact hok2.2 (fun hh => hbv hh.2)
          · exact hok1.2 (fun hh => hav hh.1)
      have e : p'.concat a ++ v :: b :: s = p' ++ a :: v :: b :: s := by simp
      rw [e]
      have hpre' : Act adj into (AnZ into Z) Z (p' ++ [a, v]) := by simpa using hpre
      exact hpre'.glue hsuf hok

theorem exists_dup_split {l : List α} (h : ¬ l.Nodup) :
    ∃ p v m s, l = p ++ v :: m ++ v :: s := by
  induction l with
  | nil => simp at h
  | cons a l ih =>
    rw [List.nodup_cons, not_and_or, not_not] at h
    by_cases ha : a ∈ l
    · obtain ⟨m, s, rfl⟩ := List.append_of_mem ha
      exact ⟨[], a, m, s, by simp⟩
    · rcases h with h | h
      · exact absurd h ha
      · obtain ⟨p, v, m, s, rfl⟩ := ih h
        exact ⟨a :: p, v, m, s, by simp⟩

/-- From an active walk, an active path without repeated nodes and with the same ends. -/
theorem exists_nodup (hirr : ∀ a, ¬ adj a a) (hinto : ∀ a b, adj a b → into a b ∨ into b a)
    {x y : α} (l : List α) (hx : l.head? = some x) (hy : l.getLast? = some y)
    (h : Act adj into (AnZ into Z) Z l) :
    ∃ l' : List α, l'.Nodup ∧ l'.head? = some x ∧ l'.getLast? = some y ∧ Act adj into (AnZ into Z) Z l' := by
  induction hn : l.length using Nat.strong_induction_on generalizing l with
  | _ n ih =>
    by_cases hd : l.Nodup
    · exact ⟨l, hd, hx, hy, h⟩
    · obtain ⟨p, v, m, s, rfl⟩ := exists_dup_split hd
      refine ih (p ++ v :: s).length ?_ (p ++ v :: s) ?_ ?_ (splice hirr hinto h) rfl
      · rw [← hn]; simp; omega
      · cases p with
        | nil => simpa using hx
        | cons a p => simpa using hx
      · rw [List.getLast?_append] at hy ⊢
        simp only [List.getLast?_cons] at hy ⊢
        simpa using hy

end Verif.Walk
