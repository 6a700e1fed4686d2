import Verif.Spec.PagRules
import Verif.Model.PagRules
import Verif.Lemmas.PagDisc
import Mathlib.Algebra.Order.BigOperators.Group.Finset

/-!
# Single orientation steps of a PAG, and loops that make such steps
-/

namespace Verif
open Relation
variable {α : Type}

namespace MG

/-- One orientation written by rule `idx`, with the facts that hold in the graph at that moment. -/
inductive PagStep (sep : α → α → Py (Finset α)) (G H : MG α) : Nat → Prop
  | r1 (a b c : α) : G.At a b .arrow → G.At c b .circle → a ≠ c → ¬ G.MAdj a c →
      Upd G H (fun u v m => (u = c ∧ v = b ∧ m = .tail) ∨ (u = b ∧ v = c ∧ m = .arrow)) → PagStep sep G H 1
  | r2 (a b c : α) : G.At a b .arrow → G.At b c .arrow → (G.At c b .tail ∨ G.At b a .tail) → G.At a c .circle →
      Upd G H (fun u v m => u = a ∧ v = c ∧ m = .arrow) → PagStep sep G H 2
  | r3 (a b c d : α) : a ≠ c → G.At a b .arrow → G.At c b .arrow → ¬ G.MAdj a c → G.At a d .circle →
      G.At c d .circle → G.MAdj d b → Upd G H (fun u v m => u = d ∧ v = b ∧ m = .arrow) → PagStep sep G H 3
  | r4in (a b c d : α) (l : List α) (S : Finset α) : G.MAdj c b → G.Par a c → G.At b a .arrow →
      G.DiscPath a b c d l → sep d c = .ok S → b ∈ S →
      Upd G H (fun u v m => (u = b ∧ v = c ∧ m = .arrow) ∨ (u = c ∧ v = b ∧ m = .tail)) → PagStep sep G H 4
  | r4out (a b c d : α) (l : List α) (S : Finset α) : G.MAdj c b → G.Par a c → G.At b a .arrow →
      G.DiscPath a b c d l → sep d c = .ok S → b ∉ S →
      Upd G H (fun u v m => ((u = b ∧ (v = a ∨ v = c)) ∨ ((u = a ∨ u = c) ∧ v = b)) ∧ m = .arrow) → PagStep sep G H 4
  | r5 (a b na nb : α) (p : List α) : G.UncovPath G.CircCirc G.nodes a b na nb p → na ≠ nb →
      ¬ G.MAdj b na → ¬ G.MAdj a nb →
      (∀ u v, [u, v] = [a, b] ∨ [u, v] = [a, na] ∨ [u, v] = [b, nb] →
        G.MAdj u v ∧ ¬ G.At u v .arrow ∧ ¬ G.At v u .arrow) →
      Upd G H (fun u v m => ([u, v] <:+: a :: (p ++ [b, a]) ∨ [v, u] <:+: a :: (p ++ [b, a])) ∧ m = .tail) →
      PagStep sep G H 5
  | r6 (a b c : α) : G.At a b .tail → G.At b a .tail → G.MAdj c b → ¬ G.At c b .arrow →
      Upd G H (fun u v m => u = c ∧ v = b ∧ m = .tail) → PagStep sep G H 6
  | r7 (a b c : α) : a ≠ c → G.At b a .tail → ¬ G.At a b .arrow → G.MAdj c b → ¬ G.MAdj a c → ¬ G.At c b .arrow →
      Upd G H (fun u v m => u = c ∧ v = b ∧ m = .tail) → PagStep sep G H 7
  | r8 (a b c : α) : G.At b a .tail → G.Par b c → G.At c a .circle → G.At a c .arrow →
      Upd G H (fun u v m => u = c ∧ v = a ∧ m = .tail) → PagStep sep G H 8
  | r9 (a b c d : α) (p : List α) : G.At c a .circle → G.At a c .arrow → G.PossPar a b → ¬ G.MAdj b c → G.PossPar d c →
      G.UncovPath G.PossPar G.nodes a c b d p →
      Upd G H (fun u v m => u = c ∧ v = a ∧ m = .tail) → PagStep sep G H 9
  | r10 (a c : α) : G.At c a .circle → G.At a c .arrow →
      (∃ b d e f p q, G.Par b c ∧ G.Par d c ∧ b ≠ d ∧ G.PossPar a e ∧
        G.PossPar a f ∧ e ≠ c ∧ f ≠ c ∧ e ≠ f ∧ ¬ G.MAdj e f ∧ G.Rule10Path G.MAdj a c e b p ∧
        G.Rule10Path G.MAdj a c f d q) →
      Upd G H (fun u v m => u = c ∧ v = a ∧ m = .tail) → PagStep sep G H 10

theorem Proper.adj_of {G : MG α} {a b : α} {m : Mark} (h : G.At a b m) : G.MAdj a b := Or.inl ⟨m, h⟩
theorem Proper.adj_of' {G : MG α} {a b : α} {m : Mark} (h : G.At a b m) : G.MAdj b a := Or.inr ⟨m, h⟩

theorem Proper.ne {G : MG α} (hG : G.Proper) {a b : α} (h : G.MAdj a b) : a ≠ b := by
  rintro rfl
  rcases h with ⟨m, h⟩ | ⟨m, h⟩ <;> exact hG.irrefl _ _ h

theorem Oriented.refl {G : MG α} (hG : G.Proper) : Oriented G G := ⟨hG, rfl, rfl, fun _ _ => Iff.rfl, fun _ _ h => h⟩

theorem Oriented.trans {G H K : MG α} (h1 : Oriented H G) (h2 : Oriented K H) : Oriented K G :=
  ⟨h2.proper, h2.nodes.trans h1.nodes, h2.types.trans h1.types, fun a b => (h2.adj a b).trans (h1.adj a b),
    fun a b h => h1.circle a b (h2.circle a b h)⟩

theorem Upd.oriented {G H : MG α} {F : α → α → Mark → Prop} (h : Upd G H F) (hG : G.Proper)
    (hF : ∀ u v m, F u v m → G.MAdj u v ∧ m ≠ .circle ∧ m ∈ G.types)
    (h1 : ∀ u v m m', F u v m → F u v m' → m = m') : Oriented H G := by
  classical
  have hat : ∀ u v m, H.At u v m → G.MAdj u v := by
    intro u v m hm
    rcases (h.marks u v m).1 hm with h2 | ⟨_, h2⟩
    · exact (hF _ _ _ h2).1
    · exact Or.inl ⟨m, h2⟩
  have hta : ∀ u v, G.MAdj u v → ∃ m, H.At u v m := by
    intro u v hm
    obtain ⟨m, hm⟩ := hG.adj_iff.1 hm
    by_cases hf : ∃ m', F u v m'
    · obtain ⟨m', hf⟩ := hf
      exact ⟨m', (h.marks _ _ _).2 (Or.inl hf)⟩
    · push Not at hf
      exact ⟨m, (h.marks _ _ _).2 (Or.inr ⟨hf, hm⟩)⟩
  have hadj : ∀ u v, H.MAdj u v ↔ G.MAdj u v := by
    intro u v
    constructor
    · rintro (⟨m, h2⟩ | ⟨m, h2⟩)
      · exact hat _ _ _ h2
      · exact (hat _ _ _ h2).symm
    · intro h2
      exact Or.inl (hta _ _ h2)
  refine ⟨?_, h.nodes, h.types, hadj, ?_⟩
  · constructor
    · intro a b m hm
      rw [h.types]
      rcases (h.marks _ _ _).1 hm with h2 | ⟨_, h2⟩
      · exact (hF _ _ _ h2).2.2
      · exact hG.type _ _ _ h2
    · intro a b m hm
      rw [h.nodes]
      obtain ⟨m', h2⟩ := hG.adj_iff.1 (hat _ _ _ hm)
      exact hG.mem _ _ _ h2
    · intro a m hm
      exact hG.ne (hat _ _ _ hm) rfl
    · intro a b m m' hm hm'
      rcases (h.marks _ _ _).1 hm with h2 | ⟨h2, h2'⟩ <;> rcases (h.marks _ _ _).1 hm' with h3 | ⟨h3, h3'⟩
      · exact h1 _ _ _ _ h2 h3
      · exact absurd h2 (h3 _)
      · exact absurd h3 (h2 _)
      · exact hG.one _ _ _ _ h2' h3'
    · intro a b m hm
      exact hta _ _ (hat _ _ _ hm).symm
  · intro a b hm
    rcases (h.marks _ _ _).1 hm with h2 | ⟨_, h2⟩
    · exact absurd rfl (hF _ _ _ h2).2.1
    · exact h2

theorem infix_two_chain {R : α → α → Prop} {l : List α} (h : l.IsChain R) {u v : α} (huv : [u, v] <:+: l) : R u v := by
  obtain ⟨s, t, rfl⟩ := huv
  rw [List.append_assoc, List.isChain_append] at h
  have := h.2.1
  simp only [List.cons_append, List.nil_append, List.isChain_cons_cons] at this
  exact this.1

/-- The consecutive pairs of the cycle of rule 5. -/
theorem cycle_pair {a b na nb : α} {p : List α} (h1 : p.head? = some na) (h2 : p.getLast? = some nb) {u v : α}
    (h : [u, v] <:+: a :: (p ++ [b, a])) :
    (u = a ∧ v = na) ∨ [u, v] <:+: p ∨ (u = nb ∧ v = b) ∨ (u = b ∧ v = a) := by
  rcases infix_two_cons h with ⟨rfl, t, ht⟩ | h
  · cases p with
    | nil => simp at h1
    | cons x p =>
      simp only [List.head?_cons, Option.some.injEq] at h1
      simp only [List.cons_append, List.cons.injEq] at ht
      exact Or.inl ⟨rfl, ht.1 ▸ h1⟩
  · right
    clear h1
    rename_i h0
    clear h0
    induction p with
    | nil => simp at h2
    | cons x p ih =>
      rw [List.cons_append] at h
      rcases infix_two_cons h with ⟨rfl, t, ht⟩ | h
      · cases p with
        | nil =>
          simp only [List.getLast?_singleton, Option.some.injEq] at h2
          simp only [List.nil_append, List.cons.injEq] at ht
          exact Or.inr (Or.inl ⟨h2, ht.1.symm⟩)
        | cons y p =>
          simp only [List.cons_append, List.cons.injEq] at ht
          left
          refine ⟨[], p, ?_⟩
          rw [ht.1]; rfl
      · cases p with
        | nil =>
          simp only [List.nil_append] at h
          obtain ⟨s, t, hst⟩ := h
          have hl := congrArg List.length hst
          simp only [List.length_append, List.length_cons, List.length_nil] at hl
          have hs : s = [] := List.length_eq_zero_iff.1 (by omega)
          have ht : t = [] := List.length_eq_zero_iff.1 (by omega)
          subst hs; subst ht
          simp only [List.nil_append, List.append_nil, List.cons.injEq, and_true] at hst
          exact Or.inr (Or.inr hst)
        | cons y p =>
          rw [List.getLast?_cons_cons] at h2
          rcases ih h2 h with h | h
          · left
            obtain ⟨s, t, hst⟩ := h
            exact ⟨x :: s, t, by rw [← hst]; simp⟩
          · exact Or.inr h

theorem PagStep.oriented {sep : α → α → Py (Finset α)} {G H : MG α} {idx : Nat} (h : PagStep sep G H idx) (hG : G.Proper)
    (hT : ∀ m, m ∈ G.types) : Oriented H G := by
  cases h with
  | r1 a b c h1 h2 h3 h4 h5 =>
    refine h5.oriented hG ?_ ?_
    · rintro u v m (⟨rfl, rfl, rfl⟩ | ⟨rfl, rfl, rfl⟩)
      · exact ⟨Or.inl ⟨_, h2⟩, by simp, hT _⟩
      · exact ⟨Or.inr ⟨_, h2⟩, by simp, hT _⟩
    · rintro u v m m' (⟨rfl, rfl, rfl⟩ | ⟨rfl, rfl, rfl⟩) (⟨h6, h7, rfl⟩ | ⟨h6, h7, rfl⟩)
      · rfl
      · subst h7; exact absurd h2 (hG.irrefl _ _)
      · subst h7; exact absurd h2 (hG.irrefl _ _)
      · rfl
  | r2 a b c h1 h2 h3 h4 h5 =>
    refine h5.oriented hG ?_ ?_
    · rintro u v m ⟨rfl, rfl, rfl⟩
      exact ⟨Or.inl ⟨_, h4⟩, by simp, hT _⟩
    · rintro u v m m' ⟨_, _, rfl⟩ ⟨_, _, rfl⟩; rfl
  | r3 a b c d h0 h1 h2 h3 h4 h5 h6 h7 =>
    refine h7.oriented hG ?_ ?_
    · rintro u v m ⟨rfl, rfl, rfl⟩
      exact ⟨h6, by simp, hT _⟩
    · rintro u v m m' ⟨_, _, rfl⟩ ⟨_, _, rfl⟩; rfl
  | r4in a b c d l S h1 h2 h3 h4 h5 h6 h7 =>
    refine h7.oriented hG ?_ ?_
    · rintro u v m (⟨rfl, rfl, rfl⟩ | ⟨rfl, rfl, rfl⟩)
      · exact ⟨h1.symm, by simp, hT _⟩
      · exact ⟨h1, by simp, hT _⟩
    · rintro u v m m' (⟨rfl, rfl, rfl⟩ | ⟨rfl, rfl, rfl⟩) (⟨h8, h9, rfl⟩ | ⟨h8, h9, rfl⟩)
      · rfl
      · exact absurd h9 (hG.ne h1)
      · exact absurd h8 (hG.ne h1)
      · rfl
  | r4out a b c d l S h1 h2 h3 h4 h5 h6 h7 =>
    refine h7.oriented hG ?_ ?_
    · rintro u v m ⟨⟨rfl, rfl | rfl⟩ | ⟨rfl | rfl, rfl⟩, rfl⟩
      · exact ⟨Or.inl ⟨_, h3⟩, by simp, hT _⟩
      · exact ⟨h1.symm, by simp, hT _⟩
      · exact ⟨Or.inr ⟨_, h3⟩, by simp, hT _⟩
      · exact ⟨h1, by simp, hT _⟩
    · rintro u v m m' ⟨_, rfl⟩ ⟨_, rfl⟩; rfl
  | r5 a b na nb p h1 h0 h2 h3 h4 h5 =>
    refine h5.oriented hG ?_ ?_
    · have key : ∀ u v, [u, v] <:+: a :: (p ++ [b, a]) → G.MAdj u v := by
        intro u v huv
        rcases cycle_pair h1.first h1.last huv with ⟨rfl, rfl⟩ | h | ⟨rfl, rfl⟩ | ⟨rfl, rfl⟩
        · exact (h4 _ _ (Or.inr (Or.inl rfl))).1
        · exact Or.inl ⟨_, (infix_two_chain h1.chain h).1⟩
        · exact (h4 _ _ (Or.inr (Or.inr rfl))).1.symm
        · exact (h4 _ _ (Or.inl rfl)).1.symm
      rintro u v m ⟨h6 | h6, rfl⟩
      · exact ⟨key _ _ h6, by simp, hT _⟩
      · exact ⟨(key _ _ h6).symm, by simp, hT _⟩
    · rintro u v m m' ⟨_, rfl⟩ ⟨_, rfl⟩; rfl
  | r6 a b c h1 h2 h3 _ h4 =>
    refine h4.oriented hG ?_ ?_
    · rintro u v m ⟨rfl, rfl, rfl⟩
      exact ⟨h3, by simp, hT _⟩
    · rintro u v m m' ⟨_, _, rfl⟩ ⟨_, _, rfl⟩; rfl
  | r7 a b c h1 h2 h3 h4 h5 _ h6 =>
    refine h6.oriented hG ?_ ?_
    · rintro u v m ⟨rfl, rfl, rfl⟩
      exact ⟨h4, by simp, hT _⟩
    · rintro u v m m' ⟨_, _, rfl⟩ ⟨_, _, rfl⟩; rfl
  | r8 a b c h1 h2 h3 h4 h5 =>
    refine h5.oriented hG ?_ ?_
    · rintro u v m ⟨rfl, rfl, rfl⟩
      exact ⟨Or.inl ⟨_, h3⟩, by simp, hT _⟩
    · rintro u v m m' ⟨_, _, rfl⟩ ⟨_, _, rfl⟩; rfl
  | r9 a b c d p h1 h2 h3 h4 h5 h6 h7 =>
    refine h7.oriented hG ?_ ?_
    · rintro u v m ⟨rfl, rfl, rfl⟩
      exact ⟨Or.inl ⟨_, h1⟩, by simp, hT _⟩
    · rintro u v m m' ⟨_, _, rfl⟩ ⟨_, _, rfl⟩; rfl
  | r10 a c h1 h2 h3 h4 =>
    refine h4.oriented hG ?_ ?_
    · rintro u v m ⟨rfl, rfl, rfl⟩
      exact ⟨Or.inl ⟨_, h1⟩, by simp, hT _⟩
    · rintro u v m m' ⟨_, _, rfl⟩ ⟨_, _, rfl⟩; rfl

/-- Some circle of `G` is no longer there in `H`. -/
def Strict (G H : MG α) : Prop := ∃ a b, G.At a b .circle ∧ ¬ H.At a b .circle

/-- State of a rule that started with the graph `G0`: unchanged with flag `False`, or flag `True` and a sequence of
orientation steps, the first of which removed a circle. -/
def Run (S : MG α → MG α → Prop) (G0 : MG α) (st : MG α × Bool) : Prop :=
  (st.2 = false ∧ st.1 = G0) ∨ (st.2 = true ∧ ∃ G1, S G0 G1 ∧ Strict G0 G1 ∧ ReflTransGen S G1 st.1)

theorem Run.start {S : MG α → MG α → Prop} {G0 : MG α} : Run S G0 (G0, false) := Or.inl ⟨rfl, rfl⟩

theorem Run.eq {S : MG α → MG α → Prop} {G0 : MG α} {st : MG α × Bool} (h : Run S G0 st) (hf : st.2 = false) :
    st.1 = G0 := by
  rcases h with h | h
  · exact h.2
  · rw [hf] at h; exact absurd h.1 (by simp)

theorem Run.fire {S : MG α → MG α → Prop} {G0 H : MG α} {st : MG α × Bool} (h : Run S G0 st) (hS : S st.1 H)
    (hst : st.2 = false → Strict st.1 H) : Run S G0 (H, true) := by
  right
  refine ⟨rfl, ?_⟩
  rcases h with h | ⟨_, G1, h1, h2, h3⟩
  · have := hst h.1
    rw [h.2] at hS this
    exact ⟨H, hS, this, .refl⟩
  · exact ⟨G1, h1, h2, h3.tail hS⟩

theorem Run.again {S : MG α → MG α → Prop} {G0 : MG α} {st : MG α × Bool} (h : Run S G0 st) (hf : st.2 = true) :
    Run S G0 (st.1, true) := by
  rcases h with h | h
  · rw [hf] at h; exact absurd h.1 (by simp)
  · exact Or.inr ⟨rfl, h.2⟩

theorem rtg_refines {sep : α → α → Py (Finset α)} {idx : Nat} {G H : MG α}
    (h : ReflTransGen (fun G H => PagStep sep G H idx) G H) (hG : G.Proper) (hT : ∀ m, m ∈ G.types) : Oriented H G := by
  induction h with
  | refl => exact .refl hG
  | tail _ h2 ih => exact ih.trans (h2.oriented ih.proper (by rw [ih.types]; exact hT))

theorem Run.oriented {sep : α → α → Py (Finset α)} {idx : Nat} {G0 : MG α} {st : MG α × Bool}
    (h : Run (fun G H => PagStep sep G H idx) G0 st) (hG : G0.Proper) (hT : ∀ m, m ∈ G0.types) : Oriented st.1 G0 := by
  rcases h with h | ⟨_, G1, h1, _, h3⟩
  · rw [h.2]; exact .refl hG
  · have := h1.oriented hG hT
    exact this.trans (rtg_refines h3 this.proper (by rw [this.types]; exact hT))

theorem Run.strict {sep : α → α → Py (Finset α)} {idx : Nat} {G0 : MG α} {st : MG α × Bool}
    (h : Run (fun G H => PagStep sep G H idx) G0 st) (hG : G0.Proper) (hT : ∀ m, m ∈ G0.types) (hf : st.2 = true) :
    Strict G0 st.1 := by
  rcases h with h | ⟨_, G1, h1, ⟨a, b, h4, h5⟩, h3⟩
  · rw [hf] at h; exact absurd h.1 (by simp)
  · have := h1.oriented hG hT
    exact ⟨a, b, h4, fun h => h5 ((rtg_refines h3 this.proper (by rw [this.types]; exact hT)).circle _ _ h)⟩

/-- `is_connected` on a refinement. -/
theorem Oriented.isConnected [DecidableEq α] {G H : MG α} (h : Oriented H G) {i j : α} (hij : i ≠ j) :
    ∃ b, H.isConnected i j = .ok b ∧ (b = true ↔ G.MAdj i j) := by
  obtain ⟨b, h1, h2⟩ := proper_isConnected h.proper.type hij
  exact ⟨b, h1, h2.trans (h.adj i j)⟩

theorem replace_upd [DecidableEq α] {G : MG α} (hG : G.Proper) (hT : ∀ m, m ∈ G.types) (s t : α) (m : Mark) :
    ∃ H, G.replaceEdgeMark s t m = .ok H ∧ Upd G H (fun u v m' => u = s ∧ v = t ∧ m' = m) := by
  obtain ⟨H, h1, h2, h3, h4⟩ := replaceEdgeMark_spec hG.type (s := s) (t := t) (hT m)
  refine ⟨H, h1, h2, h3, fun u v m' => ?_⟩
  rw [h4]
  split_ifs with h
  · obtain ⟨rfl, rfl⟩ := h
    simp
  · constructor
    · intro h5
      exact Or.inr ⟨fun m' h6 => h ⟨h6.1, h6.2.1⟩, h5⟩
    · rintro (⟨rfl, rfl, _⟩ | h5)
      · exact absurd ⟨rfl, rfl⟩ h
      · exact h5.2

theorem Upd.trans {G H K : MG α} {F F' : α → α → Mark → Prop} (h : Upd G H F) (h' : Upd H K F') :
    Upd G K (fun u v m => F' u v m ∨ (∀ m', ¬ F' u v m') ∧ F u v m) := by
  classical
  refine ⟨h'.nodes.trans h.nodes, h'.types.trans h.types, fun u v m => ?_⟩
  rw [h'.marks, h.marks]
  by_cases h1 : ∃ m', F' u v m'
  · obtain ⟨m', h1⟩ := h1
    constructor
    · rintro (h2 | ⟨h2, _⟩)
      · exact Or.inl (Or.inl h2)
      · exact absurd h1 (h2 _)
    · rintro ((h2 | ⟨h2, _⟩) | ⟨h2, _⟩)
      · exact Or.inl h2
      · exact absurd h1 (h2 _)
      · exact absurd (Or.inl h1) (h2 m')
  · push Not at h1
    constructor
    · rintro (h2 | ⟨_, h2 | ⟨h2, h3⟩⟩)
      · exact absurd h2 (h1 _)
      · exact Or.inl (Or.inr ⟨h1, h2⟩)
      · refine Or.inr ⟨fun m' h4 => ?_, h3⟩
        rcases h4 with h4 | h4
        · exact h1 _ h4
        · exact h2 _ h4.2
    · rintro ((h2 | ⟨_, h2⟩) | ⟨h2, h3⟩)
      · exact Or.inl h2
      · exact Or.inr ⟨h1, Or.inl h2⟩
      · exact Or.inr ⟨h1, Or.inr ⟨fun m' h4 => h2 m' (Or.inr ⟨h1, h4⟩), h3⟩⟩

theorem Upd.congr {G H : MG α} {F F' : α → α → Mark → Prop} (h : Upd G H F) (hF : ∀ u v m, F u v m ↔ F' u v m) :
    Upd G H F' := by
  have : F = F' := by funext u v m; exact propext (hF u v m)
  rw [← this]; exact h

/-- Writing marks that are already there changes nothing. -/
theorem Upd.noop {G H : MG α} {F : α → α → Mark → Prop} (h : Upd G H F) (hG : G.Proper)
    (hF : ∀ u v m, F u v m → G.At u v m) : H = G := by
  have : H.g = G.g := by
    funext v m
    ext u
    change H.At u v m ↔ G.At u v m
    rw [h.marks]
    constructor
    · rintro (h1 | h1)
      · exact hF _ _ _ h1
      · exact h1.2
    · intro h1
      by_cases h2 : ∃ m', F u v m'
      · obtain ⟨m', h2⟩ := h2
        rw [hG.one _ _ _ _ h1 (hF _ _ _ h2)]
        exact Or.inl h2
      · push Not at h2
        exact Or.inr ⟨h2, h1⟩
  obtain ⟨n, t, g⟩ := H
  obtain ⟨n', t', g'⟩ := G
  obtain ⟨h1, h2, _⟩ := h
  simp only at h1 h2 this
  subst h1; subst h2; subst this
  rfl

/-- A `for` loop over a set of the graph that does not change its size. -/
theorem liveFor_ok_inv {σ β : Type} {live : σ → Finset β} {body : σ → β → Py σ} {size : Nat}
    (I : List β → σ → Prop) (hsize : ∀ done s, I done s → (live s).card = size) :
    ∀ (l done : List β) (s : σ), I done s →
      (∀ done x s, x ∈ l → I done s → ∃ s', body s x = .ok s' ∧ I (done ++ [x]) s') →
      ∃ s', liveFor live body size l s = .ok s' ∧ I (done ++ l) s' := by
  intro l
  induction l with
  | nil =>
    intro done s hI _
    exact ⟨s, by rw [liveFor, if_pos (hsize _ _ hI)], by simpa using hI⟩
  | cons x l ih =>
    intro done s hI hstep
    obtain ⟨s1, h1, h2⟩ := hstep done x s (by simp) hI
    obtain ⟨s', h3, h4⟩ := ih (done ++ [x]) s1 h2 (fun d y s hy => hstep d y s (by simp [hy]))
    refine ⟨s', ?_, by simpa using h4⟩
    rw [liveFor, if_pos (hsize _ _ hI), py_bind h1]
    exact h3

end MG
end Verif
