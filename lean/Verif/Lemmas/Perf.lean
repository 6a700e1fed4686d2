import Verif.Spec.Perf
import Verif.Lemmas.MixedEdit
import Verif.Lemmas.Py
import Mathlib.Tactic.FieldSimp
import Mathlib.Tactic.Positivity
import Mathlib.Tactic.Linarith

/-!
# Lemmas for the comparison of graphs
-/

namespace Verif
variable {α : Type} [DecidableEq α]

/-! ### Counting pairs -/

theorem countP_pairs_swap {P : α → α → Bool} :
    ∀ l : List α, l.Nodup →
      (pairs l).countP (fun p => P p.1 p.2) + (pairs l).countP (fun p => P p.2 p.1) =
        ∑ a ∈ l.toFinset, ∑ b ∈ l.toFinset, if a ≠ b ∧ P a b = true then 1 else 0 := by
  intro l
  induction l with
  | nil => intro _; simp [pairs]
  | cons x xs ih =>
    intro hnd
    rw [List.nodup_cons] at hnd
    have hx : x ∉ xs.toFinset := by simpa using hnd.1
    rw [List.toFinset_cons, Finset.sum_insert hx]
    simp only [Finset.sum_insert hx]
    rw [Finset.sum_add_distrib, ← ih hnd.2]
    have key : ∀ Q : α → Bool, ∑ b ∈ xs.toFinset, (if b ≠ x ∧ Q b = true then 1 else 0) = xs.countP Q := by
      intro Q
      rw [Finset.sum_congr rfl (g := fun b => if Q b = true then 1 else 0) (by
        intro b hb
        have : b ≠ x := by rintro rfl; exact hx hb
        simp [this])]
      rw [Finset.sum_boole, ← List.toFinset_filter, List.toFinset_card_of_nodup (hnd.2.filter _),
        List.countP_eq_length_filter]
      rfl
    have h1 : ∑ b ∈ xs.toFinset, (if x ≠ b ∧ P x b = true then 1 else 0) = xs.countP (fun b => P x b) := by
      rw [← key]
      refine Finset.sum_congr rfl (fun b _ => ?_)
      simp only [ne_comm]
    rw [h1, key (fun b => P b x)]
    simp only [pairs, List.countP_append, List.countP_map, ne_eq, not_true_eq_false, false_and, if_false]
    have e1 : ((fun p : α × α => P p.1 p.2) ∘ fun y => (x, y)) = fun b => P x b := rfl
    have e2 : ((fun p : α × α => P p.2 p.1) ∘ fun y => (x, y)) = fun b => P b x := rfl
    rw [e1, e2]
    omega

open Classical in
theorem cnt_swap (o : SetOrder α) (S : Finset α) (Q : α → α → Prop) :
    (pairs (o.iter () S)).countP (fun p => decide (Q p.1 p.2)) + (pairs (o.iter () S)).countP (fun p => decide (Q p.2 p.1)) =
      cnt S Q := by
  have hS : (o.iter () S).toFinset = S := by ext x; simp [o.mem]
  rw [countP_pairs_swap (P := fun a b => decide (Q a b)) _ (o.nodup _ _), hS, cnt, ncard_pairs (S := S) (fun a b => a ≠ b ∧ Q a b)]
  simp

open Classical in
theorem cnt_symm (o : SetOrder α) (S : Finset α) {Q : α → α → Prop} (hQ : ∀ a b, Q a b → Q b a) :
    2 * (pairs (o.iter () S)).countP (fun p => decide (Q p.1 p.2)) = cnt S Q := by
  rw [← cnt_swap o S Q]
  have : (fun p : α × α => decide (Q p.2 p.1)) = fun p => decide (Q p.1 p.2) := by
    funext p
    have : Q p.2 p.1 ↔ Q p.1 p.2 := ⟨hQ _ _, hQ _ _⟩
    simp [this]
  rw [this]
  omega

omit [DecidableEq α] in
theorem cnt_congr {S : Finset α} {Q Q' : α → α → Prop} (h : ∀ a ∈ S, ∀ b ∈ S, a ≠ b → (Q a b ↔ Q' a b)) : cnt S Q = cnt S Q' := by
  rw [cnt, cnt]
  congr 1
  ext ⟨a, b⟩
  simp only [Set.mem_ofPred_eq]
  constructor
  · rintro ⟨h1, h2, h3, h4⟩; exact ⟨h1, h2, h3, (h a h1 b h2 h3).mp h4⟩
  · rintro ⟨h1, h2, h3, h4⟩; exact ⟨h1, h2, h3, (h a h1 b h2 h3).mpr h4⟩

omit [DecidableEq α] in
theorem cnt_finite (S : Finset α) (Q : α → α → Prop) : {p : α × α | p.1 ∈ S ∧ p.2 ∈ S ∧ p.1 ≠ p.2 ∧ Q p.1 p.2}.Finite :=
  Set.Finite.subset (S ×ˢ S).finite_toSet (by rintro ⟨a, b⟩ ⟨h1, h2, -⟩; simp [h1, h2])

omit [DecidableEq α] in
theorem cnt_add {S : Finset α} {Q Q' : α → α → Prop} (h : ∀ a b, Q a b → ¬ Q' a b) :
    cnt S (fun a b => Q a b ∨ Q' a b) = cnt S Q + cnt S Q' := by
  rw [cnt, cnt, cnt, ← Set.ncard_union_eq ?_ (cnt_finite S Q) (cnt_finite S Q')]
  · congr 1
    ext ⟨a, b⟩
    simp only [Set.mem_ofPred_eq, Set.mem_union]
    tauto
  · rw [Set.disjoint_left]
    rintro ⟨a, b⟩ ⟨_, _, _, h1⟩ ⟨_, _, _, h2⟩
    exact h a b h1 h2

omit [DecidableEq α] in
theorem cnt_eq_zero {S : Finset α} {Q : α → α → Prop} : cnt S Q = 0 ↔ ∀ a ∈ S, ∀ b ∈ S, a ≠ b → ¬ Q a b := by
  rw [cnt, Set.ncard_eq_zero (cnt_finite S Q), Set.eq_empty_iff_forall_notMem]
  constructor
  · intro h a ha b hb hab hq
    exact h (a, b) ⟨ha, hb, hab, hq⟩
  · rintro h ⟨a, b⟩ ⟨h1, h2, h3, h4⟩
    exact h a h1 b h2 h3 h4

omit [DecidableEq α] in
theorem cnt_le {S : Finset α} {Q Q' : α → α → Prop} (h : ∀ a b, Q a b → Q' a b) : cnt S Q ≤ cnt S Q' := by
  rw [cnt, cnt]
  refine Set.ncard_le_ncard ?_ (cnt_finite S Q')
  rintro ⟨a, b⟩ ⟨h1, h2, h3, h4⟩
  exact ⟨h1, h2, h3, h a b h4⟩

/-! ### Connectivity with lookup errors -/

namespace MG

theorem connK_eq {G : MG α} {i j : α} (hi : i ∈ G.nodes) (hj : j ∈ G.nodes) : G.connK i j = G.isConnected i j := by
  rw [connK, isConnected]
  by_cases hij : i = j
  · rw [if_pos hij, if_pos hij]
    rfl
  · rw [if_neg hij, if_neg hij]
    simp only [not_true_eq_false, if_false, hi, hj]
    cases h : G.types.any (fun m => decide (i ∈ G.g j m)) with
    | true => rw [if_pos rfl, Bool.true_or]; rfl
    | false => rw [if_neg (by decide), Bool.false_or]; rfl

theorem connK_err {G : MG α} (hmem : ∀ a b m, a ∈ G.g b m → a ∈ G.nodes ∧ b ∈ G.nodes) {i j : α} (hij : i ≠ j)
    (h : i ∉ G.nodes ∨ j ∉ G.nodes) : G.connK i j = .error .keyError := by
  rw [connK, if_neg hij]
  by_cases hj : j ∉ G.nodes
  · rw [if_pos hj]; rfl
  · rw [if_neg hj]
    have hi : i ∉ G.nodes := h.resolve_right hj
    have : G.types.any (fun m => decide (i ∈ G.g j m)) = false := by
      rw [List.any_eq_false]
      intro m _ hm
      exact hi (hmem i j m (by simpa using hm)).1
    rw [this]
    simp [hi]
    rfl

theorem PdagWF.connK {G : MG α} (hG : G.PdagWF) {i j : α} (hi : i ∈ G.nodes) (hj : j ∈ G.nodes) (hij : i ≠ j) :
    ∃ b, G.connK i j = .ok b ∧ (b = true ↔ G.PAdj i j) := by
  rw [connK_eq hi hj]
  exact isConnected_spec hG hij

end MG
namespace Perf
open MG

/-! ### SHD -/

section Shd
variable (T C : MG α)

/-- missing edge -/
def EM (a b : α) : Prop := C.PAdj a b ∧ ¬ T.PAdj a b
/-- extra edge -/
def EX (a b : α) : Prop := T.PAdj a b ∧ ¬ C.PAdj a b
/-- missing head -/
def HM (a b : α) : Prop := (C.Arrow a b ∨ C.Arrow b a) ∧ T.Und a b
/-- extra head -/
def HX (a b : α) : Prop := C.Und a b ∧ (T.Arrow a b ∨ T.Arrow b a)
/-- reversed -/
def HR (a b : α) : Prop := (C.Arrow a b ∧ T.Arrow b a) ∨ (C.Arrow b a ∧ T.Arrow a b)

variable {T C}

open Classical in
theorem shdStep_spec (hT : T.PdagWF) (hC : C.PdagWF) (hb : C.NoBi) (s : Shd) {i j : α} (hi : i ∈ T.nodes ∧ i ∈ C.nodes)
    (hj : j ∈ T.nodes ∧ j ∈ C.nodes) (hij : i ≠ j) :
    shdStep T C s (i, j) = .ok ⟨s.edgeMissing + if EM T C i j then 1 else 0, s.edgeExtra + if EX T C i j then 1 else 0,
      s.headMissing + if HM T C i j then 1 else 0, s.headExtra + if HX T C i j then 1 else 0,
      s.headReversed + if HR T C i j then 1 else 0⟩ := by
  obtain ⟨bT, t1, t2⟩ := hT.connK hi.1 hj.1 hij
  obtain ⟨bC, c1, c2⟩ := hC.connK hi.2 hj.2 hij
  have sT : T.Und i j ↔ T.Und j i := ⟨hT.symm _ _, hT.symm _ _⟩
  have sC : C.Und i j ↔ C.Und j i := ⟨hC.symm _ _, hC.symm _ _⟩
  have xT : T.Arrow i j → ¬ T.Und i j := hT.excl _ _
  have xT' : T.Arrow j i → ¬ T.Und j i := hT.excl _ _
  have xC : C.Arrow i j → ¬ C.Und i j := hC.excl _ _
  have xC' : C.Arrow j i → ¬ C.Und j i := hC.excl _ _
  have nb := hb i j
  have tA : T.Arrow i j ∨ T.Arrow j i → T.PAdj i j := fun h => h.elim Or.inl (fun h => Or.inr (Or.inl h))
  have cA : C.Arrow i j ∨ C.Arrow j i → C.PAdj i j := fun h => h.elim Or.inl (fun h => Or.inr (Or.inl h))
  have tU : T.Und i j → T.PAdj i j := fun h => Or.inr (Or.inr (Or.inl h))
  have cU : C.Und i j → C.PAdj i j := fun h => Or.inr (Or.inr (Or.inl h))
  have rT : HR T C i j → T.Arrow i j ∨ T.Arrow j i := fun h => h.elim (fun h => Or.inr h.2) (fun h => Or.inl h.2)
  have rC : HR T C i j → C.Arrow i j ∨ C.Arrow j i := fun h => h.elim (fun h => Or.inl h.1) (fun h => Or.inr h.1)
  have uT : T.Arrow i j ∨ T.Arrow j i → ¬ T.Und i j := fun h hu => h.elim (fun h => xT h hu) (fun h => xT' h (sT.mp hu))
  have uC : C.Arrow i j ∨ C.Arrow j i → ¬ C.Und i j := fun h hu => h.elim (fun h => xC h hu) (fun h => xC' h (sC.mp hu))
  have p1 : j ∈ T.parents i ↔ T.Arrow j i := Iff.rfl
  have p2 : i ∈ T.parents j ↔ T.Arrow i j := Iff.rfl
  have p3 : i ∈ C.parents j ↔ C.Arrow i j := Iff.rfl
  have p4 : i ∈ C.und j ↔ C.Und i j := Iff.rfl
  have p5 : i ∈ T.und j ↔ T.Und i j := Iff.rfl
  simp only [shdStep]
  rw [py_bind t1]
  cases bT with
  | false =>
    have nT : ¬ T.PAdj i j := by rw [← t2]; simp
    simp only [Bool.not_false, if_true]
    rw [py_bind c1]
    have nX : ¬ EX T C i j := fun h => nT h.1
    have nHM : ¬ HM T C i j := fun h => nT (tU h.2)
    have nHX : ¬ HX T C i j := fun h => nT (tA h.2)
    have nHR : ¬ HR T C i j := fun h => nT (tA (rT h))
    simp only [if_neg nX, if_neg nHM, if_neg nHX, if_neg nHR, Nat.add_zero]
    cases bC with
    | true =>
      have : EM T C i j := ⟨c2.mp rfl, nT⟩
      simp only [if_pos this, if_true]; rfl
    | false =>
      have : ¬ EM T C i j := fun h => by have := c2.mpr h.1; simp at this
      simp only [if_neg this]; rfl
  | true =>
    have aT := t2.mp rfl
    simp only [Bool.not_true, Bool.false_eq_true, if_false]
    rw [py_bind c1]
    have nM : ¬ EM T C i j := fun h => h.2 aT
    cases bC with
    | false =>
      have nC : ¬ C.PAdj i j := by rw [← c2]; simp
      have : EX T C i j := ⟨aT, nC⟩
      have nHM : ¬ HM T C i j := fun h => nC (cA h.1)
      have nHX : ¬ HX T C i j := fun h => nC (cU h.1)
      have nHR : ¬ HR T C i j := fun h => nC (cA (rC h))
      simp only [if_neg nM, if_neg nHM, if_neg nHX, if_neg nHR, if_pos this, Nat.add_zero]
      rfl
    | true =>
      have aC := c2.mp rfl
      have nX : ¬ EX T C i j := fun h => h.2 aC
      simp only [if_neg nM, if_neg nX, Nat.add_zero, Bool.not_true, Bool.false_eq_true, if_false, p4, p5, p3, p2, p1]
      by_cases u : C.Und i j
      · have nHM : ¬ HM T C i j := fun h => uC h.1 u
        have nHR : ¬ HR T C i j := fun h => uC (rC h) u
        simp only [if_pos u, if_neg nHM, if_neg nHR, Nat.add_zero]
        by_cases w : T.Arrow i j ∨ T.Arrow j i
        · have : HX T C i j := ⟨u, w⟩
          simp only [if_pos w, if_pos this]; rfl
        · have : ¬ HX T C i j := fun h => w h.2
          simp only [if_neg w, if_neg this]; rfl
      · have nHX : ¬ HX T C i j := fun h => u h.1
        have dirC : C.Arrow i j ∨ C.Arrow j i := by
          rcases aC with h | h | h | h
          · exact Or.inl h
          · exact Or.inr h
          · exact absurd h u
          · exact absurd (sC.mpr h) u
        simp only [if_neg u, if_neg nHX, Nat.add_zero]
        by_cases u' : T.Und i j
        · have : HM T C i j := ⟨dirC, u'⟩
          have nHR : ¬ HR T C i j := fun h => uT (rT h) u'
          simp only [if_pos u', if_pos this, if_neg nHR, Nat.add_zero]; rfl
        · have nHM : ¬ HM T C i j := fun h => u' h.2
          simp only [if_neg u', if_neg nHM, Nat.add_zero]
          by_cases d : C.Arrow i j
          · simp only [if_pos d]
            by_cases w : T.Arrow j i
            · have : HR T C i j := Or.inl ⟨d, w⟩
              have w' : j ∈ T.parents i := w
              simp only [if_pos w', if_pos this]; rfl
            · have : ¬ HR T C i j := fun h => h.elim (fun h => w h.2) (fun h => nb d h.1)
              have w' : j ∉ T.parents i := w
              simp only [if_neg w', if_neg this]; rfl
          · simp only [if_neg d]
            by_cases w : T.Arrow i j
            · have : HR T C i j := Or.inr ⟨dirC.resolve_left d, w⟩
              have w' : i ∈ T.parents j := w
              simp only [if_pos w', if_pos this]; rfl
            · have : ¬ HR T C i j := fun h => h.elim (fun h => d h.1) (fun h => w h.2)
              have w' : i ∉ T.parents j := w
              simp only [if_neg w', if_neg this]; rfl

theorem shd_spec (o : SetOrder α) (hT : T.PdagWF) (hC : C.PdagWF) (hb : C.NoBi) (hn : C.nodes ⊆ T.nodes) :
    ∃ r, shd o T C = .ok r ∧ 2 * r.edgeMissing = cnt C.nodes (EM T C) ∧ 2 * r.edgeExtra = cnt C.nodes (EX T C) ∧
      2 * r.headMissing = cnt C.nodes (HM T C) ∧ 2 * r.headExtra = cnt C.nodes (HX T C) ∧
      2 * r.headReversed = cnt C.nodes (HR T C) := by
  classical
  obtain ⟨r, h1, h2⟩ := foldlM_ok_inv (f := shdStep T C) (fun dn s =>
      s = ⟨dn.countP (fun p => decide (EM T C p.1 p.2)), dn.countP (fun p => decide (EX T C p.1 p.2)),
        dn.countP (fun p => decide (HM T C p.1 p.2)), dn.countP (fun p => decide (HX T C p.1 p.2)),
        dn.countP (fun p => decide (HR T C p.1 p.2))⟩) (pairs (o.iter () C.nodes)) [] ⟨0, 0, 0, 0, 0⟩ (by simp) (by
      rintro dn ⟨i, j⟩ s hp rfl
      have hi := (o.mem () C.nodes i).mp (mem_pairs_left hp)
      have hj := (o.mem () C.nodes j).mp (mem_pairs_right hp)
      refine ⟨_, shdStep_spec hT hC hb _ ⟨hn hi, hi⟩ ⟨hn hj, hj⟩ (mem_pairs_ne (o.nodup _ _) hp), ?_⟩
      simp [List.countP_append, List.countP_cons])
  rw [List.nil_append] at h2
  have padj : ∀ (G : MG α) a b, G.PAdj a b → G.PAdj b a := by intro G a b; simp only [PAdj]; tauto
  subst h2
  refine ⟨_, h1, ?_, ?_, ?_, ?_, ?_⟩
  · exact cnt_symm o C.nodes (fun a b h => ⟨padj _ _ _ h.1, fun h' => h.2 (padj _ _ _ h')⟩)
  · exact cnt_symm o C.nodes (fun a b h => ⟨padj _ _ _ h.1, fun h' => h.2 (padj _ _ _ h')⟩)
  · exact cnt_symm o C.nodes (fun a b h => ⟨h.1.symm, hT.symm _ _ h.2⟩)
  · exact cnt_symm o C.nodes (fun a b h => ⟨hC.symm _ _ h.1, h.2.symm⟩)
  · exact cnt_symm o C.nodes (fun a b h => h.symm)

theorem shd_err (o : SetOrder α) (hT : T.PdagWF) {v w : α} (hv : v ∈ C.nodes) (hv' : v ∉ T.nodes) (hw : w ∈ C.nodes)
    (hvw : w ≠ v) (hC : C.PdagWF) (hb : C.NoBi) : shd o T C = .error .keyError := by
  have hp := mem_pairs_or ((o.mem () C.nodes v).mpr hv) ((o.mem () C.nodes w).mpr hw) (Ne.symm hvw)
  have : ∀ (l : List (α × α)) (s : Shd), (∀ p ∈ l, p.1 ∈ C.nodes ∧ p.2 ∈ C.nodes ∧ p.1 ≠ p.2) →
      ((v, w) ∈ l ∨ (w, v) ∈ l) → l.foldlM (shdStep T C) s = .error .keyError := by
    intro l
    induction l with
    | nil => intro s _ h; simp at h
    | cons p l ih =>
      intro s hl h
      obtain ⟨i, j⟩ := p
      have hij := hl (i, j) (by simp)
      rw [List.foldlM_cons]
      by_cases hin : i ∈ T.nodes ∧ j ∈ T.nodes
      · classical
        rw [py_bind (shdStep_spec hT hC hb s ⟨hin.1, hij.1⟩ ⟨hin.2, hij.2.1⟩ hij.2.2)]
        refine ih _ (fun p hp => hl p (List.mem_cons_of_mem _ hp)) ?_
        have h1 : (v, w) ≠ (i, j) := by rintro h; cases h; exact hv' hin.1
        have h2 : (w, v) ≠ (i, j) := by rintro h; cases h; exact hv' hin.2
        simpa [h1, h2] using h
      · have : shdStep T C s (i, j) = .error .keyError := by
          simp only [shdStep]
          rw [connK_err hT.mem hij.2.2 (by tauto)]
          rfl
        rw [this]
        rfl
  exact this _ _ (fun p hp => ⟨(o.mem () C.nodes _).mp (mem_pairs_left hp), (o.mem () C.nodes _).mp (mem_pairs_right hp),
    mem_pairs_ne (o.nodup _ _) hp⟩) hp

/-- The four possible edges of a pair in a graph without bi-directed edges, as values. -/
theorem edge_cases {G : MG α} (hG : G.PdagWF) (hb : G.NoBi) (a b : α) :
    (G.Arrow a b ∧ ¬ G.Arrow b a ∧ ¬ G.Und a b ∧ ¬ G.Und b a) ∨ (¬ G.Arrow a b ∧ G.Arrow b a ∧ ¬ G.Und a b ∧ ¬ G.Und b a) ∨
      (¬ G.Arrow a b ∧ ¬ G.Arrow b a ∧ G.Und a b ∧ G.Und b a) ∨ (¬ G.Arrow a b ∧ ¬ G.Arrow b a ∧ ¬ G.Und a b ∧ ¬ G.Und b a) := by
  have s1 : G.Und a b → G.Und b a := hG.symm _ _
  have s2 : G.Und b a → G.Und a b := hG.symm _ _
  have x1 : G.Arrow a b → ¬ G.Und a b := hG.excl _ _
  have x2 : G.Arrow b a → ¬ G.Und b a := hG.excl _ _
  have nb := hb a b
  tauto

theorem not_sameEdge (hT : T.PdagWF) (hC : C.PdagWF) (hbT : T.NoBi) (hbC : C.NoBi) (a b : α) :
    ¬ SameEdge T C a b ↔ (EM T C a b ∨ EX T C a b) ∨ (HM T C a b ∨ HX T C a b) ∨ HR T C a b := by
  simp only [SameEdge, EM, EX, HM, HX, HR, PAdj]
  rcases edge_cases hT hbT a b with h | h | h | h <;> rcases edge_cases hC hbC a b with h' | h' | h' | h' <;>
    simp only [h.1, h.2.1, h.2.2.1, h.2.2.2, h'.1, h'.2.1, h'.2.2.1, h'.2.2.2] <;> decide

theorem shd_total (o : SetOrder α) (hT : T.PdagWF) (hC : C.PdagWF) (hbT : T.NoBi) (hbC : C.NoBi) (hn : C.nodes ⊆ T.nodes) :
    ∃ r, shd o T C = .ok r ∧ 2 * r.total = cnt C.nodes (fun a b => ¬ SameEdge T C a b) := by
  obtain ⟨r, h, h1, h2, h3, h4, h5⟩ := shd_spec o hT hC hbC hn
  refine ⟨r, h, ?_⟩
  rw [cnt_congr (Q' := fun a b => (EM T C a b ∨ EX T C a b) ∨ (HM T C a b ∨ HX T C a b) ∨ HR T C a b)
    (fun a _ b _ _ => not_sameEdge hT hC hbT hbC a b), cnt_add (Q := fun a b => EM T C a b ∨ EX T C a b)
    (Q' := fun a b => (HM T C a b ∨ HX T C a b) ∨ HR T C a b), cnt_add, cnt_add (Q := fun a b => HM T C a b ∨ HX T C a b), cnt_add,
    ← h1, ← h2, ← h3, ← h4, ← h5, Shd.total]
  · omega
  all_goals
    intro a b
    simp only [EM, EX, HM, HX, HR, PAdj]
    rcases edge_cases hT hbT a b with h | h | h | h <;> rcases edge_cases hC hbC a b with h' | h' | h' | h' <;>
      simp only [h.1, h.2.1, h.2.2.1, h.2.2.2, h'.1, h'.2.1, h'.2.2.1, h'.2.2.2] <;> decide

end Shd

/-! ### Skeleton measures -/

section Skel
variable {S : Finset α} {connT connC : α → α → Py Bool} {QT QC : α → α → Prop}

theorem counts_spec (o : SetOrder α) (hT : Answers S connT QT) (hC : Answers S connC QC) :
    ∃ c, (pairs (o.iter () S)).foldlM (countStep connT connC) ⟨0, 0, 0, 0, 0⟩ = .ok c ∧
      2 * c.tp = cnt S (fun a b => QC a b ∧ QT a b) ∧ 2 * c.fn = cnt S (fun a b => QC a b ∧ ¬ QT a b) ∧
      2 * c.fp = cnt S (fun a b => ¬ QC a b ∧ QT a b) ∧ 2 * c.tn = cnt S (fun a b => ¬ QC a b ∧ ¬ QT a b) ∧
      c.edges = c.tp + c.fn := by
  classical
  obtain ⟨c, h1, h2⟩ := foldlM_ok_inv (f := countStep connT connC) (fun dn c =>
      c = ⟨dn.countP (fun p => decide (QC p.1 p.2 ∧ QT p.1 p.2)), dn.countP (fun p => decide (QC p.1 p.2 ∧ ¬ QT p.1 p.2)),
        dn.countP (fun p => decide (¬ QC p.1 p.2 ∧ QT p.1 p.2)), dn.countP (fun p => decide (¬ QC p.1 p.2 ∧ ¬ QT p.1 p.2)),
        dn.countP (fun p => decide (QC p.1 p.2 ∧ QT p.1 p.2)) + dn.countP (fun p => decide (QC p.1 p.2 ∧ ¬ QT p.1 p.2))⟩)
      (pairs (o.iter () S)) [] ⟨0, 0, 0, 0, 0⟩ (by simp) (by
      rintro dn ⟨i, j⟩ s hp rfl
      have hi := (o.mem () S i).mp (mem_pairs_left hp)
      have hj := (o.mem () S j).mp (mem_pairs_right hp)
      have hij := mem_pairs_ne (o.nodup _ _) hp
      obtain ⟨bT, t1, t2⟩ := hT.2 i hi j hj hij
      obtain ⟨bC, c1, c2⟩ := hC.2 i hi j hj hij
      simp only [countStep]
      rw [py_bind c1]
      cases bC with
      | true =>
        have q := c2.mp rfl
        rw [if_pos rfl, py_bind t1]
        cases bT with
        | true =>
          have q' := t2.mp rfl
          refine ⟨_, rfl, ?_⟩
          simp [List.countP_append, q, q']
          omega
        | false =>
          have q' : ¬ QT i j := fun h => by have := t2.mpr h; simp at this
          refine ⟨_, rfl, ?_⟩
          simp [List.countP_append, q, q']
          omega
      | false =>
        have q : ¬ QC i j := fun h => by have := c2.mpr h; simp at this
        rw [if_neg (by decide), py_bind t1]
        cases bT with
        | true =>
          have q' := t2.mp rfl
          refine ⟨_, rfl, ?_⟩
          simp [List.countP_append, q, q']
        | false =>
          have q' : ¬ QT i j := fun h => by have := t2.mpr h; simp at this
          refine ⟨_, rfl, ?_⟩
          simp [List.countP_append, q, q'])
  rw [List.nil_append] at h2
  subst h2
  have sT : ∀ a b, QT a b ↔ QT b a := fun a b => ⟨hT.1 a b, hT.1 b a⟩
  have sC : ∀ a b, QC a b ↔ QC b a := fun a b => ⟨hC.1 a b, hC.1 b a⟩
  refine ⟨_, h1, ?_, ?_, ?_, ?_, rfl⟩
  · convert cnt_symm o S (Q := fun a b => QC a b ∧ QT a b) (fun a b h => by simp only [sT b a, sC b a]; exact h)
  · convert cnt_symm o S (Q := fun a b => QC a b ∧ ¬ QT a b) (fun a b h => by simp only [sT b a, sC b a]; exact h)
  · convert cnt_symm o S (Q := fun a b => ¬ QC a b ∧ QT a b) (fun a b h => by simp only [sT b a, sC b a]; exact h)
  · convert cnt_symm o S (Q := fun a b => ¬ QC a b ∧ ¬ QT a b) (fun a b h => by simp only [sT b a, sC b a]; exact h)

/-- The measures, in terms of the counts. -/
theorem ratios_spec {c : Counts} (he : c.edges = c.tp + c.fn) :
    (c.tp = 0 ∨ c.fp + c.tn = 0 → ratios c = .error .zeroDivision) ∧
    (c.tp ≠ 0 → c.fp + c.tn ≠ 0 → ratios c = .ok ⟨c.tp / (c.fp + c.tp), c.tp / (c.tp + c.fn),
      2 * c.tp / ((c.fp + c.tp) + (c.tp + c.fn)), c.fp / (c.fp + c.tn), c.fn / (c.tp + c.fn)⟩) := by
  have n0 : ∀ n : Nat, (n : ℚ) = 0 ↔ n = 0 := fun n => Nat.cast_eq_zero
  have pos : ∀ n : Nat, (0 : ℚ) ≤ n := fun n => Nat.cast_nonneg n
  have hsum : ∀ a b : Nat, ((a : ℚ) + b = 0 ↔ a + b = 0) := by
    intro a b
    rw [← Nat.cast_add, n0]
  constructor
  · intro h
    rw [ratios, pyDiv]
    by_cases h1 : (c.fp : ℚ) + c.tp = 0
    · rw [if_pos h1]; rfl
    rw [if_neg h1]
    simp only [bind, Except.bind]
    rw [pyDiv]
    by_cases h2 : (c.edges : ℚ) = 0
    · rw [if_pos h2]
    rw [if_neg h2]
    simp only
    rw [pyDiv]
    by_cases h3 : c.tp = 0
    · rw [if_pos (by rw [h3]; simp)]
    have h3' : (c.tp : ℚ) ≠ 0 := fun h => h3 ((n0 _).mp h)
    have p3 : (0 : ℚ) < c.tp := lt_of_le_of_ne (pos _) (Ne.symm h3')
    have p1 : (0 : ℚ) < (c.fp : ℚ) + c.tp := lt_of_lt_of_le p3 (by have := pos c.fp; linarith)
    have p2 : (0 : ℚ) < c.edges := lt_of_le_of_ne (pos _) (Ne.symm h2)
    rw [if_neg (by positivity)]
    simp only
    rw [pyDiv, if_pos ((hsum _ _).mpr (h.resolve_left h3))]
  · intro h3 h4
    have h3' : (c.tp : ℚ) ≠ 0 := fun h => h3 ((n0 _).mp h)
    have p3 : (0 : ℚ) < c.tp := lt_of_le_of_ne (pos _) (Ne.symm h3')
    have p1 : (0 : ℚ) < (c.fp : ℚ) + c.tp := lt_of_lt_of_le p3 (by have := pos c.fp; linarith)
    have p2 : (0 : ℚ) < (c.tp : ℚ) + c.fn := lt_of_lt_of_le p3 (by have := pos c.fn; linarith)
    have e2 : (c.edges : ℚ) = (c.tp : ℚ) + c.fn := by rw [he, Nat.cast_add]
    have h4' : (c.fp : ℚ) + c.tn ≠ 0 := fun h => h4 ((hsum _ _).mp h)
    rw [ratios, pyDiv, if_neg p1.ne']
    simp only [bind, Except.bind]
    rw [pyDiv, e2, if_neg p2.ne']
    simp only
    rw [pyDiv, if_neg (by positivity)]
    simp only
    rw [pyDiv, if_neg h4']
    simp only
    rw [pyDiv, if_neg (by rw [add_comm]; exact p2.ne')]
    simp only [pure, Except.pure, Except.ok.injEq, SkelAcc.mk.injEq, true_and]
    refine ⟨?_, by rw [add_comm (c.fn : ℚ)]⟩
    field_simp
    exact add_comm _ _

end Skel

/-! ### Orientation -/

section Orient
variable {T C : MG α}

theorem markStep_spec {m : Mark} {n : Nat} {a b : α} (hb : b ∈ C.nodes ∧ m ∈ C.types) (hb' : b ∈ T.nodes ∧ m ∈ T.types) :
    markStep T C m n (a, b) = .ok (n + if C.At a b m ∧ T.At a b m then 1 else 0) := by
  rw [markStep, lookup, if_pos hb]
  simp only [bind, Except.bind]
  by_cases h1 : a ∈ C.g b m
  · rw [if_pos h1, lookup, if_pos hb']
    simp only
    by_cases h2 : a ∈ T.g b m
    · rw [if_pos h2, if_pos ⟨h1, h2⟩]; rfl
    · rw [if_neg h2, if_neg (fun h => h2 h.2)]; rfl
  · rw [if_neg h1, if_neg (fun h => h1 h.1)]; rfl

open Classical in
theorem sum_marks (hC : C.Proper) (hnd : C.types.Nodup) (a b : α) :
    (C.types.map (fun m => if C.At a b m ∧ T.At a b m then 1 else 0)).sum = if ∃ m, C.At a b m ∧ T.At a b m then 1 else 0 := by
  classical
  have : ∀ l : List Mark, l.Nodup → (l.map (fun m => if C.At a b m ∧ T.At a b m then 1 else 0)).sum =
      if ∃ m ∈ l, C.At a b m ∧ T.At a b m then 1 else 0 := by
    intro l
    induction l with
    | nil => intro _; simp
    | cons m l ih =>
      intro hl
      rw [List.nodup_cons] at hl
      rw [List.map_cons, List.sum_cons, ih hl.2]
      by_cases h : C.At a b m ∧ T.At a b m
      · have hno : ¬ ∃ m' ∈ l, C.At a b m' ∧ T.At a b m' := by
          rintro ⟨m', hm', h'⟩
          rw [hC.one a b m m' h.1 h'.1] at hl
          exact hl.1 hm'
        rw [if_pos h, if_neg hno, if_pos ⟨m, by simp, h⟩]
      · rw [if_neg h, Nat.zero_add]
        congr 1
        simp [h]
  have e : (∃ m ∈ C.types, C.At a b m ∧ T.At a b m) ↔ ∃ m, C.At a b m ∧ T.At a b m :=
    ⟨fun ⟨m, _, h⟩ => ⟨m, h⟩, fun ⟨m, h⟩ => ⟨m, hC.type _ _ _ h.1, h⟩⟩
  have h0 := this C.types hnd
  simp only [e] at h0
  convert h0

open Classical in
theorem orientStep_spec (hC : C.Proper) (hnd : C.types.Nodup) (ht : ∀ m ∈ C.types, m ∈ T.types) (hn : C.nodes ⊆ T.nodes)
    {i j : α} (hi : i ∈ C.nodes) (hj : j ∈ C.nodes) (hij : i ≠ j) (acc : Nat × Nat) :
    ∃ b : Bool, (b = true ↔ C.MAdj i j) ∧ orientStep T C acc (i, j) = .ok (
      acc.1 + ((if ∃ m, C.At i j m ∧ T.At i j m then 1 else 0) + if ∃ m, C.At j i m ∧ T.At j i m then 1 else 0),
      acc.2 + if b then 2 else 0) := by
  classical
  obtain ⟨b, h1, h2⟩ := proper_isConnected hC.type hij
  refine ⟨b, h2, ?_⟩
  rw [orientStep, connK_eq hi hj, py_bind h1]
  cases b with
  | false =>
    have : ¬ C.MAdj i j := fun h => by have := h2.mpr h; simp at this
    have e1 : ¬ ∃ m, C.At i j m ∧ T.At i j m := fun ⟨m, h, _⟩ => this (Or.inl ⟨m, h⟩)
    have e2 : ¬ ∃ m, C.At j i m ∧ T.At j i m := fun ⟨m, h, _⟩ => this (Or.inr ⟨m, h⟩)
    simp only [Bool.false_eq_true, if_false, if_neg e1, if_neg e2]
    rfl
  | true =>
    simp only [if_true]
    have key : ∀ (l : List Mark) (n : Nat), (∀ m ∈ l, m ∈ C.types) → l.foldlM (fun n m => do
        let n ← markStep T C m n (i, j)
        markStep T C m n (j, i)) n = .ok (n + ((l.map (fun m => if C.At i j m ∧ T.At i j m then 1 else 0)).sum +
          (l.map (fun m => if C.At j i m ∧ T.At j i m then 1 else 0)).sum)) := by
      intro l
      induction l with
      | nil => intro n _; rfl
      | cons m l ih =>
        intro n hl
        have hm := hl m (by simp)
        rw [List.foldlM_cons, py_bind (markStep_spec ⟨hj, hm⟩ ⟨hn hj, ht m hm⟩),
          py_bind (markStep_spec ⟨hi, hm⟩ ⟨hn hi, ht m hm⟩), ih _ (fun m h => hl m (List.mem_cons_of_mem _ h))]
        congr 1
        simp only [List.map_cons, List.sum_cons]
        omega
    rw [py_bind (key C.types acc.1 (fun m h => h)), sum_marks hC hnd, sum_marks hC hnd]
    rfl

theorem orient_spec (o : SetOrder α) (hC : C.Proper) (hnd : C.types.Nodup) (ht : ∀ m ∈ C.types, m ∈ T.types)
    (hn : C.nodes ⊆ T.nodes) :
    (pairs (o.iter () C.nodes)).foldlM (orientStep T C) (0, 0) =
      .ok (cnt C.nodes (fun a b => ∃ m, C.At a b m ∧ T.At a b m), cnt C.nodes C.MAdj) := by
  classical
  obtain ⟨c, h1, h2⟩ := foldlM_ok_inv (f := orientStep T C) (fun dn c =>
      c = (dn.countP (fun p => decide (∃ m, C.At p.1 p.2 m ∧ T.At p.1 p.2 m)) +
        dn.countP (fun p => decide (∃ m, C.At p.2 p.1 m ∧ T.At p.2 p.1 m)),
        2 * dn.countP (fun p => decide (C.MAdj p.1 p.2)))) (pairs (o.iter () C.nodes)) [] (0, 0) (by simp) (by
      rintro dn ⟨i, j⟩ s hp rfl
      have hi := (o.mem () C.nodes i).mp (mem_pairs_left hp)
      have hj := (o.mem () C.nodes j).mp (mem_pairs_right hp)
      obtain ⟨b, g1, g2⟩ := orientStep_spec (T := T) hC hnd ht hn hi hj (mem_pairs_ne (o.nodup _ _) hp)
        (dn.countP (fun p => decide (∃ m, C.At p.1 p.2 m ∧ T.At p.1 p.2 m)) +
          dn.countP (fun p => decide (∃ m, C.At p.2 p.1 m ∧ T.At p.2 p.1 m)),
          2 * dn.countP (fun p => decide (C.MAdj p.1 p.2)))
      refine ⟨_, g2, ?_⟩
      simp only [List.countP_append, List.countP_cons, List.countP_nil, decide_eq_true_eq, ← g1]
      ext
      · simp only; omega
      · simp only
        cases b <;> simp; omega)
  rw [List.nil_append] at h2
  rw [h1, h2, cnt_symm o C.nodes (Q := C.MAdj) (fun a b h => h.symm), cnt_swap o C.nodes (fun a b => ∃ m, C.At a b m ∧ T.At a b m)]

end Orient

end Perf
end Verif
