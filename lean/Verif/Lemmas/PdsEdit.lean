import Verif.Lemmas.PdsTree
import Verif.Lemmas.PagRules3

/-!
# Lemmas for building PDS trees
-/

namespace Verif
variable {α : Type} [DecidableEq α]

namespace PdsTree

omit [DecidableEq α] in
theorem Wf.depths {t : PdsTree α} (h : t.Wf) : ∀ c ∈ t.children, c.depth = t.depth + 1 := by
  cases h with | mk _ _ _ h1 _ _ => exact h1

omit [DecidableEq α] in
theorem Wf.distinct {t : PdsTree α} (h : t.Wf) : (t.children.map origin).Nodup := by
  cases h with | mk _ _ _ _ h2 _ => exact h2

omit [DecidableEq α] in
theorem Wf.child {t : PdsTree α} (h : t.Wf) : ∀ c ∈ t.children, c.Wf := by
  cases h with | mk _ _ _ _ _ h3 => exact h3

omit [DecidableEq α] in
theorem eq_node (t : PdsTree α) : t = node t.origin t.depth t.children := by cases t; rfl

omit [DecidableEq α] in
theorem child_unique {cs : List (PdsTree α)} (h : (cs.map origin).Nodup) {c c' : PdsTree α} (hc : c ∈ cs) (hc' : c' ∈ cs)
    (e : c.origin = c'.origin) : c = c' := List.inj_on_of_nodup_map h hc hc' e

theorem getChildBranch_ok {t c : PdsTree α} (h : (t.children.map origin).Nodup) (hc : c ∈ t.children) :
    t.getChildBranch c.origin = .ok c := by
  rw [getChildBranch]
  cases hf : t.children.find? (fun c' => decide (c'.origin = c.origin)) with
  | none =>
    rw [List.find?_eq_none] at hf
    exact absurd (by simp) (hf c hc)
  | some c' =>
    have h1 := List.find?_some hf
    have h2 := List.mem_of_find?_eq_some hf
    rw [child_unique h h2 hc (by simpa using h1)]

theorem getChildBranch_err {t : PdsTree α} {v : α} (h : ∀ c ∈ t.children, c.origin ≠ v) :
    t.getChildBranch v = .error .valueError := by
  rw [getChildBranch, List.find?_eq_none.mpr (by simpa using h)]

theorem addBranch_ok {t : PdsTree α} {v : α} (h : ∀ c ∈ t.children, c.origin ≠ v) :
    t.addBranch v = .ok (node t.origin t.depth (t.children ++ [node v (t.depth + 1) []])) := by
  rw [addBranch, if_neg]
  simpa using h

theorem addBranch_err {t c : PdsTree α} (h : c ∈ t.children) : t.addBranch c.origin = .error .valueError := by
  rw [addBranch, if_pos]
  rw [List.any_eq_true]
  exact ⟨c, h, by simp⟩

omit [DecidableEq α] in
theorem leaf_wf (v : α) (d : Nat) : (node v d []).Wf := .mk _ _ _ (by simp) (by simp) (by simp)

omit [DecidableEq α] in
theorem not_branch_leaf {v x : α} {d : Nat} {l : List α} : ¬ IsBranch (node v d []) (x :: l) := by
  rw [isBranch_cons]
  rintro ⟨c, hc, -⟩
  simp [children] at hc

omit [DecidableEq α] in
theorem addBranch_wf {t : PdsTree α} (ht : t.Wf) {v : α} (h : ∀ c ∈ t.children, c.origin ≠ v) :
    (node t.origin t.depth (t.children ++ [node v (t.depth + 1) []])).Wf := by
  refine .mk _ _ _ ?_ ?_ ?_
  · intro c hc
    rcases List.mem_append.mp hc with hc | hc
    · exact ht.depths c hc
    · rw [List.mem_singleton.mp hc]; rfl
  · rw [List.map_append, List.nodup_append]
    refine ⟨ht.distinct, by simp, ?_⟩
    intro a ha b hb hab
    obtain ⟨c, hc, rfl⟩ := List.mem_map.mp ha
    simp only [List.map_cons, List.map_nil, List.mem_singleton, origin] at hb
    exact h c hc (hab.trans hb)
  · intro c hc
    rcases List.mem_append.mp hc with hc | hc
    · exact ht.child c hc
    · rw [List.mem_singleton.mp hc]; exact leaf_wf _ _

omit [DecidableEq α] in
theorem addBranch_branch {t : PdsTree α} {v : α} {l : List α} :
    IsBranch (node t.origin t.depth (t.children ++ [node v (t.depth + 1) []])) l ↔ IsBranch t l ∨ l = [v] := by
  cases l with
  | nil => exact ⟨fun _ => Or.inl (.nil _), fun _ => .nil _⟩
  | cons x l =>
    rw [isBranch_cons, isBranch_cons]
    constructor
    · rintro ⟨c, hc, h1, h2⟩
      rcases List.mem_append.mp hc with hc | hc
      · exact Or.inl ⟨c, hc, h1, h2⟩
      · rw [List.mem_singleton.mp hc] at h1 h2
        right
        cases l with
        | nil => rw [← h1]; rfl
        | cons y l => exact absurd h2 not_branch_leaf
    · rintro (⟨c, hc, h⟩ | h)
      · exact ⟨c, List.mem_append.mpr (Or.inl hc), h⟩
      · obtain ⟨rfl, rfl⟩ := List.cons.inj h
        exact ⟨_, List.mem_append.mpr (Or.inr (List.mem_singleton.mpr rfl)), rfl, .nil _⟩

theorem subtreeAt_ok : ∀ {ref : List α} {t : PdsTree α}, t.Wf → IsBranch t ref →
    ∃ s, subtreeAt ref t = .ok s ∧ s.depth = t.depth + ref.length
  | [], t, _, _ => ⟨t, rfl, rfl⟩
  | p :: ps, t, ht, h => by
    obtain ⟨c, hc, rfl, h'⟩ := isBranch_cons.mp h
    obtain ⟨s, h1, h2⟩ := subtreeAt_ok (ht.child c hc) h'
    refine ⟨s, by rw [subtreeAt, py_bind (getChildBranch_ok ht.distinct hc)]; exact h1, ?_⟩
    rw [h2, ht.depths c hc, List.length_cons]
    omega

theorem modifyChild_ok {p : α} {f : PdsTree α → Py (PdsTree α)} {c c' : PdsTree α} (hf : f c = .ok c')
    (hp : c.origin = p) (hp' : c'.origin = p) :
    ∀ {cs : List (PdsTree α)}, (cs.map origin).Nodup → c ∈ cs →
      ∃ cs', modifyChild p f cs = .ok cs' ∧ cs'.map origin = cs.map origin ∧
        ∀ x, x ∈ cs' ↔ x = c' ∨ (x ∈ cs ∧ x.origin ≠ p)
  | [], _, hc => by simp at hc
  | y :: cs, hnd, hc => by
    rw [List.map_cons, List.nodup_cons] at hnd
    rw [modifyChild]
    by_cases hy : y.origin = p
    · have : c = y := by
        rcases List.mem_cons.mp hc with h | h
        · exact h
        · exact absurd (List.mem_map_of_mem (f := origin) h) (by rw [hp, ← hy]; exact hnd.1)
      subst this
      refine ⟨c' :: cs, by rw [if_pos hy, py_bind hf]; rfl, by simp [hp, hp'], ?_⟩
      intro x
      simp only [List.mem_cons]
      constructor
      · rintro (h | h)
        · exact Or.inl h
        · refine Or.inr ⟨Or.inr h, fun e => hnd.1 ?_⟩
          rw [hy, ← e]
          exact List.mem_map_of_mem h
      · rintro (h | ⟨rfl | h, hne⟩)
        · exact Or.inl h
        · exact absurd hy hne
        · exact Or.inr h
    · have hc' : c ∈ cs := by
        rcases List.mem_cons.mp hc with h | h
        · exact absurd (h ▸ hp) hy
        · exact h
      obtain ⟨cs', h1, h2, h3⟩ := modifyChild_ok hf hp hp' hnd.2 hc'
      refine ⟨y :: cs', by rw [if_neg hy, py_bind h1]; rfl, by simp [h2], ?_⟩
      intro x
      simp only [List.mem_cons, h3]
      constructor
      · rintro (rfl | h | h)
        · exact Or.inr ⟨Or.inl rfl, hy⟩
        · exact Or.inl h
        · exact Or.inr ⟨Or.inr h.1, h.2⟩
      · rintro (h | ⟨rfl | h, hne⟩)
        · exact Or.inr (Or.inl h)
        · exact Or.inl rfl
        · exact Or.inr (Or.inr ⟨h, hne⟩)

theorem addBranchAt_ok {v : α} : ∀ {ref : List α} {t : PdsTree α}, t.Wf → IsBranch t ref → ¬ IsBranch t (ref ++ [v]) →
    ∃ t', addBranchAt v ref t = .ok t' ∧ t'.Wf ∧ t'.origin = t.origin ∧ t'.depth = t.depth ∧
      ∀ l, IsBranch t' l ↔ IsBranch t l ∨ l = ref ++ [v]
  | [], t, ht, _, hn => by
    have h : ∀ c ∈ t.children, c.origin ≠ v := fun c hc e => hn (isBranch_cons.mpr ⟨c, hc, e, .nil _⟩)
    exact ⟨_, addBranch_ok h, addBranch_wf ht h, rfl, rfl, fun l => addBranch_branch⟩
  | p :: ps, node a d cs, ht, hb, hn => by
    obtain ⟨c, hc, rfl, hb'⟩ := isBranch_cons.mp hb
    obtain ⟨c', h1, h2, h3, h4, h5⟩ := addBranchAt_ok (v := v) (ht.child c hc) hb'
      (fun h => hn (isBranch_cons.mpr ⟨c, hc, rfl, h⟩))
    obtain ⟨cs', g1, g2, g3⟩ := modifyChild_ok h1 rfl h3 ht.distinct hc
    have hdist := ht.distinct
    refine ⟨node a d cs', (py_bind g1 _).trans rfl, ?_, rfl, rfl, ?_⟩
    · refine .mk _ _ _ ?_ (by rw [g2]; exact ht.distinct) ?_
      · intro x hx
        rcases (g3 x).mp hx with rfl | ⟨hx, -⟩
        · rw [h4]; exact ht.depths c hc
        · exact ht.depths x hx
      · intro x hx
        rcases (g3 x).mp hx with rfl | ⟨hx, -⟩
        · exact h2
        · exact ht.child x hx
    · intro l
      cases l with
      | nil => exact ⟨fun _ => Or.inl (.nil _), fun _ => .nil _⟩
      | cons x l =>
        rw [isBranch_cons, isBranch_cons]
        constructor
        · rintro ⟨y, hy, rfl, hy'⟩
          rcases (g3 y).mp hy with rfl | ⟨hy, -⟩
          · rcases (h5 l).mp hy' with h | h
            · exact Or.inl ⟨c, hc, h3.symm, h⟩
            · right; rw [h3, h]; rfl
          · exact Or.inl ⟨y, hy, rfl, hy'⟩
        · rintro (⟨y, hy, rfl, hy'⟩ | h)
          · by_cases e : y.origin = c.origin
            · have : y = c := child_unique hdist hy hc e
              subst this
              exact ⟨c', (g3 c').mpr (Or.inl rfl), h3, (h5 l).mpr (Or.inl hy')⟩
            · exact ⟨y, (g3 y).mpr (Or.inr ⟨hy, e⟩), rfl, hy'⟩
          · obtain ⟨rfl, rfl⟩ := List.cons.inj h
            exact ⟨c', (g3 c').mpr (Or.inl rfl), h3, (h5 _).mpr (Or.inr rfl)⟩

end PdsTree

/-! ### the undirected graph of the search -/

namespace UGraph

theorem removeEdge_spec {A : UGraph α} {i j : α} (hi : i ∈ A.nodes) (hj : j ∈ A.nodes) :
    ∃ A', A.removeEdge i j = .ok A' ∧ A'.nodes = A.nodes ∧
      ∀ a b, b ∈ A'.adj a ↔ b ∈ A.adj a ∧ ¬ (a = i ∧ b = j) ∧ ¬ (a = j ∧ b = i) := by
  refine ⟨_, if_neg (by simp [hi, hj]), rfl, ?_⟩
  intro a b
  simp only [modify]
  split_ifs <;> (try simp only [Finset.mem_erase]) <;> tauto

theorem isConnected_ok {A : UGraph α} {i j : α} (hi : i ∈ A.nodes) (hj : j ∈ A.nodes) :
    ∃ b, A.isConnected i j = .ok b ∧ (b = true ↔ i ∈ A.adj j ∨ j ∈ A.adj i) := by
  simp only [isConnected, get, hi, hj, if_true, bind, Except.bind]
  by_cases h : i ∈ A.adj j
  · exact ⟨true, by simp [h]; rfl, by simp [h]⟩
  · exact ⟨decide (j ∈ A.adj i), by simp [h]; rfl, by simp [h]⟩

theorem filterPy_sublist {β : Type} {p : β → Py Bool} : ∀ {l S : List β}, filterPy p l = .ok S → S.Sublist l
  | [], S, h => by cases h; exact List.Sublist.refl _
  | x :: l, S, h => by
    rw [filterPy] at h
    cases hb : p x with
    | error e => rw [py_bind_err hb] at h; cases h
    | ok b =>
      rw [py_bind hb] at h
      cases hs : filterPy p l with
      | error e => rw [py_bind_err hs] at h; cases h
      | ok S' =>
        rw [py_bind hs] at h
        have ih := filterPy_sublist hs
        cases h
        cases b
        · exact ih.cons _
        · exact ih.cons_cons _

theorem getNeighbors_spec (o : SetOrder α) {A : UGraph α} (hs : ∀ a b, b ∈ A.adj a → a ∈ A.adj b)
    (hm : ∀ a b, b ∈ A.adj a → b ∈ A.nodes ∧ a ≠ b) {v : α} (hv : v ∈ A.nodes) :
    ∃ l, A.getNeighbors o v = .ok l ∧ l.Nodup ∧ ∀ w, w ∈ l ↔ w ∈ A.adj v := by
  obtain ⟨S, h1, h2⟩ := Verif.filterPy_spec (p := fun w => A.isConnected v w) (P := fun w => v ∈ A.adj w ∨ w ∈ A.adj v)
    (o.iter (v, A.adj) (A.nodes \ {v})) (by
      intro x hx
      rw [o.mem, Finset.mem_sdiff] at hx
      exact isConnected_ok hv hx.1)
  refine ⟨S, h1, (o.nodup _ _).sublist (filterPy_sublist h1), ?_⟩
  intro w
  rw [h2, o.mem, Finset.mem_sdiff, Finset.mem_singleton]
  constructor
  · rintro ⟨-, h | h⟩
    · exact hs _ _ h
    · exact h
  · intro h
    exact ⟨⟨(hm _ _ h).1, (hm _ _ h).2.symm⟩, Or.inr h⟩

end UGraph

theorem MG.isPossibleCollider_spec {G : MG α} (hT : ∀ a b m, G.At a b m → m ∈ G.types) {x m y : α} (h1 : x ≠ m)
    (h2 : m ≠ y) : ∃ b, G.isPossibleCollider x m y = .ok b ∧ (b = true ↔ G.PdsTriple x m y) := by
  rw [isPossibleCollider]
  by_cases hxy : x = y
  · refine ⟨false, by rw [if_pos hxy]; rfl, ?_⟩
    simp [PdsTriple, hxy]
  · rw [if_neg hxy]
    obtain ⟨b1, e1, f1⟩ := proper_isConnected hT h1
    obtain ⟨b2, e2, f2⟩ := proper_isConnected hT h2
    obtain ⟨b3, e3, f3⟩ := proper_isConnected hT hxy
    simp only [e1, e2, e3, bind, Except.bind]
    cases b1 with
    | false => exact ⟨false, rfl, by simp only [Bool.false_eq_true, false_iff] at f1 ⊢; exact fun h => f1 h.2.1⟩
    | true =>
      cases b2 with
      | false => exact ⟨false, rfl, by simp only [Bool.false_eq_true, false_iff] at f2 ⊢; exact fun h => f2 h.2.2.1⟩
      | true =>
        cases b3 with
        | true => exact ⟨true, rfl, by simp only [true_iff] at *; exact ⟨hxy, f1, f2, Or.inl f3⟩⟩
        | false =>
          refine ⟨G.isCollider m x y, rfl, ?_⟩
          simp only [true_iff, Bool.false_eq_true, false_iff] at f1 f2 f3
          simp only [isCollider, decide_eq_true_eq, PdsTriple]
          exact ⟨fun h => ⟨hxy, f1, f2, Or.inr h⟩, fun h => h.2.2.2.resolve_left f3⟩

end Verif
