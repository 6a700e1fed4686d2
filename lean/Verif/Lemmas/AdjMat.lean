import Verif.Lemmas.DagMisc

/-!
# Lemmas for adjacency matrices of DAGs and `UndirectedGraph.disconnect_node`
-/

namespace Verif
open Relation
variable {α : Type} [DecidableEq α]

/-- `[f(x) for x in l]` where `f` raises KeyError exactly outside `P`. -/
theorem mapM_key {β γ : Type} {f : β → Py γ} {P : β → Prop} {Q : β → γ → Prop}
    (hok : ∀ x, P x → ∃ y, f x = .ok y ∧ ∀ z, Q x z ↔ z = y) (herr : ∀ x, ¬ P x → f x = .error .keyError) :
    ∀ l : List β, ((∀ x ∈ l, P x) → ∃ ys, l.mapM f = .ok ys ∧ ∀ y, y ∈ ys ↔ ∃ x ∈ l, Q x y) ∧
      (¬ (∀ x ∈ l, P x) → l.mapM f = .error .keyError) := by
  intro l
  induction l with
  | nil => exact ⟨fun _ => ⟨[], rfl, by simp⟩, fun h => absurd (by simp) h⟩
  | cons a l ih =>
    simp only [List.mapM_cons]
    by_cases ha : P a
    · obtain ⟨y, hy, hyq⟩ := hok a ha
      rw [hy]
      constructor
      · intro h
        obtain ⟨ys, h1, h2⟩ := ih.1 (fun x hx => h x (List.mem_cons_of_mem _ hx))
        refine ⟨y :: ys, by rw [h1]; rfl, ?_⟩
        intro z
        simp only [List.mem_cons, h2, ← hyq, exists_eq_or_imp]
      · intro h
        rw [ih.2 (fun h' => h (by
          intro x hx
          rcases List.mem_cons.mp hx with rfl | hx
          · exact ha
          · exact h' x hx))]
        rfl
    · rw [herr a ha]
      exact ⟨fun h => absurd (h a (by simp)) ha, fun _ => rfl⟩

namespace Dag

theorem indexMap_none {x : α} : ∀ (l : List α) (i : Nat), indexMap l i x = none ↔ x ∉ l := by
  intro l
  induction l with
  | nil => intro i; simp [indexMap]
  | cons y ys ih =>
    intro i
    simp only [indexMap]
    cases h : indexMap ys (i + 1) x with
    | some k =>
      have : x ∈ ys := by by_contra h'; rw [(ih (i+1)).mpr h'] at h; cases h
      simp [this]
    | none =>
      have : x ∉ ys := (ih (i+1)).mp h
      by_cases hxy : x = y <;> simp [this, hxy]

theorem indexMap_some {x : α} {k : Nat} : ∀ (l : List α) (i : Nat), l.Nodup →
    (indexMap l i x = some k ↔ ∃ j, l[j]? = some x ∧ k = i + j) := by
  intro l
  induction l with
  | nil => intro i _; simp [indexMap]
  | cons y ys ih =>
    intro i hnd
    rw [List.nodup_cons] at hnd
    have ih := ih (i + 1) hnd.2
    simp only [indexMap]
    by_cases hx : x ∈ ys
    · have hxy : x ≠ y := by rintro rfl; exact hnd.1 hx
      have hne : indexMap ys (i+1) x ≠ none := fun h => (indexMap_none ys (i+1)).mp h hx
      obtain ⟨m, hm⟩ := Option.ne_none_iff_exists'.mp hne
      rw [hm] at ih ⊢
      simp only at ih ⊢
      rw [ih]
      constructor
      · rintro ⟨j, h1, h2⟩; exact ⟨j + 1, by simpa using h1, by omega⟩
      · rintro ⟨j, h1, h2⟩
        cases j with
        | zero => simp at h1; exact absurd h1.symm hxy
        | succ j => exact ⟨j, by simpa using h1, by omega⟩
    · rw [(indexMap_none ys (i+1)).mpr hx]
      simp only
      constructor
      · intro h
        split at h
        · rename_i hxy; subst hxy
          exact ⟨0, by simp, by simpa using h.symm⟩
        · cases h
      · rintro ⟨j, h1, h2⟩
        cases j with
        | zero => simp at h1; subst h1; simp [h2]
        | succ j => simp at h1; exact absurd (List.mem_of_getElem? h1) hx

theorem indexOf_ok {l : List α} (hnd : l.Nodup) {x : α} (hx : x ∈ l) :
    ∃ k, indexOf l x = .ok k ∧ ∀ j, l[j]? = some x ↔ j = k := by
  have hne : indexMap l 0 x ≠ none := fun h => (indexMap_none l 0).mp h hx
  obtain ⟨m, hm⟩ := Option.ne_none_iff_exists'.mp hne
  refine ⟨m, by simp [indexOf, hm], ?_⟩
  obtain ⟨j0, h1, h2⟩ := (indexMap_some l 0 hnd).mp hm
  have : m = j0 := by omega
  subst this
  intro j
  constructor
  · intro h
    have := (indexMap_some (k := j) l 0 hnd).mpr ⟨j, h, by omega⟩
    rw [this] at hm
    cases hm; rfl
  · rintro rfl; exact h1

theorem indexOf_ok' {l : List α} {x : α} (hx : x ∈ l) : ∃ k, indexOf l x = .ok k := by
  have hne : indexMap l 0 x ≠ none := fun h => (indexMap_none l 0).mp h hx
  obtain ⟨m, hm⟩ := Option.ne_none_iff_exists'.mp hne
  exact ⟨m, by simp [indexOf, hm]⟩

theorem indexOf_err {l : List α} {x : α} (hx : x ∉ l) : indexOf l x = .error .keyError := by
  simp [indexOf, (indexMap_none l 0).mpr hx]

open Classical in
/-- Entries of the matrix for a list closed under parents. -/
theorem getAdjMat_spec (o : SetOrder α) {G : Dag α} {l : List α} (hl : ∀ v ∈ l, v ∈ G.nodes) (hnd : l.Nodup)
    (hcl : ∀ v ∈ l, ∀ p ∈ G.par v, p ∈ l) :
    ∃ A, getAdjMat o G l = .ok A ∧
      ∀ r c, A r c = if ∃ a b, l[r]? = some a ∧ l[c]? = some b ∧ a ∈ G.par b then 1 else 0 := by
  have := foldlM_ok_inv (f := fun (A : Nat → Nat → Nat) v => do
      let ps ← (o.iter v (← G.parents v)).mapM (indexOf l)
      let j ← indexOf l v
      return fun r c => if r ∈ ps ∧ c = j then 1 else A r c)
    (fun done A => ∀ r c, A r c =
      if ∃ a b, l[r]? = some a ∧ l[c]? = some b ∧ a ∈ G.par b ∧ b ∈ done then 1 else 0) l [] (fun _ _ => 0)
    (by simp) (by
      intro done v A hv hA
      obtain ⟨ys, h1, h2⟩ := (mapM_key (f := indexOf l) (P := (· ∈ l)) (Q := fun x k => l[k]? = some x)
        (fun x hx => indexOf_ok hnd hx) (fun x hx => indexOf_err hx) (o.iter v (G.par v))).1
        (by intro x hx; rw [o.mem] at hx; exact hcl v hv x hx)
      obtain ⟨j, hj, hj'⟩ := indexOf_ok hnd hv
      refine ⟨fun r c => if r ∈ ys ∧ c = j then 1 else A r c, ?_, ?_⟩
      · simp only [parents_ok (hl v hv), bind, Except.bind]
        rw [h1]
        simp only [hj]; rfl
      · intro r c
        simp only [h2, o.mem, hA]
        by_cases h : (∃ x ∈ G.par v, l[r]? = some x) ∧ c = j
        · rw [if_pos h]
          obtain ⟨⟨x, hx, hr⟩, hc⟩ := h
          rw [if_pos ⟨x, v, hr, (hj' c).mpr hc, hx, by simp⟩]
        · rw [if_neg h]
          congr 1
          apply propext
          constructor
          · rintro ⟨a, b, h1, h2, h3, h4⟩; exact ⟨a, b, h1, h2, h3, by simp [h4]⟩
          · rintro ⟨a, b, k1, k2, k3, k4⟩
            rw [List.mem_append, List.mem_singleton] at k4
            rcases k4 with k4 | k4
            · exact ⟨a, b, k1, k2, k3, k4⟩
            · subst k4
              exact absurd ⟨⟨a, k3, k1⟩, (hj' c).mp k2⟩ h)
  obtain ⟨A, hA1, hA2⟩ := this
  refine ⟨A, ?_, ?_⟩
  · simp only [getAdjMat]
    rw [if_pos hl]
    exact hA1
  · intro r c
    rw [hA2]
    congr 1
    apply propext
    constructor
    · rintro ⟨a, b, h1, h2, h3, _⟩; exact ⟨a, b, h1, h2, h3⟩
    · rintro ⟨a, b, h1, h2, h3⟩; exact ⟨a, b, h1, h2, h3, by simp; exact List.mem_of_getElem? h2⟩

/-- A listed node with an unlisted parent makes the call raise KeyError. -/
theorem getAdjMat_keyError (o : SetOrder α) {G : Dag α} {l : List α} (hl : ∀ v ∈ l, v ∈ G.nodes)
    {v p : α} (hv : v ∈ l) (hp : p ∈ G.par v) (hpl : p ∉ l) :
    getAdjMat o G l = .error .keyError := by
  simp only [getAdjMat]
  rw [if_pos hl]
  have key : ∀ (l' : List α) (A : Nat → Nat → Nat), (∀ x ∈ l', x ∈ l) → v ∈ l' →
      l'.foldlM (fun A v => do
      let ps ← (o.iter v (← G.parents v)).mapM (indexOf l)
      let j ← indexOf l v
      return fun r c => if r ∈ ps ∧ c = j then 1 else A r c) A = (.error .keyError : Py (Nat → Nat → Nat)) := by
    intro l'
    induction l' with
    | nil => intro A _ h; simp at h
    | cons x l' ih =>
      intro A hsub hmem
      rw [List.foldlM_cons]
      have hmk := fun (f : α → Py Nat) h1 h2 => mapM_key (f := f) (P := (· ∈ l)) (Q := fun x k => indexOf l x = .ok k)
        h1 h2 (o.iter x (G.par x))
      have hmk := hmk (indexOf l) (fun x hx => by
        obtain ⟨k, hk⟩ := indexOf_ok' hx
        exact ⟨k, hk, fun z => by rw [hk]; constructor <;> intro h <;> simp_all⟩) (fun x hx => indexOf_err hx)
      have hx : x ∈ l := hsub x (by simp)
      obtain ⟨j, hj⟩ := indexOf_ok' hx
      by_cases hall : ∀ y ∈ o.iter x (G.par x), y ∈ l
      · obtain ⟨ys, h1, _⟩ := hmk.1 hall
        simp only [parents_ok (hl x hx), bind, Except.bind]
        rw [h1]
        simp only [hj, pure, Except.pure]
        apply ih
        · intro y hy; exact hsub y (List.mem_cons_of_mem _ hy)
        · rcases List.mem_cons.mp hmem with rfl | h
          · exact absurd (hall p (by rw [o.mem]; exact hp)) hpl
          · exact h
      · have := hmk.2 hall
        simp only [parents_ok (hl x hx), bind, Except.bind]
        rw [this]
  exact key l _ (fun x hx => hx) hv

theorem mem_nonzero {n : Nat} {A : Nat → Nat → Nat} {r c : Nat} :
    (r, c) ∈ nonzero n A ↔ r < n ∧ c < n ∧ A r c ≠ 0 := by
  simp [nonzero, and_assoc]

theorem initFromAdjMat_spec {G : Dag α} {A : Nat → Nat → Nat} {l : List α} (hl : ∀ v ∈ l, v ∈ G.nodes) :
    ∃ G' : Dag α, initFromAdjMat G l.length A l = .ok G' ∧ G'.nodes = G.nodes ∧
      ∀ a b, a ∈ G'.par b ↔ ∃ r c, l[r]? = some a ∧ l[c]? = some b ∧ A r c ≠ 0 := by
  have := foldlM_ok_inv (f := fun (G : Dag α) (pc : Nat × Nat) =>
      match l[pc.1]?, l[pc.2]? with
      | some p, some c => G.addEdges {p} c
      | _, _ => .error .indexError)
    (fun done G' => G'.nodes = G.nodes ∧
      ∀ a b, a ∈ G'.par b ↔ ∃ r c, l[r]? = some a ∧ l[c]? = some b ∧ (r, c) ∈ done)
    (nonzero l.length A) [] (Dag.empty G.nodes) ⟨rfl, by simp [Dag.empty]⟩ (by
      rintro done ⟨r, c⟩ G' hrc ⟨h1, h2⟩
      rw [mem_nonzero] at hrc
      have hr : l[r]? = some l[r] := List.getElem?_eq_getElem hrc.1
      have hc : l[c]? = some l[c] := List.getElem?_eq_getElem hrc.2.1
      simp only [hr, hc]
      have hn : l[r] ∈ G'.nodes := by rw [h1]; exact hl _ (List.getElem_mem _)
      have hn' : l[c] ∈ G'.nodes := by rw [h1]; exact hl _ (List.getElem_mem _)
      refine ⟨{ G' with par := modify G'.par l[c] (fun s => s ∪ {l[r]}) }, ?_, h1, ?_⟩
      · simp [addEdges, hn, hn']
      · intro a b
        simp only [modify, List.mem_append, List.mem_singleton, Prod.mk.injEq]
        by_cases hb : b = l[c]
        · rw [if_pos hb, Finset.mem_union, h2, Finset.mem_singleton]
          constructor
          · rintro (⟨r', c', h1, h2, h3⟩ | h)
            · exact ⟨r', c', h1, h2, Or.inl h3⟩
            · exact ⟨r, c, by rw [hr, h], by rw [hc, hb], Or.inr ⟨rfl, rfl⟩⟩
          · rintro ⟨r', c', h1, h2, h3 | ⟨rfl, rfl⟩⟩
            · exact Or.inl ⟨r', c', h1, h2, h3⟩
            · right; rw [hr] at h1; exact (Option.some.inj h1).symm
        · rw [if_neg hb, h2]
          constructor
          · rintro ⟨r', c', h1, h2, h3⟩; exact ⟨r', c', h1, h2, Or.inl h3⟩
          · rintro ⟨r', c', h1, h2, h3 | ⟨rfl, rfl⟩⟩
            · exact ⟨r', c', h1, h2, h3⟩
            · rw [hc] at h2; exact absurd (Option.some.inj h2).symm hb)
  obtain ⟨G', h1, h2, h3⟩ := this
  refine ⟨G', ?_, h2, ?_⟩
  · simp only [initFromAdjMat, if_true]; exact h1
  · intro a b
    rw [h3]
    simp only [List.nil_append, mem_nonzero]
    constructor
    · rintro ⟨r, c, h1, h2, h3⟩; exact ⟨r, c, h1, h2, h3.2.2⟩
    · rintro ⟨r, c, h1, h2, h3⟩
      exact ⟨r, c, h1, h2, (List.getElem?_eq_some_iff.mp h1).1, (List.getElem?_eq_some_iff.mp h2).1, h3⟩

end Dag

/-! ### disconnect_node -/
namespace UGraph

theorem disconnectNode_isolated (o : SetOrder α) {G : UGraph α} {v : α} (hv : v ∈ G.nodes) (h : G.adj v = ∅) :
    disconnectNode o G v = (G, .ok ()) := by
  have h0 : o.iter v (∅ : Finset α) = [] := by
    rw [List.eq_nil_iff_forall_not_mem]; intro a ha; rw [o.mem] at ha; simp at ha
  simp [disconnectNode, hv, h, h0, disconnectLoop]

theorem disconnectNode_raises (o : SetOrder α) {G : UGraph α} (hG : G.WF) {v : α} (hv : v ∈ G.nodes)
    (h : (G.adj v).Nonempty) :
    ∃ x ∈ G.adj v, ∃ G', G.removeEdge x v = .ok G' ∧ disconnectNode o G v = (G', .error .runtimeError) := by
  obtain ⟨y, hy⟩ := h
  rw [← o.mem v] at hy
  cases hl : o.iter v (G.adj v) with
  | nil => rw [hl] at hy; simp at hy
  | cons x xs =>
    have hx : x ∈ G.adj v := by rw [← o.mem v, hl]; simp
    have hxn : x ∈ G.nodes := (hG.mem _ _ hx).2
    refine ⟨x, hx, { G with adj := modify (modify G.adj x fun s => s.erase v) v (fun s => s.erase x) },
      by simp [removeEdge, hxn, hv], ?_⟩
    simp only [disconnectNode, hv, if_true, hl, disconnectLoop, removeEdge, hxn, not_true_eq_false, or_self, if_false]
    have hcard : (modify (modify G.adj x fun s => s.erase v) v (fun s => s.erase x) v).card ≠ (G.adj v).card := by
      simp only [modify, if_true]
      apply Nat.ne_of_lt
      apply Finset.card_lt_card
      rw [Finset.ssubset_iff_of_subset]
      · exact ⟨x, hx, by simp⟩
      · intro z hz
        rw [Finset.mem_erase] at hz
        split at hz
        · exact Finset.mem_of_mem_erase hz.2
        · exact hz.2
    cases xs with
    | nil => simp only [disconnectLoop]; rw [if_neg hcard]
    | cons z zs => simp only [disconnectLoop]; rw [if_neg hcard]

end UGraph
end Verif
