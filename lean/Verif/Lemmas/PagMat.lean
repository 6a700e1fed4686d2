import Verif.Lemmas.PagQuery
import Verif.Lemmas.AdjMat

/-!
# Adjacency matrices of PAGs
-/

namespace Verif
variable {α : Type} [DecidableEq α]

theorem foldlM_acc {β σ ι : Type} {f : σ → β → Py σ} {E : β → ι → Prop} (J : σ → (ι → Prop) → Prop) :
    ∀ (l : List β) (s : σ) (P : ι → Prop), J s P →
      (∀ x ∈ l, ∀ s P, J s P → ∃ s', f s x = .ok s' ∧ J s' (fun i => P i ∨ E x i)) →
      ∃ s', l.foldlM f s = .ok s' ∧ J s' (fun i => P i ∨ ∃ x ∈ l, E x i) := by
  intro l
  induction l with
  | nil => intro s P hs _; exact ⟨s, rfl, by simpa using hs⟩
  | cons x l ih =>
    intro s P hs h
    obtain ⟨s1, h1, h2⟩ := h x (by simp) s P hs
    obtain ⟨s2, h3, h4⟩ := ih s1 _ h2 (fun y hy => h y (List.mem_cons_of_mem _ hy))
    refine ⟨s2, by simp only [List.foldlM_cons, h1]; exact h3, ?_⟩
    simp only [List.mem_cons, exists_eq_or_imp, ← or_assoc]
    exact h4

namespace MG

theorem markOf_codeOf (m : Mark) : markOf (codeOf m) = some m := by cases m <;> rfl

theorem markOf_eq_some {k : Nat} {m : Mark} (h : markOf k = some m) : k = codeOf m := by
  unfold markOf at h
  split at h <;> first | (cases h; rfl) | cases h

theorem codeOf_inj {m m' : Mark} (h : codeOf m = codeOf m') : m = m' := by
  have := markOf_codeOf m
  rw [h, markOf_codeOf] at this
  exact (Option.some.inj this).symm

theorem codeOf_le (m : Mark) : 1 ≤ codeOf m ∧ codeOf m ≤ 3 := by cases m <;> decide

/-- The entries of `get_adj_mat`. -/
theorem pagAdjMat_spec (o : SetOrder α) {G : MG α} {l : List α} (hnd : l.Nodup) (hl : ∀ x, x ∈ l ↔ x ∈ G.nodes)
    (htype : ∀ a b m, G.At a b m → m ∈ G.types) (hmem : ∀ a b m, G.At a b m → a ∈ G.nodes ∧ b ∈ G.nodes) :
    ∃ A, pagAdjMat o G l = .ok A ∧ ∀ r c,
      (A r c = 0 ∧ (¬ ∃ a b m, l[r]? = some a ∧ l[c]? = some b ∧ G.At a b m)) ∨
      ∃ a b m, l[r]? = some a ∧ l[c]? = some b ∧ G.At a b m ∧ A r c = codeOf m := by
  let W : Nat → Nat → Nat → Prop := fun r c k => ∃ a b m, l[r]? = some a ∧ l[c]? = some b ∧ G.At a b m ∧ k = codeOf m
  let J : (Nat → Nat → Nat) → (Nat × Nat → Prop) → Prop := fun A P =>
    (∀ r c, A r c = 0 ∨ W r c (A r c)) ∧ ∀ rc, P rc → W rc.1 rc.2 (A rc.1 rc.2)
  have hinner : ∀ v ∈ G.nodes, ∀ m ∈ G.types, ∀ A P, J A P →
      ∃ A', (o.iter (v, m) (G.g v m)).foldlM (fun (A : Nat → Nat → Nat) p => do
        let r ← Dag.indexOf l p
        let c ← Dag.indexOf l v
        return fun r' c' => if r' = r ∧ c' = c then codeOf m else A r' c') A = .ok A' ∧
        J A' (fun rc => P rc ∨ ∃ p ∈ o.iter (v, m) (G.g v m), l[rc.1]? = some p ∧ l[rc.2]? = some v) := by
    intro v hv m _ A P hA
    refine foldlM_acc J _ A P hA ?_
    intro p hp A P hA
    have hp' : G.At p v m := (o.mem _ _ _).mp hp
    obtain ⟨r, hr1, hr2⟩ := Dag.indexOf_ok hnd ((hl p).mpr (hmem _ _ _ hp').1)
    obtain ⟨c, hc1, hc2⟩ := Dag.indexOf_ok hnd ((hl v).mpr hv)
    refine ⟨_, by simp only [hr1, hc1, bind, Except.bind]; rfl, ?_, ?_⟩
    · intro r' c'
      by_cases h : r' = r ∧ c' = c
      · right
        simp only [h, and_self, if_true]
        exact ⟨p, v, m, (hr2 _).2 rfl, (hc2 _).2 rfl, hp', rfl⟩
      · simp only [h, if_false]
        exact hA.1 r' c'
    · rintro ⟨r', c'⟩ h
      simp only at h ⊢
      by_cases h' : r' = r ∧ c' = c
      · simp only [h', and_self, if_true]
        exact ⟨p, v, m, (hr2 _).2 rfl, (hc2 _).2 rfl, hp', rfl⟩
      · simp only [h', if_false]
        rcases h with h | ⟨h1, h2⟩
        · exact hA.2 _ h
        · exact absurd ⟨(hr2 _).1 h1, (hc2 _).1 h2⟩ h'
  have hmid : ∀ v ∈ o.iter 0 G.nodes, ∀ A P, J A P →
      ∃ A', G.types.foldlM (fun A m =>
        (o.iter (v, m) (G.g v m)).foldlM (fun (A : Nat → Nat → Nat) p => do
        let r ← Dag.indexOf l p
        let c ← Dag.indexOf l v
        return fun r' c' => if r' = r ∧ c' = c then codeOf m else A r' c') A) A = .ok A' ∧
        J A' (fun rc => P rc ∨ ∃ m ∈ G.types, ∃ p ∈ o.iter (v, m) (G.g v m), l[rc.1]? = some p ∧ l[rc.2]? = some v) := by
    intro v hv A P hA
    exact foldlM_acc J _ A P hA (fun m hm A P hA => hinner v ((o.mem _ _ _).mp hv) m hm A P hA)
  obtain ⟨A, h1, h2⟩ := foldlM_acc J (o.iter 0 G.nodes) (fun _ _ => 0) (fun _ => False) ⟨by simp, by simp⟩ hmid
  refine ⟨A, h1, fun r c => ?_⟩
  by_cases h : ∃ a b m, l[r]? = some a ∧ l[c]? = some b ∧ G.At a b m
  · right
    obtain ⟨a, b, m, e1, e2, hab⟩ := h
    have := h2.2 (r, c) (Or.inr ⟨b, (o.mem _ _ _).2 (hmem _ _ _ hab).2, m, htype _ _ _ hab, a, (o.mem _ _ _).2 hab, e1, e2⟩)
    exact this
  · left
    refine ⟨?_, h⟩
    rcases h2.1 r c with h3 | ⟨a, b, m, e1, e2, hab, _⟩
    · exact h3
    · exact absurd ⟨a, b, m, e1, e2, hab⟩ h

/-- The marks written by `init_from_adj_mat`. -/
theorem fillFromAdjMat_spec (G : MG α) {n : Nat} (A : Nat → Nat → Nat) {l : List α} (hn : n ≤ l.length) :
    ∃ H, fillFromAdjMat (MG.empty G.nodes G.types) n A l = .ok H ∧ H.nodes = G.nodes ∧ H.types = G.types ∧
      ∀ a b m, H.At a b m ↔ ∃ i < n, ∃ j < n, l[i]? = some a ∧ l[j]? = some b ∧ A i j = codeOf m := by
  let J : MG α → (Nat × Nat → Prop) → Prop := fun H P => H.nodes = G.nodes ∧ H.types = G.types ∧
    ∀ a b m, H.At a b m ↔ ∃ i j, P (i, j) ∧ l[i]? = some a ∧ l[j]? = some b ∧ A i j = codeOf m
  obtain ⟨H, h1, h2⟩ := foldlM_acc (E := fun i ij => ∃ j ∈ List.range n, ij = (i, j)) (f := fun G i =>
    (List.range n).foldlM (fun (G : MG α) j =>
      match markOf (A i j) with
      | none => .ok G
      | some m =>
        match l[j]?, l[i]? with
        | some vj, some vi => .ok (G.upd vj m (insert vi))
        | _, _ => .error .indexError) G) J (List.range n) (MG.empty G.nodes G.types) (fun _ => False)
    ⟨rfl, rfl, by simp [MG.empty, At]⟩ (by
      intro i hi H P hJ
      refine foldlM_acc (E := fun j ij => ij = (i, j)) J (List.range n) H P hJ ?_
      intro j hj H P hJ
      rw [List.mem_range] at hi hj
      cases hm : markOf (A i j) with
      | none =>
        refine ⟨H, rfl, hJ.1, hJ.2.1, fun a b m => ?_⟩
        rw [hJ.2.2]
        constructor
        · rintro ⟨i', j', h, e⟩; exact ⟨i', j', Or.inl h, e⟩
        · rintro ⟨i', j', h | h, e1, e2, e3⟩
          · exact ⟨i', j', h, e1, e2, e3⟩
          · cases h
            rw [e3, markOf_codeOf] at hm
            cases hm
      | some m =>
        have hlj : l[j]? = some l[j] := List.getElem?_eq_getElem (by omega)
        have hli : l[i]? = some l[i] := List.getElem?_eq_getElem (by omega)
        simp only [hlj, hli]
        refine ⟨_, rfl, hJ.1, hJ.2.1, fun a b m' => ?_⟩
        have hat : (H.upd l[j] m (insert l[i])).At a b m' ↔ (b = l[j] ∧ m' = m ∧ a = l[i]) ∨ H.At a b m' := by
          simp only [upd, At]
          split_ifs with h
          · simp [h]
          · constructor
            · exact Or.inr
            · rintro (⟨h1, h2, _⟩ | h1)
              · exact absurd ⟨h1, h2⟩ h
              · exact h1
        rw [hat, hJ.2.2]
        constructor
        · rintro (⟨rfl, rfl, rfl⟩ | ⟨i', j', h, e⟩)
          · exact ⟨i, j, Or.inr rfl, hli, hlj, markOf_eq_some hm⟩
          · exact ⟨i', j', Or.inl h, e⟩
        · rintro ⟨i', j', h | h, e1, e2, e3⟩
          · exact Or.inr ⟨i', j', h, e1, e2, e3⟩
          · cases h
            rw [hli] at e1
            rw [hlj] at e2
            rw [markOf_eq_some hm] at e3
            exact Or.inl ⟨(Option.some.inj e2).symm, (codeOf_inj e3).symm, (Option.some.inj e1).symm⟩)
  refine ⟨H, h1, h2.1, h2.2.1, fun a b m => ?_⟩
  rw [h2.2.2]
  simp only [false_or, List.mem_range]
  constructor
  · rintro ⟨i, j, ⟨i', hi, j', hj, e⟩, k⟩
    cases e
    exact ⟨i, hi, j, hj, k⟩
  · rintro ⟨i, hi, j, hj, k⟩
    exact ⟨i, j, ⟨i, hi, j, hj, rfl⟩, k⟩

end MG
end Verif
