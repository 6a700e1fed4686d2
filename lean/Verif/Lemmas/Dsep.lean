import Verif.Lemmas.Reach
import Verif.Lemmas.Moral
import Verif.Lemmas.PySet

/-!
# Correctness of `get_ancestors` and `dsep`
-/

namespace Verif
open Relation
variable {α : Type} [DecidableEq α]

theorem foldlM_ok_inv {β σ : Type} {f : σ → β → Py σ} (I : List β → σ → Prop) :
    ∀ (l : List β) (done : List β) (s : σ), I done s →
      (∀ done x s, x ∈ l → I done s → ∃ s', f s x = .ok s' ∧ I (done ++ [x]) s') →
      ∃ s', l.foldlM f s = .ok s' ∧ I (done ++ l) s' := by
  intro l
  induction l with
  | nil => intro done s h _; exact ⟨s, rfl, by simpa using h⟩
  | cons x l ih =>
    intro done s h hstep
    obtain ⟨s1, h1, h2⟩ := hstep done x s (by simp) h
    obtain ⟨s2, h3, h4⟩ := ih (done ++ [x]) s1 h2 (fun d y s hy hI => hstep d y s (List.mem_cons_of_mem _ hy) hI)
    refine ⟨s2, ?_, by simpa using h4⟩
    rw [List.foldlM_cons, h1]; exact h3

theorem foldlM_union {β : Type} {f : β → Py (Finset α)} {P : β → α → Prop} (l : List β) (acc : Finset α)
    (h : ∀ z ∈ l, ∃ S, f z = .ok S ∧ ∀ x, x ∈ S ↔ P z x) :
    ∃ T, l.foldlM (fun acc z => do return acc ∪ (← f z)) acc = .ok T ∧
      ∀ x, x ∈ T ↔ x ∈ acc ∨ ∃ z ∈ l, P z x := by
  obtain ⟨T, h1, h2⟩ := foldlM_ok_inv (f := fun (acc : Finset α) z => do return acc ∪ (← f z))
    (fun done (s : Finset α) => ∀ x, x ∈ s ↔ x ∈ acc ∨ ∃ z ∈ done, P z x) l [] acc (by simp)
    (by
      intro done z s hz hI
      obtain ⟨S, hS, hS'⟩ := h z hz
      refine ⟨s ∪ S, by simp [hS, bind, Except.bind, pure, Except.pure], ?_⟩
      intro x
      simp only [Finset.mem_union, hI, hS', List.mem_append, List.mem_singleton]
      constructor
      · rintro ((h | ⟨z', h1, h2⟩) | h)
        · exact Or.inl h
        · exact Or.inr ⟨z', Or.inl h1, h2⟩
        · exact Or.inr ⟨z, Or.inr rfl, h⟩
      · rintro (h | ⟨z', h1 | rfl, h2⟩)
        · exact Or.inl (Or.inl h)
        · exact Or.inl (Or.inr ⟨z', h1, h2⟩)
        · exact Or.inr h2)
  exact ⟨T, h1, by simpa using h2⟩

namespace Dag

/-- Paths into `v` whose nodes other than the last are in `C`. -/
def PathIn (G : Dag α) (C : Finset α) (x v : α) : Prop := ReflTransGen (fun a b => G.Edge a b ∧ a ∈ C) x v

omit [DecidableEq α] in
theorem pathIn_dpath {G : Dag α} {C : Finset α} {x v : α} (h : G.PathIn C x v) : G.DPath x v :=
  rtg_mono (fun _ _ h => h.1) h

theorem getAncestorsFuel_spec (o : SetOrder α) {G : Dag α} (hG : G.WF) :
    ∀ (n : Nat) (v : α) (C : Finset α), v ∈ G.nodes → C.card < n →
      ∃ S, getAncestorsFuel o G n v C = .ok S ∧ ∀ x, x ∈ S ↔ G.PathIn C x v := by
  intro n
  induction n with
  | zero => intro v C _ h; exact absurd h (Nat.not_lt_zero _)
  | succ n ih =>
    intro v C hv hC
    simp only [getAncestorsFuel, parents_ok hv, bind, Except.bind, pure, Except.pure]
    by_cases h0 : (G.par v ∩ C).card = 0
    · refine ⟨{v}, by simp [h0], ?_⟩
      intro x
      rw [Finset.mem_singleton]
      constructor
      · rintro rfl; exact ReflTransGen.refl
      · intro hp
        rcases ReflTransGen.cases_tail hp with h1 | ⟨c, _, hc⟩
        · exact h1.symm
        · rw [Finset.card_eq_zero] at h0
          have : c ∈ G.par v ∩ C := Finset.mem_inter.mpr hc
          simp [h0] at this
    · simp only [h0, if_false]
      have hlt : (C \ (G.par v ∩ C)).card < n := by
        have h1 : (C \ (G.par v ∩ C)).card + (G.par v ∩ C).card = C.card :=
          Finset.card_sdiff_add_card_eq_card Finset.inter_subset_right
        omega
      obtain ⟨T, hT, hT'⟩ := foldlM_union (f := fun p => getAncestorsFuel o G n p (C \ (G.par v ∩ C)))
        (P := fun p x => G.PathIn (C \ (G.par v ∩ C)) x p) (o.iter (v, C) (G.par v ∩ C)) ∅ (by
          intro p hp
          rw [o.mem, Finset.mem_inter] at hp
          exact ih p _ (hG _ _ hp.1).1 hlt)
      refine ⟨insert v T, ?_, ?_⟩
      · simp only [bind, Except.bind, pure, Except.pure] at hT
        rw [hT]
      · intro x
        rw [Finset.mem_insert, hT']
        simp only [Finset.notMem_empty, false_or, o.mem]
        constructor
        · rintro (rfl | ⟨p, hp, hxp⟩)
          · exact ReflTransGen.refl
          · refine ReflTransGen.tail (rtg_mono ?_ hxp) (Finset.mem_inter.mp hp)
            rintro a b ⟨h1, h2⟩
            exact ⟨h1, (Finset.mem_sdiff.mp h2).1⟩
        · intro hp
          induction hp using ReflTransGen.head_induction_on with
          | refl => exact Or.inl rfl
          | @head a c hac _ ih2 =>
            right
            rcases ih2 with rfl | ⟨p, hp, hcp⟩
            · exact ⟨a, Finset.mem_inter.mpr hac, ReflTransGen.refl⟩
            · by_cases ha : a ∈ G.par v ∩ C
              · exact ⟨a, ha, ReflTransGen.refl⟩
              · exact ⟨p, hp, ReflTransGen.head ⟨hac.1, Finset.mem_sdiff.mpr ⟨hac.2, ha⟩⟩ hcp⟩

theorem getAncestors_spec (o : SetOrder α) {G : Dag α} (hG : G.WF) {v : α} (hv : v ∈ G.nodes) :
    ∃ S, getAncestors o G v = .ok S ∧ ∀ x, x ∈ S ↔ G.DPath x v := by
  obtain ⟨S, h1, h2⟩ := getAncestorsFuel_spec o hG (G.nodes.card + 1) v G.nodes hv (Nat.lt_succ_self _)
  refine ⟨S, h1, fun x => ?_⟩
  rw [h2]
  constructor
  · exact pathIn_dpath
  · exact rtg_mono (fun a b h => ⟨h, (hG _ _ h).1⟩)

theorem dsepAncestors_spec (o : SetOrder α) {G : Dag α} (hG : G.WF) {i j : α} (hi : i ∈ G.nodes) (hj : j ∈ G.nodes)
    {Z : Finset α} (hZ : Z ⊆ G.nodes) :
    ∃ S, dsepAncestors o G i j Z = .ok S ∧ ∀ x, x ∈ S ↔ ∃ w, (w = i ∨ w = j ∨ w ∈ Z) ∧ G.DPath x w := by
  obtain ⟨Si, hi1, hi2⟩ := getAncestors_spec o hG hi
  obtain ⟨Sj, hj1, hj2⟩ := getAncestors_spec o hG hj
  obtain ⟨T, hT, hT'⟩ := foldlM_union (f := fun z => getAncestors o G z) (P := fun z x => G.DPath x z)
    (o.iter (i, j) Z) (Si ∪ Sj) (by
      intro z hz
      rw [o.mem] at hz
      exact getAncestors_spec o hG (hZ hz))
  refine ⟨T, ?_, ?_⟩
  · simp only [bind, Except.bind, pure, Except.pure] at hT
    simp only [dsepAncestors, hi1, hj1, bind, Except.bind, pure, Except.pure]
    exact hT
  · intro x
    rw [hT']
    simp only [Finset.mem_union, hi2, hj2, o.mem]
    constructor
    · rintro ((h | h) | ⟨z, hz, h⟩)
      · exact ⟨i, by simp, h⟩
      · exact ⟨j, by simp, h⟩
      · exact ⟨z, by simp [hz], h⟩
    · rintro ⟨w, rfl | rfl | hw, h⟩
      · exact Or.inl (Or.inl h)
      · exact Or.inl (Or.inr h)
      · exact Or.inr ⟨w, hw, h⟩

/-! ### The moral graph -/

theorem foldlM_ugraph {β : Type} {f : UGraph α → β → Py (UGraph α)} {E : β → α → α → Prop} {N : Finset α}
    (l : List β) (M : UGraph α) (hM : M.nodes = N)
    (h : ∀ x ∈ l, ∀ M : UGraph α, M.nodes = N →
      ∃ M' : UGraph α, f M x = .ok M' ∧ M'.nodes = N ∧ ∀ a b, b ∈ M'.adj a ↔ b ∈ M.adj a ∨ E x a b) :
    ∃ M' : UGraph α, l.foldlM f M = .ok M' ∧ M'.nodes = N ∧
      ∀ a b, b ∈ M'.adj a ↔ b ∈ M.adj a ∨ ∃ x ∈ l, E x a b := by
  obtain ⟨M', h1, h2, h3⟩ := foldlM_ok_inv (f := f)
    (fun done (s : UGraph α) => s.nodes = N ∧ ∀ a b, b ∈ s.adj a ↔ b ∈ M.adj a ∨ ∃ x ∈ done, E x a b)
    l [] M ⟨hM, by simp⟩ (by
      rintro done x s hx ⟨hn, hI⟩
      obtain ⟨s', h1, h2, h3⟩ := h x hx s hn
      refine ⟨s', h1, h2, ?_⟩
      intro a b
      rw [h3, hI]
      simp only [List.mem_append, List.mem_singleton]
      constructor
      · rintro ((h | ⟨z', h1, h2⟩) | h)
        · exact Or.inl h
        · exact Or.inr ⟨z', Or.inl h1, h2⟩
        · exact Or.inr ⟨x, Or.inr rfl, h⟩
      · rintro (h | ⟨z', h1 | rfl, h2⟩)
        · exact Or.inl (Or.inl h)
        · exact Or.inl (Or.inr ⟨z', h1, h2⟩)
        · exact Or.inr h2)
  exact ⟨M', h1, h2, by simpa using h3⟩

theorem addEdge_spec {M : UGraph α} {i j : α} (hi : i ∈ M.nodes) (hj : j ∈ M.nodes) :
    ∃ M' : UGraph α, M.addEdge i j = .ok M' ∧ M'.nodes = M.nodes ∧
      ∀ a b, b ∈ M'.adj a ↔ b ∈ M.adj a ∨ (a = i ∧ b = j ∨ a = j ∧ b = i) := by
  refine ⟨{ M with adj := modify (modify M.adj i (insert j)) j (insert i) }, by simp [UGraph.addEdge, hi, hj], rfl, ?_⟩
  intro a b
  simp only [modify]
  by_cases h1 : a = j
  · by_cases h2 : a = i
    · subst h1; subst h2; simp; tauto
    · subst h1
      simp [h2]; tauto
  · by_cases h2 : a = i
    · subst h2; simp [h1]; tauto
    · simp [h1, h2]

theorem isConnected_ok {G : Dag α} {i j : α} (hi : i ∈ G.nodes) (hj : j ∈ G.nodes) :
    G.isConnected i j = .ok (decide (i ∈ G.par j ∨ j ∈ G.par i)) := by
  simp only [isConnected, parents_ok hi, parents_ok hj, bind, Except.bind, pure, Except.pure]
  by_cases h : i ∈ G.par j <;> simp [h]

theorem moralGraph_spec (o : SetOrder α) {G : Dag α} (hG : G.WF) (hac : G.Acyclic) {A : Finset α} (hA : A ⊆ G.nodes) :
    ∃ M : UGraph α, moralGraph o G A = .ok M ∧ M.nodes = A ∧
      ∀ a b, b ∈ M.adj a ↔ a ∈ A ∧ b ∈ A ∧ a ≠ b ∧
        (G.Edge a b ∨ G.Edge b a ∨ ∃ v ∈ A, G.Edge a v ∧ G.Edge b v) := by
  have hirr : ∀ v, v ∉ G.par v := fun v h => hac v (TransGen.single h)
  obtain ⟨M, h1, h2, h3⟩ := foldlM_ugraph (f := moralizeNode o G A) (N := A)
    (E := fun v a b => (a ∈ G.par v ∧ a ∈ A ∧ b = v ∨ b ∈ G.par v ∧ b ∈ A ∧ a = v) ∨
      (a ∈ G.par v ∧ b ∈ G.par v ∧ a ∈ A ∧ b ∈ A ∧ a ≠ b ∧ ¬ (a ∈ G.par b ∨ b ∈ G.par a)))
    (o.iter () A) (UGraph.empty A) rfl (by
      intro v hv M hM
      rw [o.mem] at hv
      simp only [moralizeNode, parents_ok (hA hv), bind, Except.bind]
      obtain ⟨M1, g1, g2, g3⟩ := foldlM_ugraph (f := fun M p => UGraph.addEdge M p v) (N := A)
        (E := fun p a b => a = p ∧ b = v ∨ a = v ∧ b = p) (o.iter (v, 0) (G.par v ∩ A)) M hM (by
          intro p hp M' hM'
          rw [o.mem, Finset.mem_inter] at hp
          have := addEdge_spec (M := M') (i := p) (j := v) (by rw [hM']; exact hp.2) (by rw [hM']; exact hv)
          rw [hM'] at this
          exact this)
      rw [g1]
      obtain ⟨M2, k1, k2, k3⟩ := foldlM_ugraph (N := A)
        (f := fun M (kl : α × α) => do
          if !(← G.isConnected kl.1 kl.2) then M.addEdge kl.1 kl.2 else return M)
        (E := fun kl a b => ¬ (kl.1 ∈ G.par kl.2 ∨ kl.2 ∈ G.par kl.1) ∧ (a = kl.1 ∧ b = kl.2 ∨ a = kl.2 ∧ b = kl.1))
        (pairs (o.iter (v, 1) (G.par v ∩ A))) M1 g2 (by
          rintro ⟨k, l⟩ hkl M' hM'
          have hk := mem_pairs_left hkl
          have hl := mem_pairs_right hkl
          rw [o.mem, Finset.mem_inter] at hk hl
          simp only [isConnected_ok (hA hk.2) (hA hl.2), bind, Except.bind, pure, Except.pure]
          by_cases hc : k ∈ G.par l ∨ l ∈ G.par k
          · refine ⟨M', by simp [hc], hM', ?_⟩
            intro a b; simp [hc]
          · have := addEdge_spec (M := M') (i := k) (j := l) (by rw [hM']; exact hk.2) (by rw [hM']; exact hl.2)
            rw [hM'] at this
            simpa [hc] using this)
      refine ⟨M2, ?_, k2, ?_⟩
      · simp only [bind, Except.bind, pure, Except.pure] at k1
        exact k1
      · intro a b
        rw [k3, g3]
        simp only [o.mem, Finset.mem_inter]
        constructor
        · rintro ((h | ⟨p, hp, ⟨rfl, rfl⟩ | ⟨rfl, rfl⟩⟩) | ⟨⟨k, l⟩, hkl, hn, hab⟩)
          · exact Or.inl h
          · exact Or.inr (Or.inl (Or.inl ⟨hp.1, hp.2, rfl⟩))
          · exact Or.inr (Or.inl (Or.inr ⟨hp.1, hp.2, rfl⟩))
          · have hk := mem_pairs_left hkl
            have hl := mem_pairs_right hkl
            have hne := mem_pairs_ne (o.nodup _ _) hkl
            rw [o.mem, Finset.mem_inter] at hk hl
            right; right
            rcases hab with ⟨rfl, rfl⟩ | ⟨rfl, rfl⟩
            · exact ⟨hk.1, hl.1, hk.2, hl.2, hne, hn⟩
            · exact ⟨hl.1, hk.1, hl.2, hk.2, hne.symm, fun h => hn h.symm⟩
        · rintro (h | (⟨h1, h2, rfl⟩ | ⟨h1, h2, rfl⟩) | ⟨h1, h2, h3, h4, h5, h6⟩)
          · exact Or.inl (Or.inl h)
          · exact Or.inl (Or.inr ⟨a, ⟨h1, h2⟩, Or.inl ⟨rfl, rfl⟩⟩)
          · exact Or.inl (Or.inr ⟨b, ⟨h1, h2⟩, Or.inr ⟨rfl, rfl⟩⟩)
          · right
            have ha : a ∈ o.iter (v, 1) (G.par v ∩ A) := by rw [o.mem]; exact Finset.mem_inter.mpr ⟨h1, h3⟩
            have hb : b ∈ o.iter (v, 1) (G.par v ∩ A) := by rw [o.mem]; exact Finset.mem_inter.mpr ⟨h2, h4⟩
            rcases mem_pairs_or ha hb h5 with h | h
            · exact ⟨(a, b), h, h6, Or.inl ⟨rfl, rfl⟩⟩
            · exact ⟨(b, a), h, fun h' => h6 h'.symm, Or.inr ⟨rfl, rfl⟩⟩)
  refine ⟨M, h1, h2, ?_⟩
  intro a b
  rw [h3]
  simp only [UGraph.empty, Finset.notMem_empty, false_or, o.mem]
  constructor
  · rintro ⟨v, hv, (⟨g1, g2, rfl⟩ | ⟨g1, g2, rfl⟩) | ⟨g1, g2, g3, g4, g5, g6⟩⟩
    · exact ⟨g2, hv, fun h => hirr b (h ▸ g1), Or.inl g1⟩
    · exact ⟨hv, g2, fun h => hirr a (h ▸ g1), Or.inr (Or.inl g1)⟩
    · exact ⟨g3, g4, g5, Or.inr (Or.inr ⟨v, hv, g1, g2⟩)⟩
  · rintro ⟨ha, hb, hne, h | h | ⟨v, hv, h1, h2⟩⟩
    · exact ⟨b, hb, Or.inl (Or.inl ⟨h, ha, rfl⟩)⟩
    · exact ⟨a, ha, Or.inl (Or.inr ⟨h, hb, rfl⟩)⟩
    · by_cases hab : a ∈ G.par b
      · exact ⟨b, hb, Or.inl (Or.inl ⟨hab, ha, rfl⟩)⟩
      · by_cases hba : b ∈ G.par a
        · exact ⟨a, ha, Or.inl (Or.inr ⟨hba, hb, rfl⟩)⟩
        · exact ⟨v, hv, Or.inr ⟨h1, h2, ha, hb, hne, by tauto⟩⟩

/-! ### d-separation -/

omit [DecidableEq α] in
theorem not_edge_of_edge {G : Dag α} (hac : G.Acyclic) {a b : α} (h : G.Edge a b) : ¬ G.Edge b a :=
  fun h' => hac a (TransGen.head h (TransGen.single h'))

omit [DecidableEq α] in
theorem dir_eq {G : Dag α} (hac : G.Acyclic) : Walk.dir G.Edge = G.Edge := by
  funext a b
  exact propext ⟨fun h => h.1, fun h => ⟨h, not_edge_of_edge hac h⟩⟩

omit [DecidableEq α] in
/-- `ActivePath` in terms of the abstract walk theory. -/
theorem activePath_iff {G : Dag α} (hac : G.Acyclic) {Z : Finset α} {i j : α} {l : List α} :
    G.ActivePath Z i j l ↔ l.Nodup ∧ l.head? = some i ∧ l.getLast? = some j ∧
      Walk.Act G.Adj G.Edge (Walk.AnZ G.Edge (· ∈ Z)) (· ∈ Z) l := by
  rw [Walk.act_iff_infix]
  simp only [Walk.okc, Walk.AnZ, dir_eq hac]
  constructor
  · intro h
    exact ⟨h.nodup, h.first, h.last, h.chain, fun a b c hh => ⟨fun hc => h.open_collider a b c hh hc,
      fun hc => h.open_noncollider a b c hh hc⟩⟩
  · rintro ⟨h1, h2, h3, h4, h5⟩
    exact ⟨h1, h2, h3, h4, fun a b c hh hc => (h5 a b c hh).1 hc, fun a b c hh hc => (h5 a b c hh).2 hc⟩

omit [DecidableEq α] in
theorem activePath_iff_aug {G : Dag α} (hac : G.Acyclic) {Z : Finset α} {i j : α} (hi : i ∉ Z) (hj : j ∉ Z) :
    (∃ l, G.ActivePath Z i j l) ↔
      ReflTransGen (Walk.augStep G.Adj G.Edge (Walk.InA G.Edge (· ∈ Z) i j) (· ∈ Z)) i j := by
  simp only [activePath_iff hac]
  refine Walk.act_path_iff_aug (fun a b h => h.symm) ?_ (fun a b h => Or.inl h) (fun a b h => h) hi hj
  intro a h
  rcases h with h | h <;> exact hac a (TransGen.single h)

omit [DecidableEq α] in
theorem cw_iff {G : Dag α} (hac : G.Acyclic) {A : α → Prop} {a c : α} :
    Walk.CW G.Adj G.Edge A a c ↔ G.Edge a c ∧ A c := by
  constructor
  · intro h
    induction h with
    | base _ h2 h3 => exact ⟨h2, h3⟩
    | step _ _ h2 h3 _ _ => exact absurd h3 (not_edge_of_edge hac h2)
  · rintro ⟨h1, h2⟩; exact Walk.CW.base (Or.inl h1) h1 h2

/-- The search in the moral graph of the ancestors, for all arguments that are nodes. -/
theorem dsep_aug (o : SetOrder α) {G : Dag α} (hG : G.WF) (hac : G.Acyclic) {i j : α}
    (hi : i ∈ G.nodes) (hj : j ∈ G.nodes) {Z : Finset α} (hZ : Z ⊆ G.nodes) :
    ∃ b, dsep o G i j Z = .ok b ∧
      (b = true ↔ ¬ ReflTransGen (Walk.augStep G.Adj G.Edge (Walk.InA G.Edge (· ∈ Z) i j) (· ∈ Z)) i j) := by
  obtain ⟨A, hA1, hA2⟩ := dsepAncestors_spec o hG hi hj hZ
  have hAn : A ⊆ G.nodes := by
    intro x hx
    rw [hA2] at hx
    obtain ⟨w, hw, hp⟩ := hx
    have hwn : w ∈ G.nodes := by
      rcases hw with rfl | rfl | hw
      exacts [hi, hj, hZ hw]
    rcases ReflTransGen.cases_head hp with h | ⟨c, h, _⟩
    · rw [h]; exact hwn
    · exact (hG _ _ h).1
  obtain ⟨M, hM1, hM2, hM3⟩ := moralGraph_spec o hG hac hAn
  have hiA : i ∈ A := by rw [hA2]; exact ⟨i, by simp, ReflTransGen.refl⟩
  obtain ⟨b, hb, hb'⟩ := UGraph.isReachable_spec o (G := M) (s := i) (e := j)
    (by intro a c h; rw [hM3] at h; rw [hM2]; exact h.2.1) (by rw [hM2]; exact hiA) Z
  refine ⟨!b, ?_, ?_⟩
  · simp only [dsep, hA1, hM1, hb, bind, Except.bind, pure, Except.pure]
  · rw [Bool.not_eq_true', ← Bool.not_eq_true, hb']
    have hInA : ∀ v, Walk.InA G.Edge (· ∈ Z) i j v ↔ v ∈ A := by
      intro v
      rw [hA2, Walk.InA, dir_eq hac]; rfl
    apply not_congr
    constructor
    · apply rtg_mono
      rintro a c ⟨h1, h2⟩
      rw [hM3] at h1
      refine ⟨?_, (hInA c).mpr h1.2.1, h2⟩
      rcases h1.2.2.2 with h | h | ⟨v, hv, hav, hcv⟩
      · exact Or.inl (Or.inl h)
      · exact Or.inl (Or.inr h)
      · exact Or.inr ⟨v, (cw_iff hac).mpr ⟨hav, (hInA v).mpr hv⟩, Or.inl hcv, hcv⟩
    · intro h
      have : ∀ c, ReflTransGen (Walk.augStep G.Adj G.Edge (Walk.InA G.Edge (· ∈ Z) i j) (· ∈ Z)) i c →
          c ∈ A ∧ M.PathAvoiding Z i c := by
        intro c hc
        induction hc with
        | refl => exact ⟨hiA, ReflTransGen.refl⟩
        | @tail a c _ hac' ih =>
          have hcA : c ∈ A := (hInA c).mp hac'.2.1
          refine ⟨hcA, ?_⟩
          by_cases hne : a = c
          · subst hne; exact ih.2
          refine ReflTransGen.tail ih.2 ⟨?_, hac'.2.2⟩
          rw [hM3]
          refine ⟨ih.1, hcA, hne, ?_⟩
          rcases hac'.1 with (h | h) | ⟨v, hv, _, hcv⟩
          · exact Or.inl h
          · exact Or.inr (Or.inl h)
          · rw [cw_iff hac] at hv
            exact Or.inr (Or.inr ⟨v, (hInA v).mp hv.2, hv.1, hcv⟩)
      exact (this j h).2

theorem dsep_spec (o : SetOrder α) {G : Dag α} (hG : G.WF) (hac : G.Acyclic) {i j : α}
    (hi : i ∈ G.nodes) (hj : j ∈ G.nodes) {Z : Finset α} (hZ : Z ⊆ G.nodes) (hiZ : i ∉ Z) (hjZ : j ∉ Z) :
    ∃ b, dsep o G i j Z = .ok b ∧ (b = true ↔ G.DSeparated i j Z) := by
  obtain ⟨b, h1, h2⟩ := dsep_aug o hG hac hi hj hZ
  exact ⟨b, h1, by rw [h2, DSeparated, activePath_iff_aug hac hiZ hjZ]⟩

/-- An argument that is not a node raises KeyError. -/
theorem dsep_error (o : SetOrder α) {G : Dag α} (hG : G.WF) {i j : α} {Z : Finset α}
    (h : ¬ (i ∈ G.nodes ∧ j ∈ G.nodes ∧ Z ⊆ G.nodes)) : dsep o G i j Z = .error .keyError := by
  have herr : ∀ v, v ∉ G.nodes → G.getAncestors o v = .error .keyError := by
    intro v hv
    rw [getAncestors, getAncestorsFuel, parents, if_neg hv]
    rfl
  have hfold : ∀ (l : List α) (acc : Finset α), (∃ z ∈ l, z ∉ G.nodes) →
      l.foldlM (fun acc z => do return acc ∪ (← G.getAncestors o z)) acc = .error .keyError := by
    intro l
    induction l with
    | nil => rintro acc ⟨z, hz, -⟩; simp at hz
    | cons a l ih =>
      rintro acc ⟨z, hz, hzn⟩
      rw [List.foldlM_cons]
      by_cases ha : a ∈ G.nodes
      · obtain ⟨S, hS, -⟩ := getAncestors_spec o hG ha
        have hz' : z ∈ l := by
          rcases List.mem_cons.1 hz with rfl | hz
          · exact absurd ha hzn
          · exact hz
        rw [hS]
        exact ih _ ⟨z, hz', hzn⟩
      · rw [herr a ha]
        rfl
  have hA : dsepAncestors o G i j Z = .error .keyError := by
    by_cases hi : i ∈ G.nodes
    · obtain ⟨Si, hSi, -⟩ := getAncestors_spec o hG hi
      by_cases hj : j ∈ G.nodes
      · obtain ⟨Sj, hSj, -⟩ := getAncestors_spec o hG hj
        rw [dsepAncestors, hSi, hSj]
        refine hfold _ _ ?_
        have : ¬ Z ⊆ G.nodes := fun hZ => h ⟨hi, hj, hZ⟩
        rw [Finset.not_subset] at this
        obtain ⟨z, hz, hzn⟩ := this
        exact ⟨z, (o.mem _ _ _).2 hz, hzn⟩
      · rw [dsepAncestors, hSi, herr j hj]
        rfl
    · rw [dsepAncestors, herr i hi]
      rfl
  rw [dsep, hA]
  rfl

/-- If the second end point is conditioned on, the search can never enter it. -/
theorem dsep_of_mem (o : SetOrder α) {G : Dag α} (hG : G.WF) (hac : G.Acyclic) {i j : α}
    (hi : i ∈ G.nodes) (hj : j ∈ G.nodes) {Z : Finset α} (hZ : Z ⊆ G.nodes) (hij : i ≠ j) (hjZ : j ∈ Z) :
    dsep o G i j Z = .ok true := by
  obtain ⟨A, hA1, hA2⟩ := dsepAncestors_spec o hG hi hj hZ
  have hAn : A ⊆ G.nodes := by
    intro x hx
    rw [hA2] at hx
    obtain ⟨w, hw, hp⟩ := hx
    have hwn : w ∈ G.nodes := by
      rcases hw with rfl | rfl | hw
      exacts [hi, hj, hZ hw]
    rcases ReflTransGen.cases_head hp with h | ⟨c, h, _⟩
    · rw [h]; exact hwn
    · exact (hG _ _ h).1
  obtain ⟨M, hM1, hM2, hM3⟩ := moralGraph_spec o hG hac hAn
  have hiA : i ∈ A := by rw [hA2]; exact ⟨i, by simp, ReflTransGen.refl⟩
  obtain ⟨b, hb, hb'⟩ := UGraph.isReachable_spec o (G := M) (s := i) (e := j)
    (by intro a c h; rw [hM3] at h; rw [hM2]; exact h.2.1) (by rw [hM2]; exact hiA) Z
  have hbf : b = false := by
    cases b with
    | false => rfl
    | true =>
      rcases ReflTransGen.cases_tail (hb'.mp rfl) with h | ⟨c, _, h⟩
      · exact absurd h.symm hij
      · exact absurd hjZ h.2
  subst hbf
  simp only [dsep, hA1, hM1, hb, bind, Except.bind, pure, Except.pure, Bool.not_false]

end Dag
end Verif
