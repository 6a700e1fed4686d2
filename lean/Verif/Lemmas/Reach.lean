import Verif.Spec.Graph

/-!
# Correctness of the search procedures of `undirected_graph.py` and `dag.py`
-/

namespace Verif
open Relation
variable {α : Type} [DecidableEq α]

section generic
variable {R : α → α → Prop}

omit [DecidableEq α] in
theorem rtg_mono {R' : α → α → Prop} (h : ∀ a b, R a b → R' a b) {a b : α} (hab : ReflTransGen R a b) :
    ReflTransGen R' a b := by
  induction hab with
  | refl => exact ReflTransGen.refl
  | tail _ h2 ih => exact ReflTransGen.tail ih (h _ _ h2)

omit [DecidableEq α] in
/-- If `a` cannot reach `e` then paths of other nodes to `e` avoid `a`. -/
theorem rtg_avoid_of_not_reach {a n e : α} (ha : ¬ ReflTransGen R a e)
    (h : ReflTransGen R n e) : ReflTransGen (fun x y => R x y ∧ y ≠ a) n e := by
  induction h using ReflTransGen.head_induction_on with
  | refl => exact ReflTransGen.refl
  | @head x y hxy hye ih =>
    refine ReflTransGen.head ⟨hxy, ?_⟩ ih
    rintro rfl
    exact ha hye

/-- Last visit to the start node. -/
theorem rtg_last_visit {s e : α} (hse : s ≠ e) (h : ReflTransGen R s e) :
    ∃ n, R s n ∧ n ≠ s ∧ ReflTransGen (fun x y => R x y ∧ y ≠ s) n e := by
  have key : ∀ x, ReflTransGen R x e →
      ReflTransGen (fun x y => R x y ∧ y ≠ s) x e ∨
      ∃ n, R s n ∧ n ≠ s ∧ ReflTransGen (fun x y => R x y ∧ y ≠ s) n e := by
    intro x hx
    induction hx using ReflTransGen.head_induction_on with
    | refl => exact Or.inl ReflTransGen.refl
    | @head x y hxy _ ih =>
      rcases ih with ih | ih
      · by_cases hy : y = s
        · subst hy
          rcases ReflTransGen.cases_head ih with h | ⟨n, hn, hne⟩
          · exact absurd h hse
          · exact Or.inr ⟨n, hn.1, hn.2, hne⟩
        · exact Or.inl (ReflTransGen.head ⟨hxy, hy⟩ ih)
      · exact Or.inr ih
  rcases key s h with h | h
  · rcases ReflTransGen.cases_head h with h | ⟨n, hn, hne⟩
    · exact absurd h hse
    · exact ⟨n, hn.1, hn.2, hne⟩
  · exact h

end generic

namespace UGraph

theorem get_ok {G : UGraph α} {v : α} (h : v ∈ G.nodes) : G.get v = .ok (G.adj v) := by
  simp [get, h]

theorem pathAvoiding_mono {G : UGraph α} {F F' : Finset α} (h : F' ⊆ F) {s e : α}
    (hp : G.PathAvoiding F s e) : G.PathAvoiding F' s e :=
  rtg_mono (fun _ _ hab => ⟨hab.1, fun hb => hab.2 (h hb)⟩) hp

theorem pathAvoiding_insert_of {G : UGraph α} {F : Finset α} {a s e : α}
    (hp : ReflTransGen (fun x y => (y ∈ G.adj x ∧ y ∉ F) ∧ y ≠ a) s e) : G.PathAvoiding (insert a F) s e :=
  rtg_mono (fun _ _ hab => ⟨hab.1.1, by
    simp only [Finset.mem_insert, not_or]; exact ⟨hab.2, hab.1.2⟩⟩) hp

/-- The neighbour loop is exact when its recursive call is. -/
theorem reachLoop_spec {G : UGraph α} {e : α} {rec : α → Finset α → Py Bool} (P : α → Finset α → Prop)
    (hP : ∀ nb V x, P nb V → P nb (insert x V))
    (hrec : ∀ nb V, P nb V → ∃ b, rec nb V = .ok b ∧ (b = true ↔ G.PathAvoiding V nb e)) :
    ∀ (nbs : List α) (V : Finset α), (∀ nb ∈ nbs, P nb V) →
      ∃ b, reachLoop rec nbs V = .ok b ∧ (b = true ↔ ∃ nb ∈ nbs, G.PathAvoiding V nb e) := by
  intro nbs
  induction nbs with
  | nil => intro V _; exact ⟨false, rfl, by simp⟩
  | cons a nbs ih =>
    intro V hV
    obtain ⟨b, hb, hb'⟩ := hrec a V (hV a (by simp))
    cases b with
    | true =>
      refine ⟨true, ?_, ?_⟩
      · simp [reachLoop, hb, bind, Except.bind, pure, Except.pure]
      · simp only [true_iff]
        exact ⟨a, by simp, hb'.mp rfl⟩
    | false =>
      have hna : ¬ G.PathAvoiding V a e := fun h => by simpa using hb'.mpr h
      obtain ⟨b2, hb2, hb2'⟩ := ih (insert a V) (fun nb hnb => hP _ _ _ (hV nb (List.mem_cons_of_mem _ hnb)))
      refine ⟨b2, ?_, ?_⟩
      · simpa [reachLoop, hb, bind, Except.bind, pure, Except.pure] using hb2
      · rw [hb2']
        constructor
        · rintro ⟨nb, hnb, hp⟩
          exact ⟨nb, List.mem_cons_of_mem _ hnb, pathAvoiding_mono (Finset.subset_insert _ _) hp⟩
        · rintro ⟨nb, hnb, hp⟩
          rcases List.mem_cons.mp hnb with rfl | hnb
          · exact absurd hp hna
          · exact ⟨nb, hnb, pathAvoiding_insert_of (rtg_avoid_of_not_reach hna hp)⟩

theorem isReachableFuel_spec (o : SetOrder α) {G : UGraph α} (hG : ∀ a b, b ∈ G.adj a → b ∈ G.nodes) (e : α) :
    ∀ (n : Nat) (s : α) (V : Finset α), s ∈ G.nodes → (G.nodes \ insert s V).card < n →
      ∃ b, isReachableFuel o G n s e V = .ok b ∧ (b = true ↔ G.PathAvoiding V s e) := by
  intro n
  induction n with
  | zero => intro s V _ h; exact absurd h (Nat.not_lt_zero _)
  | succ n ih =>
    intro s V hs hcard
    by_cases hse : s = e
    · subst hse
      exact ⟨true, by simp [isReachableFuel], by simp only [true_iff]; exact ReflTransGen.refl⟩
    · have hloop := reachLoop_spec (G := G) (e := e) (rec := fun nb vis => isReachableFuel o G n nb e vis)
        (fun nb V' => nb ∈ G.nodes ∧ (G.nodes \ insert nb V').card < n) (by
          rintro nb V' x ⟨h1, h2⟩
          refine ⟨h1, lt_of_le_of_lt (Finset.card_le_card ?_) h2⟩
          intro y; simp only [Finset.mem_sdiff, Finset.mem_insert]; tauto)
        (fun nb V' h => ih nb V' h.1 h.2)
        (o.iter (s, e, V) (G.adj s \ insert s V)) (insert s V) (by
          intro nb hnb
          rw [o.mem] at hnb
          simp only [Finset.mem_sdiff, Finset.mem_insert, not_or] at hnb
          have hnbn := hG _ _ hnb.1
          refine ⟨hnbn, lt_of_lt_of_le (Finset.card_lt_card (t := G.nodes \ insert s V) ?_) (Nat.lt_succ_iff.mp hcard)⟩
          rw [Finset.ssubset_iff_of_subset]
          · exact ⟨nb, by simp [hnbn, hnb.2.1, hnb.2.2], by simp⟩
          · intro y; simp only [Finset.mem_sdiff, Finset.mem_insert]; tauto)
      obtain ⟨b, hb, hb'⟩ := hloop
      refine ⟨b, ?_, ?_⟩
      · simp only [isReachableFuel, hse, if_false, get_ok hs]
        exact hb
      · rw [hb']
        constructor
        · rintro ⟨nb, hnb, hp⟩
          rw [o.mem] at hnb
          simp only [Finset.mem_sdiff, Finset.mem_insert, not_or] at hnb
          exact ReflTransGen.head ⟨hnb.1, hnb.2.2⟩ (pathAvoiding_mono (Finset.subset_insert _ _) hp)
        · intro hp
          obtain ⟨nb, h1, h2, h3⟩ := rtg_last_visit hse hp
          refine ⟨nb, ?_, pathAvoiding_insert_of h3⟩
          rw [o.mem]
          simp only [Finset.mem_sdiff, Finset.mem_insert, not_or]
          exact ⟨h1.1, h2, h1.2⟩

theorem isReachable_spec (o : SetOrder α) {G : UGraph α} (hG : ∀ a b, b ∈ G.adj a → b ∈ G.nodes) {s e : α}
    (hs : s ∈ G.nodes) (V : Finset α) :
    ∃ b, isReachable o G s e V = .ok b ∧ (b = true ↔ G.PathAvoiding V s e) := by
  refine isReachableFuel_spec o hG e _ s V hs ?_
  exact Nat.lt_succ_of_le (Finset.card_le_card Finset.sdiff_subset)

end UGraph

theorem forAny_spec {β : Type} {f : β → Py Bool} {P : β → Prop} :
    ∀ (l : List β), (∀ x ∈ l, ∃ b, f x = .ok b ∧ (b = true ↔ P x)) →
      ∃ b, forAny f l = .ok b ∧ (b = true ↔ ∃ x ∈ l, P x) := by
  intro l
  induction l with
  | nil => intro _; exact ⟨false, rfl, by simp⟩
  | cons a l ih =>
    intro h
    obtain ⟨b, hb, hb'⟩ := h a (by simp)
    cases b with
    | true =>
      exact ⟨true, by simp [forAny, hb, bind, Except.bind, pure, Except.pure],
        by simp only [true_iff]; exact ⟨a, by simp, hb'.mp rfl⟩⟩
    | false =>
      have hna : ¬ P a := fun h => by simpa using hb'.mpr h
      obtain ⟨b2, hb2, hb2'⟩ := ih (fun x hx => h x (List.mem_cons_of_mem _ hx))
      refine ⟨b2, by simpa [forAny, hb, bind, Except.bind, pure, Except.pure] using hb2, ?_⟩
      rw [hb2']
      constructor
      · rintro ⟨x, hx, hp⟩; exact ⟨x, List.mem_cons_of_mem _ hx, hp⟩
      · rintro ⟨x, hx, hp⟩
        rcases List.mem_cons.mp hx with rfl | hx
        · exact absurd hp hna
        · exact ⟨x, hx, hp⟩

namespace Dag

theorem parents_ok {G : Dag α} {v : α} (h : v ∈ G.nodes) : G.parents v = .ok (G.par v) := by
  simp [parents, h]

/-! ### is_ancestor -/

theorem pushParents_spec : ∀ (ps : List α) (V : Finset α) (st : List α),
    let r := pushParents ps V st
    (∀ x, x ∈ r.1 ↔ x ∈ V ∨ x ∈ ps) ∧ (∀ x, x ∈ r.2 ↔ x ∈ st ∨ (x ∈ ps ∧ x ∉ V)) ∧
      r.2.length + V.card = st.length + r.1.card := by
  intro ps
  induction ps with
  | nil => intro V st; simp [pushParents]
  | cons p ps ih =>
    intro V st
    simp only [pushParents]
    by_cases hp : p ∈ V
    · simp only [hp, if_true]
      obtain ⟨h1, h2, h3⟩ := ih V st
      refine ⟨?_, ?_, h3⟩
      · intro x; rw [h1]; simp only [List.mem_cons]
        constructor
        · tauto
        · rintro (h | rfl | h) <;> tauto
      · intro x; rw [h2]; simp only [List.mem_cons]
        constructor
        · tauto
        · rintro (h | ⟨rfl | h, h'⟩) <;> tauto
    · simp only [hp, if_false]
      obtain ⟨h1, h2, h3⟩ := ih (insert p V) (p :: st)
      refine ⟨?_, ?_, ?_⟩
      · intro x; rw [h1]; simp only [List.mem_cons, Finset.mem_insert]; tauto
      · intro x; rw [h2]; simp only [List.mem_cons, Finset.mem_insert]
        constructor
        · rintro ((rfl | h) | h) <;> tauto
        · rintro (h | ⟨rfl | h, h'⟩)
          · tauto
          · tauto
          · by_cases hx : x = p <;> tauto
      · rw [Finset.card_insert_of_notMem hp] at h3
        simp only [List.length_cons] at h3
        omega

theorem isAncestorLoop_spec (o : SetOrder α) {G : Dag α} (hG : G.WF) (d t : α) :
    ∀ (n : Nat) (V : Finset α) (st : List α),
      (∀ x ∈ st, x ∈ V) → V ⊆ G.nodes → (∀ x ∈ V, G.DPath x d) → d ∈ V →
      (∀ x ∈ V, x ∉ st → ∀ p ∈ G.par x, p ∈ V) → t ∉ V →
      st.length + G.nodes.card ≤ n + V.card →
      ∃ b, isAncestorLoop o G t n V st = .ok b ∧ (b = true ↔ G.DPath t d) := by
  intro n
  induction n with
  | zero =>
    intro V st hst hV hVd hd hcl ht hc
    have hle := Finset.card_le_card hV
    have : st = [] := List.length_eq_zero_iff.mp (by omega)
    subst this
    refine ⟨false, by simp [isAncestorLoop], ?_⟩
    simp only [Bool.false_eq_true, false_iff]
    intro hp
    have : ∀ x, G.DPath x d → x ∈ V := by
      intro x hx
      induction hx using ReflTransGen.head_induction_on with
      | refl => exact hd
      | head hab _ ih => exact hcl _ ih (by simp) _ hab
    exact ht (this t hp)
  | succ n ih =>
    intro V st hst hV hVd hd hcl ht hc
    cases st with
    | nil =>
      refine ⟨false, by simp [isAncestorLoop], ?_⟩
      simp only [Bool.false_eq_true, false_iff]
      intro hp
      have : ∀ x, G.DPath x d → x ∈ V := by
        intro x hx
        induction hx using ReflTransGen.head_induction_on with
        | refl => exact hd
        | head hab _ ih => exact hcl _ ih (by simp) _ hab
      exact ht (this t hp)
    | cons v st =>
      have hvV : v ∈ V := hst v (by simp)
      have hvn : v ∈ G.nodes := hV hvV
      by_cases htp : t ∈ G.par v
      · refine ⟨true, ?_, ?_⟩
        · simp [isAncestorLoop, parents_ok hvn, htp, bind, Except.bind, pure, Except.pure]
        · simp only [true_iff]
          exact ReflTransGen.head htp (hVd v hvV)
      · have hpush := pushParents_spec (o.iter (t, V, st) (G.par v)) V st
        obtain ⟨h1, h2, h3⟩ := hpush
        simp only [o.mem] at h1 h2
        obtain ⟨b, hb, hb'⟩ := ih (pushParents (o.iter (t, V, st) (G.par v)) V st).1
          (pushParents (o.iter (t, V, st) (G.par v)) V st).2
          (by
            intro x hx; rw [h2] at hx; rw [h1]
            rcases hx with hx | hx
            · exact Or.inl (hst x (List.mem_cons_of_mem _ hx))
            · exact Or.inr hx.1)
          (by
            intro x hx; rw [h1] at hx
            rcases hx with hx | hx
            · exact hV hx
            · exact (hG _ _ hx).1)
          (by
            intro x hx; rw [h1] at hx
            rcases hx with hx | hx
            · exact hVd x hx
            · exact ReflTransGen.head hx (hVd v hvV))
          (by rw [h1]; exact Or.inl hd)
          (by
            intro x hx hxs p hp
            rw [h1] at hx ⊢
            rw [h2] at hxs
            simp only [not_or, not_and, not_not] at hxs
            by_cases hxV : x ∈ V
            · by_cases hxv : x = v
              · subst hxv; exact Or.inr hp
              · exact Or.inl (hcl x hxV (by simp [hxv, hxs.1]) p hp)
            · rcases hx with hx | hx
              · exact absurd hx hxV
              · exact absurd (hxs.2 hx) hxV)
          (by rw [h1]; rintro (h | h); exacts [ht h, htp h])
          (by simp only [List.length_cons] at hc; omega)
        refine ⟨b, ?_, hb'⟩
        simp only [isAncestorLoop, parents_ok hvn, bind, Except.bind, htp, if_false]
        exact hb

theorem isAncestor_spec (o : SetOrder α) {G : Dag α} (hG : G.WF) {d t : α} (hd : d ∈ G.nodes) :
    ∃ b, isAncestor o G d t = .ok b ∧ (b = true ↔ G.DPath t d) := by
  by_cases h : d = t
  · subst h
    exact ⟨true, by simp [isAncestor], by simp only [true_iff]; exact ReflTransGen.refl⟩
  · simp only [isAncestor, h, if_false]
    apply isAncestorLoop_spec o hG d t
    · simp
    · simpa using hd
    · simp only [Finset.mem_singleton, forall_eq]; exact ReflTransGen.refl
    · simp
    · simp only [Finset.mem_singleton, List.mem_singleton]
      intro x hx hx'; exact absurd hx hx'
    · simpa using fun h' => h h'.symm
    · simp; omega

/-! ### is_acyclic -/

theorem isAcyclic_spec (o : SetOrder α) {G : Dag α} (hG : G.WF) :
    ∃ b, isAcyclic o G = .ok b ∧ (b = true ↔ G.Acyclic) := by
  have h := forAny_spec (f := fun v => do
    let ps ← G.parents v
    forAny (fun p => isAncestor o G p v) (o.iter v ps)) (P := fun v => TransGen G.Edge v v)
    (o.iter () G.nodes) (by
      intro v hv
      rw [o.mem] at hv
      simp only [parents_ok hv, bind, Except.bind]
      obtain ⟨b, hb, hb'⟩ := forAny_spec (f := fun p => isAncestor o G p v) (P := fun p => G.DPath v p)
        (o.iter v (G.par v)) (by
          intro p hp
          rw [o.mem] at hp
          exact isAncestor_spec o hG (hG _ _ hp).1)
      refine ⟨b, hb, ?_⟩
      rw [hb']
      simp only [o.mem]
      constructor
      · rintro ⟨p, hp, hvp⟩
        exact TransGen.tail' hvp hp
      · intro hvv
        obtain ⟨p, h1, h2⟩ := TransGen.tail'_iff.mp hvv
        exact ⟨p, h2, h1⟩)
  obtain ⟨b, hb, hb'⟩ := h
  refine ⟨!b, ?_, ?_⟩
  · simp only [isAcyclic]
    rw [hb]; rfl
  · rw [Bool.not_eq_true', ← Bool.not_eq_true, hb']
    simp only [o.mem, not_exists, not_and]
    constructor
    · intro h v hv
      refine h v ?_ hv
      obtain ⟨p, _, h2⟩ := TransGen.tail'_iff.mp hv
      exact (hG _ _ h2).2
    · intro h v _ ; exact h v

/-! ### is_ancestor_recursive -/

theorem isAncestorRec_spec (o : SetOrder α) {G : Dag α} (hG : G.WF) (hac : G.Acyclic) (t : α) :
    ∀ (n : Nat) (d : α) (S : Finset α), d ∈ G.nodes → S ⊆ G.nodes → (∀ x ∈ S, TransGen G.Edge d x) →
      G.nodes.card < n + S.card →
      ∃ b, isAncestorRec o G n d t = .ok b ∧ (b = true ↔ G.DPath t d) := by
  intro n
  induction n with
  | zero =>
    intro d S _ hS _ hc
    have := Finset.card_le_card hS
    omega
  | succ n ih =>
    intro d S hd hS hSd hc
    by_cases h : d = t
    · subst h
      exact ⟨true, by simp [isAncestorRec], by simp only [true_iff]; exact ReflTransGen.refl⟩
    · simp only [isAncestorRec, h, if_false, parents_ok hd, bind, Except.bind, pure, Except.pure]
      by_cases h0 : (G.par d).card = 0
      · refine ⟨false, by simp [h0], ?_⟩
        simp only [Bool.false_eq_true, false_iff]
        intro hp
        rcases ReflTransGen.cases_tail hp with h1 | ⟨c, _, hc'⟩
        · exact h h1
        · rw [Finset.card_eq_zero] at h0
          have : c ∈ G.par d := hc'
          simp [h0] at this
      · simp only [h0, if_false]
        by_cases htp : t ∈ G.par d
        · exact ⟨true, by simp [htp], by simp only [true_iff]; exact ReflTransGen.single htp⟩
        · simp only [htp, if_false]
          obtain ⟨b, hb, hb'⟩ := forAny_spec (f := fun p => isAncestorRec o G n p t) (P := fun p => G.DPath t p)
            (o.iter (d, t) (G.par d)) (by
              intro p hp
              rw [o.mem] at hp
              have hdS : d ∉ S := fun hdS => hac d (hSd d hdS)
              apply ih p (insert d S) (hG _ _ hp).1
              · intro x hx
                rcases Finset.mem_insert.mp hx with rfl | hx
                · exact hd
                · exact hS hx
              · intro x hx
                rcases Finset.mem_insert.mp hx with rfl | hx
                · exact TransGen.single hp
                · exact TransGen.head hp (hSd x hx)
              · rw [Finset.card_insert_of_notMem hdS]; omega)
          refine ⟨b, hb, ?_⟩
          rw [hb']
          simp only [o.mem]
          constructor
          · rintro ⟨p, hp, htp⟩; exact ReflTransGen.tail htp hp
          · intro hp
            rcases ReflTransGen.cases_tail hp with h1 | ⟨c, h1, h2⟩
            · exact absurd h1 h
            · exact ⟨c, h2, h1⟩

end Dag
end Verif
