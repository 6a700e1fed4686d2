import Verif.Lemmas.PagOrient
import Verif.Lemmas.SepSet
import Verif.Spec.Fci
import Verif.Spec.Pdag
import Verif.Lemmas.PdagRules

/-!
# The v-structure step of PAGs and the copy of a skeleton
-/

namespace Verif
variable {α : Type}

theorem foldlM_split {β σ : Type} {f : σ → β → Py σ} (I : List β → σ → Prop) :
    ∀ (l done : List β) (s : σ), I done s →
      (∀ done' x rest s, done ++ l = done' ++ x :: rest → I done' s → ∃ s', f s x = .ok s' ∧ I (done' ++ [x]) s') →
      ∃ s', l.foldlM f s = .ok s' ∧ I (done ++ l) s' := by
  intro l
  induction l with
  | nil => intro done s h _; exact ⟨s, rfl, by simpa using h⟩
  | cons x l ih =>
    intro done s h hs
    obtain ⟨s1, h1, h2⟩ := hs done x l s rfl h
    obtain ⟨s2, h3, h4⟩ := ih (done ++ [x]) s1 h2 (fun d y r t he => hs d y r t (by rw [← he]; simp))
    exact ⟨s2, by rw [foldlM_cons_ok h1]; exact h3, by simpa using h4⟩

theorem pairs_pairwise {β : Type} {l : List β} (hl : l.Nodup) : (pairs l).Pairwise (fun p q => p ≠ q ∧ p ≠ q.swap) := by
  induction l with
  | nil => simp [pairs]
  | cons x l ih =>
    rw [List.nodup_cons] at hl
    rw [pairs, List.pairwise_append, List.pairwise_map]
    refine ⟨?_, ih hl.2, ?_⟩
    · refine List.Pairwise.imp_of_mem ?_ hl.2
      intro a b ha hb hab
      refine ⟨fun h => hab (Prod.mk.inj h).2, fun h => ?_⟩
      have := (Prod.mk.inj h).1
      exact hl.1 (this ▸ hb)
    · rintro _ h ⟨a, b⟩ h'
      obtain ⟨y, hy, rfl⟩ := List.mem_map.mp h
      refine ⟨fun h => ?_, fun h => ?_⟩
      · exact hl.1 ((Prod.mk.inj h).1 ▸ mem_pairs_left h')
      · exact hl.1 ((Prod.mk.inj h).1 ▸ mem_pairs_right h')

namespace MG

theorem Upd.union {G H K : MG α} {m0 : Mark} {P Q : α → α → Prop} (h : Upd G H (fun u v m => m = m0 ∧ P u v))
    (h' : Upd H K (fun u v m => m = m0 ∧ Q u v)) : Upd G K (fun u v m => m = m0 ∧ (P u v ∨ Q u v)) := by
  classical
  refine (h.trans h').congr fun u v m => ?_
  by_cases hQ : Q u v
  · simp only [hQ, and_true, or_true]
    constructor
    · rintro (h | ⟨h, -⟩)
      · exact h
      · exact absurd rfl (h m0)
    · exact Or.inl
  · simp only [hQ, and_false, or_false, not_false_eq_true, implies_true, true_and, false_or]

theorem Upd.id (G : MG α) {F : α → α → Mark → Prop} (hF : ∀ u v m, ¬ F u v m) : Upd G G F :=
  ⟨rfl, rfl, fun u v m => by simp [hF]⟩

theorem Oriented.same {G H : MG α} (h : Oriented H G) : SameSkel H G := ⟨h.proper, h.nodes, h.types, h.adj⟩

theorem SameSkel.refl {G : MG α} (h : G.Proper) : SameSkel G G := ⟨h, rfl, rfl, fun _ _ => Iff.rfl⟩

theorem SameSkel.trans {G H K : MG α} (h1 : SameSkel H G) (h2 : SameSkel K H) : SameSkel K G :=
  ⟨h2.proper, h2.nodes.trans h1.nodes, h2.types.trans h1.types, fun a b => (h2.adj a b).trans (h1.adj a b)⟩

theorem Proper.mem_adj {G : MG α} (hG : G.Proper) {a b : α} (h : G.MAdj a b) : a ∈ G.nodes ∧ b ∈ G.nodes := by
  rcases h with ⟨m, h⟩ | ⟨m, h⟩
  · exact hG.mem _ _ _ h
  · exact (hG.mem _ _ _ h).symm

theorem mem_findAdjacent [DecidableEq α] {G : MG α} (hG : G.Proper) {i y : α} :
    y ∈ G.findAdjacentNodes i none none ↔ G.MAdj i y := by
  have : ∀ (l : List Mark) (s : Finset α), y ∈ l.foldl (fun acc m => acc ∪ G.g i m) s ↔ y ∈ s ∨ ∃ m ∈ l, y ∈ G.g i m := by
    intro l
    induction l with
    | nil => simp
    | cons m l ih => intro s; simp only [List.foldl_cons, ih, Finset.mem_union, List.mem_cons, exists_eq_or_imp]; tauto
  simp only [findAdjacentNodes, this, Finset.notMem_empty, false_or]
  rw [show (G.MAdj i y ↔ G.MAdj y i) from ⟨.symm, .symm⟩, hG.adj_iff]
  constructor
  · rintro ⟨m, _, h⟩; exact ⟨m, h⟩
  · rintro ⟨m, h⟩; exact ⟨m, hG.type _ _ _ h, h⟩

variable [LinearOrder α]

theorem vTriple_symm {sep : SepSet α} {G : MG α} {u v w : α} (h : VTriple sep.get G u v w) : VTriple sep.get G w v u := by
  obtain ⟨h1, h2, h3, h4, S, h5, h6⟩ := h
  exact ⟨h1.symm, h3, h2, fun h => h4 h.symm, S, by rw [SepSet.get_comm]; exact h5, h6⟩

/-- The inner loop of `orient_v_structures`, for one middle node. -/
theorem vsInner_spec (o : SetOrder α) (sep : SepSet α) {G H : MG α} (hG : G.Proper) (hT : ∀ m, m ∈ G.types)
    (hsep : ∀ i ∈ G.nodes, ∀ j ∈ G.nodes, i ≠ j → ∃ S, sep.get i j = .ok S) {P : α → α → Prop}
    (hP : ∀ u v, P u v → G.MAdj u v) (hU : Upd G H (fun u v m => m = .arrow ∧ P u v)) (z : α) :
    ∃ K, (pairs (o.iter z (H.findAdjacentNodes z none none))).foldlM (fun (G : MG α) xy => do
        if ← G.isConnected xy.1 xy.2 then return G
        if z ∉ (← sep.get xy.1 xy.2) then
          let G ← G.replaceEdgeMark xy.1 z .arrow
          G.replaceEdgeMark xy.2 z .arrow
        else return G) H = .ok K ∧
      Upd G K (fun u v m => m = .arrow ∧ (P u v ∨ v = z ∧ ∃ w, VTriple sep.get G u v w)) := by
  have hor : ∀ {Q : α → α → Prop} {K : MG α}, (∀ u v, Q u v → G.MAdj u v) →
      Upd G K (fun u v m => m = .arrow ∧ Q u v) → Oriented K G := by
    intro Q K hQ hU
    refine hU.oriented hG ?_ ?_
    · rintro u v m ⟨rfl, h⟩; exact ⟨hQ _ _ h, by simp, hT _⟩
    · rintro u v m m' ⟨rfl, _⟩ ⟨rfl, _⟩; rfl
  have hH := hor hP hU
  let Q : List (α × α) → α → α → Prop := fun dp u v =>
    P u v ∨ v = z ∧ ∃ w, ((u, w) ∈ dp ∨ (w, u) ∈ dp) ∧ VTriple sep.get G u v w
  have hQ : ∀ dp u v, Q dp u v → G.MAdj u v := by
    rintro dp u v (h | ⟨rfl, w, -, h⟩)
    · exact hP _ _ h
    · exact h.2.1
  obtain ⟨K, k1, k2⟩ := foldlM_ok_inv
    (f := fun (G : MG α) (xy : α × α) => do
        if ← G.isConnected xy.1 xy.2 then return G
        if z ∉ (← sep.get xy.1 xy.2) then
          let G ← G.replaceEdgeMark xy.1 z .arrow
          G.replaceEdgeMark xy.2 z .arrow
        else return G)
    (fun dp K => Upd G K (fun u v m => m = .arrow ∧ Q dp u v)) (pairs (o.iter z (H.findAdjacentNodes z none none))) [] H
    (hU.congr (by intro u v m; simp [Q])) (by
      rintro dp ⟨x, y⟩ K hxy hK
      have hx := mem_pairs_left hxy
      have hy := mem_pairs_right hxy
      have hne := mem_pairs_ne (o.nodup _ _) hxy
      rw [o.mem, mem_findAdjacent hH.proper, hH.adj] at hx hy
      have hKo := hor (hQ dp) hK
      have hQ' : ∀ u v, Q (dp ++ [(x, y)]) u v ↔ Q dp u v ∨ v = z ∧ (u = x ∧ VTriple sep.get G x z y ∨
          u = y ∧ VTriple sep.get G x z y) := by
        intro u v
        simp only [Q, List.mem_append, List.mem_singleton, Prod.mk.injEq]
        constructor
        · rintro (h | ⟨rfl, w, (h | ⟨rfl, rfl⟩) | (h | ⟨rfl, rfl⟩), h'⟩)
          · exact Or.inl (Or.inl h)
          · exact Or.inl (Or.inr ⟨rfl, w, Or.inl h, h'⟩)
          · exact Or.inr ⟨rfl, Or.inl ⟨rfl, h'⟩⟩
          · exact Or.inl (Or.inr ⟨rfl, w, Or.inr h, h'⟩)
          · exact Or.inr ⟨rfl, Or.inr ⟨rfl, vTriple_symm h'⟩⟩
        · rintro ((h | ⟨rfl, w, h, h'⟩) | ⟨rfl, ⟨rfl, h⟩ | ⟨rfl, h⟩⟩)
          · exact Or.inl h
          · exact Or.inr ⟨rfl, w, h.imp Or.inl Or.inl, h'⟩
          · exact Or.inr ⟨rfl, y, Or.inl (Or.inr ⟨rfl, rfl⟩), h⟩
          · exact Or.inr ⟨rfl, x, Or.inr (Or.inr ⟨rfl, rfl⟩), vTriple_symm h⟩
      have hno : ¬ VTriple sep.get G x z y → Upd G K (fun u v m => m = .arrow ∧ Q (dp ++ [(x, y)]) u v) := by
        intro h
        refine hK.congr fun u v m => ?_
        rw [hQ']
        simp only [h, and_false, or_false]
      obtain ⟨b, hb, hb'⟩ := hKo.isConnected hne
      cases b with
      | true => exact ⟨K, by simp only [hb]; rfl, hno (fun h => h.2.2.2.1 (hb'.mp rfl))⟩
      | false =>
        have hnadj : ¬ G.MAdj x y := fun h => by simpa using hb'.mpr h
        obtain ⟨S, hS⟩ := hsep x (hG.mem_adj hx).2 y (hG.mem_adj hy).2 hne
        by_cases hz : z ∈ S
        · refine ⟨K, by simp only [hb, bind, Except.bind, hS]; simp [hz]; rfl, hno ?_⟩
          rintro ⟨-, -, -, -, S', hS', hz'⟩
          rw [hS] at hS'
          cases hS'
          exact hz' hz
        · have hv : VTriple sep.get G x z y := ⟨hne, hx.symm, hy.symm, hnadj, S, hS, hz⟩
          obtain ⟨K1, r1, u1⟩ := replace_upd hKo.proper (by rw [hKo.types]; exact hT) x z .arrow
          have u1' := hK.union (m0 := .arrow) (Q := fun u v => u = x ∧ v = z) (u1.congr (by intro u v m; tauto))
          have hK1 := hor (K := K1) (Q := fun u v => Q dp u v ∨ u = x ∧ v = z) (by
            rintro u v (h | ⟨rfl, rfl⟩)
            · exact hQ _ _ _ h
            · exact hx.symm) u1'
          obtain ⟨K2, r2, u2⟩ := replace_upd hK1.proper (by rw [hK1.types]; exact hT) y z .arrow
          have u2' := u1'.union (m0 := .arrow) (Q := fun u v => u = y ∧ v = z) (u2.congr (by intro u v m; tauto))
          refine ⟨K2, ?_, u2'.congr fun u v m => ?_⟩
          · simp only [hb, bind, Except.bind, hS]
            simp [hz, r1, r2]
          · rw [hQ']
            simp only [hv, and_true]
            generalize Q dp u v = q
            clear * -
            tauto)
  refine ⟨K, k1, k2.congr fun u v m => ?_⟩
  simp only [Q, List.nil_append]
  refine and_congr_right fun _ => or_congr_right (and_congr_right fun hvz => ?_)
  subst hvz
  constructor
  · rintro ⟨w, -, h⟩; exact ⟨w, h⟩
  · rintro ⟨w, h⟩
    refine ⟨w, mem_pairs_or ?_ ?_ h.1, h⟩
    · rw [o.mem, mem_findAdjacent hH.proper, hH.adj]; exact h.2.1.symm
    · rw [o.mem, mem_findAdjacent hH.proper, hH.adj]; exact h.2.2.1.symm

/-- `orient_v_structures` of PAGs writes exactly the arrowheads of the unshielded triples whose middle node is not in the
separating set. -/
theorem pagVStructures_spec (o : SetOrder α) (sep : SepSet α) {G : MG α} (hG : G.Proper) (hT : ∀ m, m ∈ G.types)
    (hsep : ∀ i ∈ G.nodes, ∀ j ∈ G.nodes, i ≠ j → ∃ S, sep.get i j = .ok S) :
    ∃ H, G.pagVStructures o (some sep) = .ok H ∧ Oriented H G ∧
      Upd G H (fun u v m => m = .arrow ∧ ∃ w, VTriple sep.get G u v w) := by
  obtain ⟨H, h1, h2⟩ := foldlM_ok_inv
    (f := fun (G : MG α) z =>
      (pairs (o.iter z (G.findAdjacentNodes z none none))).foldlM (fun (G : MG α) xy => do
        if ← G.isConnected xy.1 xy.2 then return G
        if z ∉ (← sep.get xy.1 xy.2) then
          let G ← G.replaceEdgeMark xy.1 z .arrow
          G.replaceEdgeMark xy.2 z .arrow
        else return G) G)
    (fun dz H => Upd G H (fun u v m => m = .arrow ∧ (v ∈ dz ∧ ∃ w, VTriple sep.get G u v w))) (o.iter () G.nodes) [] G
    (Upd.id G (by simp)) (by
      intro dz z H hz hH
      obtain ⟨K, k1, k2⟩ := vsInner_spec o sep hG hT hsep (by rintro u v ⟨_, w, h⟩; exact h.2.1) hH z
      refine ⟨K, k1, k2.congr fun u v m => ?_⟩
      simp only [List.mem_append, List.mem_singleton]
      tauto)
  have h3 : Upd G H (fun u v m => m = .arrow ∧ ∃ w, VTriple sep.get G u v w) := by
    refine h2.congr fun u v m => ?_
    simp only [List.nil_append, o.mem]
    constructor
    · rintro ⟨h, _, h'⟩; exact ⟨h, h'⟩
    · rintro ⟨h, w, h'⟩; exact ⟨h, (hG.mem_adj h'.2.1).2, w, h'⟩
  refine ⟨H, h1, h3.oriented hG ?_ ?_, h3⟩
  · rintro u v m ⟨rfl, w, h⟩; exact ⟨h.2.1, by simp, hT _⟩
  · rintro u v m m' ⟨rfl, _⟩ ⟨rfl, _⟩; rfl

/-- `copy_skeleton_from_pdag` into an empty graph. -/
theorem copySkeleton_spec (o : SetOrder α) (N : Finset α) {P : MG α} (hP : P.PdagWF) :
    ∃ H, (pagEmpty N).copySkeleton o P N = .ok H ∧ H.Proper ∧ H.nodes = N ∧ H.types = pagTypes ∧
      (∀ a b m, H.At a b m → m = .circle) ∧ ∀ a b, H.MAdj a b ↔ a ∈ N ∧ b ∈ N ∧ a ≠ b ∧ P.PAdj a b := by
  have hPs : ∀ a b, P.PAdj a b → P.PAdj b a := by intro a b h; simp only [PAdj] at h ⊢; tauto
  obtain ⟨H, h1, h2, h3, h4, h5, h6⟩ := foldlM_split
    (f := fun (G : MG α) (ij : α × α) => do
      if ← P.isConnected ij.1 ij.2 then G.addEdge ij.1 ij.2 .circle .circle else return G)
    (fun dn H => H.Proper ∧ H.nodes = N ∧ H.types = pagTypes ∧ (∀ a b m, H.At a b m → m = .circle) ∧
      ∀ a b, H.MAdj a b ↔ ((a, b) ∈ dn ∨ (b, a) ∈ dn) ∧ P.PAdj a b)
    (pairs (o.iter () N)) [] (pagEmpty N)
    ⟨empty_proper _ _, rfl, rfl, by simp [pagEmpty, MG.empty, At], by simp [pagEmpty, MG.empty, At, MAdj]⟩ (by
      rintro dn ⟨i, j⟩ rest H he ⟨i1, i2, i3, i4, i5⟩
      rw [List.nil_append] at he
      have hij : (i, j) ∈ pairs (o.iter () N) := by rw [he]; simp
      have hi := (o.mem _ _ _).mp (mem_pairs_left hij)
      have hj := (o.mem _ _ _).mp (mem_pairs_right hij)
      have hne := mem_pairs_ne (o.nodup _ _) hij
      have hpw := pairs_pairwise (o.nodup () N)
      rw [he, List.pairwise_append] at hpw
      have hnot : (i, j) ∉ dn ∧ (j, i) ∉ dn :=
        ⟨fun h => (hpw.2.2 _ h (i, j) (by simp)).1 rfl, fun h => (hpw.2.2 _ h (i, j) (by simp)).2 rfl⟩
      obtain ⟨b, hb, hb'⟩ := isConnected_spec hP hne
      cases b with
      | false =>
        refine ⟨H, by simp only [hb]; rfl, i1, i2, i3, i4, fun a b => ?_⟩
        have hn : ¬ P.PAdj i j := fun h => by simpa using hb'.mpr h
        rw [i5]
        simp only [List.mem_append, List.mem_singleton, Prod.mk.injEq]
        constructor
        · rintro ⟨h1, h2⟩; exact ⟨h1.imp Or.inl Or.inl, h2⟩
        · rintro ⟨(h1 | ⟨rfl, rfl⟩) | (h1 | ⟨rfl, rfl⟩), h2⟩
          · exact ⟨Or.inl h1, h2⟩
          · exact absurd h2 hn
          · exact ⟨Or.inr h1, h2⟩
          · exact absurd (hPs _ _ h2) hn
      | true =>
        have hc : Mark.circle ∈ H.types := by rw [i3]; simp [pagTypes]
        have hn : ¬ H.MAdj i j := by rw [i5]; tauto
        obtain ⟨K, k1, k2, k3, k4⟩ := addEdge_spec i1.type hne hn hc hc
        refine ⟨K, by simp only [hb]; exact k1, i1.addEdge (by rw [i2]; exact hi) (by rw [i2]; exact hj) k1, k2.trans i2,
          k3.trans i3, ?_, fun a b => ?_⟩
        · intro a b m h
          rcases (k4 _ _ _).mp h with h | h | h
          · exact i4 _ _ _ h
          · exact h.2.2
          · exact h.2.2
        · have hp : P.PAdj i j := hb'.mp rfl
          have hK : K.MAdj a b ↔ H.MAdj a b ∨ (a = i ∧ b = j) ∨ (a = j ∧ b = i) := by
            simp only [MAdj, k4]
            constructor
            · rintro (⟨m, h | h | h⟩ | ⟨m, h | h | h⟩) <;> tauto
            · rintro ((⟨m, h⟩ | ⟨m, h⟩) | h | h)
              · exact Or.inl ⟨m, Or.inl h⟩
              · exact Or.inr ⟨m, Or.inl h⟩
              · exact Or.inl ⟨.circle, by tauto⟩
              · exact Or.inl ⟨.circle, by tauto⟩
          rw [hK, i5]
          simp only [List.mem_append, List.mem_singleton, Prod.mk.injEq]
          constructor
          · rintro (⟨h1, h2⟩ | ⟨rfl, rfl⟩ | ⟨rfl, rfl⟩)
            · exact ⟨h1.imp Or.inl Or.inl, h2⟩
            · exact ⟨Or.inl (Or.inr ⟨rfl, rfl⟩), hp⟩
            · exact ⟨Or.inr (Or.inr ⟨rfl, rfl⟩), hPs _ _ hp⟩
          · rintro ⟨(h1 | h1) | (h1 | h1), h2⟩ <;> tauto)
  refine ⟨H, h1, h2, h3, h4, h5, fun a b => ?_⟩
  rw [h6, List.nil_append]
  constructor
  · rintro ⟨h | h, h'⟩
    · exact ⟨(o.mem _ _ _).mp (mem_pairs_left h), (o.mem _ _ _).mp (mem_pairs_right h), mem_pairs_ne (o.nodup _ _) h, h'⟩
    · exact ⟨(o.mem _ _ _).mp (mem_pairs_right h), (o.mem _ _ _).mp (mem_pairs_left h),
        (mem_pairs_ne (o.nodup _ _) h).symm, h'⟩
  · rintro ⟨ha, hb, hne, h⟩
    exact ⟨mem_pairs_or ((o.mem _ _ _).mpr ha) ((o.mem _ _ _).mpr hb) hne, h⟩

end MG
end Verif
