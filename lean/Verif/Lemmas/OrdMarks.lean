import Verif.Lemmas.Icd
import Verif.Spec.OrderedIcd

/-!
# The orientation rules do not change the marks given by an order
-/

namespace Verif
open Relation
variable {α : Type}

theorem before_iff {order : List α} {a b : α} :
    Before order a b ↔ ∃ i, order[i]? = some b ∧ a ∈ order.take i := by
  unfold Before
  constructor
  · intro h
    obtain ⟨l1, l2, rfl, h1, h2⟩ := List.append_sublist_iff.mp (show ([a] ++ [b]).Sublist order from h)
    rw [List.singleton_sublist] at h1 h2
    obtain ⟨j, hj, rfl⟩ := List.getElem_of_mem h2
    refine ⟨l1.length + j, by rw [List.getElem?_append_right (by omega)]; simp [hj], ?_⟩
    rw [List.take_append]
    simp only [List.mem_append]
    left
    rw [List.take_of_length_le (by omega)]
    exact h1
  · rintro ⟨i, h1, h2⟩
    obtain ⟨hi, rfl⟩ := List.getElem?_eq_some_iff.mp h1
    have : (order.take i ++ order.drop i) = order := List.take_append_drop i order
    refine List.Sublist.trans (l₂ := order.take i ++ order.drop i) ?_ (by rw [this])
    refine List.Sublist.append (l₁ := [a]) (r₁ := [order[i]]) (List.singleton_sublist.mpr h2) (List.singleton_sublist.mpr ?_)
    rw [List.drop_eq_getElem_cons hi]
    exact List.mem_cons_self

theorem Before.mem_left {order : List α} {a b : α} (h : Before order a b) : a ∈ order := h.subset (by simp)
theorem Before.mem_right {order : List α} {a b : α} (h : Before order a b) : b ∈ order := h.subset (by simp)

theorem Before.ne {order : List α} (hd : order.Nodup) {a b : α} (h : Before order a b) : a ≠ b := by
  have := h.nodup hd
  simpa using this

theorem Before.asymm {order : List α} (hd : order.Nodup) {a b : α} (h : Before order a b) : ¬ Before order b a := by
  intro h'
  induction order with
  | nil => exact absurd h.mem_left (by simp)
  | cons x l ih =>
    rw [List.nodup_cons] at hd
    unfold Before at h h'
    rw [List.cons_sublist_cons'] at h h'
    rcases h with h | ⟨rfl, h⟩
    · rcases h' with h' | ⟨rfl, h'⟩
      · exact ih hd.2 h h'
      · exact hd.1 (h.subset (by simp))
    · rcases h' with h' | ⟨rfl, h'⟩
      · exact hd.1 (h'.subset (by simp))
      · exact hd.1 (h.subset (by simp))

theorem Before.total {order : List α} {a b : α} (ha : a ∈ order) (hb : b ∈ order) (hne : a ≠ b) :
    Before order a b ∨ Before order b a := by
  induction order with
  | nil => simp at ha
  | cons x l ih =>
    rcases List.mem_cons.mp ha with h1 | h1
    · rcases List.mem_cons.mp hb with h2 | h2
      · exact absurd (h1.trans h2.symm) hne
      · exact Or.inl (h1 ▸ List.cons_sublist_cons.mpr (List.singleton_sublist.mpr h2))
    · rcases List.mem_cons.mp hb with h2 | h2
      · exact Or.inr (h2 ▸ List.cons_sublist_cons.mpr (List.singleton_sublist.mpr h1))
      · exact (ih h1 h2).imp (fun h => h.cons _) (fun h => h.cons _)

theorem Before.trans {order : List α} (hd : order.Nodup) {a b c : α} (h1 : Before order a b) (h2 : Before order b c) :
    Before order a c := by
  induction order with
  | nil => exact absurd h1.mem_left (by simp)
  | cons x l ih =>
    rw [List.nodup_cons] at hd
    unfold Before at h1 h2 ⊢
    rw [List.cons_sublist_cons'] at h1 h2 ⊢
    rcases h1 with h1 | ⟨rfl, h1⟩
    · rcases h2 with h2 | ⟨rfl, h2⟩
      · exact Or.inl (ih hd.2 h1 h2)
      · exact absurd (h1.subset (by simp)) hd.1
    · rcases h2 with h2 | ⟨rfl, h2⟩
      · exact Or.inr ⟨rfl, List.singleton_sublist.mpr (h2.subset (by simp))⟩
      · exact absurd (h1.subset (by simp)) hd.1

/-- An invariant of a fold that is known to succeed. -/
theorem foldlM_ok_of {β γ : Type} {f : γ → β → Py γ} (P : γ → Prop) :
    ∀ (l : List β) (s s' : γ), (∀ x ∈ l, ∀ s s', P s → f s x = .ok s' → P s') → l.foldlM f s = .ok s' → P s → P s'
  | [], s, s', _, h, hs => by
    rw [List.foldlM_nil] at h
    cases h
    exact hs
  | x :: l, s, s', hf, h, hs => by
    rw [List.foldlM_cons] at h
    cases hx : f s x with
    | error e => rw [hx] at h; cases h
    | ok t =>
      rw [py_bind hx] at h
      exact foldlM_ok_of P l t s' (fun y hy => hf y (List.mem_cons_of_mem _ hy)) h (hf x (by simp) s t hs hx)

theorem py_bind_ok {β γ : Type} {x : Py β} {f : β → Py γ} {c : γ} (h : x >>= f = .ok c) : ∃ a, x = .ok a ∧ f a = .ok c := by
  cases x with
  | error e => cases h
  | ok a => exact ⟨a, rfl, h⟩

namespace MG

theorem OrdMarks.upd {order : List α} {G H : MG α} (hG : G.OrdMarks order) {F : α → α → Mark → Prop} (h : Upd G H F)
    (hF : ∀ u v m, F u v m → m = .arrow ∨ ¬ Before order u v) : H.OrdMarks order := by
  intro a b m hab hm
  rcases (h.marks a b m).mp hm with h' | ⟨-, h'⟩
  · exact (hF _ _ _ h').resolve_right (fun h => h hab)
  · exact hG _ _ _ hab h'

theorem OrdMarks.not_before {order : List α} {G : MG α} (hG : G.OrdMarks order) {a b : α} {m : Mark} (h : G.At a b m)
    (hm : m ≠ .arrow) : ¬ Before order a b := fun h' => hm (hG _ _ _ h' h)

variable [LinearOrder α]

omit [LinearOrder α] in
theorem OrdMarks.replace [DecidableEq α] {order : List α} {G H : MG α} (hT : ∀ m, m ∈ G.types) (hG : G.OrdMarks order) {s t : α}
    {m : Mark} (h : G.replaceEdgeMark s t m = .ok H) (hm : m = .arrow ∨ ¬ Before order s t) :
    (∀ m, m ∈ H.types) ∧ H.OrdMarks order := by
  obtain ⟨H', h1, -, h3, h4⟩ := replaceEdgeMark_spec (G := G) (fun _ _ m _ => hT m) (s := s) (t := t) (hT m)
  rw [h] at h1
  cases h1
  refine ⟨fun m => h3 ▸ hT m, fun a b m' hab hm' => ?_⟩
  rw [h4] at hm'
  split_ifs at hm' with hc
  · obtain ⟨rfl, rfl⟩ := hc
    rw [hm']
    exact hm.resolve_right (fun h => h hab)
  · exact hG _ _ _ hab hm'

theorem OrdMarks.rule4 (o : SetOrder α) (sep : SepSet α) {order : List α} {G : MG α} {st : MG α × Bool}
    (hT : ∀ m, m ∈ G.types) (hG : G.OrdMarks order) (h : pagRule4 o sep G = .ok st) : st.1.OrdMarks order := by
  rw [pagRule4] at h
  refine (foldlM_ok_of (fun st : MG α × Bool => (∀ m, m ∈ st.1.types) ∧ st.1.OrdMarks order) _ _ _ ?_ h ⟨hT, hG⟩).2
  rintro b - s s' hs h
  refine foldlM_ok_of (fun st : MG α × Bool => (∀ m, m ∈ st.1.types) ∧ st.1.OrdMarks order) _ _ _ ?_ h hs
  rintro c hc s1 s1' hs1 h
  have hcb : ¬ Before order c b := by
    rw [o.mem] at hc
    exact hs.2.not_before (show s.1.At c b .circle from hc) (by decide)
  refine foldlM_ok_of (fun st : MG α × Bool => (∀ m, m ∈ st.1.types) ∧ st.1.OrdMarks order) _ _ _ ?_ h hs1
  rintro a - s2 s2' hs2 h
  split_ifs at h
  · obtain ⟨r, -, h⟩ := py_bind_ok h
    cases r with
    | none => cases h; exact hs2
    | some d =>
      obtain ⟨K, hK, h⟩ := py_bind_ok h
      cases h
      rw [pagRule4Orient] at hK
      obtain ⟨S, -, hK⟩ := py_bind_ok hK
      split_ifs at hK
      · obtain ⟨K1, k1, hK⟩ := py_bind_ok hK
        have := OrdMarks.replace hs2.1 hs2.2 k1 (Or.inl rfl)
        exact OrdMarks.replace this.1 this.2 hK (Or.inr hcb)
      · obtain ⟨K1, k1, hK⟩ := py_bind_ok hK
        obtain ⟨K2, k2, hK⟩ := py_bind_ok hK
        obtain ⟨K3, k3, hK⟩ := py_bind_ok hK
        have a1 := OrdMarks.replace hs2.1 hs2.2 k1 (Or.inl rfl)
        have a2 := OrdMarks.replace a1.1 a1.2 k2 (Or.inl rfl)
        have a3 := OrdMarks.replace a2.1 a2.2 k3 (Or.inl rfl)
        exact OrdMarks.replace a3.1 a3.2 hK (Or.inl rfl)
  · cases h
    exact hs2

omit [LinearOrder α] in
/-- The other rules, one step. -/
theorem OrdMarks.step {sep : α → α → Py (Finset α)} {order : List α} (hd : ∀ a b, Before order a b → ¬ Before order b a)
    {G H : MG α} (hG : G.Proper) (hm : ∀ v ∈ G.nodes, v ∈ order)
    (hO : G.OrdMarks order) {idx : Nat} (h4 : idx ≠ 4) (h : PagStep sep G H idx) : H.OrdMarks order := by
  have tot : ∀ a b, G.MAdj a b → Before order a b ∨ Before order b a := fun a b hab =>
    Before.total (hm _ (hG.mem_adj hab).1) (hm _ (hG.mem_adj hab).2) (hG.ne hab)
  have noarrow : ∀ a b, G.MAdj a b → ¬ G.At a b .arrow → Before order b a := by
    intro a b hab hn
    rcases tot a b hab with h | h
    · obtain ⟨m, hm⟩ := hG.adj_iff.1 hab
      exact absurd (hO _ _ _ h hm ▸ hm) hn
    · exact h
  cases h with
  | r1 a b c h1 h2 h3 h5 hu =>
    refine hO.upd hu ?_
    rintro u v m (⟨rfl, rfl, rfl⟩ | ⟨rfl, rfl, rfl⟩)
    · exact Or.inr (hO.not_before h2 (by decide))
    · exact Or.inl rfl
  | r2 a b c _ _ _ _ hu => exact hO.upd hu fun u v m h => Or.inl h.2.2
  | r3 a b c d _ _ _ _ _ _ _ hu => exact hO.upd hu fun u v m h => Or.inl h.2.2
  | r4in => exact absurd rfl h4
  | r4out => exact absurd rfl h4
  | r5 a b na nb p h1 h2 h3 h5 h6 hu =>
    obtain ⟨k1, k2, k3⟩ := h6 a b (Or.inl rfl)
    exact absurd (noarrow _ _ k1 k2) (hd _ _ (noarrow _ _ k1.symm k3))
  | r6 a b c h1 h2 h3 _ hu =>
    rcases tot a b (Or.inl ⟨_, h1⟩) with h | h
    · exact absurd h (hO.not_before h1 (by decide))
    · exact absurd h (hO.not_before h2 (by decide))
  | r7 a b c h1 h2 h3 h5 h6 _ hu =>
    exact absurd (noarrow a b (Or.inr ⟨_, h2⟩) h3) (hO.not_before h2 (by decide))
  | r8 a b c h1 h2 h3 h5 hu =>
    exact hO.upd hu fun u v m h => Or.inr (by obtain ⟨rfl, rfl, -⟩ := h; exact hO.not_before h3 (by decide))
  | r9 a b c d p h1 h2 h3 h5 h6 h7 hu =>
    exact hO.upd hu fun u v m h => Or.inr (by obtain ⟨rfl, rfl, -⟩ := h; exact hO.not_before h1 (by decide))
  | r10 a c h1 h2 h3 hu =>
    exact hO.upd hu fun u v m h => Or.inr (by obtain ⟨rfl, rfl, -⟩ := h; exact hO.not_before h1 (by decide))

theorem OrdMarks.rule (o : SetOrder α) (sep : SepSet α) {order : List α} (hd : order.Nodup) {G : MG α} (hG : G.Proper)
    (hT : ∀ m, m ∈ G.types) (hm : ∀ v ∈ G.nodes, v ∈ order) {idx : Nat} (hidx : idx ∈ allPagRules)
    (hsep : idx = 4 → ∀ i ∈ G.nodes, ∀ j ∈ G.nodes, i ≠ j → ∃ S, sep.get i j = .ok S) {st : MG α × Bool}
    (h : pagRule o sep idx G = .ok st) (hO : G.OrdMarks order) : Oriented st.1 G ∧ st.1.OrdMarks order := by
  obtain ⟨st', h1, h2, -⟩ := pagRule_run o sep hG hT hidx hsep
  rw [h] at h1
  cases h1
  refine ⟨h2.oriented hG hT, ?_⟩
  by_cases h4 : idx = 4
  · subst h4
    exact OrdMarks.rule4 o sep hT hO h
  · have := h2.steps
    have key : ∀ K, ReflTransGen (fun G H => PagStep sep.get G H idx) G K → Oriented K G ∧ K.OrdMarks order := by
      intro K hK
      induction hK with
      | refl => exact ⟨.refl hG, hO⟩
      | tail _ hs ih =>
        refine ⟨ih.1.trans (hs.oriented ih.1.proper (by rw [ih.1.types]; exact hT)), ?_⟩
        exact ih.2.step (fun _ _ h => h.asymm hd) ih.1.proper (by rw [ih.1.nodes]; exact hm) h4 hs
    exact (key _ this).2

theorem OrdMarks.maxOrient (o : SetOrder α) (sep : SepSet α) {order : List α} (hd : order.Nodup) {rules : List Nat}
    (hrules : ∀ idx ∈ rules, idx ∈ allPagRules) {G H : MG α} (hG : G.Proper) (hT : ∀ m, m ∈ G.types)
    (hm : ∀ v ∈ G.nodes, v ∈ order)
    (hsep : 4 ∈ rules → ∀ i ∈ G.nodes, ∀ j ∈ G.nodes, i ≠ j → ∃ S, sep.get i j = .ok S)
    (h : pagMaxOrient o sep rules G = .ok H) (hO : G.OrdMarks order) : H.OrdMarks order := by
  have round : ∀ {K : MG α} {st : MG α × Bool}, Oriented K G → K.OrdMarks order → pagRound o sep rules K = .ok st →
      Oriented st.1 G ∧ st.1.OrdMarks order := by
    intro K st hK hKO hst
    rw [pagRound] at hst
    refine foldlM_ok_of (fun st : MG α × Bool => Oriented st.1 G ∧ st.1.OrdMarks order) _ _ _ ?_ hst ⟨hK, hKO⟩
    rintro idx hidx s s' ⟨i1, i2⟩ hs
    obtain ⟨r, r1, r2⟩ := py_bind_ok hs
    cases r2
    have := OrdMarks.rule o sep hd i1.proper (by rw [i1.types]; exact hT) (by rw [i1.nodes]; exact hm) (hrules idx hidx)
      (fun e => by rw [i1.nodes]; exact hsep (e ▸ hidx)) r1 i2
    exact ⟨i1.trans this.1, this.2⟩
  have loop : ∀ (n : Nat) (K : MG α), Oriented K G → K.OrdMarks order → pagOrientLoop o sep rules n K = .ok H →
      H.OrdMarks order := by
    intro n
    induction n with
    | zero => intro K _ _ h; cases h
    | succ n ih =>
      intro K hK hKO h
      rw [pagOrientLoop] at h
      obtain ⟨st, s1, s2⟩ := py_bind_ok h
      have := round hK hKO s1
      split_ifs at s2
      · exact ih _ this.1 this.2 s2
      · cases s2
        exact this.2
  exact loop _ G (.refl hG) hO h

end MG
end Verif
