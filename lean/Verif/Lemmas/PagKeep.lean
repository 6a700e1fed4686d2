import Verif.Model.PagRules
import Verif.Lemmas.MixedEdit
import Verif.Lemmas.OrdMarks

/-!
# The PAG rules on graphs in which an edge may have a mark at one end only

Partial correctness: what holds whenever a method returns. Used for TS-ICD, which writes marks on missing edges.
-/

namespace Verif

theorem foldlM_keep {β σ : Type} {f : σ → β → Py σ} (I : σ → Prop) :
    ∀ (l : List β) (s s' : σ), (∀ s x s', x ∈ l → I s → f s x = .ok s' → I s') → I s → l.foldlM f s = .ok s' → I s' := by
  intro l
  induction l with
  | nil => intro s s' _ h1 h2; cases h2; exact h1
  | cons x l ih =>
    intro s s' hf h1 h2
    rw [List.foldlM_cons] at h2
    obtain ⟨s1, e1, e2⟩ := py_bind_ok h2
    exact ih s1 s' (fun s y s' hy => hf s y s' (List.mem_cons_of_mem _ hy)) (hf s x s1 (by simp) h1 e1) e2

theorem liveFor_keep {β σ : Type} {live : σ → Finset β} {f : σ → β → Py σ} {size : Nat} (I : σ → Prop) :
    ∀ (l : List β) (s s' : σ), (∀ s x s', x ∈ l → I s → f s x = .ok s' → I s') → I s → liveFor live f size l s = .ok s' →
      I s' := by
  intro l
  induction l with
  | nil =>
    intro s s' _ h1 h2
    rw [liveFor] at h2
    split_ifs at h2
    cases h2
    exact h1
  | cons x l ih =>
    intro s s' hf h1 h2
    rw [liveFor] at h2
    split_ifs at h2
    obtain ⟨s1, e1, e2⟩ := py_bind_ok h2
    exact ih s1 s' (fun s y s' hy => hf s y s' (List.mem_cons_of_mem _ hy)) (hf s x s1 (by simp) h1 e1) e2

theorem forFind_some {β γ : Type} {f : β → Py (Option γ)} :
    ∀ {l : List β} {r : γ}, forFind f l = .ok (some r) → ∃ x ∈ l, f x = .ok (some r) := by
  intro l
  induction l with
  | nil => intro r h; cases h
  | cons x l ih =>
    intro r h
    rw [forFind] at h
    obtain ⟨y, e1, e2⟩ := py_bind_ok h
    cases y with
    | some y => cases e2; exact ⟨x, by simp, e1⟩
    | none =>
      obtain ⟨z, hz, e3⟩ := ih e2
      exact ⟨z, List.mem_cons_of_mem _ hz, e3⟩

theorem setComp_mem {α : Type} [DecidableEq α] {p : α → Py Bool} :
    ∀ {l : List α} {S : Finset α}, setComp p l = .ok S → ∀ x ∈ S, x ∈ l ∧ p x = .ok true := by
  intro l
  induction l with
  | nil => intro S h x hx; cases h; simp at hx
  | cons y l ih =>
    intro S h x hx
    rw [setComp] at h
    obtain ⟨b, e1, e2⟩ := py_bind_ok h
    obtain ⟨T, e3, e4⟩ := py_bind_ok e2
    cases b with
    | false => cases e4; obtain ⟨h1, h2⟩ := ih e3 x hx; exact ⟨List.mem_cons_of_mem _ h1, h2⟩
    | true =>
      cases e4
      rcases Finset.mem_insert.mp hx with rfl | hx
      · exact ⟨by simp, e1⟩
      · obtain ⟨h1, h2⟩ := ih e3 x hx; exact ⟨List.mem_cons_of_mem _ h1, h2⟩

theorem filterPy_mem {β : Type} {p : β → Py Bool} :
    ∀ {l S : List β}, filterPy p l = .ok S → ∀ x ∈ S, x ∈ l ∧ p x = .ok true := by
  intro l
  induction l with
  | nil => intro S h x hx; cases h; simp at hx
  | cons y l ih =>
    intro S h x hx
    rw [filterPy] at h
    obtain ⟨b, e1, e2⟩ := py_bind_ok h
    obtain ⟨T, e3, e4⟩ := py_bind_ok e2
    cases b with
    | false => cases e4; obtain ⟨h1, h2⟩ := ih e3 x hx; exact ⟨List.mem_cons_of_mem _ h1, h2⟩
    | true =>
      cases e4
      rcases List.mem_cons.mp hx with rfl | hx
      · exact ⟨by simp, e1⟩
      · obtain ⟨h1, h2⟩ := ih e3 x hx; exact ⟨List.mem_cons_of_mem _ h1, h2⟩

namespace MG
variable {α : Type}

/-- A mixed graph with all three mark types in which an edge may have a mark at one end only. -/
structure Weak (G : MG α) : Prop where
  types : G.types = [.circle, .arrow, .tail]
  mem : ∀ a b m, G.At a b m → a ∈ G.nodes ∧ b ∈ G.nodes
  irrefl : ∀ a m, ¬ G.At a a m
  one : ∀ a b m m', G.At a b m → G.At a b m' → m = m'

theorem Weak.ty {G : MG α} (h : G.Weak) (m : Mark) : m ∈ G.types := by rw [h.types]; cases m <;> decide

theorem Weak.mem_adj {G : MG α} (h : G.Weak) {a b : α} (hab : G.MAdj a b) : a ∈ G.nodes ∧ b ∈ G.nodes ∧ a ≠ b := by
  rcases hab with ⟨m, hm⟩ | ⟨m, hm⟩
  · exact ⟨(h.mem _ _ _ hm).1, (h.mem _ _ _ hm).2, by rintro rfl; exact h.irrefl _ _ hm⟩
  · exact ⟨(h.mem _ _ _ hm).2, (h.mem _ _ _ hm).1, by rintro rfl; exact h.irrefl _ _ hm⟩

theorem Proper.weak {G : MG α} (h : G.Proper) (ht : G.types = [.circle, .arrow, .tail]) : G.Weak :=
  ⟨ht, h.mem, h.irrefl, h.one⟩

variable [DecidableEq α]

theorem Weak.replace {G H : MG α} (hG : G.Weak) {s t : α} {m : Mark} (h : G.replaceEdgeMark s t m = .ok H) :
    H.nodes = G.nodes ∧ H.types = G.types ∧ ∀ a b m', H.At a b m' ↔ if a = s ∧ b = t then m' = m else G.At a b m' := by
  obtain ⟨H', e, h1, h2, h3⟩ := replaceEdgeMark_spec (fun _ _ m _ => hG.ty m) (s := s) (t := t) (hG.ty m)
  rw [h] at e
  cases e
  exact ⟨h1, h2, h3⟩

theorem Weak.replace_ok {G : MG α} (hG : G.Weak) (s t : α) (m : Mark) : ∃ H, G.replaceEdgeMark s t m = .ok H := by
  obtain ⟨H', e, -⟩ := replaceEdgeMark_spec (fun _ _ m _ => hG.ty m) (s := s) (t := t) (hG.ty m)
  exact ⟨H', e⟩

theorem Weak.of_replace {G H : MG α} (hG : G.Weak) {s t : α} {m : Mark} (h : G.replaceEdgeMark s t m = .ok H)
    (hs : s ∈ G.nodes) (ht : t ∈ G.nodes) (hne : s ≠ t) : H.Weak := by
  obtain ⟨h1, h2, h3⟩ := hG.replace h
  refine ⟨h2.trans hG.types, ?_, ?_, ?_⟩
  · intro a b m' hab
    rw [h1]
    rw [h3] at hab
    split_ifs at hab with hc
    · exact hc.1 ▸ hc.2 ▸ ⟨hs, ht⟩
    · exact hG.mem _ _ _ hab
  · intro a m' ha
    rw [h3] at ha
    split_ifs at ha with hc
    · exact hne (hc.1.symm.trans hc.2)
    · exact hG.irrefl _ _ ha
  · intro a b m' m'' h' h''
    rw [h3] at h' h''
    split_ifs at h' h'' with hc
    · exact h'.trans h''.symm
    · exact hG.one _ _ _ _ h' h''

theorem Weak.connected {G : MG α} (hG : G.Weak) {i j : α} {b : Bool} (h : G.isConnected i j = .ok b) :
    i ≠ j ∧ (b = true ↔ G.MAdj i j) := by
  rw [isConnected] at h
  split_ifs at h with hij
  cases h
  refine ⟨hij, ?_⟩
  simp only [Bool.or_eq_true, List.any_eq_true, decide_eq_true_eq, MAdj, At]
  constructor
  · rintro (⟨m, -, h⟩ | ⟨m, -, h⟩)
    · exact Or.inl ⟨m, h⟩
    · exact Or.inr ⟨m, h⟩
  · rintro (⟨m, h⟩ | ⟨m, h⟩)
    · exact Or.inl ⟨m, hG.ty m, h⟩
    · exact Or.inr ⟨m, hG.ty m, h⟩

theorem Weak.edge {G : MG α} {i j : α} {mi mj : Mark} {b : Bool} (h : G.isEdge i j mi mj = .ok b) :
    b = true ↔ G.At j i mi ∧ G.At i j mj := by
  rw [isEdge] at h
  split_ifs at h
  cases h
  simp [At]

theorem adj_of_mem_adjacent {G : MG α} {x z : α} (h : x ∈ G.findAdjacentNodes z none none) : G.MAdj x z := by
  have key : ∀ (l : List Mark) (acc : Finset α), x ∈ l.foldl (fun acc m => acc ∪ G.g z m) acc →
      x ∈ acc ∨ ∃ m, x ∈ G.g z m := by
    intro l
    induction l with
    | nil => intro acc h; exact Or.inl h
    | cons m l ih =>
      intro acc h
      rcases ih _ h with h | h
      · rcases Finset.mem_union.mp h with h | h
        · exact Or.inl h
        · exact Or.inr ⟨m, h⟩
      · exact Or.inr h
  rcases key _ _ h with h | ⟨m, h⟩
  · simp at h
  · exact Or.inl ⟨m, h⟩

/-- `H` arises from `G` by writing heads and tails on existing edges, never a tail over a head of `G`. -/
structure Keep (G H : MG α) : Prop where
  weak : H.Weak
  nodes : H.nodes = G.nodes
  adj : ∀ a b, H.MAdj a b ↔ G.MAdj a b
  arrow : ∀ a b, G.At a b .arrow → H.At a b .arrow
  solid : ∀ a b m, G.At a b m → m ≠ .circle → ∃ m', m' ≠ .circle ∧ H.At a b m'
  ends : ∀ a b m, G.At a b m → ∃ m', H.At a b m'

omit [DecidableEq α] in
theorem Keep.refl {G : MG α} (h : G.Weak) : Keep G G :=
  ⟨h, rfl, fun _ _ => Iff.rfl, fun _ _ h => h, fun _ _ m h hm => ⟨m, hm, h⟩, fun _ _ m h => ⟨m, h⟩⟩

omit [DecidableEq α] in
theorem Keep.trans {G H K : MG α} (h : Keep G H) (h' : Keep H K) : Keep G K where
  weak := h'.weak
  nodes := h'.nodes.trans h.nodes
  adj := fun a b => (h'.adj a b).trans (h.adj a b)
  arrow := fun a b x => h'.arrow a b (h.arrow a b x)
  solid := by
    intro a b m x hm
    obtain ⟨m1, e1, e2⟩ := h.solid a b m x hm
    exact h'.solid a b m1 e2 e1
  ends := by
    intro a b m x
    obtain ⟨m1, e1⟩ := h.ends a b m x
    exact h'.ends a b m1 e1

theorem Keep.replace {G H K : MG α} (h : Keep G H) {s t : α} {m : Mark} (hadj : G.MAdj s t) (hm : m ≠ .circle)
    (ha : m = .arrow ∨ ¬ G.At s t .arrow) (he : H.replaceEdgeMark s t m = .ok K) : Keep G K := by
  have hadj' := (h.adj s t).mpr hadj
  obtain ⟨q1, q2, q3⟩ := h.weak.mem_adj hadj'
  obtain ⟨h1, h2, h3⟩ := h.weak.replace he
  refine ⟨h.weak.of_replace he q1 q2 q3, h1.trans h.nodes, ?_, ?_, ?_, ?_⟩
  · intro a b
    rw [← h.adj]
    constructor
    · rintro (⟨m', hx⟩ | ⟨m', hx⟩) <;> rw [h3] at hx <;> split_ifs at hx with hc
      · rw [hc.1, hc.2]; exact hadj'
      · exact Or.inl ⟨m', hx⟩
      · rw [hc.1, hc.2]; exact hadj'.symm
      · exact Or.inr ⟨m', hx⟩
    · rintro (⟨m', hx⟩ | ⟨m', hx⟩)
      · refine Or.inl ?_
        by_cases hc : a = s ∧ b = t
        · exact ⟨m, by rw [h3, if_pos hc]⟩
        · exact ⟨m', by rw [h3, if_neg hc]; exact hx⟩
      · refine Or.inr ?_
        by_cases hc : b = s ∧ a = t
        · exact ⟨m, by rw [h3, if_pos hc]⟩
        · exact ⟨m', by rw [h3, if_neg hc]; exact hx⟩
  · intro a b hx
    rw [h3]
    split_ifs with hc
    · rw [hc.1, hc.2] at hx
      rcases ha with rfl | ha
      · rfl
      · exact absurd hx ha
    · exact h.arrow a b hx
  · intro a b m' hx hm'
    by_cases hc : a = s ∧ b = t
    · exact ⟨m, hm, by rw [h3, if_pos hc]⟩
    · obtain ⟨m1, e1, e2⟩ := h.solid a b m' hx hm'
      exact ⟨m1, e1, by rw [h3, if_neg hc]; exact e2⟩
  · intro a b m' hx
    by_cases hc : a = s ∧ b = t
    · exact ⟨m, by rw [h3, if_pos hc]⟩
    · obtain ⟨m1, e2⟩ := h.ends a b m' hx
      exact ⟨m1, by rw [h3, if_neg hc]; exact e2⟩

omit [DecidableEq α] in
theorem Weak.not_arrow {G : MG α} (h : G.Weak) {a b : α} {m : Mark} (hab : G.At a b m) (hm : m ≠ .arrow) :
    ¬ G.At a b .arrow := fun h' => hm (h.one _ _ _ _ hab h')

/-! ### the rules -/

theorem pagRule1_keep (o : SetOrder α) {G : MG α} (hG : G.Weak) {r : MG α × Bool} (h : pagRule1 o G = .ok r) :
    Keep G r.1 := by
  refine foldlM_keep (fun st : MG α × Bool => Keep G st.1) _ _ _ ?_ (Keep.refl hG) h
  intro st b st' _ hst hb
  refine hst.trans (liveFor_keep (fun s : MG α × Bool => Keep st.1 s.1) _ _ _ ?_ (Keep.refl hst.weak) hb)
  intro s a s' _ hs ha
  refine foldlM_keep (fun s : MG α × Bool => Keep st.1 s.1) _ _ _ ?_ hs ha
  intro s c s' hc hs he
  have hc' : st.1.At c b .circle := (o.mem _ _ _).mp hc
  obtain ⟨b1, e1, e2⟩ := py_bind_ok he
  cases b1 with
  | true => cases e2; exact hs
  | false =>
    obtain ⟨G1, e3, e4⟩ := py_bind_ok e2
    obtain ⟨G2, e5, e6⟩ := py_bind_ok e4
    cases e6
    have k1 := hs.replace (Or.inl ⟨_, hc'⟩) (by decide) (Or.inr (hst.weak.not_arrow hc' (by decide))) e3
    exact k1.replace (Or.inr ⟨_, hc'⟩) (by decide) (Or.inl rfl) e5

theorem pagRule2_keep (o : SetOrder α) {G : MG α} (hG : G.Weak) {r : MG α × Bool} (h : pagRule2 o G = .ok r) :
    Keep G r.1 := by
  obtain ⟨s1, e1, e2⟩ := py_bind_ok h
  have h1 : Keep G s1.1 := by
    refine foldlM_keep (fun st : MG α × Bool => Keep G st.1) _ _ _ ?_ (Keep.refl hG) e1
    intro st b st' _ hst hb
    refine liveFor_keep (fun s : MG α × Bool => Keep G s.1) _ _ _ ?_ hst hb
    intro s c s' _ hs he
    split_ifs at he
    rotate_left
    · cases he; exact hs
    · refine liveFor_keep (fun s : MG α × Bool => Keep G s.1) _ _ _ ?_ hs he
      intro s a s' _ hs he
      split_ifs at he with ha
      · obtain ⟨G1, e3, e4⟩ := py_bind_ok he
        cases e4
        exact hs.replace ((hs.adj _ _).mp (Or.inl ⟨_, ha⟩)) (by decide) (Or.inl rfl) e3
      · cases he; exact hs
  refine foldlM_keep (fun st : MG α × Bool => Keep G st.1) _ _ _ ?_ h1 e2
  intro st c st' _ hst hc
  refine foldlM_keep (fun st : MG α × Bool => Keep G st.1) _ _ _ ?_ hst hc
  intro st b st' _ hst hb
  refine liveFor_keep (fun s : MG α × Bool => Keep G s.1) _ _ _ ?_ hst hb
  intro s a s' _ hs he
  split_ifs at he with ha ha
  · obtain ⟨G1, e3, e4⟩ := py_bind_ok he
    cases e4
    exact hs.replace ((hs.adj _ _).mp (Or.inl ⟨_, ha⟩)) (by decide) (Or.inl rfl) e3
  · cases he; exact hs
  · cases he; exact hs

theorem pagRule3_keep (o : SetOrder α) {G : MG α} (hG : G.Weak) {r : MG α × Bool} (h : pagRule3 o G = .ok r) :
    Keep G r.1 := by
  refine foldlM_keep (fun st : MG α × Bool => Keep G st.1) _ _ _ ?_ (Keep.refl hG) h
  intro st b st' _ hst hb
  refine hst.trans (foldlM_keep (fun s : MG α × Bool => Keep st.1 s.1) _ _ _ ?_ (Keep.refl hst.weak) hb)
  intro s d s' hd hs he
  have hd' : st.1.At d b .circle := (o.mem _ _ _).mp hd
  refine foldlM_keep (fun s : MG α × Bool => Keep st.1 s.1) _ _ _ ?_ hs he
  intro s ac s' _ hs he
  obtain ⟨b1, e1, e2⟩ := py_bind_ok he
  cases b1 with
  | true => cases e2; exact hs
  | false =>
    obtain ⟨G1, e3, e4⟩ := py_bind_ok e2
    cases e4
    exact hs.replace (Or.inl ⟨_, hd'⟩) (by decide) (Or.inl rfl) e3

theorem resetOrientations_keep (o : SetOrder α) {G : MG α} {S : Finset α} {H K : MG α} (hH : Keep G H)
    (hS : ∀ x ∈ S, ∀ y ∈ S, ¬ G.At x y .arrow) (h : H.resetOrientations o .tail S = .ok K) : Keep G K := by
  rw [resetOrientations] at h
  split_ifs at h
  refine foldlM_keep (fun H : MG α => Keep G H) _ _ _ ?_ hH h
  intro s xy s' hxy hs he
  obtain ⟨b1, e1, e2⟩ := py_bind_ok he
  have hx := (o.mem _ _ _).mp (mem_pairs_left hxy)
  have hy := (o.mem _ _ _).mp (mem_pairs_right hxy)
  cases b1 with
  | false => cases e2; exact hs
  | true =>
    obtain ⟨G1, e3, e4⟩ := py_bind_ok e2
    have hadj := (hs.adj _ _).mp ((hs.weak.connected e1).2.mp rfl)
    exact (hs.replace hadj (by decide) (Or.inr (hS _ hx _ hy)) e3).replace hadj.symm (by decide)
      (Or.inr (hS _ hy _ hx)) e4

/-- Consecutive nodes of a path found satisfy the condition of the search. -/
theorem uncovFuel_chain (o : SetOrder α) (G : MG α) (cond : α → α → Py Bool) (y ny : α) :
    ∀ (n : Nat) (x nx : α) (en : Finset α) (p : List α), uncovFuel o G cond n x y nx ny en = .ok (some p) →
      ∃ q, p = nx :: q ∧ p.getLast? = some ny ∧ p.IsChain (fun u v => cond u v = .ok true) := by
  intro n
  induction n with
  | zero => intro x nx en p h; cases h
  | succ n ih =>
    intro x nx en p h
    rw [uncovFuel] at h
    split_ifs at h with hne
    · cases h; exact ⟨[], rfl, by simp [hne], by simp⟩
    · obtain ⟨triv, e1, e2⟩ := py_bind_ok h
      cases triv with
      | true =>
        cases e2
        refine ⟨[ny], rfl, by simp, ?_⟩
        obtain ⟨b1, e3, e4⟩ := py_bind_ok e1
        cases b1 with
        | false => cases e4
        | true => simpa using e3
      | false =>
        obtain ⟨cs, e3, e4⟩ := py_bind_ok e2
        obtain ⟨c, hc, e5⟩ := forFind_some e4
        obtain ⟨pp, e6, e7⟩ := py_bind_ok e5
        cases pp with
        | none => cases e7
        | some pp =>
          cases e7
          obtain ⟨q, rfl, h1, h2⟩ := ih nx c _ pp e6
          refine ⟨c :: q, rfl, by simpa using h1, List.isChain_cons_cons.mpr ⟨?_, h2⟩⟩
          obtain ⟨-, e8⟩ := setComp_mem e3 c ((o.mem _ _ _).mp hc)
          obtain ⟨b1, e9, e10⟩ := py_bind_ok e8
          cases b1 with
          | false => cases e10
          | true => exact e9

theorem resetPath_keep (o : SetOrder α) {G : MG α} :
    ∀ (l : List α) {H K : MG α}, Keep G H → l.IsChain (fun u v => ¬ G.At u v .arrow ∧ ¬ G.At v u .arrow) →
      resetPath o H l = .ok K → Keep G K := by
  intro l
  induction l with
  | nil => intro H K hH _ h; rw [resetPath] at h; cases h; exact hH; simp
  | cons u l ih =>
    intro H K hH hc h
    cases l with
    | nil => rw [resetPath] at h; cases h; exact hH; simp
    | cons v l =>
      rw [resetPath] at h
      obtain ⟨H1, e1, e2⟩ := py_bind_ok h
      rw [List.isChain_cons_cons] at hc
      refine ih (resetOrientations_keep o hH ?_ e1) hc.2 e2
      intro x hx y hy hxy
      simp only [Finset.mem_insert, Finset.mem_singleton] at hx hy
      rcases hx with rfl | rfl <;> rcases hy with rfl | rfl
      · exact (Keep.trans (Keep.refl (by exact hH.weak)) (Keep.refl hH.weak)).weak.irrefl _ _ (hH.arrow _ _ hxy)
      · exact hc.1.1 hxy
      · exact hc.1.2 hxy
      · exact hH.weak.irrefl _ _ (hH.arrow _ _ hxy)

theorem pagRule5_keep (o : SetOrder α) {G : MG α} (hG : G.Weak) {r : MG α × Bool} (h : pagRule5 o G = .ok r) :
    Keep G r.1 := by
  obtain ⟨edges, e1, e2⟩ := py_bind_ok h
  refine foldlM_keep (fun st : MG α × Bool => Keep G st.1) _ _ _ ?_ (Keep.refl hG) e2
  intro st ab st' hab hst he
  obtain ⟨-, hcc⟩ := filterPy_mem e1 ab hab
  have hcc' := (Weak.edge hcc).mp rfl
  obtain ⟨as, e3, e4⟩ := py_bind_ok he
  obtain ⟨bs, e5, e6⟩ := py_bind_ok e4
  refine foldlM_keep (fun st : MG α × Bool => Keep G st.1) _ _ _ ?_ hst e6
  intro s na s' hna hs he
  refine foldlM_keep (fun st : MG α × Bool => Keep G st.1) _ _ _ ?_ hs he
  intro s nb s' hnb hs he
  obtain ⟨p, e7, e8⟩ := py_bind_ok he
  cases p with
  | none => cases e8; exact hs
  | some p =>
    obtain ⟨G1, e9, e10⟩ := py_bind_ok e8
    obtain ⟨G2, e11, e12⟩ := py_bind_ok e10
    cases e12
    have hcirc : ∀ {H : MG α}, Keep G H → ∀ {u v}, H.At u v .circle → ¬ G.At u v .arrow := by
      intro H hH u v huv harr
      have := hH.weak.one _ _ _ _ huv (hH.arrow _ _ harr)
      cases this
    obtain ⟨-, ha⟩ := setComp_mem e3 na ((o.mem _ _ _).mp hna)
    obtain ⟨-, hb⟩ := setComp_mem e5 nb ((o.mem _ _ _).mp hnb)
    have ha' : st.1.isEdge ab.1 na .circle .circle = .ok true := by
      obtain ⟨b1, x1, x2⟩ := py_bind_ok ha
      cases b1 with
      | false => cases x2
      | true => exact x1
    have hb' : st.1.isEdge ab.2 nb .circle .circle = .ok true := by
      obtain ⟨b1, x1, x2⟩ := py_bind_ok hb
      cases b1 with
      | false => cases x2
      | true => exact x1
    have ha2 := (Weak.edge ha').mp rfl
    have hb2 := (Weak.edge hb').mp rfl
    obtain ⟨q, rfl, h1, h2⟩ := uncovFuel_chain o s.1 _ ab.2 nb _ ab.1 na _ p e7
    refine resetPath_keep o _ (resetOrientations_keep o hs ?_ e9) ?_ e11
    · intro x hx y hy hxy
      simp only [Finset.mem_insert, Finset.mem_singleton] at hx hy
      rcases hx with rfl | rfl <;> rcases hy with rfl | rfl
      · exact hG.irrefl _ _ hxy
      · exact hG.not_arrow hcc'.2 (by decide) hxy
      · exact hG.not_arrow hcc'.1 (by decide) hxy
      · exact hG.irrefl _ _ hxy
    · have h3 : (na :: q).IsChain (fun u v => ¬ G.At u v .arrow ∧ ¬ G.At v u .arrow) := by
        refine h2.imp ?_
        intro u v huv
        have := (Weak.edge huv).mp rfl
        exact ⟨hcirc hs this.2, hcirc hs this.1⟩
      rw [List.cons_append, List.cons_append, List.isChain_cons_cons, ← List.cons_append, List.isChain_append]
      refine ⟨⟨hcirc hst ha2.2, hcirc hst ha2.1⟩, h3, by simp, ?_⟩
      intro x hx y hy
      rw [h1] at hx
      cases hx
      simp only [List.head?_cons, Option.mem_def, Option.some.injEq] at hy
      subst hy
      exact ⟨hcirc hst hb2.1, hcirc hst hb2.2⟩

theorem pagRule6_keep (o : SetOrder α) {G : MG α} (hG : G.Weak) {r : MG α × Bool} (h : pagRule6 o G = .ok r) :
    Keep G r.1 := by
  refine foldlM_keep (fun st : MG α × Bool => Keep G st.1) _ _ _ ?_ (Keep.refl hG) h
  intro st b st' _ hst hb
  refine hst.trans (foldlM_keep (fun s : MG α × Bool => Keep st.1 s.1) _ _ _ ?_ (Keep.refl hst.weak) hb)
  intro s _ s' _ hs he
  refine foldlM_keep (fun s : MG α × Bool => Keep st.1 s.1) _ _ _ ?_ hs he
  intro s c s' hc hs he
  have hc' : st.1.At c b .circle := (o.mem _ _ _).mp hc
  obtain ⟨G1, e3, e4⟩ := py_bind_ok he
  cases e4
  exact hs.replace (Or.inl ⟨_, hc'⟩) (by decide) (Or.inr (hst.weak.not_arrow hc' (by decide))) e3

theorem pagRule7_keep (o : SetOrder α) {G : MG α} (hG : G.Weak) {r : MG α × Bool} (h : pagRule7 o G = .ok r) :
    Keep G r.1 := by
  refine foldlM_keep (fun st : MG α × Bool => Keep G st.1) _ _ _ ?_ (Keep.refl hG) h
  intro st b st' _ hst hb
  refine hst.trans (foldlM_keep (fun s : MG α × Bool => Keep st.1 s.1) _ _ _ ?_ (Keep.refl hst.weak) hb)
  intro s a s' _ hs he
  refine foldlM_keep (fun s : MG α × Bool => Keep st.1 s.1) _ _ _ ?_ hs he
  intro s c s' hc hs he
  have hc' : st.1.At c b .circle := (o.mem _ _ _).mp hc
  split_ifs at he
  · cases he; exact hs
  · obtain ⟨b1, e1, e2⟩ := py_bind_ok he
    cases b1 with
    | true => cases e2; exact hs
    | false =>
      obtain ⟨G1, e3, e4⟩ := py_bind_ok e2
      cases e4
      exact hs.replace (Or.inl ⟨_, hc'⟩) (by decide) (Or.inr (hst.weak.not_arrow hc' (by decide))) e3

theorem Keep.tail {G H K : MG α} (h : Keep G H) {s t : α} (hc : H.At s t .circle)
    (he : H.replaceEdgeMark s t .tail = .ok K) : Keep G K :=
  h.trans ((Keep.refl h.weak).replace (Or.inl ⟨_, hc⟩) (by decide) (Or.inr (h.weak.not_arrow hc (by decide))) he)

theorem pagRule8_keep (o : SetOrder α) {G : MG α} (hG : G.Weak) {r : MG α × Bool} (h : pagRule8 o G = .ok r) :
    Keep G r.1 := by
  refine foldlM_keep (fun st : MG α × Bool => Keep G st.1) _ _ _ ?_ (Keep.refl hG) h
  intro st b st' _ hst hb
  refine foldlM_keep (fun s : MG α × Bool => Keep G s.1) _ _ _ ?_ hst hb
  intro s a s' _ hs he
  refine foldlM_keep (fun s : MG α × Bool => Keep G s.1) _ _ _ ?_ hs he
  intro s c s' hc hs he
  obtain ⟨b1, e1, e2⟩ := py_bind_ok he
  cases b1 with
  | false => cases e2; exact hs
  | true =>
    obtain ⟨G1, e3, e4⟩ := py_bind_ok e2
    cases e4
    exact hs.tail ((Weak.edge e1).mp rfl).1 e3

theorem orientFound_keep {G : MG α} (hG : G.Weak) {f : Py (Option (α × α))} {r : MG α × Bool}
    (hf : ∀ a c, f = .ok (some (a, c)) → G.At c a .circle) (h : orientFound G f = .ok r) : Keep G r.1 := by
  obtain ⟨x, e1, e2⟩ := py_bind_ok h
  cases x with
  | none => cases e2; exact Keep.refl hG
  | some ac =>
    obtain ⟨G1, e3, e4⟩ := py_bind_ok e2
    cases e4
    exact (Keep.refl hG).tail (hf _ _ e1) e3

theorem pagRule9_keep (o : SetOrder α) {G : MG α} (hG : G.Weak) {r : MG α × Bool} (h : pagRule9 o G = .ok r) :
    Keep G r.1 := by
  refine orientFound_keep hG ?_ h
  intro a c hac
  obtain ⟨a', -, h1⟩ := forFind_some hac
  obtain ⟨c', hc, h2⟩ := forFind_some h1
  obtain ⟨ch, e1, h2⟩ := py_bind_ok h2
  obtain ⟨bs, e2, h2⟩ := py_bind_ok h2
  obtain ⟨b, -, h3⟩ := forFind_some h2
  obtain ⟨ds, e3, h3⟩ := py_bind_ok h3
  obtain ⟨d, -, h4⟩ := forFind_some h3
  obtain ⟨p, e4, h4⟩ := py_bind_ok h4
  cases p with
  | none => cases h4
  | some p =>
    cases h4
    exact (Finset.mem_filter.mp ((o.mem _ _ _).mp hc)).1

theorem pagRule10_keep (o : SetOrder α) {G : MG α} (hG : G.Weak) {r : MG α × Bool} (h : pagRule10 o G = .ok r) :
    Keep G r.1 := by
  refine orientFound_keep hG ?_ h
  intro a c hac
  obtain ⟨c', -, h1⟩ := forFind_some hac
  obtain ⟨as, e1, h1⟩ := py_bind_ok h1
  split_ifs at h1
  · cases h1
  obtain ⟨bds, e2, h1⟩ := py_bind_ok h1
  split_ifs at h1
  · cases h1
  obtain ⟨a', ha', h2⟩ := forFind_some h1
  obtain ⟨ch, e3, h2⟩ := py_bind_ok h2
  split_ifs at h2
  · cases h2
  obtain ⟨bd, -, h3⟩ := forFind_some h2
  obtain ⟨e, -, h4⟩ := forFind_some h3
  obtain ⟨f, -, h5⟩ := forFind_some h4
  split_ifs at h5
  · cases h5
  obtain ⟨b1, e4, h5⟩ := py_bind_ok h5
  cases b1 with
  | true => cases h5
  | false =>
    obtain ⟨p, e5, h5⟩ := py_bind_ok h5
    cases p with
    | none => cases h5
    | some p =>
      obtain ⟨p, e5, h5⟩ := py_bind_ok h5
      cases p with
      | none => cases h5
      | some p =>
        cases h5
        obtain ⟨-, e6⟩ := setComp_mem e1 a ((o.mem _ _ _).mp ha')
        exact ((Weak.edge e6).mp rfl).1

end MG

namespace MG
variable {α : Type} [LinearOrder α]

theorem pagVStructures_keep (o : SetOrder α) {G H : MG α} (hG : G.Weak) {sep : Option (SepSet α)}
    (h : G.pagVStructures o sep = .ok H) : Keep G H := by
  cases sep with
  | none => cases h
  | some sep =>
    refine foldlM_keep (fun H : MG α => Keep G H) _ _ _ ?_ (Keep.refl hG) h
    intro s z s' _ hs he
    refine foldlM_keep (fun H : MG α => Keep G H) _ _ _ ?_ hs he
    intro t xy t' hxy ht he
    have hx : G.MAdj xy.1 z := (hs.adj _ _).mp (adj_of_mem_adjacent ((o.mem _ _ _).mp (mem_pairs_left hxy)))
    have hy : G.MAdj xy.2 z := (hs.adj _ _).mp (adj_of_mem_adjacent ((o.mem _ _ _).mp (mem_pairs_right hxy)))
    obtain ⟨b1, e1, e2⟩ := py_bind_ok he
    cases b1 with
    | true => cases e2; exact ht
    | false =>
      obtain ⟨S, e3, e4⟩ := py_bind_ok e2
      split_ifs at e4
      · cases e4; exact ht
      · obtain ⟨K, e5, e6⟩ := py_bind_ok e4
        exact (ht.replace hx (by decide) (Or.inl rfl) e5).replace hy (by decide) (Or.inl rfl) e6

theorem pagRule4_keep (o : SetOrder α) {sep : SepSet α} {G : MG α} (hG : G.Weak) {r : MG α × Bool}
    (h : pagRule4 o sep G = .ok r) : Keep G r.1 := by
  refine foldlM_keep (fun st : MG α × Bool => Keep G st.1) _ _ _ ?_ (Keep.refl hG) h
  intro st b st' _ hst hb
  refine hst.trans (foldlM_keep (fun s : MG α × Bool => Keep st.1 s.1) _ _ _ ?_ (Keep.refl hst.weak) hb)
  intro s c s' hc hs he
  have hc' : st.1.At c b .circle := (o.mem _ _ _).mp hc
  refine foldlM_keep (fun s : MG α × Bool => Keep st.1 s.1) _ _ _ ?_ hs he
  intro s a s' _ hs he
  split_ifs at he with hab
  · obtain ⟨d, e1, e2⟩ := py_bind_ok he
    cases d with
    | none => cases e2; exact hs
    | some d =>
      obtain ⟨G1, e3, e4⟩ := py_bind_ok e2
      cases e4
      have hadj : st.1.MAdj b a := (hs.adj _ _).mp (Or.inl ⟨_, hab⟩)
      rw [pagRule4Orient] at e3
      obtain ⟨S, e5, e6⟩ := py_bind_ok e3
      split_ifs at e6
      · obtain ⟨G2, e7, e8⟩ := py_bind_ok e6
        exact (hs.replace (Or.inr ⟨_, hc'⟩) (by decide) (Or.inl rfl) e7).replace (Or.inl ⟨_, hc'⟩) (by decide)
          (Or.inr (hst.weak.not_arrow hc' (by decide))) e8
      · obtain ⟨G2, e7, e6⟩ := py_bind_ok e6
        obtain ⟨G3, e8, e6⟩ := py_bind_ok e6
        obtain ⟨G4, e9, e6⟩ := py_bind_ok e6
        have k1 := hs.replace hadj (by decide) (Or.inl rfl) e7
        have k2 := k1.replace hadj.symm (by decide) (Or.inl rfl) e8
        have k3 := k2.replace (Or.inr ⟨_, hc'⟩) (by decide) (Or.inl rfl) e9
        exact k3.replace (Or.inl ⟨_, hc'⟩) (by decide) (Or.inl rfl) e6
  · cases he; exact hs

theorem pagRule_keep (o : SetOrder α) {sep : SepSet α} {G : MG α} (hG : G.Weak) {idx : Nat} {r : MG α × Bool}
    (h : pagRule o sep idx G = .ok r) : Keep G r.1 := by
  unfold pagRule at h
  split at h
  · exact pagRule1_keep o hG h
  · exact pagRule2_keep o hG h
  · exact pagRule3_keep o hG h
  · exact pagRule4_keep o hG h
  · exact pagRule5_keep o hG h
  · exact pagRule6_keep o hG h
  · exact pagRule7_keep o hG h
  · exact pagRule8_keep o hG h
  · exact pagRule9_keep o hG h
  · exact pagRule10_keep o hG h
  · cases h

theorem pagRound_keep (o : SetOrder α) {sep : SepSet α} {rules : List Nat} {G : MG α} (hG : G.Weak) {r : MG α × Bool}
    (h : pagRound o sep rules G = .ok r) : Keep G r.1 := by
  refine foldlM_keep (fun st : MG α × Bool => Keep G st.1) _ _ _ ?_ (Keep.refl hG) h
  intro st i st' _ hst he
  obtain ⟨s1, e1, e2⟩ := py_bind_ok he
  cases e2
  exact hst.trans (show Keep st.1 s1.1 from pagRule_keep o hst.weak e1)

theorem pagOrientLoop_keep (o : SetOrder α) {sep : SepSet α} {rules : List Nat} :
    ∀ (n : Nat) {G H : MG α}, G.Weak → pagOrientLoop o sep rules n G = .ok H → Keep G H := by
  intro n
  induction n with
  | zero => intro G H _ h; cases h
  | succ n ih =>
    intro G H hG h
    rw [pagOrientLoop] at h
    obtain ⟨s1, e1, e2⟩ := py_bind_ok h
    have k := pagRound_keep o hG e1
    split_ifs at e2
    · exact k.trans (ih k.weak e2)
    · cases e2; exact k

theorem pagMaxOrient_keep (o : SetOrder α) {sep : SepSet α} {rules : List Nat} {G H : MG α} (hG : G.Weak)
    (h : pagMaxOrient o sep rules G = .ok H) : Keep G H := pagOrientLoop_keep o _ hG h

end MG
end Verif
