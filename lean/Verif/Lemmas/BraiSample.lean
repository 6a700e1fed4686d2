import Verif.Lemmas.BraiLearn
import Mathlib.Order.WellFounded
import Mathlib.Data.Fintype.Order

/-!
# Lemmas about the graphs that B-RAI samples from a generating tree
-/

namespace Verif
namespace Brai
variable {α σ : Type} [LinearOrder α]
variable {Q : Leaf α σ → Prop} {R : Finset α → MG α → Finset α → List (Finset α) → Prop} {n : Nat}

/-- The pair is inside one of the leaves, and at least one of the two nodes is endogenous there. -/
def Covered (Ls : List (Leaf α σ)) (i j : α) : Prop :=
  ∃ L ∈ Ls, (i ∈ L.en ∧ j ∈ L.en ∪ L.ex) ∨ (j ∈ L.en ∧ i ∈ L.en ∪ L.ex)

/-- The pair is divided by the ancestor sets of a hypothesis. -/
def Divided (R : Finset α → MG α → Finset α → List (Finset α) → Prop) (gs : List (MG α)) (i j : α) : Prop :=
  ∃ en G d l, G ∈ gs ∧ R en G d l ∧ (∀ x, (∃ s ∈ l, x ∈ s) ↔ x ∈ en ∧ x ∉ d) ∧ ∃ s ∈ l, i ∈ s ∧ j ∉ s ∧ ∃ s' ∈ l, j ∈ s'

theorem Covered.symm {Ls : List (Leaf α σ)} {i j : α} (h : Covered Ls i j) : Covered Ls j i := by
  obtain ⟨L, hL, h⟩ := h; exact ⟨L, hL, h.symm⟩

theorem Covered.mono {Ls Ls' : List (Leaf α σ)} {i j : α} (h : Covered Ls i j) (hs : ∀ L ∈ Ls, L ∈ Ls') : Covered Ls' i j := by
  obtain ⟨L, hL, h⟩ := h; exact ⟨L, hs L hL, h⟩

omit [LinearOrder α] in
theorem Divided.mono {gs gs' : List (MG α)} {i j : α} (h : Divided R gs i j) (hs : ∀ G ∈ gs, G ∈ gs') : Divided R gs' i j := by
  obtain ⟨en, G, d, l, h1, h2⟩ := h; exact ⟨en, G, d, l, hs G h1, h2⟩

mutual
theorem Gen.cover : ∀ {h : Hyp α σ} {Ls : List (Leaf α σ)}, Gen h Ls → ∀ {en ex : Finset α}, h.Ok Q R n en ex →
    ∀ i ∈ en, ∀ j ∈ en ∪ ex, Covered Ls i j ∨ Divided R h.graphs i j ∨ Divided R h.graphs j i
  | _, _, .leaf en' ex' order G S s, en, ex, h, i, hi, j, hj => by
    simp only [Hyp.Ok] at h
    obtain ⟨rfl, rfl, h⟩ := h
    exact Or.inl ⟨_, List.mem_singleton_self _, Or.inl ⟨hi, hj⟩⟩
  | _, _, .node g, en, ex, h, i, hi, j, hj => by
    simp only [Hyp.Ok] at h
    obtain ⟨rfl, rfl, -, h⟩ := h
    exact GenC.cover g h i hi j hj

theorem GenC.cover : ∀ {c : Cookies α σ} {Ls : List (Leaf α σ)}, GenC c Ls → ∀ {en ex : Finset α}, c.Ok Q R n en ex →
    ∀ i ∈ en, ∀ j ∈ en ∪ ex, Covered Ls i j ∨ Divided R c.graphs i j ∨ Divided R c.graphs j i
  | _, _, .here (G := G) (d := d) (l := l) (anc := anc) (desc := desc) (rest := rest) (L1 := L1) (L2 := L2) g1 g2, en, ex, h, i, hi, j, hj => by
    simp only [Cookies.Ok] at h
    obtain ⟨h1, h2, -, hR, h3, h4, -⟩ := h
    have m1 : ∀ H ∈ anc.graphs, H ∈ (Cookies.cons G d l anc desc rest).graphs := by
      intro H hH; simp only [Cookies.graphs, List.mem_cons, List.mem_append]; tauto
    have m2 : ∀ H ∈ desc.graphs, H ∈ (Cookies.cons G d l anc desc rest).graphs := by
      intro H hH; simp only [Cookies.graphs, List.mem_cons, List.mem_append]; tauto
    have key1 : ∀ i ∈ d, ∀ j ∈ en ∪ ex, Covered (L1 ++ L2) i j ∨ Divided R (Cookies.cons G d l anc desc rest).graphs i j ∨
        Divided R (Cookies.cons G d l anc desc rest).graphs j i := by
      intro i hi j hj
      have hj' : j ∈ d ∪ (en \ d ∪ ex) := by
        simp only [Finset.mem_union, Finset.mem_sdiff] at hj ⊢; tauto
      rcases Gen.cover g2 h4 i hi j hj' with h | h | h
      · exact Or.inl (h.mono (fun L hL => List.mem_append_right _ hL))
      · exact Or.inr (Or.inl (h.mono m2))
      · exact Or.inr (Or.inr (h.mono m2))
    by_cases hid : i ∈ d
    · exact key1 i hid j hj
    by_cases hjd : j ∈ d
    · rcases key1 j hjd i (Finset.mem_union_left _ hi) with h | h | h
      · exact Or.inl h.symm
      · exact Or.inr (Or.inr h)
      · exact Or.inr (Or.inl h)
    obtain ⟨s, hs, his⟩ := (h2 i).mpr ⟨hi, hid⟩
    by_cases hjs : j ∈ s ∪ ex
    · rcases GenA.cover g1 h3 s hs i his j hjs with h | h | h
      · exact Or.inl (h.mono (fun L hL => List.mem_append_left _ hL))
      · exact Or.inr (Or.inl (h.mono m1))
      · exact Or.inr (Or.inr (h.mono m1))
    · have hje : j ∈ en := by simp only [Finset.mem_union] at hj hjs; tauto
      exact Or.inr (Or.inl ⟨en, G, d, l, List.mem_cons_self, hR, h2, s, hs, his,
        fun h => hjs (Finset.mem_union_left _ h), (h2 j).mpr ⟨hje, hjd⟩⟩)
  | _, _, .there (G := G) (d := d) (l := l) (anc := anc) (desc := desc) (rest := rest) g, en, ex, h, i, hi, j, hj => by
    simp only [Cookies.Ok] at h
    have m : ∀ H ∈ rest.graphs, H ∈ (Cookies.cons G d l anc desc rest).graphs := by
      intro H hH; simp only [Cookies.graphs, List.mem_cons, List.mem_append]; tauto
    rcases GenC.cover g h.2.2.2.2.2.2 i hi j hj with h | h | h
    · exact Or.inl h
    · exact Or.inr (Or.inl (h.mono m))
    · exact Or.inr (Or.inr (h.mono m))

theorem GenA.cover : ∀ {c : Hyps α σ} {Ls : List (Leaf α σ)}, GenA c Ls → ∀ {l : List (Finset α)} {ex : Finset α}, c.Ok Q R n l ex →
    ∀ s ∈ l, ∀ i ∈ s, ∀ j ∈ s ∪ ex, Covered Ls i j ∨ Divided R c.graphs i j ∨ Divided R c.graphs j i
  | _, _, .nil, l, ex, h, s, hs, i, hi, j, hj => by
    cases l with
    | nil => simp at hs
    | cons t l => simp [Hyps.Ok] at h
  | _, _, .cons (h := hd) (rest := rest) g1 g2, l, ex, h, s, hs, i, hi, j, hj => by
    cases l with
    | nil => simp at hs
    | cons t l =>
      simp only [Hyps.Ok] at h
      have m1 : ∀ H ∈ hd.graphs, H ∈ (Hyps.cons hd rest).graphs := by
        intro H hH; simp only [Hyps.graphs, List.mem_append]; tauto
      have m2 : ∀ H ∈ rest.graphs, H ∈ (Hyps.cons hd rest).graphs := by
        intro H hH; simp only [Hyps.graphs, List.mem_append]; tauto
      rcases List.mem_cons.mp hs with e | e
      · subst e
        rcases Gen.cover g1 h.1 i hi j hj with h | h | h
        · exact Or.inl (h.mono (fun L hL => List.mem_append_left _ hL))
        · exact Or.inr (Or.inl (h.mono m1))
        · exact Or.inr (Or.inr (h.mono m1))
      · rcases GenA.cover g2 h.2 s e i hi j hj with h | h | h
        · exact Or.inl (h.mono (fun L hL => List.mem_append_right _ hL))
        · exact Or.inr (Or.inl (h.mono m2))
        · exact Or.inr (Or.inr (h.mono m2))
end

omit [LinearOrder α] in
/-- A finite non-empty set in which each node has an arrow into the set contains a directed cycle. -/
theorem cycle_of_arrows {G : MG α} {a : Finset α} {v : α} (hv : v ∈ a) (h : ∀ x ∈ a, ∃ y ∈ a, G.Arrow x y) :
    ∃ x, Relation.TransGen G.Arrow x x := by
  by_contra hc
  push Not at hc
  let r : a → a → Prop := fun x y => Relation.TransGen G.Arrow y x
  have : IsTrans a r := ⟨fun x y z h1 h2 => h2.trans h1⟩
  have : Std.Irrefl r := ⟨fun x => hc x⟩
  have wf : WellFounded r := Finite.wellFounded_of_trans_of_irrefl r
  obtain ⟨m, -, hm⟩ := wf.has_min Set.univ ⟨⟨v, hv⟩, trivial⟩
  obtain ⟨y, hy, hmy⟩ := h m m.2
  exact hm ⟨y, hy⟩ trivial (.single hmy)

theorem Divided.cycle {ci : CITest α} {N : Finset α} {gs : List (MG α)} {i j : α} (h : Divided (LearnedSplit ci N) gs i j)
    (hi : i ∈ N) (hj : j ∈ N) : Accepted ci N i j ∨ ∃ G ∈ gs, ∃ x, Relation.TransGen G.Arrow x x := by
  obtain ⟨en, G, d, l, hG, ⟨h1, h2, h3, h4, h5, h6, h7, h8, h9⟩, hl, s, hs, his, hjs, s', hs', hjs'⟩ := h
  have hij : i ≠ j := by rintro rfl; exact hjs his
  have hjd := (hl j).mp ⟨s', hs', hjs'⟩
  have hid := (hl i).mp ⟨s, hs, his⟩
  by_cases hp : G.PAdj i j
  · refine Or.inr ⟨G, hG, ?_⟩
    by_cases hx : ∃ x ∈ en, x ∉ d ∧ ∀ y ∈ en, y ∉ d → ¬ G.Arrow x y
    · exact absurd (h9 hx s hs i his j hjd.1 hjd.2 hp) hjs
    · push Not at hx
      refine cycle_of_arrows (a := en \ d) (v := i) (Finset.mem_sdiff.mpr hid) (fun x hx' => ?_)
      obtain ⟨y, y1, y2, y3⟩ := hx x (Finset.mem_sdiff.mp hx').1 (Finset.mem_sdiff.mp hx').2
      exact ⟨y, Finset.mem_sdiff.mpr ⟨y1, y2⟩, y3⟩
  · exact Or.inl (h5 i hi j hj hij hp)

/-! ### choice -/

theorem argmax_go [LinearOrder σ] (full : List σ) : ∀ (l : List σ) (best : σ) (i k : Nat), full.drop k = l → full[i]? = some best →
    (∀ s ∈ full.take k, s ≤ best) → ∃ s, full[argmax.go best i k l]? = some s ∧ ∀ s' ∈ full, s' ≤ s
  | [], best, i, k, hd, hi, hb => by
    refine ⟨best, by rw [argmax.go]; exact hi, fun s hs => hb s ?_⟩
    rw [List.take_of_length_le (List.drop_eq_nil_iff.mp hd)]; exact hs
  | s :: l, best, i, k, hd, hi, hb => by
    have hk : full[k]? = some s := by
      have := congrArg List.head? hd
      rwa [List.head?_drop] at this
    have hd' : full.drop (k + 1) = l := by
      rw [← List.drop_drop, hd]; rfl
    have ht : full.take (k + 1) = full.take k ++ [s] := by
      rw [List.take_add_one, hk]; rfl
    rw [argmax.go]
    by_cases hlt : best < s
    · rw [if_pos hlt]
      refine argmax_go full l s k (k + 1) hd' hk (fun x hx => ?_)
      rw [ht] at hx
      rcases List.mem_append.mp hx with hx | hx
      · exact (hb x hx).trans hlt.le
      · rw [List.mem_singleton.mp hx]
    · rw [if_neg hlt]
      refine argmax_go full l best i (k + 1) hd' hi (fun x hx => ?_)
      rw [ht] at hx
      rcases List.mem_append.mp hx with hx | hx
      · exact hb x hx
      · rw [List.mem_singleton.mp hx]; exact not_lt.mp hlt

theorem argmax_spec [LinearOrder σ] {l : List σ} (h : l ≠ []) : ∃ i s, argmax l = .ok i ∧ l[i]? = some s ∧ ∀ s' ∈ l, s' ≤ s := by
  cases l with
  | nil => exact absurd rfl h
  | cons s l =>
    obtain ⟨x, h1, h2⟩ := argmax_go (s :: l) l s 0 1 rfl rfl (by simp)
    exact ⟨_, x, rfl, h1, h2⟩

theorem chooser_map [LinearOrder σ] (rng : Nat → List σ → Nat) : Chooses (fun a b : σ => a ≤ b) (chooser 0 rng) := by
  intro k l hl
  obtain ⟨i, s, h1, h2, h3⟩ := argmax_spec hl
  exact ⟨i, s, by rw [chooser, if_neg (lt_irrefl _), if_pos rfl]; exact h1, h2, h3⟩

/-! ### one sample -/

theorem sampleCpdag_core {ci : CITest α} {N : Finset α} {m : Nat} {tree : Hyp α σ} (hQ : ∀ L, Q L → LeafOk ci N L)
    (ht : tree.Ok Q R m N ∅) {Ls : List (Leaf α σ)} (hg : Gen tree Ls) {P : MG α} (hf : Filled Ls (MG.pdagEmpty N) P) :
    P.PdagWF ∧ P.nodes = N ∧ (∀ a b, P.Arrow a b → ¬ P.Arrow b a) ∧
      (∀ a b, P.PAdj a b ↔ LeafArrow Ls a b ∨ LeafArrow Ls b a ∨ LeafUnd Ls a b ∨ LeafUnd Ls b a) := by
  have ho := (Gen.ordered hg ht (by simp)).1
  have hL : ∀ L ∈ Ls, LeafOk ci N L := fun L h => hQ L ((Gen.scope hg ht).2 L h).1
  obtain ⟨w1, w2, w3⟩ := filled_wf hf ho hL
  refine ⟨w1, w2, w3, fun a b => ?_⟩
  have e1 : ∀ a b, P.Arrow a b ↔ LeafArrow Ls a b := by
    intro a b; rw [hf.arrow]; simp [MG.Arrow, MG.pdagEmpty, MG.empty]
  have e2 : ∀ a b, P.Und a b ↔ LeafUnd Ls a b ∨ LeafUnd Ls b a := by
    intro a b; rw [hf.und]; simp [MG.Und, MG.pdagEmpty, MG.empty]
  rw [MG.PAdj, e1, e1, e2, e2]; tauto

/-! ### uncertainty -/

/-- Same skeleton, both well-formed graphs on `N`. -/
def Skel (N : Finset α) (X Y : MG α) : Prop := X.PdagWF ∧ X.nodes = N ∧ ∀ a b, X.PAdj a b ↔ Y.PAdj a b

variable [Add σ] [Zero σ] [LT σ] [DecidableLT σ]

/-- Sampling succeeds from each graph on `N`. -/
def Samples (o : SetOrder α) (isScored : Bool) (rng : Rng σ) (T : ℚ) (tree : Hyp α σ) (N : Finset α) : Prop :=
  ∀ (G : MG α) (sep : SepSet α) (k : Nat), G.nodes = N → sep.Keys N →
    ∃ P R' sep' s k', sampleCpdag o isScored rng T tree G sep k = .ok (P, R', sep', s, k') ∧ Skel N P R' ∧ Skel N R' R' ∧ sep'.Keys N

theorem sampleLoop_spec (o : SetOrder α) {isScored : Bool} {rng : Rng σ} {T : ℚ} {tree : Hyp α σ} {N : Finset α}
    (H : Samples o isScored rng T tree N) :
    ∀ (n : Nat) (ids : List Nat) (w : World α) (G : MG α), w.heap[w.cur]? = some G → G.nodes = N → w.sep.Keys N →
      ∃ Xs Rs w' X0, sampleLoop o isScored rng T tree n (ids, w) = .ok (ids ++ List.range' w.heap.length n, w') ∧
        sampleSeq o isScored rng T tree n G w.sep w.draws = .ok Rs ∧ Rs.length = n ∧
        (∀ i, i < w.heap.length → i ≠ w.cur → w'.heap[i]? = w.heap[i]?) ∧ w'.heap[w.cur]? = some X0 ∧ (n = 0 → X0 = G) ∧
        (∀ R' ∈ Rs.head?, Skel N X0 R') ∧ (List.range' w.heap.length n).map (fun i => w'.heap[i]?) = Xs.map some ∧
        List.Forall₂ (Skel N) Xs (Rs.tail ++ Rs.getLast?.toList) ∧ (∃ G', w'.heap[w'.cur]? = some G' ∧ G'.nodes = N) ∧
        w'.sep.Keys N := by
  intro n
  induction n with
  | zero =>
    intro ids w G hG hn hk
    exact ⟨[], [], w, G, by simp [sampleLoop], rfl, rfl, fun _ _ _ => rfl, hG, fun _ => rfl, by simp, rfl, List.Forall₂.nil, ⟨G, hG, hn⟩, hk⟩
  | succ n ih =>
    intro ids w G hG hn hk
    obtain ⟨P, R', sep', s, k', h1, h2, h3, h4⟩ := H G w.sep w.draws hn hk
    have hcur : w.cur < w.heap.length := (List.getElem?_eq_some_iff.mp hG).1
    obtain ⟨Xs, Rs, w', X0, l1, l2, l3, l4, l5, l6, l7, l8, l9, l10, l11⟩ :=
      ih (ids ++ [w.heap.length]) ⟨w.heap.set w.cur P ++ [R'], w.heap.length, sep', k'⟩ R' (by simp) h3.2.1 h4
    simp only [List.length_append, List.length_set, List.length_singleton] at l1 l4 l5 l8
    have hobj : sampleObj o isScored rng T tree w = .ok ⟨w.heap.set w.cur P ++ [R'], w.heap.length, sep', k'⟩ := by
      rw [sampleObj, hG]
      exact (py_bind h1 _).trans rfl
    refine ⟨X0 :: Xs, R' :: Rs, w', P, ?_, ?_, by simp [l3], ?_, ?_, by simp, by simpa using h2, ?_, ?_, l10, l11⟩
    · rw [sampleLoop]
      refine (py_bind hobj _).trans ?_
      rw [l1, List.range'_succ]
      simp
    · rw [sampleSeq, py_bind h1]
      exact (py_bind l2 _).trans rfl
    · intro i hi hic
      rw [l4 i (by omega) (by omega), List.getElem?_append_left (by simpa using hi), List.getElem?_set_ne (Ne.symm hic)]
    · rw [l4 w.cur (by omega) (by omega), List.getElem?_append_left (by simpa using hcur), List.getElem?_set_self hcur]
    · rw [List.range'_succ, List.map_cons, l8, l5, List.map_cons]
    · cases Rs with
      | nil =>
        have hn0 : n = 0 := by simpa using l3.symm
        rw [l6 hn0]
        cases l9
        exact List.Forall₂.cons h3 List.Forall₂.nil
      | cons R2 Rs =>
        simp only [List.tail_cons, List.getLast?_cons_cons, List.cons_append] at l9 ⊢
        exact List.Forall₂.cons (l7 R2 (by simp)) l9

omit [Add σ] [Zero σ] [LT σ] [DecidableLT σ] in
theorem isConnected_pdag {G : MG α} (hG : G.PdagWF) {i j : α} (hij : i ≠ j) : G.isConnected i j = .ok (decide (G.PAdj i j)) := by
  rw [MG.isConnected, if_neg hij]
  congr 1
  rw [Bool.eq_iff_iff, decide_eq_true_iff]
  simp only [Bool.or_eq_true, List.any_eq_true, decide_eq_true_eq, MG.PAdj, MG.Arrow, MG.Und, hG.types]
  constructor
  · rintro (⟨m, rfl | rfl, h⟩ | ⟨m, rfl | rfl, h⟩) <;> tauto
  · rintro (h | h | h | h)
    · exact Or.inl ⟨.arrow, Or.inr rfl, h⟩
    · exact Or.inr ⟨.arrow, Or.inr rfl, h⟩
    · exact Or.inl ⟨.tail, Or.inl rfl, h⟩
    · exact Or.inr ⟨.tail, Or.inl rfl, h⟩

theorem countConnected_spec {i j : α} (hij : i ≠ j) (l : List (MG α)) (hl : ∀ G ∈ l, G.PdagWF) :
    countConnected i j l = .ok (edgeCount i j l) := by
  obtain ⟨c, h1, h2⟩ := foldlM_ok_inv (f := fun (c : Nat) (G : MG α) => (do if ← G.isConnected i j then return c + 1 else return c : Py Nat))
    (fun done c => c = edgeCount i j done) l [] 0 rfl (by
      rintro done G c hG rfl
      rw [isConnected_pdag (hl G hG) hij]
      by_cases hp : G.PAdj i j
      · exact ⟨edgeCount i j done + 1, by simp [hp, bind, Except.bind, pure, Except.pure], by simp [edgeCount, hp]⟩
      · exact ⟨edgeCount i j done, by simp [hp, bind, Except.bind, pure, Except.pure], by simp [edgeCount, hp]⟩)
  rw [countConnected, h1, h2]; rfl

theorem edgeCount_comm (i j : α) (l : List (MG α)) : edgeCount i j l = edgeCount j i l := by
  refine List.countP_congr (fun G _ => ?_)
  rw [decide_eq_true_iff, decide_eq_true_iff]
  simp only [MG.PAdj]; tauto

theorem edgeCount_skel {N : Finset α} {Xs Rs : List (MG α)} (h : List.Forall₂ (Skel N) Xs Rs) (i j : α) :
    edgeCount i j Xs = edgeCount i j Rs := by
  induction h with
  | nil => rfl
  | cons h _ ih =>
    simp only [edgeCount, List.countP_cons, h.2.2] at ih ⊢
    rw [ih]

theorem frequentSkeleton_spec (o : SetOrder α) (N : Finset α) (n : Nat) (θ : ℚ) (l : List (MG α)) (hl : ∀ G ∈ l, G.PdagWF) :
    ∃ S, frequentSkeleton o N n θ l = .ok S ∧ S.nodes = N ∧ S.PdagWF ∧ (∀ a b, ¬ S.Arrow a b) ∧
      ∀ a b, S.Und a b ↔ a ∈ N ∧ b ∈ N ∧ a ≠ b ∧ θ * n < edgeCount a b l := by
  obtain ⟨S, h1, h2, h3, h4, h5⟩ := foldlM_ok_inv (f := fun (S : MG α) (ij : α × α) => (do
      let c ← countConnected ij.1 ij.2 l
      if (c : ℚ) > θ * n then S.pdagAddEdges {ij.1} ij.2 .tail else return S : Py (MG α)))
    (fun done S => S.nodes = N ∧ S.types = [.tail, .arrow] ∧
      (∀ a b, S.Und a b ↔ ((a, b) ∈ done ∨ (b, a) ∈ done) ∧ θ * n < edgeCount a b l) ∧ ∀ v m, m ≠ .tail → S.g v m = ∅)
    (pairs (o.iter () N)) [] (MG.pdagEmpty N) ⟨rfl, rfl, by simp [MG.Und, MG.pdagEmpty, MG.empty], by simp [MG.pdagEmpty, MG.empty]⟩ (by
      rintro done ⟨i, j⟩ S hp ⟨i1, i2, i3, i4⟩
      have hij : i ≠ j := mem_pairs_ne (o.nodup _ _) hp
      rw [countConnected_spec hij l hl]
      by_cases hc : (edgeCount i j l : ℚ) > θ * n
      · obtain ⟨S', p1, p2, p3, p4, p5⟩ := MG.pdagAddEdges_tail S {i} j
        refine ⟨S', (if_pos hc).trans p1, p2.trans i1, p3.trans i2, fun a b => ?_, fun v m hm => (p5 v m hm).trans (i4 v m hm)⟩
        rw [p4, i3]
        simp only [Finset.mem_singleton, List.mem_append, List.mem_singleton, Prod.mk.injEq]
        constructor
        · rintro (⟨h, h'⟩ | ⟨rfl, rfl⟩ | ⟨rfl, rfl⟩)
          · exact ⟨by tauto, h'⟩
          · exact ⟨by tauto, hc⟩
          · exact ⟨by tauto, by rw [edgeCount_comm]; exact hc⟩
        · rintro ⟨(h | ⟨rfl, rfl⟩) | (h | ⟨rfl, rfl⟩), h'⟩ <;> tauto
      · refine ⟨S, if_neg hc, i1, i2, fun a b => ?_, i4⟩
        rw [i3]
        simp only [List.mem_append, List.mem_singleton, Prod.mk.injEq]
        constructor
        · rintro ⟨h, h'⟩; exact ⟨by tauto, h'⟩
        · rintro ⟨(h | ⟨rfl, rfl⟩) | (h | ⟨rfl, rfl⟩), h'⟩
          · tauto
          · exact absurd h' hc
          · tauto
          · rw [edgeCount_comm] at h'; exact absurd h' hc)
  have hu : ∀ a b, S.Und a b ↔ a ∈ N ∧ b ∈ N ∧ a ≠ b ∧ θ * n < edgeCount a b l := by
    intro a b
    rw [h4]
    simp only [List.nil_append]
    constructor
    · rintro ⟨h | h, h'⟩
      · exact ⟨(o.mem _ _ _).mp (mem_pairs_left h), (o.mem _ _ _).mp (mem_pairs_right h), mem_pairs_ne (o.nodup _ _) h, h'⟩
      · exact ⟨(o.mem _ _ _).mp (mem_pairs_right h), (o.mem _ _ _).mp (mem_pairs_left h), (mem_pairs_ne (o.nodup _ _) h).symm, h'⟩
    · rintro ⟨ha, hb, hab, h'⟩
      exact ⟨mem_pairs_or ((o.mem _ _ _).mpr ha) ((o.mem _ _ _).mpr hb) hab, h'⟩
  have ha : ∀ a b, ¬ S.Arrow a b := fun a b h => by simp [MG.Arrow, h5 b .arrow (by decide)] at h
  refine ⟨S, h1, h2, ?_, ha, hu⟩
  have hm : ∀ a b m, a ∈ S.g b m → m = .tail := by
    intro a b m h
    by_contra hm
    simp [h5 b m hm] at h
  refine ⟨fun m => by rw [h3]; simp, fun a b m h => ?_, fun a m h => ?_, fun a b h => ?_, fun a b h => absurd h (ha a b)⟩
  · obtain rfl := hm _ _ _ h
    have := (hu a b).mp h
    rw [h2]; exact ⟨this.1, this.2.1⟩
  · obtain rfl := hm _ _ _ h
    exact ((hu a a).mp h).2.2.1 rfl
  · have := (hu a b).mp h
    exact (hu b a).mpr ⟨this.2.1, this.1, this.2.2.1.symm, by rw [edgeCount_comm]; exact this.2.2.2⟩

theorem calcGraphUncertainty_spec (o : SetOrder α) {isScored : Bool} {rng : Rng σ} {T : ℚ} {tree : Hyp α σ} {N : Finset α}
    (H : Samples o isScored rng T tree N) (n : Nat) (θ : ℚ) {w : World α} {G : MG α} (hG : w.heap[w.cur]? = some G) (hn : G.nodes = N)
    (hk : w.sep.Keys N) :
    ∃ Rs S w', sampleSeq o isScored rng T tree n G w.sep w.draws = .ok Rs ∧ Rs.length = n ∧
      calcGraphUncertainty o isScored rng tree n θ T w = .ok (S, w') ∧ S.nodes = N ∧ S.PdagWF ∧ (∀ a b, ¬ S.Arrow a b) ∧
      ∀ a b, S.Und a b ↔ a ∈ N ∧ b ∈ N ∧ a ≠ b ∧ θ * n < edgeCount a b (Rs.tail ++ Rs.getLast?.toList) := by
  obtain ⟨Xs, Rs, w', X0, l1, l2, l3, -, -, -, -, l8, l9, ⟨G', l10, l10'⟩, -⟩ := sampleLoop_spec o H n [] w G hG hn hk
  have hf : (List.range' w.heap.length n).filterMap (fun i => w'.heap[i]?) = Xs := by
    have := congrArg (List.filterMap id) l8
    rwa [List.filterMap_map, List.filterMap_map, Function.id_comp, show (id ∘ some : MG α → Option (MG α)) = some from rfl,
      List.filterMap_some] at this
  have hw : ∀ X ∈ Xs, X.PdagWF := by
    intro X hX
    clear hf l8
    generalize Rs.tail ++ Rs.getLast?.toList = Ys at l9
    induction l9 with
    | nil => simp at hX
    | cons h _ ih =>
      rcases List.mem_cons.mp hX with rfl | hX
      · exact h.1
      · exact ih hX
  obtain ⟨S, s1, s2, s3, s4, s5⟩ := frequentSkeleton_spec o N n θ Xs hw
  refine ⟨Rs, S, w', l2, l3, ?_, s2, s3, s4, fun a b => ?_⟩
  · rw [calcGraphUncertainty, py_bind l1]
    simp only [List.nil_append, hf, l10, l10', s1]
    rfl
  · rw [s5, edgeCount_skel l9]

end Brai
end Verif
