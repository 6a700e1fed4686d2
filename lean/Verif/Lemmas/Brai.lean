import Verif.Spec.Brai
import Verif.Lemmas.Rai
import Verif.Lemmas.SepSet
import Verif.Lemmas.Cpdag
import Mathlib.Algebra.BigOperators.Group.List.Basic

/-!
# Lemmas about B-RAI
-/

namespace Verif
variable {α σ : Type}

theorem MG.addEdgesFrom_spec [DecidableEq α] (o : SetOrder α) (G src : MG α) (en ex : Finset α) :
    ∃ G', G.addEdgesFrom o src en ex = .ok G' ∧ G'.nodes = G.nodes ∧ G'.types = G.types ∧
      (∀ a b, G'.Arrow a b ↔ G.Arrow a b ∨ (b ∈ en ∧ a ∈ en ∪ ex ∧ src.Arrow a b)) ∧
      (∀ a b, G'.Und a b ↔ G.Und a b ∨ (b ∈ en ∧ a ∈ en ∪ ex ∧ src.Und a b) ∨ (a ∈ en ∧ b ∈ en ∪ ex ∧ src.Und b a)) ∧
      ∀ v m, m ≠ .tail → m ≠ .arrow → G'.g v m = G.g v m := by
  obtain ⟨G', h1, h2, h3, h4, h5, h6⟩ := foldlM_ok_inv (f := fun (G : MG α) v => (do
      let G ← G.pdagAddEdges (src.parents v ∩ (ex ∪ en)) v .arrow
      G.pdagAddEdges (src.und v ∩ (ex ∪ en)) v .tail : Py (MG α)))
    (fun done G' => G'.nodes = G.nodes ∧ G'.types = G.types ∧
      (∀ a b, G'.Arrow a b ↔ G.Arrow a b ∨ (b ∈ done ∧ a ∈ en ∪ ex ∧ src.Arrow a b)) ∧
      (∀ a b, G'.Und a b ↔ G.Und a b ∨ (b ∈ done ∧ a ∈ en ∪ ex ∧ src.Und a b) ∨ (a ∈ done ∧ b ∈ en ∪ ex ∧ src.Und b a)) ∧
      ∀ v m, m ≠ .tail → m ≠ .arrow → G'.g v m = G.g v m)
    (o.iter () en) [] G ⟨rfl, rfl, by simp, by simp, fun _ _ _ _ => rfl⟩ (by
      rintro done v H hv ⟨i1, i2, i3, i4, i5⟩
      obtain ⟨H1, a1, a2, a3, a4, a5⟩ := MG.pdagAddEdges_arrow H (src.parents v ∩ (ex ∪ en)) v
      obtain ⟨H2, b1, b2, b3, b4, b5⟩ := MG.pdagAddEdges_tail H1 (src.und v ∩ (ex ∪ en)) v
      have hA : ∀ a b, H2.Arrow a b ↔ H1.Arrow a b := by intro a b; simp only [MG.Arrow]; rw [b5 _ _ (by decide)]
      have hU : ∀ a b, H1.Und a b ↔ H.Und a b := by intro a b; simp only [MG.Und]; rw [a5 _ _ (by decide)]
      refine ⟨H2, (py_bind a1 _).trans b1, b2.trans (a2.trans i1), b3.trans (a3.trans i2), fun a b => ?_, fun a b => ?_,
        fun w m h h' => (b5 w m h).trans ((a5 w m h').trans (i5 w m h h'))⟩
      · rw [hA, a4, i3]
        simp only [MG.parents, MG.Arrow, Finset.mem_inter, Finset.mem_union, List.mem_append, List.mem_singleton]
        constructor
        · rintro ((h | ⟨h1, h2, h3⟩) | ⟨rfl, h1, h2⟩)
          · exact Or.inl h
          · exact Or.inr ⟨Or.inl h1, h2, h3⟩
          · exact Or.inr ⟨Or.inr rfl, h2.symm, h1⟩
        · rintro (h | ⟨h1 | rfl, h2, h3⟩)
          · exact Or.inl (Or.inl h)
          · exact Or.inl (Or.inr ⟨h1, h2, h3⟩)
          · exact Or.inr ⟨rfl, h3, h2.symm⟩
      · rw [b4, hU, i4]
        simp only [MG.und, MG.Und, Finset.mem_inter, Finset.mem_union, List.mem_append, List.mem_singleton]
        constructor
        · rintro ((h | ⟨h1, h2, h3⟩ | ⟨h1, h2, h3⟩) | ⟨rfl, h1, h2⟩ | ⟨rfl, h1, h2⟩)
          · exact Or.inl h
          · exact Or.inr (Or.inl ⟨Or.inl h1, h2, h3⟩)
          · exact Or.inr (Or.inr ⟨Or.inl h1, h2, h3⟩)
          · exact Or.inr (Or.inl ⟨Or.inr rfl, h2.symm, h1⟩)
          · exact Or.inr (Or.inr ⟨Or.inr rfl, h2.symm, h1⟩)
        · rintro (h | ⟨h1 | rfl, h2, h3⟩ | ⟨h1 | rfl, h2, h3⟩)
          · exact Or.inl (Or.inl h)
          · exact Or.inl (Or.inr (Or.inl ⟨h1, h2, h3⟩))
          · exact Or.inr (Or.inl ⟨rfl, h3, h2.symm⟩)
          · exact Or.inl (Or.inr (Or.inr ⟨h1, h2, h3⟩))
          · exact Or.inr (Or.inr ⟨rfl, h3, h2.symm⟩))
  refine ⟨G', h1, h2, h3, fun a b => ?_, fun a b => ?_, h6⟩
  · rw [h4]; simp [o.mem]
  · rw [h5]; simp [o.mem]

variable [LinearOrder α]

/-- All pairs of nodes of `N` have a recorded set. -/
def SepSet.Keys (s : SepSet α) (N : Finset α) : Prop := ∀ i ∈ N, ∀ j ∈ N, i ≠ j → ∃ S, s.get i j = .ok S

theorem SepSet.get_of_dict {s t : SepSet α} {a b : α} (h : s.d.get? (SepSet.hkey a b) = t.d.get? (SepSet.hkey a b)) :
    s.get a b = t.get a b := by
  simp only [SepSet.get, Dict.get, h]

theorem SepSet.copyFrom_spec (o : SetOrder α) (s src : SepSet α) {nodes : Finset α} (hk : src.Keys nodes) :
    ∃ r, s.copyFrom o src nodes = .ok r ∧ r.nodes = s.nodes ∧
      ∀ a b, r.get a b = if a ∈ nodes ∧ b ∈ nodes ∧ a ≠ b then src.get a b else s.get a b := by
  obtain ⟨r, h1, h2, h3⟩ := SepSet.copyLoop_spec src (pairs (o.iter () nodes)) s (fun ij hij =>
    hk _ ((o.mem _ _ _).mp (mem_pairs_left hij)) _ ((o.mem _ _ _).mp (mem_pairs_right hij)) (mem_pairs_ne (o.nodup _ _) hij))
  refine ⟨r, h1, h2, fun a b => ?_⟩
  have := h3 (SepSet.hkey a b)
  simp only [SepSet.pair_key_iff] at this
  split_ifs at this ⊢ with h
  · exact SepSet.get_of_dict this
  · exact SepSet.get_of_dict this

theorem SepSet.copy_spec (o : SetOrder α) (s : SepSet α) {nodes : Finset α} (hk : s.Keys nodes) :
    ∃ r, s.copy o (some nodes) none = .ok r ∧ r.nodes = nodes ∧
      ∀ a ∈ nodes, ∀ b ∈ nodes, a ≠ b → r.get a b = s.get a b := by
  obtain ⟨r, h1, h2, h3⟩ := SepSet.copyLoop_spec s (pairs (o.iter () nodes)) (SepSet.init o nodes) (fun ij hij =>
    hk _ ((o.mem _ _ _).mp (mem_pairs_left hij)) _ ((o.mem _ _ _).mp (mem_pairs_right hij)) (mem_pairs_ne (o.nodup _ _) hij))
  refine ⟨r, h1, h2, fun a ha b hb hab => ?_⟩
  have := h3 (SepSet.hkey a b)
  simp only [SepSet.pair_key_iff, if_pos (⟨ha, hb, hab⟩ : a ∈ nodes ∧ b ∈ nodes ∧ a ≠ b)] at this
  exact SepSet.get_of_dict this

theorem SepSet.copyFrom_keys {s src r : SepSet α} {nodes N : Finset α} (hs : s.Keys N)
    (hk : src.Keys nodes) (h : ∀ a b, r.get a b = if a ∈ nodes ∧ b ∈ nodes ∧ a ≠ b then src.get a b else s.get a b) : r.Keys N := by
  intro i hi j hj hij
  rw [h]
  split_ifs with hc
  · exact hk i hc.1 j hc.2.1 hij
  · exact hs i hi j hj hij

theorem SepSet.init_keys (o : SetOrder α) (N : Finset α) : (SepSet.init o N).Keys N := by
  intro i hi j hj hij
  exact ⟨∅, by rw [SepSet.get_init, if_pos ⟨hi, hj, hij⟩]⟩

theorem SepSet.erase_keys {s : SepSet α} {N : Finset α} (h : s.Keys N) : s.erase.Keys N := by
  intro i hi j hj hij
  obtain ⟨S, hS⟩ := h i hi j hj hij
  have h1 : (s.d.get? (SepSet.hkey i j)).isSome := by rw [Dict.get_eq_ok.mp hS]; rfl
  rw [Dict.get?_isSome_iff] at h1
  obtain ⟨kv, hkv, hk⟩ := h1
  have h2 : ((s.erase).d.get? (SepSet.hkey i j)).isSome := by
    rw [Dict.get?_isSome_iff]
    exact ⟨(kv.1, ∅), List.mem_map.mpr ⟨kv, hkv, rfl⟩, hk⟩
  obtain ⟨S', hS'⟩ := Option.isSome_iff_exists.mp h2
  exact ⟨S', Dict.get_eq_ok.mpr hS'⟩

namespace Brai
variable {Q : Leaf α σ → Prop} {R : Finset α → MG α → Finset α → List (Finset α) → Prop} {n : Nat}

/-! ### leaves of a selection -/

mutual
theorem Gen.scope : ∀ {h : Hyp α σ} {Ls : List (Leaf α σ)}, Gen h Ls → ∀ {en ex : Finset α}, h.Ok Q R n en ex →
    (∀ x, (∃ L ∈ Ls, x ∈ L.en) ↔ x ∈ en) ∧ ∀ L ∈ Ls, Q L ∧ L.ex ⊆ en ∪ ex
  | _, _, .leaf en' ex' order G S s, en, ex, h => by
    simp only [Hyp.Ok] at h
    obtain ⟨rfl, rfl, h⟩ := h
    simp only [List.mem_singleton, exists_eq_left, forall_eq]
    exact ⟨fun _ => trivial, h, Finset.subset_union_right⟩
  | _, _, .node g, en, ex, h => by
    simp only [Hyp.Ok] at h
    exact GenC.scope g h.2.2.2

theorem GenC.scope : ∀ {c : Cookies α σ} {Ls : List (Leaf α σ)}, GenC c Ls → ∀ {en ex : Finset α}, c.Ok Q R n en ex →
    (∀ x, (∃ L ∈ Ls, x ∈ L.en) ↔ x ∈ en) ∧ ∀ L ∈ Ls, Q L ∧ L.ex ⊆ en ∪ ex
  | _, _, .here (d := d) (l := l) g1 g2, en, ex, h => by
    simp only [Cookies.Ok] at h
    obtain ⟨h1, h2, -, -, h3, h4, -⟩ := h
    obtain ⟨a1, a2⟩ := GenA.scope g1 h3
    obtain ⟨b1, b2⟩ := Gen.scope g2 h4
    refine ⟨fun x => ?_, fun L hL => ?_⟩
    · simp only [List.mem_append, or_and_right, exists_or, a1, b1, h2]
      constructor
      · rintro (h | h)
        · exact h.1
        · exact h1 h
      · intro h
        by_cases hd : x ∈ d
        · exact Or.inr hd
        · exact Or.inl ⟨h, hd⟩
    · rcases List.mem_append.mp hL with hL | hL
      · refine ⟨(a2 L hL).1, fun x hx => ?_⟩
        rcases (a2 L hL).2 x hx with h | h
        · exact Finset.mem_union_left _ ((h2 x).mp h).1
        · exact Finset.mem_union_right _ h
      · refine ⟨(b2 L hL).1, fun x hx => ?_⟩
        have := (b2 L hL).2 hx
        simp only [Finset.mem_union, Finset.mem_sdiff] at this ⊢
        rcases this with h | h | h
        · exact Or.inl (h1 h)
        · exact Or.inl h.1
        · exact Or.inr h
  | _, _, .there g, en, ex, h => by
    simp only [Cookies.Ok] at h
    exact GenC.scope g h.2.2.2.2.2.2

theorem GenA.scope : ∀ {c : Hyps α σ} {Ls : List (Leaf α σ)}, GenA c Ls → ∀ {l : List (Finset α)} {ex : Finset α}, c.Ok Q R n l ex →
    (∀ x, (∃ L ∈ Ls, x ∈ L.en) ↔ ∃ s ∈ l, x ∈ s) ∧ ∀ L ∈ Ls, Q L ∧ ∀ x ∈ L.ex, (∃ s ∈ l, x ∈ s) ∨ x ∈ ex
  | _, _, .nil, l, ex, h => by
    cases l with
    | nil => simp
    | cons s l => simp [Hyps.Ok] at h
  | _, _, .cons g1 g2, l, ex, h => by
    cases l with
    | nil => simp [Hyps.Ok] at h
    | cons s l =>
      simp only [Hyps.Ok] at h
      obtain ⟨a1, a2⟩ := Gen.scope g1 h.1
      obtain ⟨b1, b2⟩ := GenA.scope g2 h.2
      refine ⟨fun x => ?_, fun L hL => ?_⟩
      · simp only [List.mem_append, or_and_right, exists_or, a1, b1, List.mem_cons, exists_eq_left]
      · rcases List.mem_append.mp hL with hL | hL
        · refine ⟨(a2 L hL).1, fun x hx => ?_⟩
          rcases Finset.mem_union.mp ((a2 L hL).2 hx) with h | h
          · exact Or.inl ⟨s, by simp, h⟩
          · exact Or.inr h
        · refine ⟨(b2 L hL).1, fun x hx => ?_⟩
          rcases (b2 L hL).2 x hx with ⟨s', h, h'⟩ | h
          · exact Or.inl ⟨s', List.mem_cons_of_mem _ h, h'⟩
          · exact Or.inr h
end

mutual
theorem Gen.ordered : ∀ {h : Hyp α σ} {Ls : List (Leaf α σ)}, Gen h Ls → ∀ {en ex : Finset α}, h.Ok Q R n en ex →
    Disjoint en ex → Ordered Ls ∧ ∀ L ∈ Ls, Disjoint L.en L.ex
  | _, _, .leaf en' ex' order G S s, en, ex, h, hd => by
    simp only [Hyp.Ok] at h
    obtain ⟨rfl, rfl, h⟩ := h
    exact ⟨List.pairwise_singleton _ _, by simpa using hd⟩
  | _, _, .node g, en, ex, h, hd => by
    simp only [Hyp.Ok] at h
    exact GenC.ordered g h.2.2.2 hd

theorem GenC.ordered : ∀ {c : Cookies α σ} {Ls : List (Leaf α σ)}, GenC c Ls → ∀ {en ex : Finset α}, c.Ok Q R n en ex →
    Disjoint en ex → Ordered Ls ∧ ∀ L ∈ Ls, Disjoint L.en L.ex
  | _, _, .here (d := d) (l := l) g1 g2, en, ex, h, hd => by
    simp only [Cookies.Ok] at h
    obtain ⟨h1, h2, hp, -, h3, h4, -⟩ := h
    obtain ⟨a1, a2⟩ := GenA.scope g1 h3
    obtain ⟨b1, b2⟩ := Gen.scope g2 h4
    have hx : ∀ x, x ∈ en → x ∉ ex := fun x hx hx' => Finset.disjoint_left.mp hd hx hx'
    obtain ⟨c1, c2⟩ := GenA.ordered g1 h3 hp (fun s hs => Finset.disjoint_left.mpr (fun x hx' =>
      hx x ((h2 x).mp ⟨s, hs, hx'⟩).1))
    obtain ⟨d1, d2⟩ := Gen.ordered g2 h4 (Finset.disjoint_left.mpr (fun x hx' hx'' => by
      simp only [Finset.mem_union, Finset.mem_sdiff] at hx''
      rcases hx'' with h | h
      · exact h.2 hx'
      · exact hx x (h1 hx') h))
    refine ⟨List.pairwise_append.mpr ⟨c1, d1, fun L hL L' hL' => Finset.disjoint_left.mpr (fun x hx1 hx2 => ?_)⟩, fun L hL => ?_⟩
    · have e1 : x ∈ d := (b1 x).mp ⟨L', hL', hx1⟩
      rcases Finset.mem_union.mp hx2 with h | h
      · exact ((h2 x).mp ((a1 x).mp ⟨L, hL, h⟩)).2 e1
      · rcases (a2 L hL).2 x h with h | h
        · exact ((h2 x).mp h).2 e1
        · exact hx x (h1 e1) h
    · rcases List.mem_append.mp hL with hL | hL
      · exact c2 L hL
      · exact d2 L hL
  | _, _, .there g, en, ex, h, hd => by
    simp only [Cookies.Ok] at h
    exact GenC.ordered g h.2.2.2.2.2.2 hd

theorem GenA.ordered : ∀ {c : Hyps α σ} {Ls : List (Leaf α σ)}, GenA c Ls → ∀ {l : List (Finset α)} {ex : Finset α},
    c.Ok Q R n l ex → l.Pairwise Disjoint → (∀ s ∈ l, Disjoint s ex) → Ordered Ls ∧ ∀ L ∈ Ls, Disjoint L.en L.ex
  | _, _, .nil, l, ex, h, _, _ => ⟨List.Pairwise.nil, by simp⟩
  | _, _, .cons g1 g2, l, ex, h, hp, hd => by
    cases l with
    | nil => simp [Hyps.Ok] at h
    | cons s l =>
      simp only [Hyps.Ok] at h
      obtain ⟨hp1, hp2⟩ := List.pairwise_cons.mp hp
      obtain ⟨a1, a2⟩ := Gen.scope g1 h.1
      obtain ⟨b1, b2⟩ := GenA.scope g2 h.2
      obtain ⟨c1, c2⟩ := Gen.ordered g1 h.1 (hd s (by simp))
      obtain ⟨d1, d2⟩ := GenA.ordered g2 h.2 hp2 (fun s' hs' => hd s' (List.mem_cons_of_mem _ hs'))
      refine ⟨List.pairwise_append.mpr ⟨c1, d1, fun L hL L' hL' => Finset.disjoint_left.mpr (fun x hx1 hx2 => ?_)⟩, fun L hL => ?_⟩
      · obtain ⟨s', hs', e1⟩ := (b1 x).mp ⟨L', hL', hx1⟩
        have e2 : x ∈ s ∪ ex := by
          rcases Finset.mem_union.mp hx2 with h | h
          · exact Finset.mem_union_left _ ((a1 x).mp ⟨L, hL, h⟩)
          · exact (a2 L hL).2 h
        rcases Finset.mem_union.mp e2 with h | h
        · exact Finset.disjoint_left.mp (hp1 s' hs') h e1
        · exact Finset.disjoint_left.mp (hd s' (List.mem_cons_of_mem _ hs')) e1 h
      · rcases List.mem_append.mp hL with hL | hL
        · exact c2 L hL
        · exact d2 L hL
end

/-! ### sampling -/

/-- `P'` is `P` with the edges of the leaves. -/
structure Filled (Ls : List (Leaf α σ)) (P P' : MG α) : Prop where
  nodes : P'.nodes = P.nodes
  types : P'.types = P.types
  arrow : ∀ a b, P'.Arrow a b ↔ P.Arrow a b ∨ LeafArrow Ls a b
  und : ∀ a b, P'.Und a b ↔ P.Und a b ∨ LeafUnd Ls a b ∨ LeafUnd Ls b a
  other : ∀ v m, m ≠ .tail → m ≠ .arrow → P'.g v m = P.g v m

theorem LeafArrow.append {L1 L2 : List (Leaf α σ)} {a b : α} : LeafArrow (L1 ++ L2) a b ↔ LeafArrow L1 a b ∨ LeafArrow L2 a b := by
  simp only [LeafArrow, List.mem_append, or_and_right, exists_or]

theorem LeafUnd.append {L1 L2 : List (Leaf α σ)} {a b : α} : LeafUnd (L1 ++ L2) a b ↔ LeafUnd L1 a b ∨ LeafUnd L2 a b := by
  simp only [LeafUnd, List.mem_append, or_and_right, exists_or]

theorem Filled.refl (P : MG α) : Filled ([] : List (Leaf α σ)) P P :=
  ⟨rfl, rfl, by simp [LeafArrow], by simp [LeafUnd], fun _ _ _ _ => rfl⟩

theorem Filled.append {L1 L2 : List (Leaf α σ)} {P P' P'' : MG α} (h : Filled L1 P P') (h' : Filled L2 P' P'') :
    Filled (L1 ++ L2) P P'' := by
  refine ⟨h'.nodes.trans h.nodes, h'.types.trans h.types, fun a b => ?_, fun a b => ?_,
    fun v m h1 h2 => (h'.other v m h1 h2).trans (h.other v m h1 h2)⟩
  · rw [h'.arrow, h.arrow, LeafArrow.append, or_assoc]
  · rw [h'.und, h.und, LeafUnd.append, LeafUnd.append]; tauto

theorem addLeaf (o : SetOrder α) (P : MG α) (L : Leaf α σ) :
    ∃ P', P.addEdgesFrom o L.graph L.en L.ex = .ok P' ∧ Filled [L] P P' := by
  obtain ⟨P', h1, h2, h3, h4, h5, h6⟩ := MG.addEdgesFrom_spec o P L.graph L.en L.ex
  exact ⟨P', h1, h2, h3, by simpa [LeafArrow] using h4, by simpa [LeafUnd] using h5, h6⟩

/-- Copying a sub-graph that was filled with leaves inside the sub-graph. -/
theorem addFilled (o : SetOrder α) (P : MG α) {N : Finset α} {Pi : MG α} {Ls : List (Leaf α σ)} {en ex : Finset α}
    (hf : Filled Ls (MG.pdagEmpty N) Pi) (hs : ∀ L ∈ Ls, L.en ⊆ en ∧ L.ex ⊆ en ∪ ex) :
    ∃ P', P.addEdgesFrom o Pi en ex = .ok P' ∧ Filled Ls P P' := by
  obtain ⟨P', h1, h2, h3, h4, h5, h6⟩ := MG.addEdgesFrom_spec o P Pi en ex
  have hin : ∀ L ∈ Ls, ∀ x, x ∈ L.en ∪ L.ex → x ∈ en ∪ ex := by
    intro L hL x hx
    rcases Finset.mem_union.mp hx with hx | hx
    · exact Finset.mem_union_left _ ((hs L hL).1 hx)
    · exact (hs L hL).2 hx
  have e1 : ∀ a b, Pi.Arrow a b ↔ LeafArrow Ls a b := by
    intro a b; rw [hf.arrow]; simp [MG.Arrow, MG.pdagEmpty, MG.empty]
  have e2 : ∀ a b, Pi.Und a b ↔ LeafUnd Ls a b ∨ LeafUnd Ls b a := by
    intro a b; rw [hf.und]; simp [MG.Und, MG.pdagEmpty, MG.empty]
  refine ⟨P', h1, h2, h3, fun a b => ?_, fun a b => ?_, h6⟩
  · rw [h4, e1]
    refine or_congr Iff.rfl ⟨fun h => h.2.2, fun h => ?_⟩
    obtain ⟨L, hL, hb, ha, hg⟩ := h
    exact ⟨(hs L hL).1 hb, hin L hL _ ha, L, hL, hb, ha, hg⟩
  · rw [h5, e2, e2]
    refine or_congr Iff.rfl ⟨fun h => ?_, fun h => ?_⟩
    · rcases h with h | h
      · exact h.2.2
      · exact h.2.2.symm
    · rcases h with h | h
      · obtain ⟨L, hL, hb, ha, hg⟩ := h
        exact Or.inl ⟨(hs L hL).1 hb, hin L hL _ ha, Or.inl ⟨L, hL, hb, ha, hg⟩⟩
      · obtain ⟨L, hL, hb, ha, hg⟩ := h
        exact Or.inr ⟨(hs L hL).1 hb, hin L hL _ ha, Or.inl ⟨L, hL, hb, ha, hg⟩⟩

omit [LinearOrder α] in
theorem total_append [AddMonoid σ] (L1 L2 : List (Leaf α σ)) : total (L1 ++ L2) = total L1 + total L2 := by
  simp [total]

/-- The choice function returns a valid index of an element that is related to all elements. -/
def Chooses (rel : σ → σ → Prop) (choose : Nat → List σ → Py Nat) : Prop :=
  ∀ k l, l ≠ [] → ∃ i s, choose k l = .ok i ∧ l[i]? = some s ∧ ∀ s' ∈ l, rel s' s

variable [AddMonoid σ] {rel : σ → σ → Prop} {choose : Nat → List σ → Py Nat} {N : Finset α}

mutual
theorem sample_spec (o : SetOrder α) (hn : 0 < n) (hQ : ∀ L, Q L → L.sep.Keys (L.en ∪ L.ex))
    (refl : ∀ s, rel s s) (trans : ∀ a b c, rel a b → rel b c → rel a c)
    (add : ∀ a b c d, rel a b → rel c d → rel (a + c) (b + d)) (hc : Chooses rel choose) :
    ∀ (h : Hyp α σ) {en ex : Finset α}, h.Ok Q R n en ex → en ⊆ N → ex ⊆ N → ∀ (P : MG α) (sep : SepSet α) (k : Nat), sep.Keys N →
      ∃ P' sep' k' Ls, sample o choose N h P sep k = .ok (P', sep', total Ls, k') ∧ Gen h Ls ∧ Filled Ls P P' ∧ sep'.Keys N ∧
        ∀ Ls', Gen h Ls' → rel (total Ls') (total Ls)
  | .leaf en' ex' order G S s, en, ex, h, hen, hex, P, sep, k, hk => by
    simp only [Hyp.Ok] at h
    obtain ⟨rfl, rfl, h⟩ := h
    obtain ⟨P', h1, h2⟩ := addLeaf o P (⟨en', ex', G, S, s⟩ : Leaf α σ)
    obtain ⟨sep', h3, -, h4⟩ := SepSet.copyFrom_spec o sep S (hQ _ h)
    refine ⟨P', sep', k, [⟨en', ex', G, S, s⟩], ?_, Gen.leaf _ _ _ _ _ _, h2, SepSet.copyFrom_keys hk (hQ _ h) h4, ?_⟩
    · rw [sample, py_bind h1, py_bind h3]
      simp [total]
      rfl
    · intro Ls' g
      cases g
      exact refl _
  | .node en' ex' order cs, en, ex, h, hen, hex, P, sep, k, hk => by
    simp only [Hyp.Ok] at h
    obtain ⟨rfl, rfl, hlen, h⟩ := h
    obtain ⟨rs, k', h1, h2, h3, h4⟩ := sampleCookies_spec o hn hQ refl trans add hc cs h hen hex k
    have hne : rs ≠ [] := by rintro rfl; simp at h2; omega
    obtain ⟨i, s, c1, c2, c3⟩ := hc k' (rs.map (fun r => r.2.2)) (by simpa using hne)
    rw [List.getElem?_map] at c2
    obtain ⟨⟨Pi, Si, s'⟩, hr, rfl⟩ := Option.map_eq_some_iff.mp c2
    obtain ⟨Ls, r1, r2, r3, r4⟩ := h3 _ (List.mem_of_getElem? hr)
    obtain ⟨q1, q2⟩ := GenC.scope r1 h
    obtain ⟨P', p1, p2⟩ := addFilled o P (en := en') (ex := ex') r2 (fun L hL =>
      ⟨fun x hx => (q1 x).mp ⟨L, hL, hx⟩, (q2 L hL).2⟩)
    have hkey : Si.Keys (en' ∪ ex') := fun i hi j hj hij =>
      r3 i (Finset.union_subset hen hex hi) j (Finset.union_subset hen hex hj) hij
    obtain ⟨sep', h5, -, h6⟩ := SepSet.copyFrom_spec o sep Si hkey
    simp only at r4 c3
    subst r4
    refine ⟨P', sep', k' + 1, Ls, ?_, Gen.node r1, p2, SepSet.copyFrom_keys hk hkey h6, ?_⟩
    · rw [sample, py_bind h1]
      refine (py_bind c1 _).trans ?_
      simp only [hr]
      rw [py_bind p1, py_bind h5]
      rfl
    · intro Ls' g
      cases g with
      | node g =>
        obtain ⟨r, hr1, hr2⟩ := h4 _ g
        exact trans _ _ _ hr2 (c3 _ (List.mem_map.mpr ⟨r, hr1, rfl⟩))

theorem sampleCookies_spec (o : SetOrder α) (hn : 0 < n) (hQ : ∀ L, Q L → L.sep.Keys (L.en ∪ L.ex))
    (refl : ∀ s, rel s s) (trans : ∀ a b c, rel a b → rel b c → rel a c)
    (add : ∀ a b c d, rel a b → rel c d → rel (a + c) (b + d)) (hc : Chooses rel choose) :
    ∀ (c : Cookies α σ) {en ex : Finset α}, c.Ok Q R n en ex → en ⊆ N → ex ⊆ N → ∀ (k : Nat),
      ∃ rs k', sampleCookies o choose N c k = .ok (rs, k') ∧ rs.length = c.length ∧
        (∀ r ∈ rs, ∃ Ls, GenC c Ls ∧ Filled Ls (MG.pdagEmpty N) r.1 ∧ r.2.1.Keys N ∧ r.2.2 = total Ls) ∧
        ∀ Ls', GenC c Ls' → ∃ r ∈ rs, rel (total Ls') r.2.2
  | .nil, en, ex, h, hen, hex, k => by
    refine ⟨[], k, by rw [sampleCookies], rfl, by simp, fun Ls' g => ?_⟩
    cases g
  | .cons G d l anc desc rest, en, ex, h, hen, hex, k => by
    simp only [Cookies.Ok] at h
    obtain ⟨h1, h2, -, -, h3, h4, h5⟩ := h
    obtain ⟨P1, s1, k1, L1, a1, a2, a3, a4, a5⟩ := sampleAnc_spec o hn hQ refl trans add hc anc h3
      (fun s hs x hx => hen ((h2 x).mp ⟨s, hs, hx⟩).1) hex (MG.pdagEmpty N) (SepSet.init o N) 0 k (SepSet.init_keys o N)
    obtain ⟨P2, s2, k2, L2, b1, b2, b3, b4, b5⟩ := sample_spec o hn hQ refl trans add hc desc h4 (h1.trans hen)
      (Finset.union_subset (Finset.sdiff_subset.trans hen) hex) P1 s1 k1 a4
    obtain ⟨rs, k3, c1, c2, c3, c4⟩ := sampleCookies_spec o hn hQ refl trans add hc rest h5 hen hex k2
    refine ⟨(P2, s2, 0 + total L1 + total L2) :: rs, k3, ?_, by simp [c2, Cookies.length], ?_, ?_⟩
    · rw [sampleCookies, py_bind a1]
      refine (py_bind b1 _).trans ?_
      refine (py_bind c1 _).trans ?_
      rfl
    · intro r hr
      rcases List.mem_cons.mp hr with rfl | hr
      · exact ⟨L1 ++ L2, GenC.here a2 b2, a3.append b3, b4, by simp [total_append]⟩
      · obtain ⟨Ls, e1, e2⟩ := c3 r hr
        exact ⟨Ls, GenC.there e1, e2⟩
    · intro Ls' g
      cases g with
      | here g1 g2 =>
        refine ⟨_, List.mem_cons_self, ?_⟩
        simp only [total_append, zero_add]
        exact add _ _ _ _ (a5 _ g1) (b5 _ g2)
      | there g =>
        obtain ⟨r, hr, hr'⟩ := c4 _ g
        exact ⟨r, List.mem_cons_of_mem _ hr, hr'⟩

theorem sampleAnc_spec (o : SetOrder α) (hn : 0 < n) (hQ : ∀ L, Q L → L.sep.Keys (L.en ∪ L.ex))
    (refl : ∀ s, rel s s) (trans : ∀ a b c, rel a b → rel b c → rel a c)
    (add : ∀ a b c d, rel a b → rel c d → rel (a + c) (b + d)) (hc : Chooses rel choose) :
    ∀ (c : Hyps α σ) {l : List (Finset α)} {ex : Finset α}, c.Ok Q R n l ex → (∀ s ∈ l, s ⊆ N) → ex ⊆ N →
      ∀ (P : MG α) (sep : SepSet α) (s : σ) (k : Nat), sep.Keys N →
      ∃ P' sep' k' Ls, sampleAnc o choose N c P sep s k = .ok (P', sep', s + total Ls, k') ∧ GenA c Ls ∧ Filled Ls P P' ∧
        sep'.Keys N ∧ ∀ Ls', GenA c Ls' → rel (total Ls') (total Ls)
  | .nil, l, ex, h, hl, hex, P, sep, s, k, hk => by
    refine ⟨P, sep, k, [], by rw [sampleAnc]; simp [total], GenA.nil, Filled.refl P, hk, fun Ls' g => ?_⟩
    cases g
    exact refl _
  | .cons hd rest, l, ex, h, hl, hex, P, sep, s, k, hk => by
    cases l with
    | nil => simp [Hyps.Ok] at h
    | cons t l =>
      simp only [Hyps.Ok] at h
      obtain ⟨P1, s1, k1, L1, a1, a2, a3, a4, a5⟩ := sample_spec o hn hQ refl trans add hc hd h.1 (hl t (by simp)) hex P sep k hk
      obtain ⟨P2, s2, k2, L2, b1, b2, b3, b4, b5⟩ := sampleAnc_spec o hn hQ refl trans add hc rest h.2
        (fun s hs => hl s (List.mem_cons_of_mem _ hs)) hex P1 s1 (s + total L1) k1 a4
      refine ⟨P2, s2, k2, L1 ++ L2, ?_, GenA.cons a2 b2, a3.append b3, b4, fun Ls' g => ?_⟩
      · rw [sampleAnc, py_bind a1]
        simp only
        rw [b1, total_append, add_assoc]
      · cases g with
        | cons g1 g2 =>
          simp only [total_append]
          exact add _ _ _ _ (a5 _ g1) (b5 _ g2)
end

/-! ### sampling without score -/

omit [AddMonoid σ]

mutual
theorem sampleNoScore_spec (o : SetOrder α) (hn : 0 < n) (hQ : ∀ L, Q L → L.sep.Keys (L.en ∪ L.ex)) {pick : Nat → Nat → Nat}
    (hp : ∀ k m, 0 < m → pick k m < m) :
    ∀ (h : Hyp α σ) {en ex : Finset α}, h.Ok Q R n en ex → ∀ (P : MG α) (sep : SepSet α) (k : Nat), sep.Keys N →
      ∃ P' sep' k' Ls, sampleNoScore o pick h P sep k = .ok (P', sep', k') ∧ Gen h Ls ∧ Filled Ls P P' ∧ sep'.Keys N
  | .leaf en' ex' order G S s, en, ex, h, P, sep, k, hk => by
    simp only [Hyp.Ok] at h
    obtain ⟨rfl, rfl, h⟩ := h
    obtain ⟨P', h1, h2⟩ := addLeaf o P (⟨en', ex', G, S, s⟩ : Leaf α σ)
    obtain ⟨sep', h3, -, h4⟩ := SepSet.copyFrom_spec o sep S (hQ _ h)
    refine ⟨P', sep', k, [⟨en', ex', G, S, s⟩], ?_, Gen.leaf _ _ _ _ _ _, h2, SepSet.copyFrom_keys hk (hQ _ h) h4⟩
    rw [sampleNoScore, py_bind h1, py_bind h3]
    rfl
  | .node en' ex' order cs, en, ex, h, P, sep, k, hk => by
    simp only [Hyp.Ok] at h
    obtain ⟨rfl, rfl, hlen, h⟩ := h
    obtain ⟨P', s', k', Ls, a1, a2, a3, a4⟩ := sampleNth_spec o hn hQ hp cs h (pick k cs.length) (hp _ _ (by omega)) P sep (k + 1) hk
    refine ⟨P', s', k', Ls, ?_, Gen.node a2, a3, a4⟩
    rw [sampleNoScore, if_neg (by omega), a1]

theorem sampleNth_spec (o : SetOrder α) (hn : 0 < n) (hQ : ∀ L, Q L → L.sep.Keys (L.en ∪ L.ex)) {pick : Nat → Nat → Nat}
    (hp : ∀ k m, 0 < m → pick k m < m) :
    ∀ (c : Cookies α σ) {en ex : Finset α}, c.Ok Q R n en ex → ∀ (i : Nat), i < c.length → ∀ (P : MG α) (sep : SepSet α) (k : Nat),
      sep.Keys N →
      ∃ P' sep' k' Ls, sampleNth o pick c i P sep k = .ok (P', sep', k') ∧ GenC c Ls ∧ Filled Ls P P' ∧ sep'.Keys N
  | .nil, en, ex, h, i, hi, P, sep, k, hk => by simp [Cookies.length] at hi
  | .cons G d l anc desc rest, en, ex, h, 0, hi, P, sep, k, hk => by
    simp only [Cookies.Ok] at h
    obtain ⟨-, -, -, -, h3, h4, -⟩ := h
    obtain ⟨P1, s1, k1, L1, a1, a2, a3, a4⟩ := sampleAncNoScore_spec o hn hQ hp anc h3 P sep k hk
    obtain ⟨P2, s2, k2, L2, b1, b2, b3, b4⟩ := sampleNoScore_spec o hn hQ hp desc h4 P1 s1 k1 a4
    refine ⟨P2, s2, k2, L1 ++ L2, ?_, GenC.here a2 b2, a3.append b3, b4⟩
    rw [sampleNth, py_bind a1]
    exact b1
  | .cons G d l anc desc rest, en, ex, h, i + 1, hi, P, sep, k, hk => by
    simp only [Cookies.Ok] at h
    obtain ⟨P', s', k', Ls, a1, a2, a3, a4⟩ := sampleNth_spec o hn hQ hp rest h.2.2.2.2.2.2 i
      (by simp [Cookies.length] at hi; exact hi) P sep k hk
    exact ⟨P', s', k', Ls, by rw [sampleNth, a1], GenC.there a2, a3, a4⟩

theorem sampleAncNoScore_spec (o : SetOrder α) (hn : 0 < n) (hQ : ∀ L, Q L → L.sep.Keys (L.en ∪ L.ex)) {pick : Nat → Nat → Nat}
    (hp : ∀ k m, 0 < m → pick k m < m) :
    ∀ (c : Hyps α σ) {l : List (Finset α)} {ex : Finset α}, c.Ok Q R n l ex → ∀ (P : MG α) (sep : SepSet α) (k : Nat), sep.Keys N →
      ∃ P' sep' k' Ls, sampleAncNoScore o pick c P sep k = .ok (P', sep', k') ∧ GenA c Ls ∧ Filled Ls P P' ∧ sep'.Keys N
  | .nil, l, ex, h, P, sep, k, hk => ⟨P, sep, k, [], by rw [sampleAncNoScore], GenA.nil, Filled.refl P, hk⟩
  | .cons hd rest, l, ex, h, P, sep, k, hk => by
    cases l with
    | nil => simp [Hyps.Ok] at h
    | cons t l =>
      simp only [Hyps.Ok] at h
      obtain ⟨P1, s1, k1, L1, a1, a2, a3, a4⟩ := sampleNoScore_spec o hn hQ hp hd h.1 P sep k hk
      obtain ⟨P2, s2, k2, L2, b1, b2, b3, b4⟩ := sampleAncNoScore_spec o hn hQ hp rest h.2 P1 s1 k1 a4
      refine ⟨P2, s2, k2, L1 ++ L2, ?_, GenA.cons a2 b2, a3.append b3, b4⟩
      rw [sampleAncNoScore, py_bind a1]
      exact b1
end

/-! ### the sampled graph -/

theorem leaf_eq_of_ordered {Ls : List (Leaf α σ)} (ho : Ordered Ls) {L L' : Leaf α σ} (hL : L ∈ Ls) (hL' : L' ∈ Ls) {x y : α}
    (hx : x ∈ L.en) (hx' : x ∈ L'.en ∪ L'.ex) (hy : y ∈ L'.en) (hy' : y ∈ L.en ∪ L.ex) : L = L' := by
  induction Ls with
  | nil => simp at hL
  | cons M Ls ih =>
    obtain ⟨h1, h2⟩ := List.pairwise_cons.mp ho
    rcases List.mem_cons.mp hL with e | e <;> rcases List.mem_cons.mp hL' with e' | e'
    · rw [e, e']
    · subst e; exact absurd hy' (Finset.disjoint_left.mp (h1 L' e') hy)
    · subst e'; exact absurd hx' (Finset.disjoint_left.mp (h1 L e) hx)
    · exact ih h2 e e'

theorem filled_wf {ci : CITest α} {Ls : List (Leaf α σ)} {P : MG α} (hf : Filled Ls (MG.pdagEmpty N) P) (ho : Ordered Ls)
    (hL : ∀ L ∈ Ls, LeafOk ci N L) : P.PdagWF ∧ P.nodes = N ∧ ∀ a b, P.Arrow a b → ¬ P.Arrow b a := by
  have e1 : ∀ a b, P.Arrow a b ↔ LeafArrow Ls a b := by
    intro a b; rw [hf.arrow]; simp [MG.Arrow, MG.pdagEmpty, MG.empty]
  have e2 : ∀ a b, P.Und a b ↔ LeafUnd Ls a b ∨ LeafUnd Ls b a := by
    intro a b; rw [hf.und]; simp [MG.Und, MG.pdagEmpty, MG.empty]
  have e3 : ∀ v m, m ≠ .tail → m ≠ .arrow → P.g v m = ∅ := fun v m h h' => hf.other v m h h'
  have hn : P.nodes = N := hf.nodes
  have hm : ∀ a b, (LeafArrow Ls a b ∨ LeafUnd Ls a b) → a ∈ N ∧ b ∈ N := by
    rintro a b (⟨L, h1, h2, h3, -⟩ | ⟨L, h1, h2, h3, -⟩) <;>
      exact ⟨Finset.union_subset (hL L h1).en (hL L h1).ex h3, (hL L h1).en h2⟩
  refine ⟨⟨?_, ?_, ?_, ?_, ?_⟩, hn, ?_⟩
  · intro m; rw [hf.types]; simp [MG.pdagEmpty, MG.empty]
  · intro a b m h
    rw [hn]
    cases m with
    | arrow => exact hm a b (Or.inl ((e1 a b).mp h))
    | tail =>
      rcases (e2 a b).mp h with h | h
      · exact hm a b (Or.inr h)
      · exact (hm b a (Or.inr h)).symm
    | circle => rw [e3 _ _ (by decide) (by decide)] at h; simp at h
  · intro a m h
    cases m with
    | arrow =>
      obtain ⟨L, h1, -, -, h4⟩ := (e1 a a).mp h
      exact (hL L h1).wf.irrefl _ _ h4
    | tail =>
      rcases (e2 a a).mp h with ⟨L, h1, -, -, h4⟩ | ⟨L, h1, -, -, h4⟩ <;> exact (hL L h1).wf.irrefl _ _ h4
    | circle => rw [e3 _ _ (by decide) (by decide)] at h; simp at h
  · intro a b h
    exact (e2 b a).mpr ((e2 a b).mp h).symm
  · intro a b h h'
    obtain ⟨L, h1, h2, h3, h4⟩ := (e1 a b).mp h
    rcases (e2 a b).mp h' with ⟨L', g1, g2, g3, g4⟩ | ⟨L', g1, g2, g3, g4⟩
    · obtain rfl := leaf_eq_of_ordered ho h1 g1 h2 (Finset.mem_union_left _ g2) g2 (Finset.mem_union_left _ h2)
      exact (hL L h1).wf.excl _ _ h4 g4
    · obtain rfl := leaf_eq_of_ordered ho h1 g1 h2 g3 g2 h3
      exact (hL L h1).wf.excl _ _ h4 ((hL L h1).wf.symm _ _ g4)
  · intro a b h h'
    obtain ⟨L, h1, h2, h3, h4⟩ := (e1 a b).mp h
    obtain ⟨L', g1, g2, g3, g4⟩ := (e1 b a).mp h'
    obtain rfl := leaf_eq_of_ordered ho h1 g1 h2 g3 g2 h3
    exact (hL L h1).noBi _ _ h4 g4

end Brai
end Verif
