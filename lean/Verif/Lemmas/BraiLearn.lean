import Verif.Lemmas.Brai
import Verif.Lemmas.PagKeep
import Verif.Lemmas.OrdMarks
import Verif.Props.Pdag

/-!
# Lemmas about learning the generating tree of B-RAI
-/

namespace Verif
variable {α σ : Type} [LinearOrder α]

theorem MG.subgraphsLoop_nonempty {α : Type} [DecidableEq α] (o : SetOrder α) (G : MG α) (types : Option (List (Mark × Mark))) :
    ∀ (n : Nat) (nodes : Finset α) (L : List (Finset α)), subgraphsLoop o G types n nodes = .ok L → ∀ S ∈ L, S.Nonempty := by
  intro n
  induction n with
  | zero => intro nodes L h; cases h
  | succ n ih =>
    intro nodes L h
    rw [subgraphsLoop] at h
    cases hp : popSet o n nodes with
    | none => simp only [hp] at h; cases h; simp
    | some p =>
      simp only [hp] at h
      obtain ⟨r, -, h2⟩ := py_bind_ok h
      obtain ⟨more, h3, h4⟩ := py_bind_ok h2
      cases h4
      intro S hS
      rcases List.mem_cons.mp hS with rfl | hS
      · exact ⟨p.1, Finset.mem_insert_self _ _⟩
      · exact ih _ _ h3 S hS

namespace Rai

theorem split_nonempty (o : SetOrder α) {G : MG α} {en d a : Finset α} {l : List (Finset α)} (h : split o G en = .ok (d, l, a)) :
    ∀ s ∈ l, s.Nonempty := by
  rw [split] at h
  obtain ⟨d', -, h2⟩ := py_bind_ok h
  obtain ⟨l', h3, h4⟩ := py_bind_ok h2
  cases h4
  exact MG.subgraphsLoop_nonempty o G _ _ _ _ h3

theorem testPair_sepNodes {o : SetOrder α} {ci : CITest α} {src : MG α} {order : Nat} {st st' : PcState α} {x y a b : α}
    (h : testPair o ci src order st x y a b = .ok st') : st'.sep.nodes = st.sep.nodes := by
  rw [testPair] at h
  obtain ⟨c, -, h⟩ := py_bind_ok h
  cases c
  · cases h; rfl
  · simp only [Bool.not_true, Bool.false_eq_true, if_false] at h
    cases hf : Pc.firstIndep ci x y (condSets o src order a b) st.calls with
    | mk z k =>
      rw [hf] at h
      cases z <;> cases h <;> rfl

theorem maximallyOrientEdges_sep {o : SetOrder α} {en : Finset α} {st st' : PcState α}
    (h : maximallyOrientEdges o en st = .ok st') : st'.sep = st.sep := by
  rw [maximallyOrientEdges] at h
  obtain ⟨G, -, h⟩ := py_bind_ok h
  obtain ⟨G', -, h⟩ := py_bind_ok h
  cases h; rfl

theorem refineAndOrient_sepNodes {o : SetOrder α} {ci : CITest α} {ov : Bool} {en ex : Finset α} {order : Nat} {st st' : PcState α}
    (h : refineAndOrient o ci ov en ex order st = .ok st') : st'.sep.nodes = st.sep.nodes := by
  rw [refineAndOrient] at h
  obtain ⟨s1, h1, h⟩ := py_bind_ok h
  obtain ⟨s2, h2, h⟩ := py_bind_ok h
  obtain ⟨s3, h3, h4⟩ := py_bind_ok h
  have e1 : s1.sep.nodes = st.sep.nodes :=
    foldlM_keep (fun s : PcState α => s.sep.nodes = st.sep.nodes) _ _ _ (fun s v s' _ hs h =>
      foldlM_keep (fun s : PcState α => s.sep.nodes = st.sep.nodes) _ _ _ (fun s e s' _ hs h =>
        (testPair_sepNodes h).trans hs) hs h) rfl h1
  have e3 : s3.sep.nodes = s2.sep.nodes :=
    foldlM_keep (fun s : PcState α => s.sep.nodes = s2.sep.nodes) _ _ _ (fun s v s' _ hs h => (testPair_sepNodes h).trans hs) rfl h3
  rw [maximallyOrientEdges_sep h4, e3, maximallyOrientEdges_sep h2, e1]

end Rai

namespace Brai
variable {Q : Leaf α σ → Prop} {R : Finset α → MG α → Finset α → List (Finset α) → Prop} {m : Nat}

theorem Hyps.Ok.snoc {s : Finset α} {ex : Finset α} {h : Hyp α σ} (hh : h.Ok Q R m s ex) :
    ∀ {l : List (Finset α)} {a : Hyps α σ}, a.Ok Q R m l ex → (a.snoc h).Ok Q R m (l ++ [s]) ex
  | [], .nil, _ => by simp only [Hyps.snoc, List.nil_append, Hyps.Ok]; exact ⟨hh, trivial⟩
  | [], .cons _ _, ha => by simp [Hyps.Ok] at ha
  | _ :: _, .nil, ha => by simp [Hyps.Ok] at ha
  | t :: l, .cons x r, ha => by
    simp only [Hyps.Ok] at ha
    simp only [Hyps.snoc, List.cons_append, Hyps.Ok]
    exact ⟨ha.1, Hyps.Ok.snoc hh ha.2⟩

theorem Cookies.Ok.snoc {en ex : Finset α} {G : MG α} {d : Finset α} {l : List (Finset α)} {anc : Hyps α σ} {desc : Hyp α σ}
    (h1 : d ⊆ en) (h2 : ∀ x, (∃ s ∈ l, x ∈ s) ↔ x ∈ en ∧ x ∉ d) (h3 : l.Pairwise Disjoint) (h4 : R en G d l)
    (h5 : anc.Ok Q R m l ex) (h6 : desc.Ok Q R m d (en \ d ∪ ex)) :
    ∀ {c : Cookies α σ}, c.Ok Q R m en ex → (c.snoc G d l anc desc).Ok Q R m en ex
  | .nil, _ => by simp only [Cookies.snoc, Cookies.Ok]; exact ⟨h1, h2, h3, h4, h5, h6, trivial⟩
  | .cons _ _ _ _ _ r, h => by
    simp only [Cookies.Ok] at h
    obtain ⟨a1, a2, a3, a4, a5, a6, a7⟩ := h
    simp only [Cookies.snoc, Cookies.Ok]
    exact ⟨a1, a2, a3, a4, a5, a6, Cookies.Ok.snoc h1 h2 h3 h4 h5 h6 a7⟩

omit [LinearOrder α] in
theorem Cookies.length_snoc (G : MG α) (d : Finset α) (l : List (Finset α)) (anc : Hyps α σ) (desc : Hyp α σ) :
    ∀ c : Cookies α σ, (c.snoc G d l anc desc).length = c.length + 1
  | .nil => rfl
  | .cons _ _ _ _ _ r => by simp only [Cookies.snoc, Cookies.length, Cookies.length_snoc G d l anc desc r]

theorem FoundDep.good {ci : CITest α} {N : Finset α} {st st' : PcState α} (h : FoundDep ci st.graph) (hg : Rai.Good ci N st st') :
    FoundDep ci st'.graph := fun i j hp => h i j (Rai.padj_of_pot hg.2 i j hp)

theorem mkLeaf_spec [Bot σ] (o : SetOrder α) {ci : CITest α} {N : Finset α} {cfg : Cfg α σ} {f : Dag α → Finset α → Py (Num σ)}
    (hsc : cfg.isScored = true) (hf : cfg.scoring = some f) (hF : FloatScore f N) {en ex : Finset α} {order : Nat} {st : PcState α}
    (hen : en ⊆ N) (hex : ex ⊆ N) (hd : Disjoint en ex) (hne : en.Nonempty) (hst : Rai.Inv ci N st) (hD : FoundDep ci st.graph) :
    ∃ sep s, mkLeaf o cfg en ex order st = .ok (.leaf en ex order st.graph sep s) ∧
      LearnedLeaf ci f N ⟨en, ex, st.graph, sep, s⟩ := by
  have hun : en ∪ ex ⊆ N := Finset.union_subset hen hex
  have hk : st.sep.Keys (en ∪ ex) := fun i hi j hj hij => hst.key i (hun hi) j (hun hj) hij
  obtain ⟨sep, c1, -, c2⟩ := SepSet.copy_spec o st.sep hk
  have hok : ∀ s : σ, LeafOk ci N ⟨en, ex, st.graph, sep, s⟩ := fun s =>
    { en := hen, ex := hex, disj := hd, nodes := hst.nodes, wf := hst.wf, noBi := hst.noBi
      key := fun i hi j hj hij => by
        obtain ⟨S, hS⟩ := hk i hi j hj hij
        exact ⟨S, (c2 i hi j hj hij).trans hS⟩
      witness := fun i hi j hj hij hn => by
        obtain ⟨S, hS, l, k, rfl, w1, w2, w3, w4⟩ := hst.witness i (hun hi) j (hun hj) hij hn
        exact ⟨l, k, (c2 i hi j hj hij).trans hS, w2, w3, w4, w1⟩ }
  obtain ⟨P, p1, p2⟩ := addLeaf o (MG.pdagEmpty N) (⟨en, ex, st.graph, sep, (⊥ : σ)⟩ : Leaf α σ)
  obtain ⟨w1, w2, -⟩ := filled_wf p2 (List.pairwise_singleton _ _) (by simpa using hok ⊥)
  have a1 : ∀ s : σ, ∀ a b, P.Arrow a b ↔ LeafArrow [(⟨en, ex, st.graph, sep, s⟩ : Leaf α σ)] a b := by
    intro s a b; rw [p2.arrow]; simp [MG.Arrow, MG.pdagEmpty, MG.empty, LeafArrow]
  have a2 : ∀ s : σ, ∀ a b, P.Und a b ↔ LeafUnd [(⟨en, ex, st.graph, sep, s⟩ : Leaf α σ)] a b ∨
      LeafUnd [(⟨en, ex, st.graph, sep, s⟩ : Leaf α σ)] b a := by
    intro s a b; rw [p2.und]; simp [MG.Und, MG.pdagEmpty, MG.empty, LeafUnd]
  obtain ⟨D, flag, d1, d2, d3⟩ := MG.convertToDag_spec o w1
  have hleaf : ∀ s, leafScore o cfg st.graph en ex = .ok (.float s) →
      mkLeaf o cfg en ex order st = .ok (.leaf en ex order st.graph sep s) := by
    intro s hs
    rw [mkLeaf, py_bind hs, py_bind c1]
    rfl
  simp only [hst.nodes.symm] at p1
  cases flag with
  | true =>
    have hE : P.Extension D := C18_sound o w1 d1
    obtain ⟨s, hs⟩ := hF D hE.wf hE.acyclic (hE.nodes.trans w2) en hen hne
    refine ⟨sep, s, hleaf s ?_, hok s, hne, hD, P, w1, w2, a1 s, a2 s, fun _ => ⟨D, hE, hs⟩, fun h => absurd ⟨D, hE⟩ h⟩
    rw [leafScore, if_pos hsc, py_bind p1, py_bind d1]
    simp [hf, hs]
  | false =>
    have hno : ¬ ∃ E, P.Extension E := fun h => by have := d3 h; cases this
    refine ⟨sep, ⊥, hleaf ⊥ ?_, hok ⊥, hne, hD, P, w1, w2, a1 ⊥, a2 ⊥, fun h => absurd h hno, fun _ => rfl⟩
    rw [leafScore, if_pos hsc, py_bind p1, py_bind d1]
    rfl

theorem learn_spec [Bot σ] (o : SetOrder α) {ci : CITest α} {N : Finset α} {cfg : Cfg α σ} {f : Dag α → Finset α → Py (Num σ)}
    (hsc : cfg.isScored = true) (hf : cfg.scoring = some f) (hF : FloatScore f N) :
    ∀ (n : Nat) (en ex : Finset α) (order : Nat) (st : PcState α), N.card + 1 ≤ n + order → en ⊆ N → ex ⊆ N → Disjoint en ex →
      en.Nonempty → Rai.Inv ci N st → st.sep.nodes = N → 0 < n → (FoundDep ci st.graph ∨ (order = 0 ∧ en = N)) →
      ∃ h st', learnRecursively o ci cfg n en ex order st = .ok (h, st') ∧
        h.Ok (LearnedLeaf ci f N) (LearnedSplit ci N) cfg.numHyp en ex ∧ Rai.Good ci N st st' ∧ st'.sep.nodes = N := by
  intro n
  induction n with
  | zero => intro en ex order st _ _ _ _ _ _ _ h; omega
  | succ n ih =>
    intro en ex order st hn hen hex hd hne hst hsn _ hD
    have hmem : ∀ {st : PcState α}, Rai.Inv ci N st → ∀ i j, st.graph.PAdj i j → i ∈ N ∧ j ∈ N ∧ i ≠ j := by
      intro st hst i j h
      rw [← hst.nodes]
      have hne : i ≠ j := by rintro rfl; rcases h with h | h | h | h <;> exact hst.wf.irrefl _ _ h
      rcases h with h | h | h | h <;> have := hst.wf.mem _ _ _ h <;> exact ⟨by tauto, by tauto, hne⟩
    have wit : ∀ {st : PcState α}, Rai.Inv ci N st → ∀ i ∈ N, ∀ j ∈ N, i ≠ j → ¬ st.graph.PAdj i j → Accepted ci N i j := by
      intro st hst i hi j hj hij hp
      obtain ⟨S, -, l, k, -, w1, w2, w3, w4⟩ := hst.witness i hi j hj hij hp
      exact ⟨l, k, w2, w3, w4, w1⟩
    rw [learnRecursively]
    by_cases he : Rai.exitCond st.graph en order = true
    · have hD' : FoundDep ci st.graph := by
        rcases hD with hD | ⟨rfl, rfl⟩
        · exact hD
        · intro i j h
          obtain ⟨hi, hj, -⟩ := hmem hst i j h
          replace he := of_decide_eq_true (by simpa only [Rai.exitCond, MG.fanIn] using he)
          have e1 : ∀ v ∈ en, st.graph.g v .arrow = ∅ ∧ st.graph.g v .tail = ∅ := by
            intro v hv
            have := he v hv
            simp only [MG.parents, MG.und, gt_iff_lt, not_lt, nonpos_iff_eq_zero, Nat.add_eq_zero_iff, Finset.card_eq_zero] at this
            exact this
          rcases h with h | h | h | h <;> simp only [MG.Arrow, MG.Und, e1 i hi, e1 j hj] at h <;> simp at h
      obtain ⟨sep, s, h1, h2⟩ := mkLeaf_spec o hsc hf hF (order := order) hen hex hd hne hst hD'
      refine ⟨.leaf en ex order st.graph sep s, st, ?_, ?_, ⟨hst, fun _ _ h => h⟩, hsn⟩
      · rw [if_pos he, py_bind h1]; rfl
      · simp only [Hyp.Ok]; exact ⟨trivial, trivial, h2⟩
    · have hlt : order < N.card := by
        by_contra hc
        exact he (Rai.exitCond_of_le hst en (by omega))
      obtain ⟨sep, c1, c2, c3⟩ := SepSet.copy_spec o st.sep hst.key
      have c1' : st.sep.copy o none none = .ok sep := by
        rw [← c1]; simp only [SepSet.copy, Option.getD_none, Option.getD_some, hsn]
      have hstart : ∀ k, Rai.Inv ci N ⟨st.graph, sep, k⟩ := fun k =>
        ⟨hst.nodes, hst.wf, hst.noBi, fun i hi j hj hij => by
          obtain ⟨S, hS⟩ := hst.key i hi j hj hij
          exact ⟨S, (c3 i hi j hj hij).trans hS⟩, fun i hi j hj hij hn => by
          obtain ⟨S, hS, hw⟩ := hst.witness i hi j hj hij hn
          exact ⟨S, (c3 i hi j hj hij).trans hS, hw⟩⟩
      obtain ⟨r, f1, f2, f3, f4, f5⟩ := foldlM_ok_inv (f := fun (r : Cookies α σ × PcState α) (_ : Nat) => (do
          let sep ← st.sep.copy o none none
          let s1 ← Rai.refineAndOrient o ci cfg.overwrite en ex order ⟨st.graph, sep, r.2.calls⟩
          let (d, l, a) ← Rai.split o s1.graph en
          let (anc, s2) ← l.foldlM (fun (q : Hyps α σ × PcState α) s => do
            let (h, s') ← learnRecursively o ci cfg n s ex (order + 1) q.2
            return (q.1.snoc h, s')) (.nil, s1)
          let (desc, s3) ← learnRecursively o ci cfg n d (a ∪ ex) (order + 1) s2
          return (r.1.snoc s1.graph d l anc desc, s3) : Py (Cookies α σ × PcState α)))
        (fun done r => r.1.length = done.length ∧ r.1.Ok (LearnedLeaf ci f N) (LearnedSplit ci N) cfg.numHyp en ex ∧
          Rai.Good ci N st r.2 ∧ r.2.sep.nodes = N)
        (List.range cfg.numHyp) [] (.nil, st) ⟨rfl, by simp only [Cookies.Ok], ⟨hst, fun _ _ h => h⟩, hsn⟩ (by
          rintro done x ⟨cs, sr⟩ - ⟨i1, i2, i3, i4⟩
          obtain ⟨s1, h1, g1, t1⟩ := Rai.refineAndOrient_spec o cfg.overwrite hen hex hd order (hstart sr.calls)
          have n1 : s1.sep.nodes = N := (Rai.refineAndOrient_sepNodes h1).trans c2
          have D1 : FoundDep ci s1.graph := by
            rcases hD with hD | ⟨rfl, rfl⟩
            · exact fun i j hp => hD i j (Rai.padj_of_pot g1.2 i j hp)
            · intro i j hp
              obtain ⟨hi, hj, -⟩ := hmem g1.1 i j hp
              obtain ⟨l, k, hl, hk⟩ := t1 i (Finset.mem_union_left _ hi) j hj hp ∅ rfl (Or.inl ⟨by simp, by simp⟩)
              rw [List.toFinset_eq_empty_iff] at hl
              subst hl
              exact ⟨k, hk⟩
          obtain ⟨d, l, h2, hdn, hdne, hl, hlp, harr, hcyc⟩ := Rai.split_full o g1.1.wf hne
          have hlne := Rai.split_nonempty o h2
          have hls : ∀ s ∈ l, s ⊆ en \ d := fun s hs y hy => Finset.mem_sdiff.mpr ((hl y).mp ⟨s, hs, hy⟩)
          obtain ⟨⟨anc, s2⟩, h3, o3, g3, n3⟩ := foldlM_ok_inv (f := fun (q : Hyps α σ × PcState α) s => (do
              let (h, s') ← learnRecursively o ci cfg n s ex (order + 1) q.2
              return (q.1.snoc h, s') : Py (Hyps α σ × PcState α)))
            (fun done q => q.1.Ok (LearnedLeaf ci f N) (LearnedSplit ci N) cfg.numHyp done ex ∧ Rai.Good ci N s1 q.2 ∧ q.2.sep.nodes = N)
            l [] (.nil, s1) ⟨by simp only [Hyps.Ok], ⟨g1.1, fun _ _ h => h⟩, n1⟩ (by
              rintro dn s ⟨an, sq⟩ hs ⟨j1, j2, j3⟩
              obtain ⟨h, s', e1, e2, e3, e4⟩ := ih s ex (order + 1) sq (by omega)
                ((hls s hs).trans (Finset.sdiff_subset.trans hen)) hex
                (Finset.disjoint_of_subset_left ((hls s hs).trans Finset.sdiff_subset) hd) (hlne s hs) j2.1 j3 (by omega)
                (Or.inl (D1.good j2))
              exact ⟨(an.snoc h, s'), by simp only [py_bind e1]; rfl, Hyps.Ok.snoc e2 j1, j2.trans e3, e4⟩)
          obtain ⟨desc, s3, h4, o4, g4, n4⟩ := ih d (en \ d ∪ ex) (order + 1) s2 (by omega) (hdn.trans hen)
            (Finset.union_subset (Finset.sdiff_subset.trans hen) hex)
            (Finset.disjoint_union_right.mpr ⟨Finset.disjoint_sdiff, Finset.disjoint_of_subset_left hdn hd⟩) hdne g3.1 n3 (by omega)
            (Or.inl (D1.good g3))
          refine ⟨(cs.snoc s1.graph d l anc desc, s3), ?_, ?_, ?_, ?_, n4⟩
          · rw [py_bind c1', py_bind h1, py_bind h2]
            refine (py_bind h3 _).trans ?_
            exact (py_bind h4 _).trans rfl
          · simp only [Cookies.length_snoc, i1, List.length_append, List.length_singleton]
          · exact Cookies.Ok.snoc hdn hl hlp ⟨g1.1.nodes, g1.1.wf, g1.1.noBi, D1, fun i hi j hj hij hp => wit g1.1 i hi j hj hij hp, hdne, hlne, harr, hcyc⟩ o3 o4 i2
          · exact ⟨g4.1, fun a b h => g1.2 a b (g3.2 a b (g4.2 a b h))⟩)
      refine ⟨.node en ex order r.1, r.2, ?_, ?_, f4, f5⟩
      · rw [if_neg he]
        exact (py_bind f1 _).trans rfl
      · simp only [Hyp.Ok]
        exact ⟨trivial, trivial, by simpa using f2, f3⟩

end Brai
end Verif
