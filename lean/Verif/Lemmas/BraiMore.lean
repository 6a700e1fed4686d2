import Verif.Lemmas.BraiSample

/-!
# More lemmas about B-RAI: samples at temperature zero, learning without scores
-/

namespace Verif
namespace Brai
variable {α σ : Type} [LinearOrder α]

section det
variable [Add σ] [Zero σ] {choose : Nat → List σ → Py Nat} {N : Finset α}

mutual
theorem sample_det (o : SetOrder α) (hc : ∀ k k' l, choose k l = choose k' l) : ∀ (h : Hyp α σ) (P : MG α) (sep sep' : SepSet α) (k k' : Nat)
    (r r' : MG α × SepSet α × σ × Nat), sample o choose N h P sep k = .ok r → sample o choose N h P sep' k' = .ok r' →
    r.1 = r'.1 ∧ r.2.2.1 = r'.2.2.1
  | .leaf en ex order G S s, P, sep, sep', k, k', r, r', h1, h2 => by
    rw [sample] at h1 h2
    obtain ⟨P1, a1, h1⟩ := py_bind_ok h1
    obtain ⟨s1, a2, h1⟩ := py_bind_ok h1
    obtain ⟨P2, b1, h2⟩ := py_bind_ok h2
    obtain ⟨s2, b2, h2⟩ := py_bind_ok h2
    rw [a1] at b1
    cases b1; cases h1; cases h2
    exact ⟨rfl, rfl⟩
  | .node en ex order cs, P, sep, sep', k, k', r, r', h1, h2 => by
    rw [sample] at h1 h2
    obtain ⟨⟨rs, k1⟩, a1, h1⟩ := py_bind_ok h1
    obtain ⟨⟨rs', k2⟩, b1, h2⟩ := py_bind_ok h2
    have e := sampleCookies_det o hc cs k k' _ _ a1 b1
    dsimp only at e h1 h2
    have e' : rs.map (fun r => r.2.2) = rs'.map (fun r => r.2.2) := by
      have := congrArg (List.map Prod.snd) e
      simpa only [List.map_map, Function.comp_def] using this
    obtain ⟨i, a2, h1⟩ := py_bind_ok h1
    obtain ⟨i', b2, h2⟩ := py_bind_ok h2
    rw [hc k1 k2, e', b2] at a2
    cases a2
    have e2 := congrArg (fun l => l[i]?) e
    simp only [List.getElem?_map] at e2
    cases c1 : rs[i]? with
    | none => rw [c1] at h1; cases h1
    | some x =>
      cases c2 : rs'[i]? with
      | none => rw [c2] at h2; cases h2
      | some y =>
        obtain ⟨Pi, Si, s⟩ := x
        obtain ⟨Pi', Si', s'⟩ := y
        rw [c1, c2] at e2
        simp only [Option.map_some, Option.some.injEq, Prod.mk.injEq] at e2
        obtain ⟨rfl, rfl⟩ := e2
        rw [c1] at h1
        rw [c2] at h2
        dsimp only at h1 h2
        obtain ⟨P1, a1, h1⟩ := py_bind_ok h1
        obtain ⟨s1, a2, h1⟩ := py_bind_ok h1
        obtain ⟨P2, b1, h2⟩ := py_bind_ok h2
        obtain ⟨s2, b2, h2⟩ := py_bind_ok h2
        rw [a1] at b1
        cases b1; cases h1; cases h2
        exact ⟨rfl, rfl⟩

theorem sampleCookies_det (o : SetOrder α) (hc : ∀ k k' l, choose k l = choose k' l) : ∀ (c : Cookies α σ) (k k' : Nat)
    (r r' : List (MG α × SepSet α × σ) × Nat), sampleCookies o choose N c k = .ok r → sampleCookies o choose N c k' = .ok r' →
    r.1.map (fun x => (x.1, x.2.2)) = r'.1.map (fun x => (x.1, x.2.2))
  | .nil, k, k', r, r', h1, h2 => by
    rw [sampleCookies] at h1 h2
    cases h1; cases h2; rfl
  | .cons G d l anc desc rest, k, k', r, r', h1, h2 => by
    rw [sampleCookies] at h1 h2
    obtain ⟨⟨P1, s1, v1, k1⟩, a1, h1⟩ := py_bind_ok h1
    obtain ⟨⟨P2, s2, v2, k2⟩, b1, h2⟩ := py_bind_ok h2
    dsimp only at h1 h2
    have e1 := sampleAnc_det o hc anc _ _ _ _ _ _ _ _ a1 b1
    dsimp only at e1
    obtain ⟨rfl, rfl⟩ := e1
    obtain ⟨⟨Q1, t1, w1, m1⟩, a2, h1⟩ := py_bind_ok h1
    obtain ⟨⟨Q2, t2, w2, m2⟩, b2, h2⟩ := py_bind_ok h2
    dsimp only at h1 h2
    have e2 := sample_det o hc desc _ _ _ _ _ _ _ a2 b2
    dsimp only at e2
    obtain ⟨rfl, rfl⟩ := e2
    obtain ⟨⟨rs, n1⟩, a3, h1⟩ := py_bind_ok h1
    obtain ⟨⟨rs', n2⟩, b3, h2⟩ := py_bind_ok h2
    have e3 := sampleCookies_det o hc rest _ _ _ _ a3 b3
    cases h1; cases h2
    simp only [List.map_cons]
    rw [e3]

theorem sampleAnc_det (o : SetOrder α) (hc : ∀ k k' l, choose k l = choose k' l) : ∀ (c : Hyps α σ) (P : MG α) (sep sep' : SepSet α) (v : σ)
    (k k' : Nat) (r r' : MG α × SepSet α × σ × Nat), sampleAnc o choose N c P sep v k = .ok r → sampleAnc o choose N c P sep' v k' = .ok r' →
    r.1 = r'.1 ∧ r.2.2.1 = r'.2.2.1
  | .nil, P, sep, sep', v, k, k', r, r', h1, h2 => by
    rw [sampleAnc] at h1 h2
    cases h1; cases h2; exact ⟨rfl, rfl⟩
  | .cons h rest, P, sep, sep', v, k, k', r, r', h1, h2 => by
    rw [sampleAnc] at h1 h2
    obtain ⟨⟨P1, s1, v1, k1⟩, a1, h1⟩ := py_bind_ok h1
    obtain ⟨⟨P2, s2, v2, k2⟩, b1, h2⟩ := py_bind_ok h2
    have e1 := sample_det o hc h _ _ _ _ _ _ _ a1 b1
    dsimp only at e1 h1 h2
    obtain ⟨rfl, rfl⟩ := e1
    exact sampleAnc_det o hc rest _ _ _ _ _ _ _ _ h1 h2
end
end det

section seq
variable [Add σ] [Zero σ] [LT σ] [DecidableLT σ] {N : Finset α} {rng : Rng σ} {tree : Hyp α σ}

theorem sampleCpdag_det (o : SetOrder α) {G G' : MG α} {sep sep' : SepSet α} {k k' : Nat} (hn : G.nodes = G'.nodes)
    {r r' : MG α × MG α × SepSet α × Option σ × Nat} (h : sampleCpdag o true rng 0 tree G sep k = .ok r)
    (h' : sampleCpdag o true rng 0 tree G' sep' k' = .ok r') : r.2.1 = r'.2.1 := by
  rw [sampleCpdag] at h h'
  simp only [if_true] at h h'
  obtain ⟨⟨P, s, v, m⟩, a1, h⟩ := py_bind_ok h
  obtain ⟨⟨P', s', v', m'⟩, b1, h'⟩ := py_bind_ok h'
  obtain ⟨⟨P1, s1, v1, m1⟩, a2, a3⟩ := py_bind_ok a1
  obtain ⟨⟨P2, s2, v2, m2⟩, b2, b3⟩ := py_bind_ok b1
  cases a3; cases b3
  rw [hn] at a2
  have e := sample_det o (fun k k' l => by simp [chooser]) tree _ _ _ _ _ _ _ a2 b2
  dsimp only at e h h'
  obtain ⟨rfl, rfl⟩ := e
  obtain ⟨R1, a4, h⟩ := py_bind_ok h
  obtain ⟨R2, b4, h'⟩ := py_bind_ok h'
  rw [a4] at b4
  cases b4; cases h; cases h'; rfl

theorem sampleSeq_zero (o : SetOrder α) (H : Samples o true rng 0 tree N) : ∀ (n : Nat) (G G0 : MG α) (sep sep0 : SepSet α) (k k0 : Nat)
    (Rs : List (MG α)) (r : MG α × MG α × SepSet α × Option σ × Nat), G.nodes = N → G0.nodes = N → sep.Keys N →
    sampleCpdag o true rng 0 tree G0 sep0 k0 = .ok r → sampleSeq o true rng 0 tree n G sep k = .ok Rs → Rs = List.replicate n r.2.1 := by
  intro n
  induction n with
  | zero => intro G G0 sep sep0 k k0 Rs r _ _ _ _ h; rw [sampleSeq] at h; cases h; rfl
  | succ n ih =>
    intro G G0 sep sep0 k k0 Rs r hG hG0 hk h0 h
    obtain ⟨P, R', sep', s, k', h1, h2, h3, h4⟩ := H G sep k hG hk
    rw [sampleSeq, py_bind h1] at h
    obtain ⟨rest, h5, h6⟩ := py_bind_ok h
    cases h6
    rw [ih R' G0 sep' sep0 k' k0 rest r h3.2.1 hG0 h4 h0 h5, List.replicate_succ]
    congr 1
    exact sampleCpdag_det o (hG.trans hG0.symm) h1 h0
end seq

/-! ### specification of one sample -/

section one
variable {Q : Leaf α σ → Prop} {R : Finset α → MG α → Finset α → List (Finset α) → Prop} {m : Nat} {N : Finset α} {ci : CITest α}
  [AddMonoid σ] [LT σ] [DecidableLT σ] {rel : σ → σ → Prop} {rng : Rng σ} {T : ℚ} {tree : Hyp α σ}

/-- What a sample is: see `sampleCpdag_scored`. -/
structure IsSample (tree : Hyp α σ) (N : Finset α) (Ls : List (Leaf α σ)) (P G : MG α) : Prop where
  gen : Gen tree Ls
  filled : Filled Ls (MG.pdagEmpty N) P
  wfP : P.PdagWF
  nodesP : P.nodes = N
  wf : G.PdagWF
  nodes : G.nodes = N
  noBi : ∀ a b, G.Arrow a b → ¬ G.Arrow b a
  adjP : ∀ a b, G.PAdj a b ↔ P.PAdj a b
  adj : ∀ a b, G.PAdj a b ↔ LeafArrow Ls a b ∨ LeafArrow Ls b a ∨ LeafUnd Ls a b ∨ LeafUnd Ls b a
  orient : ∃ V : MG α, V.PdagWF ∧ MG.Refines V G ∧ (∀ a b, V.Arrow a b ↔ ∃ c, P.PUCol a b c) ∧
    Relation.ReflTransGen (MG.Step [1, 2, 3]) V G ∧ ∀ r, r = 1 ∨ r = 2 ∨ r = 3 → ∀ x y, ¬ G.RulePattern r x y

omit [AddMonoid σ] [LT σ] [DecidableLT σ] in
theorem IsSample.skel {Ls : List (Leaf α σ)} {P G : MG α} (h : IsSample tree N Ls P G) : Skel N P G ∧ Skel N G G :=
  ⟨⟨h.wfP, h.nodesP, fun a b => (h.adjP a b).symm⟩, h.wf, h.nodes, fun _ _ => Iff.rfl⟩

omit [AddMonoid σ] [LT σ] [DecidableLT σ] in
theorem reorient_isSample (o : SetOrder α) (hQ : ∀ L, Q L → LeafOk ci N L) (ht : tree.Ok Q R m N ∅) {Ls : List (Leaf α σ)} {P : MG α}
    (g : Gen tree Ls) (hf : Filled Ls (MG.pdagEmpty N) P) : ∃ G, Rai.reOrientSkeleton o P = .ok G ∧ IsSample tree N Ls P G := by
  obtain ⟨w1, w2, w3, w4⟩ := sampleCpdag_core hQ ht g hf
  obtain ⟨G, V, r1, r2, r3, r4, r5, r6, r7, r8, r9, r10⟩ := Rai.reOrientSkeleton_spec o w1 w3
  exact ⟨G, r1, g, hf, w1, w2, r2, r3.trans w2, r5, r4, fun a b => (r4 a b).trans (w4 a b), V, r6, r7, r8, r9, r10⟩

theorem sampleCpdag_scored (o : SetOrder α) (hm : 0 < m) (hQ : ∀ L, Q L → LeafOk ci N L) (ht : tree.Ok Q R m N ∅)
    (refl : ∀ s, rel s s) (trans : ∀ a b c, rel a b → rel b c → rel a c)
    (add : ∀ a b c d, rel a b → rel c d → rel (a + c) (b + d)) (hc : Chooses rel (chooser T rng.scored))
    {G : MG α} {sep : SepSet α} (hG : G.nodes = N) (hk : sep.Keys N) (k : Nat) :
    ∃ P G' sep' k' Ls, sampleCpdag o true rng T tree G sep k = .ok (P, G', sep', some (total Ls), k') ∧ IsSample tree N Ls P G' ∧
      sep'.Keys N ∧ ∀ Ls', Gen tree Ls' → rel (total Ls') (total Ls) := by
  obtain ⟨P, sep', k', Ls, h1, h2, h3, h4, h5⟩ := sample_spec o hm (fun L h => (hQ L h).key) refl trans add hc tree ht
    (Finset.Subset.refl N) (Finset.empty_subset _) (MG.pdagEmpty N) sep.erase k (SepSet.erase_keys hk)
  obtain ⟨G', r1, r2⟩ := reorient_isSample o hQ ht h2 h3
  refine ⟨P, G', sep', k', Ls, ?_, r2, h4, h5⟩
  rw [sampleCpdag, hG]
  simp only [if_true]
  rw [py_bind h1]
  refine (py_bind (a := (P, sep', some (total Ls), k')) rfl _).trans ?_
  exact (py_bind r1 _).trans rfl

theorem sampleCpdag_unscored (o : SetOrder α) (hm : 0 < m) (hQ : ∀ L, Q L → LeafOk ci N L) (ht : tree.Ok Q R m N ∅)
    (hp : ∀ k n, 0 < n → rng.pick k n < n) {G : MG α} {sep : SepSet α} (hG : G.nodes = N) (hk : sep.Keys N) (k : Nat) :
    ∃ P G' sep' k' Ls, sampleCpdag o false rng T tree G sep k = .ok (P, G', sep', none, k') ∧ IsSample tree N Ls P G' ∧
      sep'.Keys N := by
  obtain ⟨P, sep', k', Ls, h1, h2, h3, h4⟩ := sampleNoScore_spec o hm (fun L h => (hQ L h).key) hp tree ht
    (MG.pdagEmpty N) sep.erase k (SepSet.erase_keys hk)
  obtain ⟨G', r1, r2⟩ := reorient_isSample o hQ ht h2 h3
  refine ⟨P, G', sep', k', Ls, ?_, r2, h4⟩
  rw [sampleCpdag, hG]
  simp only [Bool.false_eq_true, if_false]
  rw [py_bind h1]
  refine (py_bind (a := (P, sep', (none : Option σ), k')) rfl _).trans ?_
  exact (py_bind r1 _).trans rfl

end one

section any
variable {Q : Leaf α σ → Prop} {R : Finset α → MG α → Finset α → List (Finset α) → Prop} {m : Nat} {N : Finset α} {ci : CITest α}
  [AddMonoid σ] [LinearOrder σ] {rng : Rng σ} {T : ℚ} {tree : Hyp α σ}

theorem sampleCpdag_any (o : SetOrder α) (hm : 0 < m) (hQ : ∀ L, Q L → LeafOk ci N L) (ht : tree.Ok Q R m N ∅)
    (hr : ∀ k l, l ≠ [] → rng.scored k l < l.length) (hp : ∀ k n, 0 < n → rng.pick k n < n) (hT : 0 ≤ T)
    (isScored : Bool) {G : MG α} {sep : SepSet α} (hG : G.nodes = N) (hk : sep.Keys N) (k : Nat) :
    ∃ P G' sep' k' Ls, sampleCpdag o isScored rng T tree G sep k = .ok (P, G', sep', if isScored then some (total Ls) else none, k') ∧
      IsSample tree N Ls P G' ∧ sep'.Keys N := by
  cases isScored with
    | false =>
      obtain ⟨P, G', sep', k', Ls, h⟩ := sampleCpdag_unscored o (T := T) hm hQ ht hp hG hk k
      exact ⟨P, G', sep', k', Ls, h⟩
    | true =>
      obtain ⟨P, G', sep', k', Ls, h1, h2, h3, -⟩ := sampleCpdag_scored o (rng := rng) (T := T) hm hQ ht
        (rel := fun _ _ => True) (fun _ => trivial) (fun _ _ _ _ _ => trivial) (fun _ _ _ _ _ _ => trivial) (by
          intro k l hl
          rcases hT.lt_or_eq with hT | hT
          · exact ⟨rng.scored k l, l[rng.scored k l]'(hr k l hl), by rw [chooser, if_pos hT], by simp [hr k l hl], fun _ _ => trivial⟩
          · obtain ⟨i, s, a1, a2, -⟩ := argmax_spec hl
            exact ⟨i, s, by rw [chooser, if_neg (by rw [← hT]; exact lt_irrefl _), if_pos hT.symm]; exact a1, a2, fun _ _ => trivial⟩)
        hG hk k
      exact ⟨P, G', sep', k', Ls, h1, h2, h3⟩

theorem samples_of_ok (o : SetOrder α) (hm : 0 < m) (hQ : ∀ L, Q L → LeafOk ci N L) (ht : tree.Ok Q R m N ∅)
    (hr : ∀ k l, l ≠ [] → rng.scored k l < l.length) (hp : ∀ k n, 0 < n → rng.pick k n < n) (hT : 0 ≤ T) (isScored : Bool) :
    Samples o isScored rng T tree N := by
  intro G sep k hG hk
  obtain ⟨P, G', sep', k', Ls, h1, h2, h3⟩ := sampleCpdag_any o hm hQ ht hr hp hT isScored hG hk k
  exact ⟨P, G', sep', _, k', h1, h2.skel.1, h2.skel.2, h3⟩

end any

/-! ### without scores -/

theorem foldlM_error_cons {β γ : Type} {f : γ → β → Py γ} {b : β} {l : List β} {c : γ} {e : PyErr} (h : f c b = .error e) :
    (b :: l).foldlM f c = .error e := by
  rw [List.foldlM_cons, h]; rfl

theorem py_bind_error {β γ : Type} {x : Py β} {e : PyErr} (h : x = .error e) (f : β → Py γ) : (x >>= f) = .error e := by
  rw [h]; rfl

theorem learn_unscored [Bot σ] (o : SetOrder α) {ci : CITest α} {N : Finset α} {cfg : Cfg α σ} (hn : 0 < cfg.numHyp)
    (hsc : cfg.isScored = false) :
    ∀ (n : Nat) (en ex : Finset α) (order : Nat) (st : PcState α), N.card + 1 ≤ n + order → en ⊆ N → ex ⊆ N → Disjoint en ex →
      Rai.Inv ci N st → st.sep.nodes = N → 0 < n → learnRecursively o ci cfg n en ex order st = .error .assertionError := by
  intro n
  induction n with
  | zero => intro en ex order st _ _ _ _ _ _ h; omega
  | succ n ih =>
    intro en ex order st hlen hen hex hd hst hsn _
    have hun : en ∪ ex ⊆ N := Finset.union_subset hen hex
    rw [learnRecursively]
    by_cases he : Rai.exitCond st.graph en order = true
    · rw [if_pos he]
      refine py_bind_error ?_ _
      obtain ⟨sep, c1, -, -⟩ := SepSet.copy_spec o st.sep (nodes := en ∪ ex) (fun i hi j hj hij => hst.key i (hun hi) j (hun hj) hij)
      rw [mkLeaf, leafScore, if_neg (by simp [hsc])]
      exact (py_bind (a := Num.int 0) rfl _).trans ((py_bind c1 _).trans rfl)
    · have hlt : order < N.card := by
        by_contra hc
        exact he (Rai.exitCond_of_le hst en (by omega))
      have hne : en.Nonempty := by
        by_contra hne
        rw [Finset.not_nonempty_iff_eq_empty] at hne
        subst hne
        exact he (by simp [Rai.exitCond])
      obtain ⟨sep, c1, c2, c3⟩ := SepSet.copy_spec o st.sep hst.key
      have c1' : st.sep.copy o none none = .ok sep := by
        rw [← c1]; simp only [SepSet.copy, Option.getD_none, Option.getD_some, hsn]
      have hstart : Rai.Inv ci N ⟨st.graph, sep, st.calls⟩ :=
        ⟨hst.nodes, hst.wf, hst.noBi, fun i hi j hj hij => by
          obtain ⟨S, hS⟩ := hst.key i hi j hj hij
          exact ⟨S, (c3 i hi j hj hij).trans hS⟩, fun i hi j hj hij hn => by
          obtain ⟨S, hS, hw⟩ := hst.witness i hi j hj hij hn
          exact ⟨S, (c3 i hi j hj hij).trans hS, hw⟩⟩
      obtain ⟨s1, h1, g1, -⟩ := Rai.refineAndOrient_spec o cfg.overwrite hen hex hd order hstart
      have n1 : s1.sep.nodes = N := (Rai.refineAndOrient_sepNodes h1).trans c2
      obtain ⟨d, l, h2, hdn, -, hl, -⟩ := Rai.split_full o g1.1.wf hne
      rw [if_neg he]
      refine py_bind_error ?_ _
      obtain ⟨m, hm⟩ : ∃ m, cfg.numHyp = m + 1 := ⟨cfg.numHyp - 1, by omega⟩
      rw [hm, List.range_succ_eq_map]
      refine foldlM_error_cons ?_
      rw [py_bind c1', py_bind h1, py_bind h2]
      cases l with
      | nil =>
        refine (py_bind (a := (Hyps.nil, s1)) rfl _).trans ?_
        refine py_bind_error ?_ _
        exact ih d (en \ d ∪ ex) (order + 1) s1 (by omega) (hdn.trans hen)
          (Finset.union_subset (Finset.sdiff_subset.trans hen) hex)
          (Finset.disjoint_union_right.mpr ⟨Finset.disjoint_sdiff, Finset.disjoint_of_subset_left hdn hd⟩) g1.1 n1 (by omega)
      | cons s l =>
        have hs : s ⊆ en := fun x hx => ((hl x).mp ⟨s, List.mem_cons_self, hx⟩).1
        refine py_bind_error ?_ _
        refine foldlM_error_cons ?_
        exact py_bind_error (ih s ex (order + 1) s1 (by omega) (hs.trans hen) hex (Finset.disjoint_of_subset_left hs hd) g1.1 n1
          (by omega)) _

end Brai
end Verif
