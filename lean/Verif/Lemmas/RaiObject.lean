import Verif.Model.RaiObject
import Verif.Lemmas.Rai
import Verif.Lemmas.IcdObject

/-!
# RAI with a test object: simulation, and no exceptions but those of the test
-/

namespace Verif
namespace Rai
open Pc
variable {α σ τ : Type} [LinearOrder α] {N : Finset α} {call : Pc.Call α σ} {call' : Pc.Call α τ} {R : σ → τ → Prop} {s₀ : σ}

/-- The invariant of the learner, with nothing about answers. -/
abbrev Ok (N : Finset α) (st : PcState α) : Prop := Inv Icd.yes N st

theorem condSets_query (o : SetOrder α) {src : MG α} (hsrc : src.PdagWF) (hn : src.nodes = N) {order : Nat} {x y a b : α} (hx : x ∈ N)
    (hy : y ∈ N) (hxy : x ≠ y) (hab : (a = x ∧ b = y) ∨ (a = y ∧ b = x)) : ∀ z ∈ condSets o src order a b, Query N x y z := by
  intro z hz
  have hm := mem_condSets o hsrc hz
  have hnd : z.Nodup := by
    rw [condSets, mem_uniqueElems, List.mem_append, mem_combs, mem_combs] at hz
    rcases hz.1 with h | h <;> exact h.1.nodup (o.nodup _ _)
  rcases hab with ⟨rfl, rfl⟩ | ⟨rfl, rfl⟩
  · exact ⟨hx, hy, hxy, hnd, fun v hv => ⟨hn ▸ hm.2.2.1 v hv, fun e => hm.1 (e ▸ hv), fun e => hm.2.1 (e ▸ hv)⟩⟩
  · exact ⟨hx, hy, hxy, hnd, fun v hv => ⟨hn ▸ hm.2.2.1 v hv, fun e => hm.2.1 (e ▸ hv), fun e => hm.1 (e ▸ hv)⟩⟩

theorem testPairObj_sim (h : Alike N call call' R) (o : SetOrder α) {src : MG α} (hsrc : src.PdagWF) (hn : src.nodes = N) (order : Nat)
    {st : PcState α} (hst : Ok N st) {x y a b : α} (hab : (a = x ∧ b = y) ∨ (a = y ∧ b = x)) (hx : x ∈ N) (hy : y ∈ N) (hxy : x ≠ y)
    {s : σ} {t : τ} (hR : R s t) (hs : Reach N call s₀ s) :
    Sim N call R s₀ (Ok N) (testPairObj o call src order (st, s) x y a b) (testPairObj o call' src order (st, t) x y a b) := by
  unfold testPairObj
  have hq := condSets_query o hsrc hn (order := order) hx hy hxy hab
  obtain ⟨c, p1, -⟩ := MG.isConnected_spec hsrc hxy
  simp only [p1]
  cases c with
  | false => exact Or.inl ⟨st, s, t, rfl, rfl, hst, hR, hs⟩
  | true =>
    rcases firstIndepObj_sim h (condSets o src order a b) st.calls hR hs hq with ⟨r, m, s', t', h1, h2, h3, h4, h5⟩ | ⟨e, s', l, h1, h2, h3⟩
    · cases r with
      | none =>
        refine Or.inl ⟨{ st with calls := m }, s', t', ?_, ?_, ⟨hst.nodes, hst.wf, hst.noBi, hst.key, hst.witness⟩, h3, h4⟩
        · simp only [bind, Except.bind, h1]; rfl
        · simp only [bind, Except.bind, h2]; rfl
      | some z =>
        have hz := hq z (h5 z rfl)
        have hw : Witness Icd.yes N x y z.toFinset := ⟨z, 0, rfl, Or.inl rfl, fun hi => (hz.2.2.2.2 x hi).2.1 rfl,
          fun hj => (hz.2.2.2.2 y hj).2.2 rfl, fun v hv => (hz.2.2.2.2 v hv).1⟩
        refine Or.inl ⟨⟨st.graph.pdagDeleteEdge x y, st.sep.set x y z.toFinset, m⟩, s', t', ?_, ?_,
          ⟨hst.nodes, MG.deleteEdge_wf hst.wf x y, fun c d h h' => hst.noBi c d (MG.deleteEdge_arrow.mp h).1
            (MG.deleteEdge_arrow.mp h').1, fun c hc d hd hcd => ?_, fun c hc d hd hcd hn => ?_⟩, h3, h4⟩
        · simp only [bind, Except.bind, h1]; rfl
        · simp only [bind, Except.bind, h2]; rfl
        · simp only [SepSet.get_set]
          split
          · exact ⟨_, rfl⟩
          · exact hst.key c hc d hd hcd
        · simp only [SepSet.get_set]
          split
          · rename_i h
            refine ⟨_, rfl, ?_⟩
            rcases h with ⟨rfl, rfl⟩ | ⟨rfl, rfl⟩
            · exact hw
            · exact hw.symm
          · rename_i h
            refine hst.witness c hc d hd hcd (fun hu => hn (deleteEdge_padj.mpr ⟨hu, fun h' => h ?_⟩))
            rcases h' with ⟨rfl, rfl⟩ | ⟨rfl, rfl⟩
            · exact Or.inl ⟨rfl, rfl⟩
            · exact Or.inr ⟨rfl, rfl⟩
    · refine Or.inr ⟨e, s', x, y, l, ?_, ?_, h3⟩
      · simp only [bind, Except.bind, h1]; rfl
      · simp only [bind, Except.bind, h2]; rfl

theorem refineExogenousObj_sim (h : Alike N call call' R) (o : SetOrder α) (overwrite : Bool) {en ex : Finset α} (hen : en ⊆ N)
    (hex : ex ⊆ N) (hd : Disjoint en ex) (order : Nat) {st : PcState α} (hst : Ok N st) {s : σ} {t : τ} (hR : R s t)
    (hs : Reach N call s₀ s) :
    Sim N call R s₀ (Ok N) (refineExogenousObj o call overwrite en ex order (st, s))
      (refineExogenousObj o call' overwrite en ex order (st, t)) := by
  refine foldlM_sim (P := Ok N) (o.iter order en) (fun v hv a s t ha hR hs => ?_) st s t hst hR hs
  refine foldlM_sim (P := Ok N) (o.iter (order, v) ex) (fun e he a s t ha hR hs => ?_) a s t ha hR hs
  have hv' := (o.mem _ _ _).mp hv
  have he' := (o.mem _ _ _).mp he
  exact testPairObj_sim h o (by split; exacts [ha.wf, hst.wf]) (by split; exacts [ha.nodes, hst.nodes]) order ha (Or.inr ⟨rfl, rfl⟩)
    (hex he') (hen hv') (fun h => Finset.disjoint_left.mp hd hv' (h ▸ he')) hR hs

theorem refineEndogenousObj_sim (h : Alike N call call' R) (o : SetOrder α) (overwrite : Bool) {en : Finset α} (hen : en ⊆ N) (order : Nat)
    {st : PcState α} (hst : Ok N st) {s : σ} {t : τ} (hR : R s t) (hs : Reach N call s₀ s) :
    Sim N call R s₀ (Ok N) (refineEndogenousObj o call overwrite en order (st, s)) (refineEndogenousObj o call' overwrite en order (st, t)) := by
  refine foldlM_sim (P := Ok N) (pairs (o.iter order en)) (fun ij hij a s t ha hR hs => ?_) st s t hst hR hs
  exact testPairObj_sim h o (by split; exacts [ha.wf, hst.wf]) (by split; exacts [ha.nodes, hst.nodes]) order ha (Or.inl ⟨rfl, rfl⟩)
    (hen ((o.mem _ _ _).mp (mem_pairs_left (b := ij.2) hij))) (hen ((o.mem _ _ _).mp (mem_pairs_right (a := ij.1) hij)))
    (mem_pairs_ne (o.nodup _ _) hij) hR hs

theorem refineAndOrientObj_sim (h : Alike N call call' R) (o : SetOrder α) (overwrite : Bool) {en ex : Finset α} (hen : en ⊆ N)
    (hex : ex ⊆ N) (hd : Disjoint en ex) (order : Nat) {st : PcState α} (hst : Ok N st) {s : σ} {t : τ} (hR : R s t)
    (hs : Reach N call s₀ s) :
    Sim N call R s₀ (Ok N) (refineAndOrientObj o call overwrite en ex order (st, s))
      (refineAndOrientObj o call' overwrite en ex order (st, t)) := by
  unfold refineAndOrientObj
  refine (refineExogenousObj_sim h o overwrite hen hex hd order hst hR hs).bind fun a s t ha hR hs => ?_
  obtain ⟨b, h1, h2, -⟩ := maximallyOrientEdges_spec o en ha
  simp only [py_bind h1]
  refine (refineEndogenousObj_sim h o overwrite hen order h2.1 hR hs).bind fun a s t ha hR hs => ?_
  obtain ⟨b, h1, h2, -⟩ := maximallyOrientEdges_spec o en ha
  simp only [py_bind h1]
  exact Or.inl ⟨b, s, t, rfl, rfl, h2.1, hR, hs⟩

theorem learnRecursivelyObj_sim (h : Alike N call call' R) (o : SetOrder α) (overwrite : Bool) :
    ∀ (n : Nat) (en ex : Finset α) (order : Nat) (st : PcState α) (s : σ) (t : τ), N.card + 1 ≤ n + order → en ⊆ N → ex ⊆ N →
      Disjoint en ex → Ok N st → 0 < n → R s t → Reach N call s₀ s →
      Sim N call R s₀ (Ok N) (learnRecursivelyObj o call overwrite n en ex order (st, s))
        (learnRecursivelyObj o call' overwrite n en ex order (st, t)) := by
  intro n
  induction n with
  | zero => intro en ex order st s t _ _ _ _ _ h; omega
  | succ n ih =>
    intro en ex order st s t hn hen hex hd hst _ hR hs
    rw [learnRecursivelyObj, learnRecursivelyObj]
    by_cases he : exitCond st.graph en order = true
    · rw [if_pos he, if_pos he]
      exact Or.inl ⟨st, s, t, rfl, rfl, hst, hR, hs⟩
    · have hlt : order < N.card := by
        by_contra hc
        exact he (exitCond_of_le hst en (by omega))
      have hne : en.Nonempty := by
        rw [Finset.nonempty_iff_ne_empty]
        rintro rfl
        exact he (by simp [exitCond])
      rw [if_neg he, if_neg he]
      refine (refineAndOrientObj_sim h o overwrite hen hex hd order hst hR hs).bind fun a s t ha hR hs => ?_
      obtain ⟨d, l, h2, hdn, hl⟩ := split_spec o ha.wf hne
      simp only [py_bind h2]
      refine (foldlM_sim (P := Ok N) l (fun x hx b s t hb hR hs => ?_) a s t ha hR hs).bind fun b s t hb hR hs => ?_
      · exact ih x ex (order + 1) b s t (by omega) ((hl x hx).trans (Finset.sdiff_subset.trans hen)) hex
          (Finset.disjoint_of_subset_left ((hl x hx).trans Finset.sdiff_subset) hd) hb (by omega) hR hs
      · exact ih d (en \ d ∪ ex) (order + 1) b s t (by omega) (hdn.trans hen)
          (Finset.union_subset (Finset.sdiff_subset.trans hen) hex)
          (Finset.disjoint_union_right.mpr ⟨Finset.disjoint_sdiff, Finset.disjoint_of_subset_left hdn hd⟩) hb (by omega) hR hs

/-- RAI from the initial state with two test objects that answer alike. -/
theorem learnStructureObj_sim (h : Alike N call call' R) (o : SetOrder α) (overwrite : Bool) {s : σ} {t : τ} (hR : R s t)
    (hs : Reach N call s₀ s) :
    Sim N call R s₀ (fun _ => True) (learnStructureObj o call overwrite (init o N) s) (learnStructureObj o call' overwrite (init o N) t) := by
  unfold learnStructureObj
  refine (learnRecursivelyObj_sim h o overwrite (N.card + 1) N ∅ 0 (init o N) s t (by omega) (Finset.Subset.refl _)
    (Finset.empty_subset _) (Finset.disjoint_empty_right _) (init_inv o Icd.yes N) (by omega) hR hs).bind fun a s t ha hR hs => ?_
  obtain ⟨G2, h2, h3, -⟩ := MG.maximallyOrient_spec o (rules := [1, 2, 3]) (by simp) a.graph.nodes ha.wf
  have hr := MG.steps_refines h3 ha.wf
  have hbi : ∀ a b, G2.Arrow a b → ¬ G2.Arrow b a := by
    intro c d hab hba
    exact ha.noBi c d ((hr.new c d hab).elim id (fun h => absurd hba h.2)) ((hr.new d c hba).elim id (fun h => absurd hab h.2))
  obtain ⟨G3, P, h4, -⟩ := reOrientSkeleton_spec o (MG.steps_wf h3 ha.wf) hbi
  simp only [py_bind h2, py_bind h4]
  exact Or.inl ⟨{ a with graph := G3 }, s, t, rfl, rfl, trivial, hR, hs⟩

/-! ## Tests without exceptions -/

theorem testPairObj_of (o : SetOrder α) (ci : CITest α) (src : MG α) (order : Nat) (st : PcState α) (x y a b : α) :
    testPairObj o (ofCI ci) src order (withCalls st) x y a b = (testPair o ci src order st x y a b).map withCalls := by
  unfold testPairObj testPair
  cases hc : src.isConnected x y with
  | error e => rfl
  | ok c =>
    cases c with
    | false => rfl
    | true =>
      have h := firstIndepObj_of ci x y (condSets o src order a b) st.calls
      rcases hf : firstIndep ci x y (condSets o src order a b) st.calls with ⟨_ | z, k⟩
      · rw [hf] at h
        simp only [withCalls, h]; rfl
      · rw [hf] at h
        simp only [withCalls, h]; rfl

theorem refineExogenousObj_of (o : SetOrder α) (ci : CITest α) (overwrite : Bool) (en ex : Finset α) (order : Nat) (st : PcState α) :
    refineExogenousObj o (ofCI ci) overwrite en ex order (withCalls st) =
      (refineExogenous o ci overwrite en ex order st).map withCalls :=
  foldlM_of (g := fun s v => (o.iter (order, v) ex).foldlM (fun s e =>
      testPair o ci (if overwrite then s.graph else st.graph) order s e v v e) s)
    (fun s v => foldlM_of (g := fun s e => testPair o ci (if overwrite then s.graph else st.graph) order s e v v e)
      (fun s e => testPairObj_of o ci _ order s e v v e) _ s) _ st

theorem refineEndogenousObj_of (o : SetOrder α) (ci : CITest α) (overwrite : Bool) (en : Finset α) (order : Nat) (st : PcState α) :
    refineEndogenousObj o (ofCI ci) overwrite en order (withCalls st) = (refineEndogenous o ci overwrite en order st).map withCalls :=
  foldlM_of (g := fun s (ij : α × α) => testPair o ci (if overwrite then s.graph else st.graph) order s ij.1 ij.2 ij.1 ij.2)
    (fun s (ij : α × α) => testPairObj_of o ci _ order s ij.1 ij.2 ij.1 ij.2) _ st

theorem maximallyOrientEdges_calls (o : SetOrder α) (en : Finset α) {st st' : PcState α} (h : maximallyOrientEdges o en st = .ok st') :
    st'.calls = st.calls := by
  unfold maximallyOrientEdges at h
  cases h1 : orientVStructures o st.sep en st.graph with
  | error e => rw [h1] at h; cases h
  | ok G =>
    rw [py_bind h1] at h
    cases h2 : G.maximallyOrient o [1, 2, 3, 4] G.nodes with
    | error e => rw [h2] at h; cases h
    | ok G' => rw [py_bind h2] at h; cases h; rfl

theorem refineAndOrientObj_of (o : SetOrder α) (ci : CITest α) (overwrite : Bool) (en ex : Finset α) (order : Nat) (st : PcState α) :
    refineAndOrientObj o (ofCI ci) overwrite en ex order (withCalls st) =
      (refineAndOrient o ci overwrite en ex order st).map withCalls := by
  unfold refineAndOrientObj refineAndOrient
  rw [refineExogenousObj_of]
  cases h1 : refineExogenous o ci overwrite en ex order st with
  | error e => rfl
  | ok a =>
    change (maximallyOrientEdges o en a >>= _) = (maximallyOrientEdges o en a >>= _).map _
    cases h2 : maximallyOrientEdges o en a with
    | error e => rfl
    | ok b =>
      change (refineEndogenousObj o (ofCI ci) overwrite en order (b, a.calls) >>= _) = (refineEndogenous o ci overwrite en order b >>= _).map _
      rw [← maximallyOrientEdges_calls o en h2, show (b, b.calls) = withCalls b from rfl, refineEndogenousObj_of]
      cases h3 : refineEndogenous o ci overwrite en order b with
      | error e => rfl
      | ok c =>
        change (maximallyOrientEdges o en c >>= _) = (maximallyOrientEdges o en c).map _
        cases h4 : maximallyOrientEdges o en c with
        | error e => rfl
        | ok d =>
          change Except.ok (d, c.calls) = Except.ok (d, d.calls)
          rw [maximallyOrientEdges_calls o en h4]

theorem learnRecursivelyObj_of (o : SetOrder α) (ci : CITest α) (overwrite : Bool) :
    ∀ (n : Nat) (en ex : Finset α) (order : Nat) (st : PcState α),
      learnRecursivelyObj o (ofCI ci) overwrite n en ex order (withCalls st) =
        (learnRecursively o ci overwrite n en ex order st).map withCalls := by
  intro n
  induction n with
  | zero => intro en ex order st; rfl
  | succ n ih =>
    intro en ex order st
    rw [learnRecursivelyObj, learnRecursively]
    by_cases he : exitCond st.graph en order = true
    · rw [if_pos he, if_pos (show exitCond (withCalls st).1.graph en order = true from he)]
      rfl
    · rw [if_neg he, if_neg (show ¬ exitCond (withCalls st).1.graph en order = true from he), refineAndOrientObj_of]
      cases h1 : refineAndOrient o ci overwrite en ex order st with
      | error e => rfl
      | ok a =>
        change (split o a.graph en >>= _) = (split o a.graph en >>= _).map _
        cases h2 : split o a.graph en with
        | error e => rfl
        | ok r =>
          obtain ⟨d, l, c⟩ := r
          change (l.foldlM (fun (st : PcState α × Nat) s => learnRecursivelyObj o (ofCI ci) overwrite n s ex (order + 1) st) (withCalls a)
            >>= _) = (l.foldlM (fun (st : PcState α) s => learnRecursively o ci overwrite n s ex (order + 1) st) a >>= _).map _
          rw [foldlM_of (g := fun st s => learnRecursively o ci overwrite n s ex (order + 1) st) (fun st s => ih s ex (order + 1) st)]
          cases h3 : l.foldlM (fun (st : PcState α) s => learnRecursively o ci overwrite n s ex (order + 1) st) a with
          | error e => rfl
          | ok b => exact ih d (c ∪ ex) (order + 1) b

/-- The model with a test object extends the model of `Model/Rai.lean`. -/
theorem learnStructureObj_of (o : SetOrder α) (ci : CITest α) (overwrite : Bool) (st : PcState α) :
    learnStructureObj o (ofCI ci) overwrite st st.calls = (learnStructure o ci overwrite st).map withCalls := by
  unfold learnStructureObj learnStructure
  rw [show (st, st.calls) = withCalls st from rfl, learnRecursivelyObj_of]
  cases h1 : learnRecursively o ci overwrite (st.graph.nodes.card + 1) st.graph.nodes ∅ 0 st with
  | error e => rfl
  | ok a =>
    change (a.graph.maximallyOrient o [1, 2, 3] a.graph.nodes >>= _) = (a.graph.maximallyOrient o [1, 2, 3] a.graph.nodes >>= _).map _
    cases h2 : a.graph.maximallyOrient o [1, 2, 3] a.graph.nodes with
    | error e => rfl
    | ok G =>
      change (reOrientSkeleton o G >>= _) = (reOrientSkeleton o G >>= _).map _
      cases h3 : reOrientSkeleton o G <;> rfl

end Rai
end Verif
