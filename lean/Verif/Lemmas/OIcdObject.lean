import Verif.Model.OIcdObject
import Verif.Lemmas.OIcdRun
import Verif.Lemmas.IcdObject

/-!
# Ordered ICD with a test object: simulation, and no exceptions but those of the test
-/

namespace Verif
namespace OIcd
open MG Pc PdsTree
variable {α σ τ : Type} [LinearOrder α] {N : Finset α} {call : Pc.Call α σ} {call' : Pc.Call α τ} {R : σ → τ → Prop} {s₀ : σ}
  {order : List α} {opts : OIcdOpts α}

/-- What the learner keeps: a well-formed PAG, and for each pair a recorded set of other nodes. -/
structure Ok (N : Finset α) (st : OIcdState α) : Prop where
  inv : Fci.SkInv Icd.yes N st.graph st.sep
  entry : ∀ i ∈ N, ∀ j ∈ N, i ≠ j → ∃ S, st.sep.get i j = .ok S ∧ Witness Icd.yes N i j S

theorem Ok.mk' {st : OIcdState α} (h1 : st.graph.Proper) (h2 : st.graph.nodes = N) (h3 : st.graph.types = pagTypes)
    (h4 : ∀ i ∈ N, ∀ j ∈ N, i ≠ j → ∃ S, st.sep.get i j = .ok S ∧ Witness Icd.yes N i j S) : Ok N st :=
  ⟨⟨h1, h2, h3, fun i hi j hj hij => (h4 i hi j hj hij).imp fun _ h => h.1, fun i hi j hj hij _ => h4 i hi j hj hij⟩, h4⟩

theorem Ok.same {st : OIcdState α} (h : Ok N st) {G : MG α} (hs : SameSkel G st.graph) : Ok N { st with graph := G } :=
  ⟨h.inv.same hs, h.entry⟩

theorem Ok.cut {st : OIcdState α} (h : Ok N st) (i j : α) {k : Nat} {d : Finset (α × α)} :
    Ok N ⟨st.graph.deleteEdge i j, st.sep, k, d⟩ := by
  obtain ⟨d1, d2, -⟩ := deleteEdge_spec h.inv.proper.type (i := i) (j := j)
  exact .mk' (h.inv.proper.deleteEdge i j) (d1.trans h.inv.nodes) (d2.trans h.inv.types) h.entry

theorem Ok.delete {st : OIcdState α} (h : Ok N st) {i j : α} {S : Finset α} (hw : Witness Icd.yes N i j S) {k : Nat} {d : Finset (α × α)} :
    Ok N ⟨st.graph.deleteEdge i j, st.sep.set i j S, k, d⟩ := by
  refine ⟨h.inv.delete hw, fun a ha b hb hab => ?_⟩
  rw [SepSet.get_set]
  split
  · next he =>
    refine ⟨S, rfl, ?_⟩
    rcases he with ⟨rfl, rfl⟩ | ⟨rfl, rfl⟩
    · exact hw
    · exact hw.symm
  · exact h.entry a ha b hb hab

theorem init_ok (o : SetOrder α) (N : Finset α) : Ok N (first o N) := by
  refine ⟨Icd.init_inv o Icd.yes N, fun i hi j hj hij => ⟨∅, ?_, [], 0, rfl, Or.inl rfl, by simp, by simp, by simp⟩⟩
  rw [first, SepSet.get_init, if_pos ⟨hi, hj, hij⟩]

theorem witness_of_query {i j : α} {z : List α} (h : Query N i j z) : Witness Icd.yes N i j z.toFinset :=
  ⟨z, 0, rfl, Or.inl rfl, fun hi => (h.2.2.2.2 i hi).2.1 rfl, fun hj => (h.2.2.2.2 j hj).2.2 rfl, fun v hv => (h.2.2.2.2 v hv).1⟩

theorem testPairObj_sim (h : Alike N call call' R) {st : OIcdState α} (hst : Ok N st) {i j : α} {zs : List (List α)}
    (hq : ∀ z ∈ zs, Query N i j z) {s : σ} {t : τ} (hR : R s t) (hs : Reach N call s₀ s) :
    Sim N call R s₀ (fun a => Ok N a.1) (testPairObj call st s i j zs) (testPairObj call' st t i j zs) := by
  unfold testPairObj
  rcases firstIndepObj_sim h zs st.calls hR hs hq with ⟨a, m, s', t', h1, h2, h3, h4, h5⟩ | ⟨e, s', l, h1, h2, h3⟩
  · cases a with
    | none =>
      refine Or.inl ⟨({ st with calls := m }, false), s', t', ?_, ?_, ⟨hst.inv, hst.entry⟩, h3, h4⟩
      · simp only [h1]; rfl
      · simp only [h2]; rfl
    | some z =>
      refine Or.inl ⟨(⟨st.graph.deleteEdge i j, st.sep.set i j z.toFinset, m, insert (j, i) st.done⟩, true), s', t', ?_, ?_,
        hst.delete (witness_of_query (hq z (h5 z rfl))), h3, h4⟩
      · simp only [h1]; rfl
      · simp only [h2]; rfl
  · refine Or.inr ⟨e, s', i, j, l, ?_, ?_, h3⟩
    · simp only [h1]; rfl
    · simp only [h2]; rfl

theorem pair0Obj_sim (h : Alike N call call' R) {st : OIcdState α} (hst : Ok N st) {i j : α} (hi : i ∈ N) (hj : j ∈ N) (hij : i ≠ j)
    {s : σ} {t : τ} (hR : R s t) (hs : Reach N call s₀ s) :
    Sim N call R s₀ (Ok N) (pair0Obj call j (st, s) i) (pair0Obj call' j (st, t) i) := by
  unfold pair0Obj
  by_cases hd : (j, i) ∈ st.done
  · simp only [if_pos hd]
    exact Or.inl ⟨st, s, t, rfl, rfl, hst, hR, hs⟩
  · simp only [if_neg hd]
    have hq : ∀ z ∈ [([] : List α)], Query N i j z := by
      intro z hz
      rw [List.mem_singleton] at hz
      subst hz
      exact ⟨hi, hj, hij, List.nodup_nil, by simp⟩
    rcases firstIndepObj_sim h [[]] st.calls hR hs hq with ⟨a, m, s', t', h1, h2, h3, h4, h5⟩ | ⟨e, s', l, h1, h2, h3⟩
    · cases a with
      | none =>
        refine Or.inl ⟨{ st with calls := m }, s', t', ?_, ?_, ⟨hst.inv, hst.entry⟩, h3, h4⟩
        · simp only [h1]; rfl
        · simp only [h2]; rfl
      | some z =>
        refine Or.inl ⟨⟨st.graph.deleteEdge i j, st.sep, m, insert (j, i) st.done⟩, s', t', ?_, ?_, hst.cut i j, h3, h4⟩
        · simp only [h1]; rfl
        · simp only [h2]; rfl
    · refine Or.inr ⟨e, s', i, j, l, ?_, ?_, h3⟩
      · simp only [h1]; rfl
      · simp only [h2]; rfl

omit [LinearOrder α] in
theorem before_mem (ho : IsOrder order N) {a b : α} (h : Before order a b) : a ∈ N ∧ b ∈ N ∧ a ≠ b :=
  ⟨(ho.mem a).mp h.mem_left, (ho.mem b).mp h.mem_right, h.ne ho.nodup⟩

theorem phase0Obj_sim (h : Alike N call call' R) (ho : IsOrder order N) {i : Nat} {b : α} (hi : order[i]? = some b) {st : OIcdState α}
    (hst : Ok N st) {s : σ} {t : τ} (hR : R s t) (hs : Reach N call s₀ s) :
    Sim N call R s₀ (Ok N) (phase0Obj call order i (st, s)) (phase0Obj call' order i (st, t)) := by
  unfold phase0Obj
  simp only [py_bind (nth_ok hi)]
  refine foldlM_sim (P := Ok N) _ (fun a ha c s t hc hR hs => ?_) st s t hst hR hs
  obtain ⟨h1, h2, h3⟩ := before_mem ho ((mem_take ho.nodup hi).mp ha)
  exact pair0Obj_sim h hc h1 h2 h3 hR hs

theorem phase1Obj_sim (h : Alike N call call' R) (o : SetOrder α) (ho : IsOrder order N) {i : Nat} {b : α} (hi : order[i]? = some b)
    {st : OIcdState α} (hst : Ok N st) {s : σ} {t : τ} (hR : R s t) (hs : Reach N call s₀ s) :
    Sim N call R s₀ (Ok N) (phase1Obj o call order i (st, s)) (phase1Obj o call' order i (st, t)) := by
  unfold phase1Obj
  simp only [py_bind (nth_ok hi)]
  refine foldlM_sim (P := Ok N) _ (fun a ha c s t hc hR hs => ?_) st s t hst hR hs
  rw [o.mem, List.mem_toFinset, mem_take ho.nodup hi] at ha
  obtain ⟨h1, h2, h3⟩ := before_mem ho ha
  unfold pair1Obj
  obtain ⟨q, p1, -⟩ := proper_isConnected hc.inv.proper.type h3
  simp only [p1]
  cases q with
  | false => exact Or.inl ⟨c, s, t, rfl, rfl, hc, hR, hs⟩
  | true =>
    change Sim N call R s₀ (Ok N) (if (b, a) ∈ c.done then pure (c, s) else _) (if (b, a) ∈ c.done then pure (c, t) else _)
    by_cases hd : (b, a) ∈ c.done
    · rw [if_pos hd, if_pos hd]
      exact Or.inl ⟨c, s, t, rfl, rfl, hc, hR, hs⟩
    · rw [if_neg hd, if_neg hd]
      refine Sim.bind (testPairObj_sim h hc (fun z hz => ?_) hR hs) fun d s t hd hR hs => Or.inl ⟨d.1, s, t, rfl, rfl, hd, hR, hs⟩
      obtain ⟨v, hv, rfl⟩ := List.mem_map.mp hz
      rw [o.mem, mem_findAdjacent_none, Finset.mem_erase, List.mem_toFinset, mem_take ho.nodup hi] at hv
      refine ⟨h1, h2, h3, by simp, fun w hw => ?_⟩
      rw [List.mem_singleton] at hw
      subst hw
      obtain ⟨g1, -, g3⟩ := before_mem ho hv.2.2
      exact ⟨g1, hv.2.1, g3⟩

theorem pairRObj_sim (h : Alike N call call' R) (o : SetOrder α) (ho : IsOrder order N) {i j : Nat} {a b : α} (hi : order[i]? = some b)
    (hj : order[j]? = some a) (hab : Before order a b) {conds : List (Finset α × WithTop Nat)}
    (hc : ∀ c ∈ conds, ∀ v ∈ c.1, Before order v b) {x : OIcdState α × Bool} (hx : Ok N x.1) {s : σ} {t : τ} (hR : R s t)
    (hs : Reach N call s₀ s) :
    Sim N call R s₀ (fun a => Ok N a.1) (pairRObj o call order i b conds (x, s) j) (pairRObj o call' order i b conds (x, t) j) := by
  unfold pairRObj
  obtain ⟨h1, h2, h3⟩ := before_mem ho hab
  simp only [py_bind (nth_ok hj)]
  by_cases hd : (b, a) ∈ x.1.done
  · simp only [if_pos hd]
    exact Or.inl ⟨x, s, t, rfl, rfl, hx, hR, hs⟩
  · simp only [if_neg hd]
    obtain ⟨q, p1, -⟩ := proper_isConnected hx.inv.proper.type h3
    simp only [py_bind p1]
    have hx' : Ok N { x.1 with done := insert (b, a) x.1.done } := ⟨hx.inv, hx.entry⟩
    cases q with
    | false => exact Or.inl ⟨({ x.1 with done := insert (b, a) x.1.done }, x.2), s, t, rfl, rfl, hx', hR, hs⟩
    | true =>
      obtain ⟨L, l1, l2⟩ := Verif.filterPy_spec (p := fun c : Finset α × WithTop Nat =>
          if a ∈ c.1 then return false else isPossibleAncestorSet o x.1.graph c.1 order j i)
        (P := fun c => a ∉ c.1 ∧ ∀ v ∈ c.1, (∃ l, PathVia x.1.graph.PossPar (order.toFinset.filter
          (fun x => ¬ Before order a x)) v a l) ∨
            ∃ l, PathVia x.1.graph.PossPar (order.toFinset.filter (fun x => ¬ Before order b x)) v b l) conds (by
          intro c _
          by_cases hc : a ∈ c.1
          · exact ⟨false, by rw [if_pos hc]; rfl, by simp [hc]⟩
          · obtain ⟨q, q1, q2⟩ := possAncSet_spec o hx.inv.proper ho.nodup c.1 hj hi
            exact ⟨q, by rw [if_neg hc]; exact q1, by rw [q2]; exact ⟨fun h => ⟨hc, h⟩, fun h => h.2⟩⟩)
      simp only [Bool.not_true, Bool.false_eq_true, if_false, py_bind l1]
      by_cases hemp : (L.map (fun c => o.iter (a, b) c.1)).isEmpty = true
      · simp only [if_pos hemp]
        exact Or.inl ⟨({ x.1 with done := insert (b, a) x.1.done }, x.2), s, t, rfl, rfl, hx', hR, hs⟩
      · simp only [if_neg hemp]
        refine Sim.bind (testPairObj_sim h hx' (fun z hz => ?_) hR hs) fun d s t hd hR hs => ?_
        · obtain ⟨c, hcL, rfl⟩ := List.mem_map.mp hz
          obtain ⟨c1, c2, -⟩ := (l2 c).mp hcL
          refine ⟨h1, h2, h3, o.nodup _ _, fun v hv => ?_⟩
          rw [o.mem] at hv
          obtain ⟨g1, -, g3⟩ := before_mem ho (hc c c1 v hv)
          exact ⟨g1, fun e => c2 (e ▸ hv), g3⟩
        · cases hf : d.2 with
          | true => exact Or.inl ⟨(d.1, x.2 && (d.1.calls == x.1.calls + 1)), s, t, by simp; rfl, by simp; rfl, hd, hR, hs⟩
          | false =>
            exact Or.inl ⟨({ d.1 with done := x.1.done }, false), s, t, by simp; rfl, by simp; rfl, ⟨hd.inv, hd.entry⟩, hR, hs⟩

theorem phaseRObj_sim (h : Alike N call call' R) (o : SetOrder α) (ho : IsOrder order N) (r : Nat) {i : Nat} {b : α}
    (hi : order[i]? = some b) {st : OIcdState α} (hst : Ok N st) {s : σ} {t : τ} (hR : R s t) (hs : Reach N call s₀ s) :
    Sim N call R s₀ (fun a => Ok N a.1) (phaseRObj o call order r i (st, s)) (phaseRObj o call' order r i (st, t)) := by
  unfold phaseRObj
  simp only [py_bind (nth_ok hi)]
  by_cases hall : (order.take i).all (fun anc => (b, anc) ∈ st.done) = true
  · simp only [if_pos hall]
    exact Or.inl ⟨(st, true), s, t, rfl, rfl, hst, hR, hs⟩
  · simp only [if_neg hall]
    obtain ⟨T, S, a1, a2, a3, a4, a5, a6, a7, -⟩ := C48_tree o hst.inv.proper (root := b)
      (en := some (order.take (i + 1)).toFinset) (some r) (by
        rintro S e
        cases e
        intro v hv
        rw [List.mem_toFinset] at hv
        rw [hst.inv.nodes]
        exact (ho.mem v).mp (List.take_subset _ _ hv)) (by
        simp only [Option.getD_some, List.mem_toFinset]
        exact (mem_take_succ ho.nodup hi).mpr (Or.inl rfl))
    simp only [Option.getD_some] at a6
    simp only [py_bind a1]
    have hsub : ∀ c ∈ (T.subsetsList o S r).insertionSort (fun c d => c.2 ≤ d.2), ∀ v ∈ c.1, Before order v b := by
      rintro ⟨U, d⟩ hc
      rw [List.mem_insertionSort] at hc
      obtain ⟨c1, c2, c3, -⟩ := ((C47_subsets o T S r).2 U d).mp hc
      intro v hv
      obtain ⟨l, hl, -⟩ := c3 v hv
      have hw := (a6 _ hl).1
      have hv' := hw.mem v (by simp)
      rw [List.mem_toFinset, mem_take_succ ho.nodup hi] at hv'
      rcases hv' with rfl | hv'
      · exact absurd (by simp) hw.avoid
      · exact hv'
    refine foldlM_sim (P := fun a : OIcdState α × Bool => Ok N a.1) (List.range i) (fun j hj x s t hx hR hs => ?_) (st, true) s t hst hR hs
    rw [List.mem_range] at hj
    obtain ⟨hil, -⟩ := List.getElem?_eq_some_iff.mp hi
    have ha : order[j]? = some order[j] := List.getElem?_eq_getElem (by omega)
    have hab : Before order order[j] b := by
      refine (mem_take ho.nodup hi).mp ?_
      rw [List.mem_take_iff_getElem]
      exact ⟨j, by omega, rfl⟩
    exact pairRObj_sim h o ho hi ha hab hsub hx hR hs

theorem orientObj_sim (o : SetOrder α) (ho : IsOrder opts.order N) (anytime : Bool) {st : OIcdState α} (hst : Ok N st) {s : σ} {t : τ}
    (hR : R s t) (hs : Reach N call s₀ s) : Sim N call R s₀ (Ok N) (orientObj o opts anytime (st, s)) (orientObj o opts anytime (st, t)) := by
  obtain ⟨G, g1, g2, -⟩ := orient_spec o (opts := opts) ho.nodup (fun v hv => (ho.mem v).mpr hv) anytime hst.inv
  refine Or.inl ⟨{ st with graph := G }, s, t, ?_, ?_, hst.same g2, hR, hs⟩
  · rw [orientObj, py_bind g1]; rfl
  · rw [orientObj, py_bind g1]; rfl

theorem nodeSizesObj_sim (h : Alike N call call' R) (o : SetOrder α) (ho : IsOrder opts.order N) {i : Nat} {b : α}
    (hi : opts.order[i]? = some b) : ∀ (k r : Nat) (st : OIcdState α) (s : σ) (t : τ), Ok N st → R s t → Reach N call s₀ s →
    Sim N call R s₀ (Ok N) (nodeSizesObj o call opts i k r (st, s)) (nodeSizesObj o call' opts i k r (st, t)) := by
  intro k
  induction k with
  | zero => exact fun r st s t hst hR hs => Or.inl ⟨st, s, t, rfl, rfl, hst, hR, hs⟩
  | succ k ih =>
    intro r st s t hst hR hs
    rw [nodeSizesObj, nodeSizesObj, py_bind (nth_ok hi), py_bind (nth_ok hi)]
    by_cases hall : (opts.order.take i).all (fun anc => (b, anc) ∈ st.done) = true
    · simp only [if_pos hall]
      exact Or.inl ⟨st, s, t, rfl, rfl, hst, hR, hs⟩
    · simp only [if_neg hall]
      refine (phaseRObj_sim h o ho r hi hst hR hs).bind fun a s t ha hR hs => ?_
      exact (orientObj_sim o ho true ha hR hs).bind fun a s t ha hR hs => ih (r + 1) a s t ha hR hs

theorem nodeConnectionObj_sim (h : Alike N call call' R) (o : SetOrder α) (ho : IsOrder opts.order N) {i : Nat} (hi0 : i ≠ 0) {b : α}
    (hi : opts.order[i]? = some b) {st : OIcdState α} {s : σ} {t : τ} (hst : Ok N st) (hR : R s t) (hs : Reach N call s₀ s) :
    Sim N call R s₀ (Ok N) (nodeConnectionObj o call opts (st, s) i) (nodeConnectionObj o call' opts (st, t) i) := by
  have hun : ∀ {υ : Type} (call : Pc.Call α υ) (st : OIcdState α × υ), nodeConnectionObj o call opts st i = (do
      let st ← phase0Obj call opts.order i st
      let st ← orientObj o opts true st
      if maxSize opts i = 0 then return st
      let st ← phase1Obj o call opts.order i st
      let st ← orientObj o opts true st
      if maxSize opts i = 1 then return st
      nodeSizesObj o call opts i (maxSize opts i - 1) 2 st) := by
    intro υ call st
    rw [nodeConnectionObj, if_neg hi0]
    rfl
  rw [hun, hun]
  refine (phase0Obj_sim h ho hi hst hR hs).bind fun a s t ha hR hs => ?_
  refine (orientObj_sim o ho true ha hR hs).bind fun a s t ha hR hs => ?_
  by_cases h0 : maxSize opts i = 0
  · simp only [if_pos h0]
    exact Or.inl ⟨a, s, t, rfl, rfl, ha, hR, hs⟩
  · simp only [if_neg h0]
    refine (phase1Obj_sim h o ho hi ha hR hs).bind fun a s t ha hR hs => ?_
    refine (orientObj_sim o ho true ha hR hs).bind fun a s t ha hR hs => ?_
    by_cases h1 : maxSize opts i = 1
    · simp only [if_pos h1]
      exact Or.inl ⟨a, s, t, rfl, rfl, ha, hR, hs⟩
    · simp only [if_neg h1]
      exact nodeSizesObj_sim h o ho hi _ _ a s t ha hR hs

theorem card_order (ho : IsOrder opts.order N) {st : OIcdState α} (hst : Ok N st) : st.graph.nodes.card = opts.order.length := by
  rw [hst.inv.nodes, ← List.toFinset_card_of_nodup ho.nodup]
  congr 1
  ext v
  rw [List.mem_toFinset, ho.mem]

theorem order_get (ho : IsOrder opts.order N) {st : OIcdState α} (hst : Ok N st) {k i : Nat} (h : i ∈ pyRange k st.graph.nodes.card) :
    k ≤ i ∧ ∃ b, opts.order[i]? = some b := by
  rw [mem_pyRange, card_order ho hst] at h
  exact ⟨h.1, opts.order[i], List.getElem?_eq_getElem h.2⟩

theorem learnLocalObj_sim (h : Alike N call call' R) (o : SetOrder α) (ho : IsOrder opts.order N) {st : OIcdState α} {s : σ} {t : τ}
    (hst : Ok N st) (hR : R s t) (hs : Reach N call s₀ s) :
    Sim N call R s₀ (Ok N) (learnLocalObj o call opts (st, s)) (learnLocalObj o call' opts (st, t)) := by
  unfold learnLocalObj
  refine (foldlM_sim (P := Ok N) _ (fun i hi a s t ha hR hs => ?_) st s t hst hR hs).bind fun a s t ha hR hs =>
    orientObj_sim o ho false ha hR hs
  obtain ⟨h1, b, hb⟩ := order_get ho hst hi
  exact nodeConnectionObj_sim h o ho (by omega) hb ha hR hs

theorem globalSizesObj_sim (h : Alike N call call' R) (o : SetOrder α) (ho : IsOrder opts.order N) :
    ∀ (k r : Nat) (done : Bool) (st : OIcdState α) (s : σ) (t : τ), Ok N st → R s t → Reach N call s₀ s →
    Sim N call R s₀ (Ok N) (globalSizesObj o call opts k r done (st, s)) (globalSizesObj o call' opts k r done (st, t)) := by
  intro k
  induction k with
  | zero => exact fun r done st s t hst hR hs => Or.inl ⟨st, s, t, rfl, rfl, hst, hR, hs⟩
  | succ k ih =>
    intro r done st s t hst hR hs
    rw [globalSizesObj, globalSizesObj]
    refine (foldlM_sim (P := fun a : OIcdState α × Bool => Ok N a.1) _ (fun i hi a s t ha hR hs => ?_) (st, done) s t hst hR hs).bind
      fun a s t ha hR hs => ?_
    · obtain ⟨-, b, hb⟩ := order_get ho hst hi
      exact (phaseRObj_sim h o ho r hb ha hR hs).bind fun c s t hc hR hs => Or.inl ⟨(c.1, a.2 && c.2), s, t, rfl, rfl, hc, hR, hs⟩
    · cases hd : a.2 with
      | true => exact Or.inl ⟨a.1, s, t, by simp; rfl, by simp; rfl, ha, hR, hs⟩
      | false =>
        simp only [Bool.false_eq_true, if_false]
        exact (orientObj_sim o ho true ha hR hs).bind fun a s t ha hR hs => ih (r + 1) false a s t ha hR hs

theorem learnGlobalObj_sim (h : Alike N call call' R) (o : SetOrder α) (ho : IsOrder opts.order N) {st : OIcdState α} {s : σ} {t : τ}
    (hst : Ok N st) (hR : R s t) (hs : Reach N call s₀ s) :
    Sim N call R s₀ (Ok N) (learnGlobalObj o call opts (st, s)) (learnGlobalObj o call' opts (st, t)) := by
  unfold learnGlobalObj
  refine (foldlM_sim (P := Ok N) _ (fun i hi a s t ha hR hs => ?_) st s t hst hR hs).bind fun a s t ha hR hs => ?_
  · obtain ⟨-, b, hb⟩ := order_get ho hst hi
    exact phase0Obj_sim h ho hb ha hR hs
  refine (orientObj_sim o ho true ha hR hs).bind fun a s t ha hR hs => ?_
  refine (foldlM_sim (P := Ok N) _ (fun i hi a s t ha hR hs => ?_) a s t ha hR hs).bind fun a s t ha hR hs => ?_
  · obtain ⟨-, b, hb⟩ := order_get ho hst hi
    exact phase1Obj_sim h o ho hb ha hR hs
  refine (orientObj_sim o ho true ha hR hs).bind fun a s t ha hR hs => ?_
  exact (globalSizesObj_sim h o ho _ _ _ a s t ha hR hs).bind fun a s t ha hR hs => orientObj_sim o ho false ha hR hs

/-- Ordered ICD with two test objects that answer alike. -/
theorem learnStructureObj_sim (h : Alike N call call' R) (o : SetOrder α) (ho : IsOrder opts.order N) (isLocal : Bool) {st : OIcdState α}
    (hst : Ok N st) {s : σ} {t : τ} (hR : R s t) (hs : Reach N call s₀ s) :
    Sim N call R s₀ (Ok N) (learnStructureObj o call opts isLocal st s) (learnStructureObj o call' opts isLocal st t) := by
  cases isLocal with
  | true => exact learnLocalObj_sim h o ho hst hR hs
  | false => exact learnGlobalObj_sim h o ho hst hR hs

/-! ## The model with a test object extends the model with a function of the call number -/

section
/-- The state of the learner with the state of a test that counts its calls. -/
def wc (st : OIcdState α) : OIcdState α × Nat := (st, st.calls)

/-- The same with a flag. -/
def wc2 (a : OIcdState α × Bool) : (OIcdState α × Bool) × Nat := (a, a.1.calls)

theorem testPairObj_of (ci : CITest α) (st : OIcdState α) (i j : α) (zs : List (List α)) :
    testPairObj (ofCI ci) st st.calls i j zs = .ok (wc2 (testPair ci st i j zs)) := by
  unfold testPairObj testPair
  have h := firstIndepObj_of ci i j zs st.calls
  rcases hf : firstIndep ci i j zs st.calls with ⟨_ | z, k⟩
  · rw [hf] at h
    simp only [h]; rfl
  · rw [hf] at h
    simp only [h]; rfl

theorem pair0Obj_of (ci : CITest α) (b : α) (st : OIcdState α) (a : α) : pair0Obj (ofCI ci) b (wc st) a = .ok (wc
    (if (b, a) ∈ st.done then st
    else if ci st.calls a b [] then
      { st with graph := st.graph.deleteEdge a b, calls := st.calls + 1, done := insert (b, a) st.done }
    else { st with calls := st.calls + 1 })) := by
  change (if (b, a) ∈ st.done then _ else _) = _
  by_cases hd : (b, a) ∈ st.done
  · rw [if_pos hd, if_pos hd]; rfl
  · rw [if_neg hd, if_neg hd]
    change (firstIndepObj (ofCI ci) a b [[]] st.calls st.calls >>= _) = _
    rw [firstIndepObj_of, firstIndep]
    cases hc : ci st.calls a b [] <;> rfl

theorem phase0Obj_of (ci : CITest α) (order : List α) (i : Nat) (st : OIcdState α) :
    phase0Obj (ofCI ci) order i (wc st) = (phase0 ci order i st).map wc := by
  unfold phase0Obj phase0
  cases hb : nth order i with
  | error e => rfl
  | ok b =>
    change (order.take i).foldlM (pair0Obj (ofCI ci) b) (wc st) = .ok (wc _)
    generalize order.take i = l
    induction l generalizing st with
    | nil => rfl
    | cons a l ih =>
      rw [List.foldlM_cons, List.foldl_cons, pair0Obj_of]
      exact ih _

theorem phase1Obj_of (o : SetOrder α) (ci : CITest α) (order : List α) (i : Nat) (st : OIcdState α) :
    phase1Obj o (ofCI ci) order i (wc st) = (phase1 o ci order i st).map wc := by
  unfold phase1Obj phase1
  cases hb : nth order i with
  | error e => rfl
  | ok b =>
    refine foldlM_map (w := wc) (fun a x => ?_) _ st
    unfold pair1Obj
    change (a.graph.isConnected x b >>= _) = (a.graph.isConnected x b >>= _).map _
    cases hc : a.graph.isConnected x b with
    | error e => rfl
    | ok c =>
      cases c with
      | false => rfl
      | true =>
        change (if (b, x) ∈ a.done then _ else _) = Except.map wc (if (b, x) ∈ a.done then _ else _)
        by_cases hd : (b, x) ∈ a.done
        · rw [if_pos hd, if_pos hd]; rfl
        · rw [if_neg hd, if_neg hd]
          change (testPairObj (ofCI ci) a a.calls x b _ >>= _) = _
          rw [testPairObj_of]
          rfl

theorem testPair_calls (ci : CITest α) (st : OIcdState α) (i j : α) (zs : List (List α)) :
    (testPair ci st i j zs).1.calls = (firstIndep ci i j zs st.calls).2 := by
  unfold testPair
  rcases firstIndep ci i j zs st.calls with ⟨_ | z, k⟩ <;> rfl

omit [LinearOrder α] in
theorem pairR_tail (a x : OIcdState α × Bool) (n : Nat) (h : x.1.calls = n) :
    ((.ok (wc2 x) : Py _) >>= fun r => if r.1.2 then return ((r.1.1, a.2 && (r.1.1.calls == a.1.calls + 1)), r.2)
      else return (({ r.1.1 with done := a.1.done }, false), r.2)) =
    Except.map wc2 (if x.2 then return (x.1, a.2 && (n == a.1.calls + 1)) else return ({ x.1 with done := a.1.done }, false)) := by
  subst h
  rcases x with ⟨x, _ | _⟩ <;> rfl

theorem phaseRObj_of (o : SetOrder α) (ci : CITest α) (order : List α) (r i : Nat) (st : OIcdState α) :
    phaseRObj o (ofCI ci) order r i (wc st) = (phaseR o ci order r i st).map wc2 := by
  unfold phaseRObj phaseR
  cases hb : nth order i with
  | error e => rfl
  | ok b =>
    change (if _ then _ else _) = Except.map wc2 (if _ then _ else _)
    by_cases hall : (order.take i).all (fun anc => (b, anc) ∈ st.done) = true
    · rw [if_pos hall, if_pos (show (order.take i).all (fun anc => (b, anc) ∈ (wc st).1.done) = true from hall)]; rfl
    · rw [if_neg hall, if_neg (show ¬ (order.take i).all (fun anc => (b, anc) ∈ (wc st).1.done) = true from hall)]
      change (st.graph.createPdsTree o b (some (order.take (i + 1)).toFinset) (some r) >>= _) =
        (st.graph.createPdsTree o b (some (order.take (i + 1)).toFinset) (some r) >>= _).map _
      cases ht : st.graph.createPdsTree o b (some (order.take (i + 1)).toFinset) (some r) with
      | error e => rfl
      | ok tS =>
        refine foldlM_map (w := wc2) (fun a k => ?_) _ (st, true)
        unfold pairRObj
        cases hk : nth order k with
        | error e => rfl
        | ok c =>
          change (if (b, c) ∈ a.1.done then _ else _) = Except.map wc2 (if (b, c) ∈ a.1.done then _ else _)
          by_cases hd : (b, c) ∈ a.1.done
          · rw [if_pos hd, if_pos hd]; rfl
          · rw [if_neg hd, if_neg hd]
            change (a.1.graph.isConnected c b >>= _) = (a.1.graph.isConnected c b >>= _).map _
            cases hc : a.1.graph.isConnected c b with
            | error e => rfl
            | ok q =>
              cases q with
              | false => rfl
              | true =>
                change (filterPy (fun d : Finset α × WithTop Nat => if c ∈ d.1 then return false
                    else isPossibleAncestorSet o a.1.graph d.1 order k i)
                    ((tS.1.subsetsList o tS.2 r).insertionSort (fun c d => c.2 ≤ d.2)) >>= _) =
                  (filterPy (fun d : Finset α × WithTop Nat => if c ∈ d.1 then return false
                    else isPossibleAncestorSet o a.1.graph d.1 order k i)
                    ((tS.1.subsetsList o tS.2 r).insertionSort (fun c d => c.2 ≤ d.2)) >>= _).map _
                cases hL : filterPy (fun d : Finset α × WithTop Nat => if c ∈ d.1 then return false
                    else isPossibleAncestorSet o a.1.graph d.1 order k i)
                    ((tS.1.subsetsList o tS.2 r).insertionSort (fun c d => c.2 ≤ d.2)) with
                | error e => rfl
                | ok L =>
                  change (if (L.map fun d => o.iter (c, b) d.1).isEmpty = true then _ else _) =
                    Except.map wc2 (if (L.map fun d => o.iter (c, b) d.1).isEmpty = true then _ else _)
                  by_cases he : (L.map fun d => o.iter (c, b) d.1).isEmpty = true
                  · rw [if_pos he, if_pos he]; rfl
                  · rw [if_neg he, if_neg he]
                    have h1 := testPairObj_of ci { a.1 with done := insert (b, c) a.1.done } c b (L.map fun d => o.iter (c, b) d.1)
                    have h2 := testPair_calls ci { a.1 with done := insert (b, c) a.1.done } c b (L.map fun d => o.iter (c, b) d.1)
                    change (testPairObj (ofCI ci) { a.1 with done := insert (b, c) a.1.done } a.1.calls c b _ >>= _) = _
                    rw [show testPairObj (ofCI ci) { a.1 with done := insert (b, c) a.1.done } a.1.calls c b _ = _ from h1]
                    exact pairR_tail _ _ _ h2

theorem orientObj_of (o : SetOrder α) (anytime : Bool) (st : OIcdState α) :
    orientObj o opts anytime (wc st) = (orient o opts anytime st).map wc := by
  unfold orientObj
  change (orient o opts anytime st >>= _) = _
  cases h : orient o opts anytime st with
  | error e => rfl
  | ok a =>
    have hc : a.calls = st.calls := by
      unfold orient at h
      cases h1 : reset opts.order st.graph with
      | error e => rw [h1] at h; cases h
      | ok G =>
        rw [py_bind h1] at h
        cases h2 : G.pagVStructures o (some st.sep) with
        | error e => rw [h2] at h; cases h
        | ok G =>
          rw [py_bind h2] at h
          cases h3 : MG.pagMaxOrient o st.sep [1, 2, 3, 4] G with
          | error e => rw [h3] at h; cases h
          | ok G =>
            rw [py_bind h3] at h
            cases h4 : (if anytime then pure G else Fci.finalRules o st.sep opts.selection opts.tails G) with
            | error e => rw [h4] at h; cases h
            | ok G => rw [py_bind h4] at h; cases h; rfl
    change Except.ok (a, st.calls) = Except.ok (a, a.calls)
    rw [hc]

theorem nodeSizesObj_of (o : SetOrder α) (ci : CITest α) (i : Nat) : ∀ (k r : Nat) (st : OIcdState α),
    nodeSizesObj o (ofCI ci) opts i k r (wc st) = (nodeSizes o ci opts i k r st).map wc := by
  intro k
  induction k with
  | zero => intro r st; rfl
  | succ k ih =>
    intro r st
    rw [nodeSizesObj, nodeSizes]
    cases hb : nth opts.order i with
    | error e => rfl
    | ok b =>
      change (if _ then _ else _) = Except.map wc (if _ then _ else _)
      by_cases hall : (opts.order.take i).all (fun anc => (b, anc) ∈ st.done) = true
      · rw [if_pos hall, if_pos (show (opts.order.take i).all (fun anc => (b, anc) ∈ (wc st).1.done) = true from hall)]; rfl
      · rw [if_neg hall, if_neg (show ¬ (opts.order.take i).all (fun anc => (b, anc) ∈ (wc st).1.done) = true from hall), phaseRObj_of]
        cases hr : phaseR o ci opts.order r i st with
        | error e => rfl
        | ok a =>
          change (orientObj o opts true (wc a.1) >>= _) = (orient o opts true a.1 >>= _).map _
          rw [orientObj_of]
          cases hor : orient o opts true a.1 with
          | error e => rfl
          | ok a => exact ih (r + 1) a

theorem nodeConnectionObj_of (o : SetOrder α) (ci : CITest α) (i : Nat) (st : OIcdState α) :
    nodeConnectionObj o (ofCI ci) opts (wc st) i = (nodeConnection o ci opts i st).map wc := by
  unfold nodeConnectionObj nodeConnection
  by_cases h0 : i = 0
  · rw [if_pos h0, if_pos h0]; rfl
  · rw [if_neg h0, if_neg h0]
    change (phase0Obj (ofCI ci) opts.order i (wc st) >>= _) = (phase0 ci opts.order i st >>= _).map _
    rw [phase0Obj_of]
    cases h1 : phase0 ci opts.order i st with
    | error e => rfl
    | ok a =>
      change (orientObj o opts true (wc a) >>= _) = (orient o opts true a >>= _).map _
      rw [orientObj_of]
      cases h2 : orient o opts true a with
      | error e => rfl
      | ok a =>
        change (if maxSize opts i = 0 then _ else _) = Except.map wc (if maxSize opts i = 0 then _ else _)
        by_cases hm : maxSize opts i = 0
        · rw [if_pos hm, if_pos hm]; rfl
        · rw [if_neg hm, if_neg hm]
          change (phase1Obj o (ofCI ci) opts.order i (wc a) >>= _) = (phase1 o ci opts.order i a >>= _).map _
          rw [phase1Obj_of]
          cases h3 : phase1 o ci opts.order i a with
          | error e => rfl
          | ok a =>
            change (orientObj o opts true (wc a) >>= _) = (orient o opts true a >>= _).map _
            rw [orientObj_of]
            cases h4 : orient o opts true a with
            | error e => rfl
            | ok a =>
              change (if maxSize opts i = 1 then _ else _) = Except.map wc (if maxSize opts i = 1 then _ else _)
              by_cases hm : maxSize opts i = 1
              · rw [if_pos hm, if_pos hm]; rfl
              · rw [if_neg hm, if_neg hm]
                exact nodeSizesObj_of o ci i _ _ a

theorem learnLocalObj_of (o : SetOrder α) (ci : CITest α) (st : OIcdState α) :
    learnLocalObj o (ofCI ci) opts (wc st) = (learnLocal o ci opts st).map wc := by
  unfold learnLocalObj learnLocal
  rw [foldlM_map (w := wc) (g := fun st i => nodeConnection o ci opts i st) (fun a i => nodeConnectionObj_of o ci i a)]
  change _ = ((pyRange 1 st.graph.nodes.card).foldlM (fun st i => nodeConnection o ci opts i st) st >>= _).map _
  change (Except.map wc ((pyRange 1 st.graph.nodes.card).foldlM (fun st i => nodeConnection o ci opts i st) st) >>= _) = _
  cases h : (pyRange 1 st.graph.nodes.card).foldlM (fun st i => nodeConnection o ci opts i st) st with
  | error e => rfl
  | ok a => exact orientObj_of o false a

theorem globalSizesObj_of (o : SetOrder α) (ci : CITest α) : ∀ (k r : Nat) (done : Bool) (st : OIcdState α),
    globalSizesObj o (ofCI ci) opts k r done (wc st) = (globalSizes o ci opts k r done st).map wc := by
  intro k
  induction k with
  | zero => intro r done st; rfl
  | succ k ih =>
    intro r done st
    rw [globalSizesObj, globalSizes, show (((wc st).1, done), (wc st).2) = wc2 (st, done) from rfl,
      foldlM_map (w := wc2) (g := fun (acc : OIcdState α × Bool) idx => do
        let (st, d) ← phaseR o ci opts.order r idx acc.1
        return (st, acc.2 && d)) (fun a i => by
          unfold globalNodeObj
          change (phaseRObj o (ofCI ci) opts.order r i (wc a.1) >>= _) = (phaseR o ci opts.order r i a.1 >>= _).map _
          rw [phaseRObj_of]
          cases phaseR o ci opts.order r i a.1 <;> rfl)]
    rw [show (wc st).1.graph.nodes.card = st.graph.nodes.card from rfl]
    cases h : (pyRange (r + 1) st.graph.nodes.card).foldlM (fun (acc : OIcdState α × Bool) idx => do
        let (st, d) ← phaseR o ci opts.order r idx acc.1
        return (st, acc.2 && d)) (st, done) with
    | error e => rfl
    | ok a =>
      rcases a with ⟨a, d⟩
      cases d with
      | true => rfl
      | false =>
        change (orientObj o opts true (wc a) >>= _) = (orient o opts true a >>= _).map _
        rw [orientObj_of]
        cases h2 : orient o opts true a with
        | error e => rfl
        | ok a => exact ih (r + 1) false a

theorem learnGlobalObj_of (o : SetOrder α) (ci : CITest α) (st : OIcdState α) :
    learnGlobalObj o (ofCI ci) opts (wc st) = (learnGlobal o ci opts st).map wc := by
  unfold learnGlobalObj learnGlobal
  change ((pyRange 1 st.graph.nodes.card).foldlM (fun (st : OIcdState α × Nat) idx => phase0Obj (ofCI ci) opts.order idx st) (wc st) >>= _) =
    ((pyRange 1 st.graph.nodes.card).foldlM (fun st idx => phase0 ci opts.order idx st) st >>= _).map _
  rw [foldlM_map (w := wc) (g := fun st idx => phase0 ci opts.order idx st) (fun a i => phase0Obj_of ci opts.order i a)]
  cases h1 : (pyRange 1 st.graph.nodes.card).foldlM (fun st idx => phase0 ci opts.order idx st) st with
  | error e => rfl
  | ok a =>
    change (orientObj o opts true (wc a) >>= _) = (orient o opts true a >>= _).map _
    rw [orientObj_of]
    cases h2 : orient o opts true a with
    | error e => rfl
    | ok a =>
      change ((pyRange 2 st.graph.nodes.card).foldlM (fun (st : OIcdState α × Nat) idx => phase1Obj o (ofCI ci) opts.order idx st) (wc a) >>= _) =
        ((pyRange 2 st.graph.nodes.card).foldlM (fun st idx => phase1 o ci opts.order idx st) a >>= _).map _
      rw [foldlM_map (w := wc) (g := fun st idx => phase1 o ci opts.order idx st) (fun a i => phase1Obj_of o ci opts.order i a)]
      cases h3 : (pyRange 2 st.graph.nodes.card).foldlM (fun st idx => phase1 o ci opts.order idx st) a with
      | error e => rfl
      | ok a =>
        change (orientObj o opts true (wc a) >>= _) = (orient o opts true a >>= _).map _
        rw [orientObj_of]
        cases h4 : orient o opts true a with
        | error e => rfl
        | ok a =>
          change (globalSizesObj o (ofCI ci) opts _ 2 true (wc a) >>= _) = (globalSizes o ci opts _ 2 true a >>= _).map _
          rw [globalSizesObj_of, show (wc st).1.graph.nodes.card = st.graph.nodes.card from rfl]
          cases h5 : globalSizes o ci opts ((match opts.maxCond with
            | some m => m + 1
            | none => st.graph.nodes.card - 2 + 1) - 2) 2 true a with
          | error e => rfl
          | ok a => exact orientObj_of o false a

/-- With a test that counts its calls, the learner is the one of `Model/OrderedIcd.lean`. -/
theorem learnStructureObj_of (o : SetOrder α) (ci : CITest α) (opts : OIcdOpts α) (isLocal : Bool) (st : OIcdState α) :
    learnStructureObj o (ofCI ci) opts isLocal st st.calls = (learnStructure o ci opts isLocal st).map (fun a => (a, a.calls)) := by
  cases isLocal with
  | true => exact learnLocalObj_of o ci st
  | false => exact learnGlobalObj_of o ci st

end

end OIcd
end Verif
