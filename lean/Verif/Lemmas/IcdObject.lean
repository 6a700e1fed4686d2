import Verif.Model.IcdObject
import Verif.Lemmas.Icd
import Verif.Lemmas.FciObject

/-!
# ICD with a test object: simulation, and no exceptions but those of the test
-/

namespace Verif

namespace Pc
variable {α σ τ : Type} [LinearOrder α] {N : Finset α} {call : Call α σ} {call' : Call α τ} {R : σ → τ → Prop} {s₀ : σ}

/-- Both runs return the same value and related test objects, or both raise the same exception, and a query raises it. -/
def Sim {β : Type} (N : Finset α) (call : Call α σ) (R : σ → τ → Prop) (s₀ : σ) (P : β → Prop) (x : Py (β × σ)) (y : Py (β × τ)) : Prop :=
  (∃ a s t, x = .ok (a, s) ∧ y = .ok (a, t) ∧ P a ∧ R s t ∧ Reach N call s₀ s) ∨
    ∃ e s i j l, x = .error e ∧ y = .error e ∧ Reach N call s₀ s ∧ Query N i j l ∧ (call s i j l).1 = .error e

omit [LinearOrder α] in
theorem Sim.same {β : Type} {P : β → Prop} {x : Py (β × σ)} {y : Py (β × τ)} (h : Sim N call R s₀ P x y) : Same2 P R x y := by
  rcases h with ⟨a, s, t, h1, h2, h3, h4, -⟩ | ⟨e, s, i, j, l, h1, h2, -⟩
  · exact Or.inr ⟨a, s, t, h1, h2, h3, h4⟩
  · exact Or.inl ⟨e, h1, h2⟩

omit [LinearOrder α] in
theorem Sim.fine {β : Type} {P : β → Prop} {x : Py (β × σ)} {y : Py (β × τ)} (h : Sim N call R s₀ P x y) : Fine N call s₀ P x := by
  rcases h with ⟨a, s, t, h1, -, h3, -, h5⟩ | ⟨e, s, i, j, l, h1, -, h3⟩
  · exact Or.inl ⟨a, s, h1, h3, h5⟩
  · exact Or.inr ⟨e, s, i, j, l, h1, h3⟩

omit [LinearOrder α] in
theorem alike_refl (N : Finset α) (call : Call α σ) : Alike N call call Eq :=
  ⟨fun _ _ h _ _ _ _ => by rw [h], fun _ _ h _ _ _ _ _ _ => by rw [h]⟩

omit [LinearOrder α] in
theorem Sim.bind {β γ : Type} {P : β → Prop} {Q : γ → Prop} {x : Py (β × σ)} {y : Py (β × τ)} {f : β × σ → Py (γ × σ)}
    {g : β × τ → Py (γ × τ)} (h : Sim N call R s₀ P x y)
    (hf : ∀ a s t, P a → R s t → Reach N call s₀ s → Sim N call R s₀ Q (f (a, s)) (g (a, t))) : Sim N call R s₀ Q (x >>= f) (y >>= g) := by
  rcases h with ⟨a, s, t, rfl, rfl, h1, h2, h3⟩ | ⟨e, s, i, j, l, rfl, rfl, h3⟩
  · exact hf a s t h1 h2 h3
  · exact Or.inr ⟨e, s, i, j, l, rfl, rfl, h3⟩

omit [LinearOrder α] in
theorem foldlM_sim {β γ : Type} {P : β → Prop} {f : β × σ → γ → Py (β × σ)} {g : β × τ → γ → Py (β × τ)} : ∀ (l : List γ),
    (∀ x ∈ l, ∀ a s t, P a → R s t → Reach N call s₀ s → Sim N call R s₀ P (f (a, s) x) (g (a, t) x)) →
    ∀ a s t, P a → R s t → Reach N call s₀ s → Sim N call R s₀ P (l.foldlM f (a, s)) (l.foldlM g (a, t)) := by
  intro l
  induction l with
  | nil => intro _ a s t hP hR hs; exact Or.inl ⟨a, s, t, rfl, rfl, hP, hR, hs⟩
  | cons x l ih =>
    intro hl a s t hP hR hs
    rw [List.foldlM_cons, List.foldlM_cons]
    exact (hl x (by simp) a s t hP hR hs).bind (ih fun y hy => hl y (by simp [hy]))

omit [LinearOrder α] in
theorem firstIndepObj_sim (h : Alike N call call' R) {i j : α} (zs : List (List α)) (k : Nat) {s : σ} {t : τ} (hR : R s t)
    (hs : Reach N call s₀ s) (hq : ∀ z ∈ zs, Query N i j z) :
    (∃ a m s' t', firstIndepObj call i j zs k s = .ok (a, m, s') ∧ firstIndepObj call' i j zs k t = .ok (a, m, t') ∧ R s' t' ∧
        Reach N call s₀ s' ∧ ∀ z, a = some z → z ∈ zs) ∨
      ∃ e s' l, firstIndepObj call i j zs k s = .error e ∧ firstIndepObj call' i j zs k t = .error e ∧ Reach N call s₀ s' ∧ Query N i j l ∧
        (call s' i j l).1 = .error e := by
  have hmem : ∀ (zs : List (List α)) (k : Nat) (s : σ) a m s', firstIndepObj call i j zs k s = .ok (a, m, s') → ∀ z, a = some z → z ∈ zs := by
    intro zs
    induction zs with
    | nil => intro k s a m s' h z hz; rw [firstIndepObj] at h; cases h; cases hz
    | cons w zs ih =>
      intro k s a m s' h z hz
      rw [firstIndepObj] at h
      split at h
      · cases h
      · cases h; cases hz; simp
      · exact List.mem_cons_of_mem _ (ih _ _ _ _ _ h z hz)
  rcases firstIndepObj_same h zs k s t hR hq with ⟨e, h1, h2⟩ | ⟨a, m, s', t', h1, h2, h3⟩
  · rcases firstIndepObj_fine zs k s hs hq with ⟨a, m, s', g1, -⟩ | ⟨e', s', l, g1, g2⟩
    · rw [h1] at g1; cases g1
    · rw [h1] at g1; cases g1
      exact Or.inr ⟨e, s', l, h1, h2, g2⟩
  · rcases firstIndepObj_fine zs k s hs hq with ⟨a', m', s'', g1, g2⟩ | ⟨e', s'', l, g1, -⟩
    · rw [h1] at g1; cases g1
      exact Or.inl ⟨a, m, s', t', h1, h2, h3, g2, hmem zs k s a m s' h1⟩
    · rw [h1] at g1; cases g1

omit [LinearOrder α] in
theorem Query.card {i j : α} {l : List α} (h : Query N i j l) : l.length + 2 ≤ N.card := by
  classical
  obtain ⟨h1, h2, h3, h4, h5⟩ := h
  have hnd : (i :: j :: l).Nodup := by
    refine List.nodup_cons.mpr ⟨?_, List.nodup_cons.mpr ⟨fun hj => (h5 j hj).2.2 rfl, h4⟩⟩
    rw [List.mem_cons, not_or]
    exact ⟨h3, fun hi => (h5 i hi).2.1 rfl⟩
  have := Finset.card_le_card (s := (i :: j :: l).toFinset) (t := N) (by
    intro v hv
    simp only [List.mem_toFinset, List.mem_cons] at hv
    rcases hv with rfl | rfl | hv
    · exact h1
    · exact h2
    · exact (h5 v hv).1)
  rw [List.toFinset_card_of_nodup hnd] at this
  simp only [List.length_cons] at this
  omega

end Pc

namespace Icd
open MG Pc
open SepSet (hkey)
variable {α σ τ : Type} [LinearOrder α] {N : Finset α} {call : Pc.Call α σ} {call' : Pc.Call α τ} {R : σ → τ → Prop} {s₀ : σ}

/-- A test that always answers "independent"; with it the invariant of `Lemmas/Fci.lean` says nothing about answers. -/
def yes : CITest α := fun _ _ _ _ => true

/-- What a pass over the pairs keeps; `pre`: the conditioning sets are prepared. -/
structure Good (N : Finset α) (r : Nat) (pre : Bool) (st : IcdState α) : Prop where
  inv : Fci.SkInv yes N st.graph st.sep
  size : st.size = r
  cond : pre = true → ∀ i j, st.graph.MAdj i j → ∃ L, Dict.get? st.cond (hkey i j) = some L ∧
    ∀ c ∈ L, c.1.card = r ∧ c.1 ⊆ N ∧ i ∉ c.1 ∧ j ∉ c.1

theorem testPairObj_sim (h : Alike N call call' R) {r : Nat} {pre : Bool} {st : IcdState α} (hst : Good N r pre st) {i j : α}
    {zs : List (List α)} (hq : ∀ z ∈ zs, Query N i j z) {s : σ} {t : τ} (hR : R s t) (hs : Reach N call s₀ s) :
    Sim N call R s₀ (Good N r pre) (testPairObj call st s i j zs) (testPairObj call' st t i j zs) := by
  unfold testPairObj
  rcases firstIndepObj_sim h zs st.calls hR hs hq with ⟨a, m, s', t', h1, h2, h3, h4, h5⟩ | ⟨e, s', l, h1, h2, h3⟩
  · cases a with
    | none =>
      refine Or.inl ⟨{ st with calls := m }, s', t', ?_, ?_, ⟨hst.inv, hst.size, hst.cond⟩, h3, h4⟩
      · simp only [h1]; rfl
      · simp only [h2]; rfl
    | some z =>
      have hz := hq z (h5 z rfl)
      refine Or.inl ⟨{ st with graph := st.graph.deleteEdge i j, sep := st.sep.set i j z.toFinset, calls := m }, s', t', ?_, ?_,
        ⟨hst.inv.delete ⟨z, 0, rfl, Or.inl rfl, fun hi => (hz.2.2.2.2 i hi).2.1 rfl, fun hj => (hz.2.2.2.2 j hj).2.2 rfl,
          fun v hv => (hz.2.2.2.2 v hv).1⟩, hst.size, fun hp a b hab => ?_⟩, h3, h4⟩
      · simp only [h1]; rfl
      · simp only [h2]; rfl
      · rw [Fci.deleteEdge_adj hst.inv.proper] at hab
        exact hst.cond hp a b hab.1
  · refine Or.inr ⟨e, s', i, j, l, ?_, ?_, h3⟩
    · simp only [h1]; rfl
    · simp only [h2]; rfl

omit [LinearOrder α] in
theorem pair_mem (o : SetOrder α) {κ : Type} {k : κ} {st : IcdState α} (hn : st.graph.nodes = N) {ij : α × α}
    (h : ij ∈ pairs (o.iter k st.graph.nodes)) : ij.1 ∈ N ∧ ij.2 ∈ N ∧ ij.1 ≠ ij.2 :=
  ⟨hn ▸ (o.mem _ _ _).mp (mem_pairs_left (b := ij.2) h), hn ▸ (o.mem _ _ _).mp (mem_pairs_right (a := ij.1) h),
    mem_pairs_ne (o.nodup _ _) h⟩

theorem baseStep0Obj_sim (h : Alike N call call' R) (o : SetOrder α) {r : Nat} {st : IcdState α} (hst : Good N r false st) {s : σ} {t : τ}
    (hR : R s t) (hs : Reach N call s₀ s) :
    Sim N call R s₀ (Good N r false) (baseStep0Obj o call st s) (baseStep0Obj o call' st t) := by
  unfold baseStep0Obj
  refine (foldlM_sim (P := Good N r false) (R := R)
    (f := fun (acc : IcdState α × σ) ij => testPairObj call acc.1 acc.2 ij.1 ij.2 [[]])
    (g := fun (acc : IcdState α × τ) ij => testPairObj call' acc.1 acc.2 ij.1 ij.2 [[]])
    (pairs (o.iter st.size st.graph.nodes)) (fun ij hij a s t ha hR hs => ?_) st s t hst hR hs).bind fun a s t ha hR hs => ?_
  · obtain ⟨hi, hj, hne⟩ := pair_mem o hst.inv.nodes hij
    refine testPairObj_sim h ha (fun z hz => ?_) hR hs
    rw [List.mem_singleton] at hz
    subst hz
    exact ⟨hi, hj, hne, List.nodup_nil, by simp⟩
  · obtain ⟨G1, g1, g2, -⟩ := pagVStructures_spec o a.sep ha.inv.proper ha.inv.all_types ha.inv.keyG
    have hi := ha.inv.same g2.same
    obtain ⟨G2, r1, r2, -⟩ := pagMaxOrient_spec o a.sep (rules := [1, 2, 3, 4]) (by decide) hi.proper hi.all_types (fun _ => hi.keyG)
    refine Or.inl ⟨{ a with graph := G2 }, s, t, ?_, ?_, ⟨hi.same r2.same, ha.size, by simp⟩, hR, hs⟩
    · simp only [py_bind g1, py_bind r1]; rfl
    · simp only [py_bind g1, py_bind r1]; rfl

/-- What a pass with conditioning sets keeps. -/
def Pass2 (N : Finset α) (r : Nat) (pre : Bool) (a : IcdState α × Bool) : Prop := Good N r pre a.1 ∧ (a.2 = false → r + 2 ≤ N.card)

omit [LinearOrder α] in
theorem and_empty {r : Nat} {β : Type} {b : Bool} {l : List β} (hb : b = false → r + 2 ≤ N.card) (hl : ∀ z ∈ l, r + 2 ≤ N.card) :
    (b && l.isEmpty) = false → r + 2 ≤ N.card := by
  intro h
  rw [Bool.and_eq_false_iff] at h
  rcases h with h | h
  · exact hb h
  · cases l with
    | nil => simp at h
    | cons z l => exact hl z (by simp)

theorem pairStep1Obj_sim (h : Alike N call call' R) (o : SetOrder α) {a : IcdState α × Bool} (ha : Pass2 N 1 false a) {ij : α × α}
    (hi : ij.1 ∈ N) (hj : ij.2 ∈ N) (hne : ij.1 ≠ ij.2) {s : σ} {t : τ} (hR : R s t) (hs : Reach N call s₀ s) :
    Sim N call R s₀ (Pass2 N 1 false) (pairStep1Obj o call (a, s) ij) (pairStep1Obj o call' (a, t) ij) := by
  unfold pairStep1Obj
  obtain ⟨c, p1, -⟩ := proper_isConnected ha.1.inv.proper.type hne
  simp only [p1]
  cases c with
  | false => exact Or.inl ⟨a, s, t, rfl, rfl, ha, hR, hs⟩
  | true =>
    have hq : ∀ z ∈ condSets1 o a.1.graph ij.1 ij.2, Query N ij.1 ij.2 z ∧ z.length = 1 := by
      intro z hz
      obtain ⟨v, rfl, hv⟩ := (mem_condSets1 o ha.1.inv.proper).mp hz
      refine ⟨⟨hi, hj, hne, by simp, fun w hw => ?_⟩, rfl⟩
      rw [List.mem_singleton] at hw
      subst hw
      rcases hv with ⟨h1, h2⟩ | ⟨h1, h2⟩
      · exact ⟨ha.1.inv.nodes ▸ (ha.1.inv.proper.mem_adj h1).2, (ha.1.inv.proper.ne h1).symm, h2⟩
      · exact ⟨ha.1.inv.nodes ▸ (ha.1.inv.proper.mem_adj h1).2, h2, (ha.1.inv.proper.ne h1).symm⟩
    refine Sim.bind (testPairObj_sim h ha.1 (fun z hz => (hq z hz).1) hR hs) fun st s t hst hR hs => ?_
    refine Or.inl ⟨(st, a.2 && (condSets1 o a.1.graph ij.1 ij.2).isEmpty), s, t, rfl, rfl, ⟨hst, and_empty ha.2 fun z hz => ?_⟩, hR, hs⟩
    have := (hq z hz).1.card
    rw [(hq z hz).2] at this
    exact this

theorem baseStep1Obj_sim (h : Alike N call call' R) (o : SetOrder α) (opts : IcdOpts) {st : IcdState α} (hst : Good N 1 false st) {s : σ}
    {t : τ} (hR : R s t) (hs : Reach N call s₀ s) :
    Sim N call R s₀ (Pass2 N 1 false) (baseStep1Obj o call opts st s) (baseStep1Obj o call' opts st t) := by
  unfold baseStep1Obj
  refine (foldlM_sim (P := Pass2 N 1 false) (R := R) (pairs (o.iter st.size st.graph.nodes)) (fun ij hij a s t ha hR hs => ?_)
    (st, true) s t ⟨hst, by simp⟩ hR hs).bind fun a s t ha hR hs => ?_
  · obtain ⟨hi, hj, hne⟩ := pair_mem o hst.inv.nodes hij
    exact pairStep1Obj_sim h o ha hi hj hne hR hs
  · obtain ⟨H, k1, k2, -⟩ := reorient_snd o ha.1.inv opts.tails
    obtain ⟨K, l1, l2, -⟩ := Fci.finalRules_spec o a.1.sep opts.selection opts.tails k2.proper (k2.types.trans ha.1.inv.types)
    refine Or.inl ⟨({ a.1 with graph := K }, a.2), s, t, ?_, ?_, ⟨⟨ha.1.inv.same (k2.trans l2), ha.1.size, by simp⟩, ha.2⟩, hR, hs⟩
    · simp only [py_bind k1, py_bind l1]; rfl
    · simp only [py_bind k1, py_bind l1]; rfl

theorem pairStepObj_sim (h : Alike N call call' R) (o : SetOrder α) (opts : IcdOpts) {r : Nat} {a : IcdState α × Bool}
    (ha : Pass2 N r opts.preCalc a) {ij : α × α} (hi : ij.1 ∈ N) (hj : ij.2 ∈ N) (hne : ij.1 ≠ ij.2) {s : σ} {t : τ} (hR : R s t)
    (hs : Reach N call s₀ s) :
    Sim N call R s₀ (Pass2 N r opts.preCalc) (pairStepObj o call opts (a, s) ij) (pairStepObj o call' opts (a, t) ij) := by
  unfold pairStepObj
  obtain ⟨c, p1, p2⟩ := proper_isConnected ha.1.inv.proper.type hne
  simp only [p1]
  cases c with
  | false => exact Or.inl ⟨a, s, t, rfl, rfl, ha, hR, hs⟩
  | true =>
    have hL : ∃ L, (if opts.preCalc then Dict.get a.1.cond (hkey ij.1 ij.2) else rangeSets o a.1.graph ij.1 ij.2 a.1.size) = .ok L ∧
        ∀ c ∈ L, c.1.card = r ∧ c.1 ⊆ N ∧ ij.1 ∉ c.1 ∧ ij.2 ∉ c.1 := by
      cases hp : opts.preCalc with
      | true =>
        obtain ⟨L, l1, l2⟩ := ha.1.cond hp ij.1 ij.2 (p2.mp rfl)
        exact ⟨L, Dict.get_eq_ok.mpr l1, l2⟩
      | false =>
        obtain ⟨L, l1, -, l3, -⟩ := rangeSets_spec o ha.1.inv.proper (i := ij.1) (j := ij.2) (by rw [ha.1.inv.nodes]; exact hi)
          (by rw [ha.1.inv.nodes]; exact hj) a.1.size
        exact ⟨L, l1, fun c hc => ⟨(l3 c hc).size.trans ha.1.size, ha.1.inv.nodes ▸ (l3 c hc).mem, (l3 c hc).left, (l3 c hc).right⟩⟩
    obtain ⟨L, l1, l2⟩ := hL
    have hq : ∀ c ∈ L, Query N ij.1 ij.2 (o.iter (ij.1, ij.2) c.1) ∧ (o.iter (ij.1, ij.2) c.1).length = r := by
      intro c hc
      obtain ⟨c1, c2, c3, c4⟩ := l2 c hc
      refine ⟨⟨hi, hj, hne, o.nodup _ _, fun v hv => ?_⟩, ?_⟩
      · rw [o.mem] at hv
        exact ⟨c2 hv, fun e => c3 (e ▸ hv), fun e => c4 (e ▸ hv)⟩
      · rw [← c1, ← List.toFinset_card_of_nodup (o.nodup (ij.1, ij.2) c.1)]
        congr 1
        ext v
        rw [List.mem_toFinset, o.mem]
    have hq' : ∀ z ∈ L.map (fun c => o.iter (ij.1, ij.2) c.1), Query N ij.1 ij.2 z := by
      intro z hz
      obtain ⟨c, hc, rfl⟩ := List.mem_map.mp hz
      exact (hq c hc).1
    have key := Sim.bind (f := fun q : IcdState α × σ => (pure ((q.1, a.2 && L.isEmpty), q.2) : Py ((IcdState α × Bool) × σ)))
      (g := fun q : IcdState α × τ => (pure ((q.1, a.2 && L.isEmpty), q.2) : Py ((IcdState α × Bool) × τ)))
      (Q := Pass2 N r opts.preCalc) (testPairObj_sim h ha.1 hq' hR hs) fun st s t hst hR hs =>
        Or.inl ⟨(st, a.2 && L.isEmpty), s, t, rfl, rfl, ⟨hst, and_empty ha.2 fun c hc => by
          have := (hq c hc).1.card
          rw [(hq c hc).2] at this
          exact this⟩, hR, hs⟩
    simp only [bind, Except.bind, Bool.not_true, Bool.false_eq_true, if_false]
    rw [l1]
    exact key

theorem incrementalStepObj_sim (h : Alike N call call' R) (o : SetOrder α) (opts : IcdOpts) {r : Nat} {st : IcdState α}
    (hst : Good N r opts.preCalc st) {s : σ} {t : τ} (hR : R s t) (hs : Reach N call s₀ s) :
    Sim N call R s₀ (Pass2 N r false) (incrementalStepObj o call opts st s) (incrementalStepObj o call' opts st t) := by
  unfold incrementalStepObj
  refine (foldlM_sim (P := Pass2 N r opts.preCalc) (R := R) (pairs (o.iter st.size st.graph.nodes)) (fun ij hij a s t ha hR hs => ?_)
    (st, true) s t ⟨hst, by simp⟩ hR hs).bind fun a s t ha hR hs => ?_
  · obtain ⟨hi, hj, hne⟩ := pair_mem o hst.inv.nodes hij
    exact pairStepObj_sim h o opts ha hi hj hne hR hs
  · have hfin : ∃ H, (if a.2 then Fci.finalRules o a.1.sep opts.selection opts.tails a.1.graph else Fci.reorient o a.1.sep a.1.graph) =
        .ok H ∧ SameSkel H a.1.graph := by
      cases a.2 with
      | true =>
        obtain ⟨K, l1, l2, -⟩ := Fci.finalRules_spec o a.1.sep opts.selection opts.tails ha.1.inv.proper ha.1.inv.types
        exact ⟨K, l1, l2⟩
      | false =>
        obtain ⟨H, k1, k2, -⟩ := reorient_snd o ha.1.inv opts.tails
        exact ⟨H, k1, k2⟩
    obtain ⟨H, k1, k2⟩ := hfin
    refine Or.inl ⟨({ a.1 with graph := H }, a.2), s, t, ?_, ?_, ⟨⟨ha.1.inv.same k2, ha.1.size, by simp⟩, ha.2⟩, hR, hs⟩
    · simp only [py_bind k1]; rfl
    · simp only [py_bind k1]; rfl

theorem stepObj_sim (h : Alike N call call' R) (o : SetOrder α) (opts : IcdOpts) {st : IcdState α} (hst : Fci.SkInv yes N st.graph st.sep)
    {s : σ} {t : τ} (hR : R s t) (hs : Reach N call s₀ s) :
    Sim N call R s₀ (fun a : IcdState α × Bool => Good N st.size false a.1 ∧ (a.2 = false → 1 ≤ st.size → st.size + 2 ≤ N.card))
      (stepObj o call opts st s) (stepObj o call' opts st t) := by
  have hg : Good N st.size false st := ⟨hst, rfl, by simp⟩
  unfold stepObj
  by_cases h0 : st.size = 0
  · rw [if_pos h0, if_pos h0]
    refine (baseStep0Obj_sim h o hg hR hs).bind fun a s t ha hR hs => ?_
    exact Or.inl ⟨(a, st.done), s, t, rfl, rfl, ⟨ha, fun _ h1 => by omega⟩, hR, hs⟩
  · rw [if_neg h0, if_neg h0]
    by_cases h1 : st.size = 1
    · rw [if_pos h1, if_pos h1]
      have := baseStep1Obj_sim h o opts (h1 ▸ hg) hR hs
      rw [h1]
      rcases this with ⟨a, s, t, q1, q2, q3, q4⟩ | q
      · exact Or.inl ⟨a, s, t, q1, q2, ⟨q3.1, fun hb _ => q3.2 hb⟩, q4⟩
      · exact Or.inr q
    · rw [if_neg h1, if_neg h1]
      have hpre : ∃ st', (if opts.preCalc then preCalc o st else pure st) = .ok st' ∧ Good N st.size opts.preCalc st' := by
        cases hp : opts.preCalc with
        | true =>
          obtain ⟨d, d1, d2⟩ := preCalc_spec o hst
          refine ⟨{ st with cond := d }, d1, hst, rfl, fun _ i j hij => ?_⟩
          obtain ⟨L, l1, l2, -⟩ := d2 i j hij
          exact ⟨L, l1, fun c hc => ⟨(l2 c hc).size, hst.nodes ▸ (l2 c hc).mem, (l2 c hc).left, (l2 c hc).right⟩⟩
        | false => exact ⟨st, rfl, hg⟩
      obtain ⟨st', q1, q2⟩ := hpre
      rw [py_bind q1, py_bind q1]
      rcases incrementalStepObj_sim h o opts q2 hR hs with ⟨a, s, t, q1, q2, q3, q4⟩ | q
      · exact Or.inl ⟨a, s, t, q1, q2, ⟨q3.1, fun hb _ => q3.2 hb⟩, q4⟩
      · exact Or.inr q

theorem loopObj_sim (h : Alike N call call' R) (o : SetOrder α) (opts : IcdOpts) : ∀ (n : Nat) (st : IcdState α) (s : σ) (t : τ),
    Fci.SkInv yes N st.graph st.sep → st.done = false → 1 ≤ n → max 2 N.card ≤ n + st.size → R s t → Reach N call s₀ s →
      Sim N call R s₀ (fun a => Fci.SkInv yes N a.graph a.sep) (loopObj o call opts n st s) (loopObj o call' opts n st t) := by
  intro n
  induction n with
  | zero => intro st s t _ _ h1; omega
  | succ n ih =>
    intro st s t hst hd _ hn hR hs
    rw [loopObj, loopObj, iterationObj, iterationObj, hd]
    simp only [Bool.false_eq_true, if_false, bind_assoc]
    refine (stepObj_sim h o opts hst hR hs).bind fun a s t ha hR hs => ?_
    rcases a with ⟨a, b⟩
    cases b with
    | true => exact Or.inl ⟨{ a with done := true, size := a.size + 1 }, s, t, rfl, rfl, ha.1.inv, hR, hs⟩
    | false =>
      have hsz := ha.1.size
      simp only at hsz
      refine ih { a with done := false, size := a.size + 1 } s t ha.1.inv rfl ?_ ?_ hR hs
      · by_cases h0 : st.size = 0
        · omega
        · have := ha.2 rfl (by omega)
          omega
      · simp only; omega

theorem learnStructureObj_sim (h : Alike N call call' R) (o : SetOrder α) (opts : IcdOpts) {st : IcdState α}
    (hst : Fci.SkInv yes N st.graph st.sep) {s : σ} {t : τ} (hR : R s t) (hs : Reach N call s₀ s) :
    Sim N call R s₀ (fun a => Fci.SkInv yes N a.graph a.sep) (learnStructureObj o call opts st s) (learnStructureObj o call' opts st t) :=
  loopObj_sim h o opts _ { st with done := false, size := 0 } s t hst rfl (by omega) (by rw [hst.nodes]; simp) hR hs

/-! ## Tests without exceptions -/

/-- The state of the learner with the state of a test that is given by its answers. -/
def wc (st : IcdState α) : IcdState α × Nat := (st, st.calls)

/-- The same with the flag. -/
def wc2 (a : IcdState α × Bool) : (IcdState α × Bool) × Nat := (a, a.1.calls)

theorem testPairObj_of (ci : CITest α) (st : IcdState α) (i j : α) (zs : List (List α)) :
    testPairObj (ofCI ci) st st.calls i j zs = .ok (wc (testPair ci st i j zs)) := by
  unfold testPairObj testPair
  have h := firstIndepObj_of ci i j zs st.calls
  rcases hf : firstIndep ci i j zs st.calls with ⟨_ | z, k⟩
  · rw [hf] at h
    simp only [h]; rfl
  · rw [hf] at h
    simp only [h]; rfl

theorem baseStep0Obj_of (o : SetOrder α) (ci : CITest α) (st : IcdState α) :
    baseStep0Obj o (ofCI ci) st st.calls = (baseStep0 o ci st).map wc := by
  unfold baseStep0Obj baseStep0
  have key : ∀ (l : List (α × α)) (st : IcdState α),
      l.foldlM (fun (acc : IcdState α × Nat) ij => testPairObj (ofCI ci) acc.1 acc.2 ij.1 ij.2 [[]]) (wc st) =
        .ok (wc (l.foldl (fun st ij => testPair ci st ij.1 ij.2 [[]]) st)) := by
    intro l
    induction l with
    | nil => intro st; rfl
    | cons ij l ih =>
      intro st
      rw [List.foldlM_cons, List.foldl_cons, show testPairObj (ofCI ci) (wc st).1 (wc st).2 ij.1 ij.2 [[]] = _ from
        testPairObj_of ci st ij.1 ij.2 [[]]]
      exact ih _
  rw [show (st, st.calls) = wc st from rfl, key]
  generalize (pairs (o.iter st.size st.graph.nodes)).foldl (fun st ij => testPair ci st ij.1 ij.2 [[]]) st = st'
  change (st'.graph.pagVStructures o (some st'.sep) >>= _) = (st'.graph.pagVStructures o (some st'.sep) >>= _).map _
  cases h2 : st'.graph.pagVStructures o (some st'.sep) with
  | error e => rfl
  | ok G =>
    change (MG.pagMaxOrient o st'.sep [1, 2, 3, 4] G >>= _) = (MG.pagMaxOrient o st'.sep [1, 2, 3, 4] G >>= _).map _
    cases h3 : MG.pagMaxOrient o st'.sep [1, 2, 3, 4] G <;> rfl

theorem baseStep1Obj_of (o : SetOrder α) (ci : CITest α) (opts : IcdOpts) (st : IcdState α) :
    baseStep1Obj o (ofCI ci) opts st st.calls = (baseStep1 o ci opts st).map wc2 := by
  unfold baseStep1Obj baseStep1
  rw [show ((st, true), st.calls) = wc2 (st, true) from rfl, foldlM_map (w := wc2) (g := fun (acc : IcdState α × Bool) ij => do
    if !(← acc.1.graph.isConnected ij.1 ij.2) then return acc
    let zs := condSets1 o acc.1.graph ij.1 ij.2
    return (testPair ci acc.1 ij.1 ij.2 zs, acc.2 && zs.isEmpty)) (fun a ij => by
      unfold pairStep1Obj
      change (a.1.graph.isConnected ij.1 ij.2 >>= _) = (a.1.graph.isConnected ij.1 ij.2 >>= _).map _
      cases hc : a.1.graph.isConnected ij.1 ij.2 with
      | error e => rfl
      | ok c =>
        cases c with
        | false => rfl
        | true =>
          change (testPairObj (ofCI ci) a.1 a.1.calls ij.1 ij.2 (condSets1 o a.1.graph ij.1 ij.2) >>= _) = _
          rw [testPairObj_of]; rfl)]
  cases h1 : (pairs (o.iter st.size st.graph.nodes)).foldlM (fun (acc : IcdState α × Bool) ij => do
      if !(← acc.1.graph.isConnected ij.1 ij.2) then return acc
      let zs := condSets1 o acc.1.graph ij.1 ij.2
      return (testPair ci acc.1 ij.1 ij.2 zs, acc.2 && zs.isEmpty)) (st, true) with
  | error e => rfl
  | ok a =>
    change (Fci.reorient o a.1.sep a.1.graph >>= _) = (Fci.reorient o a.1.sep a.1.graph >>= _).map _
    cases h2 : Fci.reorient o a.1.sep a.1.graph with
    | error e => rfl
    | ok G =>
      change (Fci.finalRules o a.1.sep opts.selection opts.tails G >>= _) = (Fci.finalRules o a.1.sep opts.selection opts.tails G >>= _).map _
      cases h3 : Fci.finalRules o a.1.sep opts.selection opts.tails G <;> rfl

theorem incrementalStepObj_of (o : SetOrder α) (ci : CITest α) (opts : IcdOpts) (st : IcdState α) :
    incrementalStepObj o (ofCI ci) opts st st.calls = (incrementalStep o ci opts st).map wc2 := by
  unfold incrementalStepObj incrementalStep
  rw [show ((st, true), st.calls) = wc2 (st, true) from rfl, foldlM_map (w := wc2) (g := fun (acc : IcdState α × Bool) ij => do
    if !(← acc.1.graph.isConnected ij.1 ij.2) then return acc
    let conds ← (if opts.preCalc then Dict.get acc.1.cond (hkey ij.1 ij.2)
      else rangeSets o acc.1.graph ij.1 ij.2 acc.1.size)
    return (testPair ci acc.1 ij.1 ij.2 (conds.map (fun c => o.iter (ij.1, ij.2) c.1)), acc.2 && conds.isEmpty)) (fun a ij => by
      unfold pairStepObj
      change (a.1.graph.isConnected ij.1 ij.2 >>= _) = (a.1.graph.isConnected ij.1 ij.2 >>= _).map _
      cases hc : a.1.graph.isConnected ij.1 ij.2 with
      | error e => rfl
      | ok c =>
        cases c with
        | false => rfl
        | true =>
          change ((if opts.preCalc then Dict.get a.1.cond (hkey ij.1 ij.2) else rangeSets o a.1.graph ij.1 ij.2 a.1.size) >>= _) =
            ((if opts.preCalc then Dict.get a.1.cond (hkey ij.1 ij.2) else rangeSets o a.1.graph ij.1 ij.2 a.1.size) >>= _).map _
          cases hL : (if opts.preCalc then Dict.get a.1.cond (hkey ij.1 ij.2) else rangeSets o a.1.graph ij.1 ij.2 a.1.size) with
          | error e => rfl
          | ok L =>
            change (testPairObj (ofCI ci) a.1 a.1.calls ij.1 ij.2 (L.map fun c => o.iter (ij.1, ij.2) c.1) >>= _) = _
            rw [testPairObj_of]; rfl)]
  cases h1 : (pairs (o.iter st.size st.graph.nodes)).foldlM (fun (acc : IcdState α × Bool) (ij : α × α) => do
      if !(← acc.1.graph.isConnected ij.1 ij.2) then return acc
      let conds ← (if opts.preCalc then Dict.get acc.1.cond (hkey ij.1 ij.2)
        else rangeSets o acc.1.graph ij.1 ij.2 acc.1.size)
      return (testPair ci acc.1 ij.1 ij.2 (conds.map (fun (c : Finset α × WithTop Nat) => o.iter (ij.1, ij.2) c.1)), acc.2 && conds.isEmpty)) (st, true) with
  | error e => rfl
  | ok a =>
    change ((if a.2 then Fci.finalRules o a.1.sep opts.selection opts.tails a.1.graph else Fci.reorient o a.1.sep a.1.graph) >>= _) =
      ((if a.2 then Fci.finalRules o a.1.sep opts.selection opts.tails a.1.graph else Fci.reorient o a.1.sep a.1.graph) >>= _).map _
    cases h2 : (if a.2 then Fci.finalRules o a.1.sep opts.selection opts.tails a.1.graph else Fci.reorient o a.1.sep a.1.graph) <;> rfl

theorem preCalc_calls {o : SetOrder α} {st st' : IcdState α} (h : preCalc o st = .ok st') : st'.calls = st.calls := by
  unfold preCalc at h
  cases hf : (pairs (o.iter (st.size, 0) st.graph.nodes)).foldlM
      (fun (d : Dict (α × α) (List (Finset α × WithTop Nat))) ij => do
        if ← st.graph.isConnected ij.1 ij.2 then
          let l ← rangeSets o st.graph ij.1 ij.2 st.size
          return Dict.set d (hkey ij.1 ij.2) l
        else return d) st.cond with
  | error e => rw [hf] at h; cases h
  | ok d => rw [hf] at h; cases h; rfl

theorem stepObj_of (o : SetOrder α) (ci : CITest α) (opts : IcdOpts) (st : IcdState α) :
    stepObj o (ofCI ci) opts st st.calls = (step o ci opts st).map wc2 := by
  unfold stepObj step
  by_cases h0 : st.size = 0
  · rw [if_pos h0, if_pos h0, baseStep0Obj_of]
    cases baseStep0 o ci st <;> rfl
  · rw [if_neg h0, if_neg h0]
    by_cases h1 : st.size = 1
    · rw [if_pos h1, if_pos h1, baseStep1Obj_of]
    · rw [if_neg h1, if_neg h1]
      cases hp : opts.preCalc with
      | false =>
        simp only [Bool.false_eq_true, if_false]
        exact incrementalStepObj_of o ci opts st
      | true =>
        simp only [if_true]
        cases hc : preCalc o st with
        | error e => rfl
        | ok st' =>
          change incrementalStepObj o (ofCI ci) opts st' st.calls = _
          rw [← preCalc_calls hc]
          exact incrementalStepObj_of o ci opts st'

theorem loopObj_of (o : SetOrder α) (ci : CITest α) (opts : IcdOpts) : ∀ (n : Nat) (st : IcdState α),
    loopObj o (ofCI ci) opts n st st.calls = (loop o ci opts n st).map wc := by
  intro n
  induction n with
  | zero => intro st; rfl
  | succ n ih =>
    intro st
    rw [loopObj, loop, iterationObj, iteration]
    cases hd : st.done with
    | true => rfl
    | false =>
      simp only [Bool.false_eq_true, if_false, bind_assoc]
      rw [stepObj_of]
      cases hs : step o ci opts st with
      | error e => rfl
      | ok a =>
        rcases a with ⟨a, b⟩
        cases b with
        | true => rfl
        | false => exact ih { a with done := false, size := a.size + 1 }

/-- The model with a test object extends the model of `Model/Icd.lean`. -/
theorem learnStructureObj_of (o : SetOrder α) (ci : CITest α) (opts : IcdOpts) (st : IcdState α) :
    learnStructureObj o (ofCI ci) opts st st.calls = (learnStructure o ci opts st).map wc :=
  loopObj_of o ci opts _ { st with done := false, size := 0 }

end Icd
end Verif
