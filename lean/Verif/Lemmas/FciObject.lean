import Verif.Model.FciObject
import Verif.Lemmas.Fci
import Verif.Lemmas.PcObjectErr

/-!
# FCI with a test object: simulation, and no exceptions but those of the test
-/

namespace Verif

namespace Pc
variable {α σ τ : Type} [LinearOrder α] {N : Finset α} {call : Call α σ} {R : σ → τ → Prop}

omit [LinearOrder α] in
theorem Same2.bind {β γ : Type} {P : β → Prop} {Q : γ → Prop} {x : Py (β × σ)} {y : Py (β × τ)} {f : β × σ → Py (γ × σ)}
    {g : β × τ → Py (γ × τ)} (h : Same2 P R x y) (hf : ∀ a s t, P a → R s t → Same2 Q R (f (a, s)) (g (a, t))) :
    Same2 Q R (x >>= f) (y >>= g) := by
  rcases h with ⟨e, rfl, rfl⟩ | ⟨a, s, t, rfl, rfl, h1, h2⟩
  · exact Or.inl ⟨e, rfl, rfl⟩
  · exact hf a s t h1 h2

omit [LinearOrder α] in
/-- A step without queries. -/
theorem Same2.pure_bind {β γ : Type} {Q : γ → Prop} {x : Py β} {f : β → Py (γ × σ)} {g : β → Py (γ × τ)}
    (hf : ∀ a, x = .ok a → Same2 Q R (f a) (g a)) : Same2 Q R (x >>= f) (x >>= g) := by
  cases x with
  | error e => exact Or.inl ⟨e, rfl, rfl⟩
  | ok a => exact hf a rfl

omit [LinearOrder α] in
theorem Fine.bind {β γ : Type} {P : β → Prop} {Q : γ → Prop} {s₀ : σ} {x : Py (β × σ)} {f : β × σ → Py (γ × σ)}
    (h : Fine N call s₀ P x) (hf : ∀ a s, P a → Reach N call s₀ s → Fine N call s₀ Q (f (a, s))) : Fine N call s₀ Q (x >>= f) := by
  rcases h with ⟨a, s, rfl, h1, h2⟩ | ⟨e, s, i, j, l, rfl, h2⟩
  · exact hf a s h1 h2
  · exact Or.inr ⟨e, s, i, j, l, rfl, h2⟩

omit [LinearOrder α] in
/-- What one run keeps, both keep. -/
theorem Same2.fine {β : Type} {P Q : β → Prop} {s₀ : σ} {x : Py (β × σ)} {y : Py (β × τ)} (h : Same2 P R x y)
    (hx : Fine N call s₀ Q x) : Same2 Q R x y := by
  rcases h with h | ⟨a, s, t, h1, h2, -, h4⟩
  · exact Or.inl h
  · rcases hx with ⟨a', s', h5, h6, -⟩ | ⟨e, s', i, j, l, h5, -⟩
    · rw [h1] at h5; cases h5
      exact Or.inr ⟨a, s, t, h1, h2, h6, h4⟩
    · rw [h1] at h5; cases h5

theorem foldlM_map {β γ δ : Type} {w : β → δ} {f : δ → γ → Py δ} {g : β → γ → Py β}
    (h : ∀ a x, f (w a) x = (g a x).map w) : ∀ (l : List γ) (a : β), l.foldlM f (w a) = (l.foldlM g a).map w := by
  intro l
  induction l with
  | nil => intro a; rfl
  | cons x l ih =>
    intro a
    rw [List.foldlM_cons, List.foldlM_cons, h]
    cases hg : g a x with
    | error e => rfl
    | ok a' => exact ih a'

theorem init_ok2 (o : SetOrder α) (N : Finset α) : Ok2 N (init o N) :=
  ⟨MG.pdagComplete_wf N, rfl, fun a b => MG.pdagComplete_arrow, fun i hi j hj hne => ⟨∅, by simp [init, SepSet.get_init, hi, hj, hne]⟩⟩

end Pc

namespace Fci
open MG Pc
variable {α σ τ : Type} [LinearOrder α] {N : Finset α} {call : Pc.Call α σ} {call' : Pc.Call α τ} {R : σ → τ → Prop}

/-- What the stages of FCI keep. -/
structure Ok3 (N : Finset α) (st : PcState α) : Prop where
  proper : st.graph.Proper
  nodes : st.graph.nodes = N
  types : st.graph.types = pagTypes
  key : ∀ i ∈ N, ∀ j ∈ N, i ≠ j → ∃ S, st.sep.get i j = .ok S

theorem Ok3.delete {st : PcState α} (h : Ok3 N st) (x y : α) (S : Finset α) (k : Nat) :
    Ok3 N ⟨st.graph.deleteEdge x y, st.sep.set x y S, k⟩ := by
  obtain ⟨d1, d2, -⟩ := deleteEdge_spec h.proper.type (i := x) (j := y)
  refine ⟨h.proper.deleteEdge x y, d1.trans h.nodes, d2.trans h.types, ?_⟩
  intro a ha b hb hab
  simp only [SepSet.get_set]
  split
  · exact ⟨_, rfl⟩
  · exact h.key a ha b hb hab

theorem condSets_query (o : SetOrder α) {x y : α} {pds : Finset α} (hx : x ∈ N) (hy : y ∈ N) (hxy : x ≠ y) (hp : pds ⊆ N) (hxp : x ∉ pds) :
    ∀ z ∈ condSets o x y (pds \ {y}), Query N x y z := by
  intro z hz
  obtain ⟨h1, h2⟩ := mem_condSets hz
  refine ⟨hx, hy, hxy, h1, fun v hv => ?_⟩
  have hv' := Finset.mem_sdiff.mp (h2 (List.mem_toFinset.mpr hv))
  exact ⟨hp hv'.1, fun e => hxp (e ▸ hv'.1), fun e => hv'.2 (by simp [e])⟩

theorem pds_ok (o : SetOrder α) {st : PcState α} (h : Ok3 N st) :
    ∀ x ∈ N, ∃ P, st.graph.createPdsSet o x = .ok P ∧ P ⊆ N ∧ x ∉ P := by
  intro x hx
  obtain ⟨P, p1, p2, -⟩ := C48_set o h.proper (root := x) (by rw [h.nodes]; exact hx)
  refine ⟨P, p1, fun v hv => ?_, fun hv => ?_⟩
  · obtain ⟨l, hl⟩ := p2 v hv
    rw [← h.nodes]
    exact hl.mem v (by simp)
  · obtain ⟨l, hl⟩ := p2 x hv
    exact hl.avoid (by simp)

theorem pdsList_ok (o : SetOrder α) {st : PcState α} (h : Ok3 N st) :
    ∃ d, (o.iter 0 st.graph.nodes).foldlM (fun (d : Dict α (Finset α)) x => do
      let S ← st.graph.createPdsSet o x
      return Dict.set d x S) [] = .ok d ∧ ∀ x ∈ N, ∃ P, Dict.get d x = .ok P ∧ P ⊆ N ∧ x ∉ P := by
  obtain ⟨d, d1, d2⟩ := foldlM_ok_inv
    (f := fun (d : Dict α (Finset α)) x => do
      let S ← st.graph.createPdsSet o x
      return Dict.set d x S)
    (fun done d => ∀ x ∈ done, ∃ P, Dict.get? d x = some P ∧ P ⊆ N ∧ x ∉ P)
    (o.iter 0 st.graph.nodes) [] [] (by simp) (by
      intro done x d hx hd
      rw [o.mem, h.nodes] at hx
      obtain ⟨P, p1, p2⟩ := pds_ok o h x hx
      refine ⟨Dict.set d x P, by rw [py_bind p1]; rfl, fun y hy => ?_⟩
      rw [Dict.get?_set]
      by_cases hxy : x = y
      · subst hxy; exact ⟨P, by simp, p2⟩
      · rw [if_neg hxy]
        rw [List.mem_append, List.mem_singleton] at hy
        exact hd y (hy.resolve_right (fun h => hxy h.symm)))
  refine ⟨d, d1, fun x hx => ?_⟩
  obtain ⟨P, p1, p2⟩ := d2 x (by rw [List.nil_append, o.mem, h.nodes]; exact hx)
  exact ⟨P, Dict.get_eq_ok.mpr p1, p2⟩

/-! ## Simulation -/

theorem refinePairObj_same (h : Alike N call call' R) (o : SetOrder α) {x y : α} (hx : x ∈ N) (hy : y ∈ N) (hxy : x ≠ y) {pds : Finset α}
    (hp : pds ⊆ N) (hxp : x ∉ pds) {a : PcState α × Bool} (ha : Ok3 N a.1) {s : σ} {t : τ} (hR : R s t) :
    Same2 (fun a : PcState α × Bool => Ok3 N a.1) R (refinePairObj o call x pds (a, s) y) (refinePairObj o call' x pds (a, t) y) := by
  unfold refinePairObj testCiIncreasingObj
  rcases firstIndepObj_same h (condSets o x y (pds \ {y})) a.1.calls s t hR (condSets_query o hx hy hxy hp hxp) with
    ⟨e, h1, h2⟩ | ⟨r, m, s', t', h1, h2, h3⟩
  · refine Or.inl ⟨e, ?_, ?_⟩
    · simp only [h1]; rfl
    · simp only [h2]; rfl
  · cases r with
    | none =>
      refine Or.inr ⟨({ a.1 with calls := m }, a.2 || false), s', t', ?_, ?_, ⟨ha.proper, ha.nodes, ha.types, ha.key⟩, h3⟩
      · simp only [h1]; rfl
      · simp only [h2]; rfl
    | some z =>
      refine Or.inr ⟨(⟨a.1.graph.deleteEdge x y, a.1.sep.set x y z.toFinset, m⟩, a.2 || true), s', t', ?_, ?_, ha.delete x y _ m, h3⟩
      · simp only [h1]; rfl
      · simp only [h2]; rfl

theorem adjacent_ok {st : PcState α} (h : Ok3 N st) (o : SetOrder α) {x y : α} (k : α × Nat)
    (hy : y ∈ o.iter k (st.graph.findAdjacentNodes x none none)) : y ∈ N ∧ x ≠ y := by
  rw [o.mem, mem_findAdjacent h.proper] at hy
  exact ⟨h.nodes ▸ (h.proper.mem_adj hy).2, h.proper.ne hy⟩

theorem refineObj_same (h : Alike N call call' R) (o : SetOrder α) {st : PcState α} (hst : Ok3 N st) {s : σ} {t : τ} (hR : R s t) :
    Same2 (fun a : PcState α × Bool => Ok3 N a.1) R (refineObj o call st s) (refineObj o call' st t) := by
  unfold refineObj
  obtain ⟨d, d1, d2⟩ := pdsList_ok o hst
  rw [d1]
  refine foldlM_same (P := fun a : PcState α × Bool => Ok3 N a.1) (R := R) _ (fun x hx a s t ha hst' => ?_) (st, false) s t hst hR
  have hx : x ∈ N := hst.nodes ▸ (o.mem _ _ _).mp hx
  obtain ⟨P, p1, p2, p3⟩ := d2 x hx
  rw [p1]
  exact foldlM_same (P := fun a : PcState α × Bool => Ok3 N a.1) (R := R) _ (fun y hy b s t hb hst'' =>
    refinePairObj_same h o hx (adjacent_ok ha o _ hy).1 (adjacent_ok ha o _ hy).2 p2 p3 hb hst'') a s t ha hst'

/-! ## Exceptions -/

theorem refinePairObj_fine (o : SetOrder α) {x y : α} (hx : x ∈ N) (hy : y ∈ N) (hxy : x ≠ y) {pds : Finset α}
    (hp : pds ⊆ N) (hxp : x ∉ pds) {a : PcState α × Bool} (ha : Ok3 N a.1) {s₀ s : σ} (hs : Reach N call s₀ s) :
    Fine N call s₀ (fun a : PcState α × Bool => Ok3 N a.1) (refinePairObj o call x pds (a, s) y) := by
  unfold refinePairObj testCiIncreasingObj
  rcases firstIndepObj_fine (condSets o x y (pds \ {y})) a.1.calls s hs (condSets_query o hx hy hxy hp hxp) with
    ⟨r, m, s', h1, h2⟩ | ⟨e, s', l, h1, h2⟩
  · cases r with
    | none =>
      exact Or.inl ⟨({ a.1 with calls := m }, a.2 || false), s', by simp only [h1]; rfl, ⟨ha.proper, ha.nodes, ha.types, ha.key⟩, h2⟩
    | some z =>
      exact Or.inl ⟨(⟨a.1.graph.deleteEdge x y, a.1.sep.set x y z.toFinset, m⟩, a.2 || true), s', by simp only [h1]; rfl,
        ha.delete x y _ m, h2⟩
  · exact Or.inr ⟨e, s', x, y, l, by simp only [h1]; rfl, h2⟩

theorem refineObj_fine (o : SetOrder α) {st : PcState α} (hst : Ok3 N st) {s₀ s : σ} (hs : Reach N call s₀ s) :
    Fine N call s₀ (fun a : PcState α × Bool => Ok3 N a.1) (refineObj o call st s) := by
  unfold refineObj
  obtain ⟨d, d1, d2⟩ := pdsList_ok o hst
  rw [d1]
  refine foldlM_fine (P := fun a : PcState α × Bool => Ok3 N a.1) _ (fun x hx a s ha hs' => ?_) (st, false) s hst hs
  have hx : x ∈ N := hst.nodes ▸ (o.mem _ _ _).mp hx
  obtain ⟨P, p1, p2, p3⟩ := d2 x hx
  rw [p1]
  exact foldlM_fine (P := fun a : PcState α × Bool => Ok3 N a.1) _ (fun y hy b s hb hs'' =>
    refinePairObj_fine o hx (adjacent_ok ha o _ hy).1 (adjacent_ok ha o _ hy).2 p2 p3 hb hs'') a s ha hs'

theorem pcSkeletonObj_fine (o : SetOrder α) (N : Finset α) (s₀ : σ) : Fine N call s₀ (Ok3 N) (pcSkeletonObj o call N s₀) := by
  unfold pcSkeletonObj
  refine (skeletonLoopObj_fine (N := N) o true (init_ok2 o N).wf rfl (N.card + 2) 0 (init o N) s₀ (by omega) (by omega) (init_ok2 o N)
    .start).bind fun pc s hpc hs => ?_
  obtain ⟨sep, s1, -, s3⟩ := SepSet.copyLoop_spec pc.sep (pairs (o.iter () N)) (SepSet.init o N) (by
    rintro ⟨i, j⟩ hij
    exact hpc.key i ((o.mem _ _ _).mp (mem_pairs_left hij)) j ((o.mem _ _ _).mp (mem_pairs_right hij))
      (mem_pairs_ne (o.nodup _ _) hij))
  obtain ⟨G, g1, g2, g3, g4, -⟩ := copySkeleton_spec o N hpc.wf
  have s1' : (SepSet.init o N).copyFrom o pc.sep N = .ok sep := s1
  refine Or.inl ⟨⟨G, sep, pc.calls⟩, s, by simp only [py_bind s1', py_bind g1]; rfl, ⟨g2, g3, g4, ?_⟩, hs⟩
  intro i hi j hj hij
  have := s3 (SepSet.hkey i j)
  rw [if_pos ((SepSet.pair_key_iff o () N i j).mpr ⟨hi, hj, hij⟩)] at this
  obtain ⟨S, hS⟩ := hpc.key i hi j hj hij
  refine ⟨S, ?_⟩
  rw [← hS]
  simp only [SepSet.get, Dict.get, this]

theorem vs_ok (o : SetOrder α) {st : PcState α} (h : Ok3 N st) :
    ∃ G, st.graph.pagVStructures o (some st.sep) = .ok G ∧ Ok3 N { st with graph := G } := by
  obtain ⟨G, g1, g2, -⟩ := pagVStructures_spec o st.sep h.proper (by rw [h.types]; exact pagTypes_all) (by rw [h.nodes]; exact h.key)
  exact ⟨G, g1, g2.proper, g2.nodes.trans h.nodes, g2.types.trans h.types, h.key⟩

theorem orient_ok (o : SetOrder α) (selection tails : Bool) {st : PcState α} (h : Ok3 N st) :
    ∃ G H, reorient o st.sep st.graph = .ok G ∧ finalRules o st.sep selection tails G = .ok H := by
  obtain ⟨G, g1, g2, -⟩ := reorient_spec o st.sep h.proper h.types (by rw [h.nodes]; exact h.key)
  obtain ⟨H, h1, -⟩ := finalRules_spec o st.sep selection tails g2.proper (g2.types.trans h.types)
  exact ⟨G, H, g1, h1⟩

theorem learnStructureObj_fine (o : SetOrder α) (selection tails : Bool) (N : Finset α) (s₀ : σ) :
    Fine N call s₀ (fun _ => True) (learnStructureObj o call selection tails N s₀) := by
  unfold learnStructureObj
  refine (pcSkeletonObj_fine o N s₀).bind fun st s hst hs => ?_
  obtain ⟨G, g1, g2⟩ := vs_ok o hst
  simp only [py_bind g1]
  refine (refineObj_fine o g2 hs).bind fun r s hr hs => ?_
  obtain ⟨G', H, k1, k2⟩ := orient_ok o selection tails hr
  exact Or.inl ⟨({ r.1 with graph := H }, r.2), s, by simp only [py_bind k1, py_bind k2]; rfl, trivial, hs⟩

theorem pcSkeletonObj_same (h : Alike N call call' R) (o : SetOrder α) {s : σ} {t : τ} (hR : R s t) :
    Same2 (Ok3 N) R (pcSkeletonObj o call N s) (pcSkeletonObj o call' N t) := by
  refine Same2.fine (P := fun _ => True) (N := N) (call := call) (s₀ := s) ?_ (pcSkeletonObj_fine o N s)
  unfold pcSkeletonObj
  refine (skeletonLoopObj_same h o true (MG.pdagComplete_wf N) rfl (N.card + 2) 0 (init o N) s t ⟨MG.pdagComplete_wf N, rfl⟩ hR).bind
    fun pc s t _ hst => ?_
  refine Same2.pure_bind fun sep _ => Same2.pure_bind fun G _ => ?_
  exact Or.inr ⟨⟨G, sep, pc.calls⟩, s, t, rfl, rfl, trivial, hst⟩

theorem learnStructureObj_same (h : Alike N call call' R) (o : SetOrder α) (selection tails : Bool) {s : σ} {t : τ} (hR : R s t) :
    Same2 (fun _ => True) R (learnStructureObj o call selection tails N s) (learnStructureObj o call' selection tails N t) := by
  unfold learnStructureObj
  refine (pcSkeletonObj_same h o hR).bind fun st s t hst hR => ?_
  obtain ⟨G, g1, g2⟩ := vs_ok o hst
  simp only [py_bind g1]
  refine (refineObj_same h o g2 hR).bind fun r s t hr hR => ?_
  refine Same2.pure_bind fun G _ => Same2.pure_bind fun H _ => ?_
  exact Or.inr ⟨({ r.1 with graph := H }, r.2), s, t, rfl, rfl, trivial, hR⟩

/-! ## Tests without exceptions -/

/-- The state of the refinement with the state of a test that is given by its answers. -/
def withCalls2 (a : PcState α × Bool) : (PcState α × Bool) × Nat := (a, a.1.calls)

theorem refinePairObj_of (o : SetOrder α) (ci : CITest α) (x : α) (pds : Finset α) (a : PcState α × Bool) (y : α) :
    refinePairObj o (ofCI ci) x pds (withCalls2 a) y =
      .ok (withCalls2 (let r := testCiIncreasing o ci a.1 x y (pds \ {y}); (r.1, a.2 || r.2))) := by
  unfold refinePairObj testCiIncreasingObj testCiIncreasing
  have h := firstIndepObj_of ci x y (condSets o x y (pds \ {y})) a.1.calls
  rcases hf : firstIndep ci x y (condSets o x y (pds \ {y})) a.1.calls with ⟨_ | z, k⟩
  · rw [hf] at h
    simp only [withCalls2, h]; rfl
  · rw [hf] at h
    simp only [withCalls2, h]; rfl

theorem refineInner_of (o : SetOrder α) (ci : CITest α) (x : α) (pds : Finset α) : ∀ (l : List α) (a : PcState α × Bool),
    l.foldlM (refinePairObj o (ofCI ci) x pds) (withCalls2 a) =
      .ok (withCalls2 (l.foldl (fun (acc : PcState α × Bool) y =>
        let r := testCiIncreasing o ci acc.1 x y (pds \ {y})
        (r.1, acc.2 || r.2)) a)) := by
  intro l
  induction l with
  | nil => intro a; rfl
  | cons y l ih =>
    intro a
    rw [List.foldlM_cons, refinePairObj_of, List.foldl_cons]
    exact ih _

theorem refineObj_of (o : SetOrder α) (ci : CITest α) (st : PcState α) :
    refineObj o (ofCI ci) st st.calls = (refine o ci st).map withCalls2 := by
  unfold refineObj refine
  cases hd : (o.iter 0 st.graph.nodes).foldlM (fun (d : Dict α (Finset α)) x => do
      let S ← st.graph.createPdsSet o x
      return Dict.set d x S) [] with
  | error e => rfl
  | ok d =>
    refine foldlM_map (w := withCalls2) (fun a x => ?_) (o.iter 1 st.graph.nodes) (st, false)
    cases hp : Dict.get d x with
    | error e => rfl
    | ok P => exact refineInner_of o ci x P _ a

theorem pcSkeletonObj_of (o : SetOrder α) (ci : CITest α) (N : Finset α) :
    pcSkeletonObj o (ofCI ci) N 0 = (pcSkeleton o ci N).map Pc.withCalls := by
  unfold pcSkeletonObj pcSkeleton
  rw [show (init o N, 0) = Pc.withCalls (init o N) from rfl, skeletonLoopObj_of, learnSkeleton]
  change ((skeletonLoop o ci true (init o N).graph (N.card + 2) 0 (init o N)).map Pc.withCalls >>= _) =
    ((skeletonLoop o ci true (init o N).graph (N.card + 2) 0 (init o N)) >>= _).map _
  cases h1 : skeletonLoop o ci true (init o N).graph (N.card + 2) 0 (init o N) with
  | error e => rfl
  | ok pc =>
    change ((SepSet.init o N).copyFrom o pc.sep N >>= _) = ((SepSet.init o N).copyFrom o pc.sep N >>= _).map _
    cases h2 : (SepSet.init o N).copyFrom o pc.sep N with
    | error e => rfl
    | ok sep =>
      change ((pagEmpty N).copySkeleton o pc.graph N >>= _) = ((pagEmpty N).copySkeleton o pc.graph N >>= _).map _
      cases h3 : (pagEmpty N).copySkeleton o pc.graph N <;> rfl

/-- The model with a test object extends the model of `Model/Fci.lean`. -/
theorem learnStructureObj_of (o : SetOrder α) (ci : CITest α) (selection tails : Bool) (N : Finset α) :
    learnStructureObj o (ofCI ci) selection tails N 0 = (learnStructure o ci selection tails N).map withCalls2 := by
  unfold learnStructureObj learnStructure
  rw [pcSkeletonObj_of]
  cases h1 : pcSkeleton o ci N with
  | error e => rfl
  | ok st =>
    change (st.graph.pagVStructures o (some st.sep) >>= _) = (st.graph.pagVStructures o (some st.sep) >>= _).map _
    cases h2 : st.graph.pagVStructures o (some st.sep) with
    | error e => rfl
    | ok G =>
      change (refineObj o (ofCI ci) { st with graph := G } ({ st with graph := G } : PcState α).calls >>= _) =
        (refine o ci { st with graph := G } >>= _).map _
      rw [refineObj_of]
      cases h3 : refine o ci { st with graph := G } with
      | error e => rfl
      | ok r =>
        change (reorient o r.1.sep r.1.graph >>= _) = (reorient o r.1.sep r.1.graph >>= _).map _
        cases h4 : reorient o r.1.sep r.1.graph with
        | error e => rfl
        | ok G' =>
          change (finalRules o r.1.sep selection tails G' >>= _) = (finalRules o r.1.sep selection tails G' >>= _).map _
          cases h5 : finalRules o r.1.sep selection tails G' <;> rfl

end Fci
end Verif
