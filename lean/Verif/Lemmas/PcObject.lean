import Verif.Model.PcObject
import Verif.Lemmas.Pc

/-!
# Two test objects that answer alike lead PC to the same result
-/

namespace Verif
namespace Pc
variable {α σ τ : Type} [LinearOrder α]

/-- The queries that PC may ask about the nodes `N`. -/
def Query (N : Finset α) (i j : α) (l : List α) : Prop :=
  i ∈ N ∧ j ∈ N ∧ i ≠ j ∧ l.Nodup ∧ ∀ z ∈ l, z ∈ N ∧ z ≠ i ∧ z ≠ j

/-- States of two test objects that answer alike, now and in the future. -/
structure Alike (N : Finset α) (call : Call α σ) (call' : Call α τ) (R : σ → τ → Prop) : Prop where
  answer : ∀ s t, R s t → ∀ i j l, Query N i j l → (call s i j l).1 = (call' t i j l).1
  next : ∀ s t, R s t → ∀ i j l, Query N i j l → ∀ b, (call s i j l).1 = .ok b → R (call s i j l).2 (call' t i j l).2

/-- Both runs raise the same exception, or both return the same value and related test objects. -/
def Same2 {β : Type} (P : β → Prop) (R : σ → τ → Prop) (x : Py (β × σ)) (y : Py (β × τ)) : Prop :=
  (∃ e, x = .error e ∧ y = .error e) ∨ ∃ a s t, x = .ok (a, s) ∧ y = .ok (a, t) ∧ P a ∧ R s t

variable {N : Finset α} {call : Call α σ} {call' : Call α τ} {R : σ → τ → Prop}

omit [LinearOrder α] in
theorem firstIndepObj_same (h : Alike N call call' R) {i j : α} : ∀ (zs : List (List α)) (k : Nat) (s : σ) (t : τ), R s t →
    (∀ z ∈ zs, Query N i j z) →
    (∃ e, firstIndepObj call i j zs k s = .error e ∧ firstIndepObj call' i j zs k t = .error e) ∨
      ∃ a m s' t', firstIndepObj call i j zs k s = .ok (a, m, s') ∧ firstIndepObj call' i j zs k t = .ok (a, m, t') ∧ R s' t' := by
  intro zs
  induction zs with
  | nil => intro k s t hR _; exact Or.inr ⟨none, k, s, t, rfl, rfl, hR⟩
  | cons z zs ih =>
    intro k s t hR hq
    have h1 := h.answer s t hR i j z (hq z (by simp))
    have h2 := h.next s t hR i j z (hq z (by simp))
    rw [firstIndepObj, firstIndepObj]
    rcases hc : call s i j z with ⟨r, s'⟩
    rcases hc' : call' t i j z with ⟨r', t'⟩
    rw [hc, hc'] at h1 h2
    obtain rfl : r = r' := h1
    match r, h2 with
    | .error e, _ => exact Or.inl ⟨e, rfl, rfl⟩
    | .ok true, h2 => exact Or.inr ⟨some z, k + 1, s', t', rfl, rfl, h2 true rfl⟩
    | .ok false, h2 => exact ih (k + 1) s' t' (h2 false rfl) (fun z' hz' => hq z' (by simp [hz']))

/-- What the search keeps. -/
def Ok (N : Finset α) (st : PcState α) : Prop := st.graph.PdagWF ∧ st.graph.nodes = N

theorem condSets_query (o : SetOrder α) {src : MG α} (hsrc : src.PdagWF) (hn : src.nodes = N) {size : Nat} {i j : α} (hi : i ∈ N)
    (hj : j ∈ N) (hij : i ≠ j) : ∀ z ∈ condSets o src size i j, Query N i j z := by
  intro z hz
  have hm := mem_condSets o hsrc hz
  refine ⟨hi, hj, hij, ?_, fun x hx => ⟨hn ▸ hm.2.2 x hx, fun e => hm.1 (e ▸ hx), fun e => hm.2.1 (e ▸ hx)⟩⟩
  rw [condSets, mem_uniqueElems, List.mem_append, mem_combs, mem_combs] at hz
  rcases hz.1 with h | h <;> exact h.1.nodup (o.nodup _ _)

theorem testPairObj_same (h : Alike N call call' R) (o : SetOrder α) {src : MG α} (hsrc : src.PdagWF) (hn : src.nodes = N) (size : Nat)
    {st : PcState α} (hst : Ok N st) {s : σ} {t : τ} (hR : R s t) {i j : α} (hi : i ∈ N) (hj : j ∈ N) (hij : i ≠ j) :
    Same2 (Ok N) R (testPairObj o call src size (st, s) (i, j)) (testPairObj o call' src size (st, t) (i, j)) := by
  unfold testPairObj
  cases hc : src.isConnected i j with
  | error e => exact Or.inl ⟨e, rfl, rfl⟩
  | ok b =>
    cases b with
    | false => exact Or.inr ⟨st, s, t, rfl, rfl, hst, hR⟩
    | true =>
      rcases firstIndepObj_same h (condSets o src size i j) st.calls s t hR (condSets_query o hsrc hn hi hj hij) with
        ⟨e, h1, h2⟩ | ⟨a, m, s', t', h1, h2, h3⟩
      · refine Or.inl ⟨e, ?_, ?_⟩
        · simp only [h1]; rfl
        · simp only [h2]; rfl
      · cases a with
        | none =>
          refine Or.inr ⟨{ st with calls := m }, s', t', ?_, ?_, hst, h3⟩
          · simp only [h1]; rfl
          · simp only [h2]; rfl
        | some z =>
          refine Or.inr ⟨⟨st.graph.pdagDeleteEdge i j, st.sep.set i j z.toFinset, m⟩, s', t', ?_, ?_,
            ⟨MG.deleteEdge_wf hst.1 i j, hst.2⟩, h3⟩
          · simp only [h1]; rfl
          · simp only [h2]; rfl

theorem foldlM_same {β γ : Type} {P : β → Prop} {f : β × σ → γ → Py (β × σ)} {g : β × τ → γ → Py (β × τ)} : ∀ (l : List γ),
    (∀ x ∈ l, ∀ a s t, P a → R s t → Same2 P R (f (a, s) x) (g (a, t) x)) → ∀ a s t, P a → R s t →
      Same2 P R (l.foldlM f (a, s)) (l.foldlM g (a, t)) := by
  intro l
  induction l with
  | nil => intro _ a s t hP hR; exact Or.inr ⟨a, s, t, rfl, rfl, hP, hR⟩
  | cons x l ih =>
    intro hl a s t hP hR
    rw [List.foldlM_cons, List.foldlM_cons]
    rcases hl x (by simp) a s t hP hR with ⟨e, h1, h2⟩ | ⟨a', s', t', h1, h2, h3, h4⟩
    · rw [h1, h2]
      exact Or.inl ⟨e, rfl, rfl⟩
    · rw [h1, h2]
      exact ih (fun y hy => hl y (by simp [hy])) a' s' t' h3 h4

theorem skeletonLoopObj_same (h : Alike N call call' R) (o : SetOrder α) (overwrite : Bool) {orig : MG α} (horig : orig.PdagWF)
    (hon : orig.nodes = N) : ∀ (n size : Nat) (st : PcState α) (s : σ) (t : τ), Ok N st → R s t →
      Same2 (Ok N) R (skeletonLoopObj o call overwrite orig n size (st, s)) (skeletonLoopObj o call' overwrite orig n size (st, t)) := by
  intro n
  induction n with
  | zero => intro size st s t _ _; exact Or.inl ⟨_, rfl, rfl⟩
  | succ n ih =>
    intro size st s t hst hR
    rw [skeletonLoopObj, skeletonLoopObj]
    by_cases he : exitCond st.graph size
    · rw [if_pos he, if_pos he]
      exact Or.inr ⟨st, s, t, rfl, rfl, hst, hR⟩
    · rw [if_neg he, if_neg he]
      have key := foldlM_same (P := Ok N) (R := R)
        (f := fun st ij => testPairObj o call (if overwrite then st.1.graph else orig) size st ij)
        (g := fun st ij => testPairObj o call' (if overwrite then st.1.graph else orig) size st ij)
        (pairs (o.iter size orig.nodes)) (fun ij hij a s t ha hst => by
          have hi : ij.1 ∈ N := hon ▸ (o.mem _ _ _).mp (mem_pairs_left (b := ij.2) hij)
          have hj : ij.2 ∈ N := hon ▸ (o.mem _ _ _).mp (mem_pairs_right (a := ij.1) hij)
          have hne : ij.1 ≠ ij.2 := mem_pairs_ne (o.nodup _ _) hij
          cases overwrite with
          | true => exact testPairObj_same h o ha.1 ha.2 size ha hst hi hj hne
          | false => exact testPairObj_same h o horig hon size ha hst hi hj hne) st s t hst hR
      rcases key with ⟨e, h1, h2⟩ | ⟨a', s', t', h1, h2, h3, h4⟩
      · rw [h1, h2]
        exact Or.inl ⟨e, rfl, rfl⟩
      · rw [h1, h2]
        exact ih (size + 1) a' s' t' h3 h4

theorem learnStructureObj_same (h : Alike N call call' R) (o : SetOrder α) (overwrite : Bool) {s : σ} {t : τ} (hR : R s t) :
    Same2 (fun _ => True) R (learnStructureObj o call overwrite (init o N) s) (learnStructureObj o call' overwrite (init o N) t) := by
  unfold learnStructureObj
  rcases skeletonLoopObj_same h o overwrite (MG.pdagComplete_wf N) rfl ((init o N).graph.nodes.card + 2) 0 (init o N) s t
    ⟨MG.pdagComplete_wf N, rfl⟩ hR with ⟨e, h1, h2⟩ | ⟨a, s', t', h1, h2, -, h4⟩
  · refine Or.inl ⟨e, ?_, ?_⟩
    · rw [show (init o N).graph = MG.pdagComplete N from rfl] at *
      rw [h1]; rfl
    · rw [show (init o N).graph = MG.pdagComplete N from rfl] at *
      rw [h2]; rfl
  · rw [show (init o N).graph = MG.pdagComplete N from rfl] at *
    rw [h1, h2]
    show Same2 _ _ ((orientVStructures o a.sep a.graph) >>= _) ((orientVStructures o a.sep a.graph) >>= _)
    cases h5 : orientVStructures o a.sep a.graph with
    | error e => exact Or.inl ⟨e, rfl, rfl⟩
    | ok G =>
      show Same2 _ _ (((G.convertBidirected o G.nodes).maximallyOrient o [1, 2, 3] (G.convertBidirected o G.nodes).nodes) >>= _)
        (((G.convertBidirected o G.nodes).maximallyOrient o [1, 2, 3] (G.convertBidirected o G.nodes).nodes) >>= _)
      cases h6 : (G.convertBidirected o G.nodes).maximallyOrient o [1, 2, 3] (G.convertBidirected o G.nodes).nodes with
      | error e => exact Or.inl ⟨e, rfl, rfl⟩
      | ok G' => exact Or.inr ⟨{ a with graph := G' }, s', t', rfl, rfl, trivial, h4⟩

/-! ## Tests without exceptions -/

/-- A test that is given by its answers; the state is the number of calls. -/
def ofCI (ci : CITest α) : Call α Nat := fun k i j l => (.ok (ci k i j l), k + 1)

omit [LinearOrder α] in
theorem firstIndepObj_of (ci : CITest α) (i j : α) : ∀ (zs : List (List α)) (k : Nat),
    firstIndepObj (ofCI ci) i j zs k k = .ok ((firstIndep ci i j zs k).1, (firstIndep ci i j zs k).2, (firstIndep ci i j zs k).2) := by
  intro zs
  induction zs with
  | nil => intro k; rfl
  | cons z zs ih =>
    intro k
    rw [firstIndepObj, firstIndep, ofCI]
    cases hc : ci k i j z with
    | true => rfl
    | false => exact ih (k + 1)

/-- The state of the learner with the state of such a test. -/
def withCalls (st : PcState α) : PcState α × Nat := (st, st.calls)

theorem testPairObj_of (o : SetOrder α) (ci : CITest α) (src : MG α) (size : Nat) (st : PcState α) (ij : α × α) :
    testPairObj o (ofCI ci) src size (withCalls st) ij = (testPair o ci src size st ij).map withCalls := by
  unfold testPairObj testPair
  cases hc : src.isConnected ij.1 ij.2 with
  | error e => rfl
  | ok b =>
    cases b with
    | false => rfl
    | true =>
      have h := firstIndepObj_of ci ij.1 ij.2 (condSets o src size ij.1 ij.2) st.calls
      rcases hf : firstIndep ci ij.1 ij.2 (condSets o src size ij.1 ij.2) st.calls with ⟨_ | z, k⟩
      · rw [hf] at h
        simp only [withCalls, h]; rfl
      · rw [hf] at h
        simp only [withCalls, h]; rfl

omit [LinearOrder α] in
theorem foldlM_of {γ : Type} {f : PcState α × Nat → γ → Py (PcState α × Nat)} {g : PcState α → γ → Py (PcState α)}
    (h : ∀ st x, f (withCalls st) x = (g st x).map withCalls) : ∀ (l : List γ) (st : PcState α),
    l.foldlM f (withCalls st) = (l.foldlM g st).map withCalls := by
  intro l
  induction l with
  | nil => intro st; rfl
  | cons x l ih =>
    intro st
    rw [List.foldlM_cons, List.foldlM_cons, h]
    cases hg : g st x with
    | error e => rfl
    | ok st' => exact ih st'

theorem skeletonLoopObj_of (o : SetOrder α) (ci : CITest α) (overwrite : Bool) (orig : MG α) : ∀ (n size : Nat) (st : PcState α),
    skeletonLoopObj o (ofCI ci) overwrite orig n size (withCalls st) = (skeletonLoop o ci overwrite orig n size st).map withCalls := by
  intro n
  induction n with
  | zero => intro size st; rfl
  | succ n ih =>
    intro size st
    rw [skeletonLoopObj, skeletonLoop]
    by_cases he : exitCond st.graph size
    · rw [if_pos he, if_pos (show exitCond (withCalls st).1.graph size from he)]
      rfl
    · rw [if_neg he, if_neg (show ¬ exitCond (withCalls st).1.graph size from he),
        foldlM_of (g := fun st ij => testPair o ci (if overwrite then st.graph else orig) size st ij)
          (fun st ij => testPairObj_of o ci _ size st ij)]
      cases hf : (pairs (o.iter size orig.nodes)).foldlM (fun st ij => testPair o ci (if overwrite then st.graph else orig) size st ij) st with
      | error e => rfl
      | ok st' => exact ih (size + 1) st'

/-- The model with a test object extends the model of `Model/Pc.lean`. -/
theorem learnStructureObj_of (o : SetOrder α) (ci : CITest α) (overwrite : Bool) (st : PcState α) :
    learnStructureObj o (ofCI ci) overwrite st st.calls = (learnStructure o ci overwrite st).map withCalls := by
  unfold learnStructureObj learnStructure
  rw [show (st, st.calls) = withCalls st from rfl, skeletonLoopObj_of, learnSkeleton]
  cases h1 : skeletonLoop o ci overwrite st.graph (st.graph.nodes.card + 2) 0 st with
  | error e => rfl
  | ok st' =>
    show (orientVStructures o st'.sep st'.graph >>= _) = (orientVStructures o st'.sep st'.graph >>= _).map withCalls
    cases h5 : orientVStructures o st'.sep st'.graph with
    | error e => rfl
    | ok G =>
      show (((G.convertBidirected o G.nodes).maximallyOrient o [1, 2, 3] (G.convertBidirected o G.nodes).nodes) >>= _) =
        (((G.convertBidirected o G.nodes).maximallyOrient o [1, 2, 3] (G.convertBidirected o G.nodes).nodes) >>= _).map withCalls
      cases h6 : (G.convertBidirected o G.nodes).maximallyOrient o [1, 2, 3] (G.convertBidirected o G.nodes).nodes <;> rfl

end Pc
end Verif
