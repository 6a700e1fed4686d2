import Verif.Lemmas.OIcdRun

/-!
# Ordered ICD: no tests with more conditioning variables than the bound
-/

namespace Verif
variable {α : Type} [LinearOrder α]
namespace OIcd

variable {ci ci' : CITest α} {opts : OIcdOpts α} {k : Nat}

omit [LinearOrder α] in
theorem firstIndep_congr (h : Agree k ci ci') {i j : α} :
    ∀ (zs : List (List α)) (n : Nat), (∀ z ∈ zs, z.length ≤ k) → Pc.firstIndep ci i j zs n = Pc.firstIndep ci' i j zs n
  | [], _, _ => rfl
  | z :: zs, n, hz => by
    rw [Pc.firstIndep, Pc.firstIndep, h n i j z (hz z (by simp)),
      firstIndep_congr h zs (n + 1) (fun z' h' => hz z' (List.mem_cons_of_mem _ h'))]

theorem testPair_congr (h : Agree k ci ci') {st : OIcdState α} {a b : α} {zs : List (List α)} (hz : ∀ z ∈ zs, z.length ≤ k) :
    testPair ci st a b zs = testPair ci' st a b zs := by
  rw [testPair, testPair, firstIndep_congr h zs st.calls hz]

theorem phase0_congr (h : Agree k ci ci') (order : List α) (i : Nat) (st : OIcdState α) :
    phase0 ci order i st = phase0 ci' order i st := by
  rw [phase0, phase0]
  have : ∀ n (a b : α), ci n a b [] = ci' n a b [] := fun n a b => h n a b [] (by simp)
  simp only [this]

theorem phase1_congr (o : SetOrder α) (h : Agree k ci ci') (hk : 1 ≤ k) (order : List α) (i : Nat) (st : OIcdState α) :
    phase1 o ci order i st = phase1 o ci' order i st := by
  rw [phase1, phase1]
  have : ∀ (st : OIcdState α) (a b : α) (l : List α), testPair ci st a b (l.map (fun z => [z])) =
      testPair ci' st a b (l.map (fun z => [z])) := by
    intro st a b l
    refine testPair_congr h fun z hz => ?_
    obtain ⟨v, -, rfl⟩ := List.mem_map.mp hz
    exact hk
  simp only [this]

theorem py_bind_congr {β γ : Type} {x : Py β} {f g : β → Py γ} (h : ∀ a, x = .ok a → f a = g a) : (x >>= f) = (x >>= g) := by
  cases hx : x with
  | error e => rfl
  | ok a => exact h a hx

theorem length_iter (o : SetOrder α) {τ : Type} (t : τ) (S : Finset α) : (o.iter t S).length = S.card := by
  rw [← List.toFinset_card_of_nodup (o.nodup t S)]
  congr 1
  ext v
  rw [List.mem_toFinset, o.mem]

theorem phaseR_congr (o : SetOrder α) (h : Agree k ci ci') {r : Nat} (hk : r ≤ k) (order : List α) (i : Nat) (st : OIcdState α) :
    phaseR o ci order r i st = phaseR o ci' order r i st := by
  rw [phaseR, phaseR]
  refine py_bind_congr fun base _ => ?_
  split_ifs
  · rfl
  · refine py_bind_congr fun ⟨t, S⟩ _ => ?_
    simp only
    congr 1
    funext acc ancIdx
    refine py_bind_congr fun anc _ => ?_
    split_ifs
    · rfl
    · refine py_bind_congr fun c _ => ?_
      split_ifs
      · rfl
      · refine py_bind_congr fun zs hzs => ?_
        have hlen : ∀ z ∈ zs.map (fun c => o.iter (anc, base) c.1), z.length ≤ k := by
          intro z hz
          obtain ⟨⟨T, d⟩, hc, rfl⟩ := List.mem_map.mp hz
          have := (UGraph.filterPy_sublist hzs).subset hc
          rw [List.mem_insertionSort] at this
          rw [length_iter, (((C47_subsets o t S r).2 T d).mp this).2.1]
          exact hk
        rw [testPair_congr h hlen, firstIndep_congr h _ _ hlen]

theorem nodeSizes_congr (o : SetOrder α) (h : Agree k ci ci') (i : Nat) :
    ∀ (n r : Nat) (st : OIcdState α), r + n ≤ k + 1 → nodeSizes o ci opts i n r st = nodeSizes o ci' opts i n r st
  | 0, _, _, _ => rfl
  | n + 1, r, st, hr => by
    rw [nodeSizes, nodeSizes]
    refine py_bind_congr fun base _ => ?_
    split_ifs
    · rfl
    · rw [phaseR_congr o h (by omega)]
      refine py_bind_congr fun ⟨s, d⟩ _ => py_bind_congr fun s' _ => ?_
      exact nodeSizes_congr o h i n (r + 1) s' (by omega)

theorem nodeConnection_congr (o : SetOrder α) (h : Agree k ci ci') {i : Nat} (hk : maxSize opts i ≤ k) (st : OIcdState α) :
    nodeConnection o ci opts i st = nodeConnection o ci' opts i st := by
  by_cases hi0 : i = 0
  · have : ∀ ci : CITest α, nodeConnection o ci opts i st = .error .assertionError := by
      intro ci
      rw [nodeConnection, if_pos hi0]
      rfl
    rw [this, this]
  have hun : ∀ ci : CITest α, nodeConnection o ci opts i st = (do
      let st ← phase0 ci opts.order i st
      let st ← orient o opts true st
      if maxSize opts i = 0 then return st
      let st ← phase1 o ci opts.order i st
      let st ← orient o opts true st
      if maxSize opts i = 1 then return st
      nodeSizes o ci opts i (maxSize opts i - 1) 2 st) := by
    intro ci
    rw [nodeConnection, if_neg hi0]
    rfl
  rw [hun, hun, phase0_congr h]
  refine py_bind_congr fun s1 _ => py_bind_congr fun s2 _ => ?_
  by_cases h0 : maxSize opts i = 0
  · simp only [if_pos h0]
  · simp only [if_neg h0]
    rw [phase1_congr o h (by omega)]
    refine py_bind_congr fun s3 _ => py_bind_congr fun s4 _ => ?_
    rw [nodeSizes_congr o h i _ _ _ (by omega)]

theorem foldlM_congr {β γ : Type} {f g : γ → β → Py γ} : ∀ (l : List β) (s : γ), (∀ s, ∀ x ∈ l, f s x = g s x) →
    l.foldlM f s = l.foldlM g s
  | [], _, _ => rfl
  | x :: l, s, h => by
    rw [List.foldlM_cons, List.foldlM_cons, h s x (by simp)]
    exact py_bind_congr fun s' _ => foldlM_congr l s' (fun s y hy => h s y (List.mem_cons_of_mem _ hy))

theorem learnLocal_congr (o : SetOrder α) {st : OIcdState α} (hl : opts.order.length = st.graph.nodes.card)
    (h : Agree (sizeBound opts) ci ci') :
    learnLocal o ci opts st = learnLocal o ci' opts st := by
  rw [learnLocal, learnLocal, foldlM_congr (pyRange 1 st.graph.nodes.card) st (fun s i hi => ?_)]
  refine nodeConnection_congr o h ?_ s
  rw [mem_pyRange] at hi
  rw [maxSize, sizeBound]
  cases opts.maxCond with
  | none => simp only; omega
  | some m => simp only; omega

theorem globalSizes_congr (o : SetOrder α) (h : Agree k ci ci') :
    ∀ (n r : Nat) (d : Bool) (st : OIcdState α), r + n ≤ k + 1 → globalSizes o ci opts n r d st = globalSizes o ci' opts n r d st
  | 0, _, _, _, _ => rfl
  | n + 1, r, d, st, hr => by
    rw [globalSizes, globalSizes, foldlM_congr (pyRange (r + 1) st.graph.nodes.card) (st, d) (fun s i hi => ?_)]
    · refine py_bind_congr fun ⟨s, d⟩ _ => ?_
      simp only
      split_ifs
      · rfl
      · exact py_bind_congr fun s' _ => globalSizes_congr o h n (r + 1) _ s' (by omega)
    · rw [phaseR_congr o h (by omega)]

theorem learnGlobal_congr (o : SetOrder α) {st : OIcdState α} (hl : opts.order.length = st.graph.nodes.card)
    (h : Agree (max 1 (sizeBound opts)) ci ci') :
    learnGlobal o ci opts st = learnGlobal o ci' opts st := by
  have hmax : ∀ maxc, (match opts.maxCond with
      | some m => m + 1
      | none => st.graph.nodes.card - 2 + 1) = maxc → 2 + (maxc - 2) ≤ max 1 (sizeBound opts) + 1 := by
    rintro maxc rfl
    rw [sizeBound]
    cases hmc : opts.maxCond with
    | none => simp only; omega
    | some m => simp only; omega
  rw [learnGlobal, learnGlobal]
  simp only [phase0_congr h, phase1_congr o h (le_max_left _ _)]
  refine py_bind_congr fun s1 _ => py_bind_congr fun s2 _ => py_bind_congr fun s3 _ => py_bind_congr fun s4 _ => ?_
  exact congrArg (· >>= _) (globalSizes_congr o h _ _ _ _ (hmax _ rfl))

end OIcd
end Verif
