import Verif.Lemmas.Cleann
import Verif.Props.PdsTree
import Verif.Lemmas.OrdMarks
import Verif.Lemmas.SepSet

/-!
# C55: explanations
-/

namespace Verif
open Cleann PdsTree
variable {α : Type} [DecidableEq α]

/-- C55, the search of `explain` with a tester. Let `G` be the stored graph, or the learned one if there is none yet. The call
succeeds; it returns exactly the candidates that pass the test, each with the sum of the distances of its nodes, restricted
to those of the least size if `search_minimal` is set; no set twice; in the order of size, then of distance. -/
theorem C55_explain (o : SetOrder α) (learn : Py (MG α)) {st : CleannState α} {G : MG α} (hG : G.Proper)
    (hst : st.graph = some G ∨ st.graph = none ∧ learn = .ok G) {test : List α → α → Bool} (ht : st.tester = some test)
    {target : α} (hm : target ∈ G.nodes) (maxSize : Option Int) (maxRange : Option Nat) :
    ∃ st' res t S, Cleann.explain o learn st target maxSize maxRange = .ok (st', res) ∧
      G.createPdsTree o target none maxRange = .ok (t, S) ∧
      (∀ T d, (T, d) ∈ res ↔ Candidate t S (maxSize.getD S.card) T ∧ test (o.iter target T) target = true ∧
        d = ∑ v ∈ T, t.minDist v ∧
        (st.minimal = true → ∀ T', Candidate t S (maxSize.getD S.card) T' → T'.card < T.card →
          test (o.iter target T') target = false)) ∧
      (res.map Prod.fst).Nodup ∧ res.Pairwise Earlier ∧
      (st'.graph = some G ∧ st'.tester = st.tester ∧ st'.minimal = st.minimal ∧
        Dict.get? st'.results target = some ⟨t, S, t.maxDepth, res⟩ ∧
        ∀ v, v ≠ target → Dict.get? st'.results v = Dict.get? st.results v) := by
  obtain ⟨t, S, h1, -⟩ := C48_tree o hG (en := none) maxRange (by simp) hm
  refine ⟨_, _, t, S, explain_eq hst h1 maxSize, h1, ?_, ?_, ?_, ⟨rfl, rfl, rfl, ?_, ?_⟩⟩
  · intro T d
    rw [ht]
    simp only
    rw [sizes_eq, loop_spec]
    constructor
    · rintro ⟨k, a1, a2, a3, a4⟩
      obtain ⟨⟨b1, b2, b3, b4⟩, b5⟩ := mem_sized.mp a3
      refine ⟨⟨b1, Finset.card_pos.mp (by omega), by omega, b3⟩, b5, b4, fun hmin T' hT' hlt => ?_⟩
      have := a4 hmin T'.card (Finset.card_pos.mpr hT'.nonempty) (by omega)
      by_contra hne
      have h' : (T', ∑ v ∈ T', t.minDist v) ∈ sized o test target t S T'.card :=
        mem_sized.mpr ⟨⟨hT'.sub, rfl, hT'.closed, rfl⟩, by simpa using hne⟩
      rw [this] at h'
      simp at h'
    · rintro ⟨hT, h5, h6, h7⟩
      have hp := Finset.card_pos.mpr hT.nonempty
      have hs := hT.size
      refine ⟨T.card, hp, by omega, mem_sized.mpr ⟨⟨hT.sub, rfl, hT.closed, h6⟩, h5⟩, fun hmin j hj hjT => ?_⟩
      rw [List.eq_nil_iff_forall_not_mem]
      rintro ⟨T', d'⟩ h'
      obtain ⟨⟨b1, b2, b3, b4⟩, b5⟩ := mem_sized.mp h'
      have := h7 hmin T' ⟨b1, Finset.card_pos.mp (by omega), by omega, b3⟩ (by omega)
      rw [b5] at this
      cases this
  · rw [ht]
    simp only
    rw [sizes_eq, List.Nodup, List.pairwise_map]
    refine loop_pairwise _ _ _ (fun k => sized_nodup o test target t S k) ?_
    rintro j k hjk ⟨T, d⟩ hx ⟨T', d'⟩ hy e
    have e' : T = T' := e
    have h2 := (mem_sized.mp hx).1.2.1
    have h3 := (mem_sized.mp hy).1.2.1
    rw [e'] at h2
    omega
  · rw [ht]
    simp only
    rw [sizes_eq]
    refine loop_pairwise _ _ _ (fun k => ?_) ?_
    · refine List.Pairwise.imp_of_mem ?_ (sized_sorted o test target t S k)
      rintro ⟨T, d⟩ ⟨T', d'⟩ hx hy h
      exact Or.inr ⟨(mem_sized.mp hx).1.2.1.trans (mem_sized.mp hy).1.2.1.symm, h⟩
    · rintro j k hjk ⟨T, d⟩ hx ⟨T', d'⟩ hy
      refine Or.inl ?_
      show T.card < T'.card
      rw [(mem_sized.mp hx).1.2.1, (mem_sized.mp hy).1.2.1]
      exact hjk
  · simp only [Dict.get?_set, if_true]
  · intro v hv
    simp only [Dict.get?_set, if_neg (Ne.symm hv)]

/-- C55, minimal explanations: with `search_minimal` all explanations have the same size. -/
theorem C55_same_size (o : SetOrder α) (learn : Py (MG α)) {st st' : CleannState α} {G : MG α} (hG : G.Proper)
    (hst : st.graph = some G ∨ st.graph = none ∧ learn = .ok G) {test : List α → α → Bool} (ht : st.tester = some test)
    (hmin : st.minimal = true) {target : α} (hm : target ∈ G.nodes) {maxSize : Option Int} {maxRange : Option Nat}
    {res : List (Finset α × WithTop Nat)} (hr : Cleann.explain o learn st target maxSize maxRange = .ok (st', res)) :
    ∀ c ∈ res, ∀ d ∈ res, c.1.card = d.1.card := by
  obtain ⟨s, r, t, S, h1, -, h2, -⟩ := C55_explain o learn hG hst ht hm maxSize maxRange
  rw [h1] at hr
  cases hr
  have key : ∀ c ∈ res, ∀ d ∈ res, ¬ c.1.card < d.1.card := by
    rintro ⟨T, x⟩ hc ⟨T', x'⟩ hd hlt
    obtain ⟨a1, a2, -⟩ := (h2 T x).mp hc
    obtain ⟨-, -, -, b4⟩ := (h2 T' x').mp hd
    have := b4 hmin T a1 hlt
    rw [a2] at this
    cases this
  exact fun c hc d hd => Nat.le_antisymm (not_lt.mp (key d hd c hc)) (not_lt.mp (key c hc d hd))

/-- C55, explanations in the graph: the target is not part of its explanation; each node of an explanation is the end of a
possible-d-sep walk from the target through nodes of the explanation, with at most `max_range` edges (at least 1). -/
theorem C55_graph (o : SetOrder α) (learn : Py (MG α)) {st st' : CleannState α} {G : MG α} (hG : G.Proper)
    (hst : st.graph = some G ∨ st.graph = none ∧ learn = .ok G) {test : List α → α → Bool} (ht : st.tester = some test)
    {target : α} (hm : target ∈ G.nodes) {maxSize : Option Int} {maxRange : Option Nat}
    {res : List (Finset α × WithTop Nat)} (hr : Cleann.explain o learn st target maxSize maxRange = .ok (st', res)) :
    ∀ c ∈ res, target ∉ c.1 ∧ test (o.iter target c.1) target = true ∧ ∀ v ∈ c.1, ∃ l, G.PdsWalk G.nodes target (l ++ [v]) ∧ (∀ x ∈ l, x ∈ c.1) ∧
      ∀ r, maxRange = some r → l.length + 1 ≤ max 1 r := by
  obtain ⟨s, r, t, S, h1, h3, h2, -⟩ := C55_explain o learn hG hst ht hm maxSize maxRange
  rw [h1] at hr
  cases hr
  obtain ⟨t', S', k1, -, -, -, k5, k6, -⟩ := C48_tree o hG (en := none) maxRange (by simp) hm
  rw [h3] at k1
  cases k1
  rintro ⟨T, x⟩ hc
  obtain ⟨a1, a2, -⟩ := (h2 T x).mp hc
  refine ⟨fun h => ?_, a2, fun v hv => ?_⟩
  · obtain ⟨l, hl⟩ := (k5 target).mp (a1.sub h)
    exact (k6 _ hl).1.avoid (by simp)
  · obtain ⟨l, b1, b2⟩ := a1.closed v hv
    refine ⟨l, (k6 _ b1).1, b2, fun r e => ?_⟩
    have := (k6 _ b1).2
    rw [e] at this
    simpa using this

/-- C55, every single neighbour that passes the test is found: the search misses no explanation of size 1 among the neighbours of
the target. -/
theorem C55_neighbour (o : SetOrder α) (learn : Py (MG α)) {st st' : CleannState α} {G : MG α} (hG : G.Proper)
    (hst : st.graph = some G ∨ st.graph = none ∧ learn = .ok G) {test : List α → α → Bool} (ht : st.tester = some test)
    {target : α} (hm : target ∈ G.nodes) {maxRange : Option Nat}
    {res : List (Finset α × WithTop Nat)} (hr : Cleann.explain o learn st target none maxRange = .ok (st', res))
    {v : α} (hv : G.MAdj target v) (hx : test [v] target = true) : ({v}, 1) ∈ res := by
  obtain ⟨s, r, t, S, h1, h3, h2, -⟩ := C55_explain o learn hG hst ht hm none maxRange
  rw [h1] at hr
  cases hr
  obtain ⟨t', S', k1, k2, -, k4, k5, -, k7, -⟩ := C48_tree o hG (en := none) maxRange (by simp) hm
  rw [h3] at k1
  cases k1
  have hb : IsBranch t [v] := k7 v (hG.adj_mem hv).2 (fun e => hG.ne hv e.symm) hv
  have hS : v ∈ S := (k5 v).mpr ⟨[], hb⟩
  have hiter : o.iter target {v} = [v] := by
    have hn := o.nodup target {v}
    have hmm := o.mem target {v}
    have : (o.iter target {v}).Perm [v] := (List.perm_ext_iff_of_nodup hn (by simp)).mpr (fun x => by rw [hmm]; simp)
    exact List.perm_singleton.mp this
  refine (h2 _ _).mpr ⟨⟨by simpa using hS, by simp, ?_, ?_⟩, by rw [hiter]; exact hx, ?_, ?_⟩
  · have := Finset.card_pos.mpr ⟨v, hS⟩
    rw [Option.getD_none, Finset.card_singleton]
    omega
  · intro x hx
    rw [Finset.mem_singleton.mp hx]
    exact ⟨[], hb, by simp⟩
  · rw [Finset.sum_singleton]
    refine Eq.symm (((C47_min_distance k2 v).2 1).mpr ⟨⟨[], hb, by simp [k4]⟩, fun l _ => by omega⟩)
  · intro _ T' hT' hlt
    have := Finset.card_pos.mpr hT'.nonempty
    rw [Finset.card_singleton] at hlt
    omega

/-- C55, repeated calls: the graph is learned once. A second call with the same arguments, whatever the learner would give,
returns the same explanations and leaves the state as it is. -/
theorem C55_repeat (o : SetOrder α) (learn learn' : Py (MG α)) {st st' : CleannState α} {target : α} {maxSize : Option Int}
    {maxRange : Option Nat} {res : List (Finset α × WithTop Nat)}
    (hr : Cleann.explain o learn st target maxSize maxRange = .ok (st', res)) :
    ∃ st'', Cleann.explain o learn' st' target maxSize maxRange = .ok (st'', res) ∧ st''.graph = st'.graph := by
  rw [Cleann.explain] at hr
  obtain ⟨G, e1, hr⟩ := py_bind_ok hr
  obtain ⟨⟨t, S⟩, e2, hr⟩ := py_bind_ok hr
  cases hr
  exact ⟨_, explain_eq (Or.inl rfl) e2 maxSize, rfl⟩

/-- C55, without a tester: the whole set is returned if it is not larger than the bound, and nothing otherwise. The second
component is the bound. -/
theorem C55_no_tester (o : SetOrder α) (learn : Py (MG α)) {st : CleannState α} {G : MG α} (hG : G.Proper)
    (hst : st.graph = some G ∨ st.graph = none ∧ learn = .ok G) (ht : st.tester = none)
    {target : α} (hm : target ∈ G.nodes) (maxSize : Option Int) (maxRange : Option Nat) :
    ∃ st' res t S, Cleann.explain o learn st target maxSize maxRange = .ok (st', res) ∧
      G.createPdsTree o target none maxRange = .ok (t, S) ∧
      ((S.card : Int) ≤ maxSize.getD S.card → ∃ n : Nat, (n : Int) = maxSize.getD S.card ∧ res = [(S, (n : WithTop Nat))]) ∧
      (¬ (S.card : Int) ≤ maxSize.getD S.card → res = []) := by
  obtain ⟨t, S, h1, -⟩ := C48_tree o hG (en := none) maxRange (by simp) hm
  refine ⟨_, _, t, S, explain_eq hst h1 maxSize, h1, ?_⟩
  rw [ht]
  simp only
  constructor
  · intro h
    rw [if_pos h]
    exact ⟨_, Int.toNat_of_nonneg (by omega), rfl⟩
  · intro h
    rw [if_neg h]

/-- C55, the exhaustive search: it returns exactly the selections, in order, of at least one and less than all of the tokens, that
do not contain the target and pass the test; with `search_minimal` only those of the least size; no selection twice. -/
theorem C55_exhaustive (tokens : List α) (target : α) (test : List α → α → Bool) (minimal : Bool) :
    (∀ s, s ∈ Cleann.exhaustive tokens target test minimal ↔ s.Sublist tokens ∧ s ≠ [] ∧ s.length < tokens.length ∧ target ∉ s ∧
      test s target = true ∧ (minimal = true → ∀ s', s'.Sublist tokens → s' ≠ [] → target ∉ s' → s'.length < s.length →
        test s' target = false)) ∧
    (tokens.Nodup → (Cleann.exhaustive tokens target test minimal).Nodup) ∧
    (Cleann.exhaustive tokens target test minimal).Pairwise (fun s s' => s.length ≤ s'.length) := by
  have hmem : ∀ k s, s ∈ exhaustSized test target tokens k ↔ s.Sublist tokens ∧ s.length = k ∧ target ∉ s ∧ test s target = true := by
    intro k s
    rw [exhaustSized, List.mem_filter, mem_combs]
    simp [and_assoc]
  refine ⟨fun s => ?_, fun hn => ?_, ?_⟩
  · rw [Cleann.exhaustive, exhaustSizes_eq, loop_spec]
    constructor
    · rintro ⟨k, a1, a2, a3, a4⟩
      obtain ⟨b1, b2, b3, b4⟩ := (hmem k s).mp a3
      refine ⟨b1, fun e => by simp [e] at b2; omega, by omega, b3, b4, fun hmin s' c1 c2 c3 c4 => ?_⟩
      by_contra hne
      have h' := (hmem s'.length s').mpr ⟨c1, rfl, c3, by simpa using hne⟩
      rw [a4 hmin s'.length (List.length_pos_iff.mpr c2) (by omega)] at h'
      simp at h'
    · rintro ⟨b1, b2, b3, b4, b5, b6⟩
      refine ⟨s.length, List.length_pos_iff.mpr b2, by omega, (hmem _ _).mpr ⟨b1, rfl, b4, b5⟩, fun hmin j hj hjs => ?_⟩
      rw [List.eq_nil_iff_forall_not_mem]
      intro s' hs'
      obtain ⟨c1, c2, c3, c4⟩ := (hmem _ _).mp hs'
      have := b6 hmin s' c1 (fun e => by simp [e] at c2; omega) c3 (by omega)
      rw [c4] at this
      cases this
  · rw [Cleann.exhaustive, exhaustSizes_eq]
    refine loop_pairwise _ _ _ (fun k => (combs_nodup hn).filter _) ?_
    rintro j k hjk x hx y hy rfl
    have := ((hmem _ _).mp hx).2.1
    have := ((hmem _ _).mp hy).2.1
    omega
  · rw [Cleann.exhaustive, exhaustSizes_eq]
    refine loop_pairwise _ _ _ (fun k => List.pairwise_of_forall_mem_list (fun x hx y hy => ?_)) ?_
    · exact le_of_eq (((hmem _ _).mp hx).2.1.trans ((hmem _ _).mp hy).2.1.symm)
    · intro j k hjk x hx y hy
      have := ((hmem _ _).mp hx).2.1
      have := ((hmem _ _).mp hy).2.1
      omega

/-- C55, the exhaustive search is complete if the target is one of the tokens: an explanation is found whenever there is one. -/
theorem C55_exhaustive_complete_partial {tokens : List α} {target : α} (h : target ∈ tokens) (test : List α → α → Bool) (minimal : Bool)
    {s : List α} (h1 : s.Sublist tokens) (h2 : s ≠ []) (h3 : target ∉ s) (h4 : test s target = true) :
    ∃ s' ∈ Cleann.exhaustive tokens target test minimal, s'.length ≤ s.length := by
  induction hn : s.length using Nat.strong_induction_on generalizing s with
  | _ n ih =>
    by_cases hex : ∃ s', s'.Sublist tokens ∧ s' ≠ [] ∧ target ∉ s' ∧ test s' target = true ∧ s'.length < n
    · obtain ⟨s', a1, a2, a3, a4, a5⟩ := hex
      obtain ⟨s'', b1, b2⟩ := ih s'.length a5 a1 a2 a3 a4 rfl
      exact ⟨s'', b1, by omega⟩
    · refine ⟨s, ((C55_exhaustive tokens target test minimal).1 s).mpr ⟨h1, h2, ?_, h3, h4, fun _ s' a1 a2 a3 a5 => ?_⟩, by omega⟩
      · refine lt_of_le_of_ne h1.length_le (fun e => ?_)
        rw [h1.eq_of_length e] at h3
        exact h3 h
      · by_contra hne
        exact hex ⟨s', a1, a2, a3, by simpa using hne, by omega⟩

/-- C55, a disagreement: if the target is not one of the given tokens, the set of all tokens is not tried. Here it is the only
explanation, and the search returns nothing; `explain` tries the full set. -/
theorem C55_exhaustive_misses :
    ∃ (tokens : List Nat) (target : Nat) (test : List Nat → Nat → Bool), target ∉ tokens ∧ test tokens target = true ∧
      Cleann.exhaustive tokens target test true = [] ∧ Cleann.exhaustive tokens target test false = [] :=
  ⟨[0, 1], 2, fun s _ => decide (s.length = 2), by decide, by decide, by decide +kernel, by decide +kernel⟩

/-- C55, comparison: if the tester looks at the set only, and the exhaustive search gets all nodes of the graph as tokens, then
all explanations of `explain` are among those of the exhaustive search without `search_minimal`; and its minimal ones are not
larger. -/
theorem C55_compare (o : SetOrder α) (learn : Py (MG α)) {st st' : CleannState α} {G : MG α} (hG : G.Proper)
    (hst : st.graph = some G ∨ st.graph = none ∧ learn = .ok G) {test : List α → α → Bool} (ht : st.tester = some test)
    (hset : SetBased test) {target : α} (hm : target ∈ G.nodes) {maxSize : Option Int} {maxRange : Option Nat}
    {res : List (Finset α × WithTop Nat)} (hr : Cleann.explain o learn st target maxSize maxRange = .ok (st', res))
    {tokens : List α} (hn : tokens.Nodup) (ha : tokens.toFinset = G.nodes) :
    (∀ c ∈ res, ∃ s ∈ Cleann.exhaustive tokens target test false, s.toFinset = c.1) ∧
    ∀ c ∈ res, ∃ s ∈ Cleann.exhaustive tokens target test true, s.length ≤ c.1.card := by
  have htok : target ∈ tokens := by rw [← List.mem_toFinset, ha]; exact hm
  have key : ∀ c ∈ res, ∃ s : List α, s.Sublist tokens ∧ s ≠ [] ∧ target ∉ s ∧ test s target = true ∧ s.toFinset = c.1 := by
    intro c hc
    obtain ⟨s, r, t, S, h1, h3, h2, -⟩ := C55_explain o learn hG hst ht hm maxSize maxRange
    obtain ⟨g1, g2, g3⟩ := C55_graph o learn hG hst ht hm hr c hc
    rw [h1] at hr
    cases hr
    obtain ⟨b1, -⟩ := (h2 c.1 c.2).mp hc
    have hsub : ∀ v ∈ c.1, v ∈ tokens := by
      intro v hv
      obtain ⟨l, hl, -⟩ := g3 v hv
      rw [← List.mem_toFinset, ha]
      exact hl.mem v (by simp)
    have e : (tokens.filter (fun v => decide (v ∈ c.1))).toFinset = c.1 := by
      ext v
      rw [List.mem_toFinset, List.mem_filter]
      simp only [decide_eq_true_eq]
      exact ⟨fun h => h.2, fun h => ⟨hsub v h, h⟩⟩
    refine ⟨tokens.filter (fun v => decide (v ∈ c.1)), List.filter_sublist, fun e' => ?_, ?_, ?_, e⟩
    · rw [e'] at e
      exact b1.nonempty.ne_empty (by rw [← e]; rfl)
    · rw [← List.mem_toFinset, e]
      exact g1
    · rw [← g2]
      refine hset _ _ _ (hn.filter _) (o.nodup _ _) ?_
      rw [e]
      ext v
      rw [List.mem_toFinset, o.mem]
  constructor
  · intro c hc
    obtain ⟨s, h1, h2, h3, h4, h5⟩ := key c hc
    refine ⟨s, ((C55_exhaustive tokens target test false).1 s).mpr ⟨h1, h2, ?_, h3, h4, by simp⟩, h5⟩
    refine lt_of_le_of_ne h1.length_le (fun e => ?_)
    rw [h1.eq_of_length e] at h3
    exact h3 htok
  · intro c hc
    obtain ⟨s, h1, h2, h3, h4, h5⟩ := key c hc
    obtain ⟨s', k1, k2⟩ := C55_exhaustive_complete_partial htok test true h1 h2 h3 h4
    refine ⟨s', k1, ?_⟩
    rw [← h5, List.toFinset_card_of_nodup (hn.sublist h1)]
    exact k2

/-! ### Concrete cases -/

/-- `exPag` with target `0` and a tester that wants `2` together with `1` or `4`. -/
def exExplain : CleannState Nat := ⟨some exPag, [], some (fun s _ => decide (2 ∈ s ∧ (1 ∈ s ∨ 4 ∈ s))), false⟩

example : SetBased (fun (s : List Nat) (_ : Nat) => decide (2 ∈ s ∧ (1 ∈ s ∨ 4 ∈ s))) := by
  intro l l' v _ _ h
  have hm : ∀ x, x ∈ l ↔ x ∈ l' := fun x => by rw [← List.mem_toFinset, h, List.mem_toFinset]
  simp only [hm]

example : ((Cleann.explain ascending (.error .valueError) exExplain 0 (some 3) none).map
      (fun r => r.2.map (fun c => (ascending.iter () c.1, c.2)))) =
    .ok [([2, 4], 2), ([1, 2], 3), ([2, 4, 5], 3), ([1, 2, 4], 4), ([1, 2, 5], 4), ([2, 3, 4], 4), ([1, 2, 3], 5)] := by
  decide +kernel

example : ((Cleann.explain ascending (.error .valueError) { exExplain with minimal := true } 0 none none).map
      (fun r => r.2.map (fun c => (ascending.iter () c.1, c.2)))) = .ok [([2, 4], 2), ([1, 2], 3)] := by
  decide +kernel

/-- C55, a disagreement: `max_range` 0 is not respected; the neighbours of the target are at distance 1. -/
theorem C55_range_zero : ∃ (G : MG Nat) (st : CleannState Nat), G.Proper ∧ st.graph = some G ∧
    ((Cleann.explain ascending (.error .valueError) st 0 none (some 0)).map (fun r => r.2)).toOption = some [({1}, 1)] :=
  ⟨MG.ofMarks {0, 1} MG.pagTypes [(0, 1, .circle), (1, 0, .circle)], ⟨some _, [], some (fun _ _ => true), true⟩,
    MG.ofMarks_proper (by decide +kernel), rfl, by decide +kernel⟩

end Verif
