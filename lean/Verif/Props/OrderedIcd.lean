import Verif.Lemmas.OIcdBound
import Verif.Lemmas.OIcdComplete
import Verif.Props.Fci

/-!
# Properties C51 and C60: ordered ICD
-/

namespace Verif
open Relation MG
variable {α : Type} [LinearOrder α]

namespace OIcd

theorem init_inv (o : SetOrder α) (ci : CITest α) (N : Finset α) (order : List α) (ho : IsOrder order N) (k : Nat) :
    Inv ci N order k (fun _ => False) (fun _ => False) ⟨MG.complete N pagTypes .circle, SepSet.init o N, 0, ∅⟩ := by
  have hadj : ∀ a b, Before order a b → (MG.complete N MG.pagTypes .circle).MAdj a b := by
    intro a b h
    exact Or.inl ⟨.circle, complete_at.mpr ⟨(ho.mem a).mp h.mem_left, (ho.mem b).mp h.mem_right, h.ne ho.nodup, rfl⟩⟩
  exact
    { inv := Icd.init_inv o ci N
      done := fun a b hab hn => absurd (hadj a b hab) hn
      fresh := fun a b hab _ => by
        simp only
        rw [SepSet.get_init, if_pos ⟨(ho.mem a).mp hab.mem_left, (ho.mem b).mp hab.mem_right, hab.ne ho.nodup⟩]
      sets := fun a b hab hn => absurd (hadj a b hab) hn
      kept := fun a b _ h => by simp at h
      dep0 := fun a b _ h => h.elim
      dep1 := fun a b v _ _ _ h => h.elim }

theorem learnStructure_spec (o : SetOrder α) {ci : CITest α} {N : Finset α} {opts : OIcdOpts α} (ho : IsOrder opts.order N)
    {k : Nat} {T0 T1 : α → Prop} {st : OIcdState α} (isLocal : Bool) (hk : max 1 (sizeBound opts) ≤ k)
    (h : Inv ci N opts.order k T0 T1 st) :
    ∃ st', learnStructure o ci opts isLocal st = .ok st' ∧ Res ci N opts k
      (fun x => (∃ i, 1 ≤ i ∧ opts.order[i]? = some x) ∨ T0 x)
      (fun x => (∃ i, 2 ≤ i ∧ opts.order[i]? = some x ∧ (isLocal = true → opts.maxCond ≠ some 0)) ∨ T1 x) st st' := by
  rw [learnStructure]
  cases isLocal with
  | true =>
    rw [if_pos rfl]
    obtain ⟨st', h1, h2⟩ := learnLocal_spec o ho.nodup ho.mem (le_trans (le_max_right _ _) hk) h
    refine ⟨st', h1, h2.inv.congr (fun _ => Iff.rfl) (fun x => or_congr (exists_congr fun i => ?_) Iff.rfl), h2.sub, h2.ord,
      h2.sound⟩
    rw [maxSize]
    cases hmc : opts.maxCond with
    | none =>
      simp only
      exact ⟨fun ⟨_, a2, a3⟩ => ⟨by omega, a2, by simp⟩, fun ⟨a1, a2, _⟩ => ⟨by omega, a2, by omega⟩⟩
    | some m =>
      simp only
      refine ⟨fun ⟨_, a2, a3⟩ => ⟨by omega, a2, fun _ e => ?_⟩, fun ⟨a1, a2, a3⟩ => ⟨by omega, a2, ?_⟩⟩
      · cases e
        omega
      · have : m ≠ 0 := fun e => a3 trivial (by rw [e])
        omega
  | false =>
    rw [if_neg (by decide)]
    obtain ⟨st', h1, h2⟩ := learnGlobal_spec o ho.nodup ho.mem hk h
    refine ⟨st', h1, h2.inv.congr (fun _ => Iff.rfl) (fun x => or_congr (exists_congr fun i => ?_) Iff.rfl), h2.sub, h2.ord,
      h2.sound⟩
    simp

theorem Reachable.inv {o : SetOrder α} {ci : CITest α} {opts : OIcdOpts α} {N : Finset α} {st : OIcdState α}
    (ho : IsOrder opts.order N) (h : Reachable o ci opts N st) :
    ∃ T0 T1, Inv ci N opts.order (max 1 (sizeBound opts)) T0 T1 st := by
  induction h with
  | refl => exact ⟨_, _, init_inv o ci N opts.order ho _⟩
  | @tail s s' _ h ih =>
    obtain ⟨T0, T1, hi⟩ := ih
    rcases h with ⟨l, h⟩ | ⟨l, h⟩
    · obtain ⟨s2, h1, h2⟩ := learnStructure_spec o ho l (le_refl _) hi
      rw [h1] at h
      cases h
      exact ⟨_, _, h2.inv⟩
    · obtain ⟨s2, h1, h2, -⟩ := orient_inv o ho.nodup ho.mem l hi
      rw [h1] at h
      cases h
      exact ⟨_, _, h2⟩

end OIcd

/-! ## C51 -/

/-- C51, constructor: `ValueError` if the order has another length than the set of nodes, or `max_cond_size` is negative or
larger than the number of nodes minus two; otherwise the complete graph with circle marks. -/
theorem C51_init (o : SetOrder α) (N : Finset α) (order : List α) (selection tails : Bool) (m : Option Int) :
    ((order.length ≠ N.card ∨ ∃ v, m = some v ∧ (v < 0 ∨ (N.card : Int) < v + 2)) →
      OIcd.init o N order selection tails m = .error .valueError) ∧
    (order.length = N.card → (∀ v, m = some v → 0 ≤ v ∧ v + 2 ≤ (N.card : Int)) →
      ∃ st opts, OIcd.init o N order selection tails m = .ok (st, opts) ∧ OIcd.Reachable o (fun _ _ _ _ => false) opts N st ∧
        opts.order = order ∧ opts.selection = selection ∧ opts.tails = tails ∧ opts.maxCond.map Int.ofNat = m ∧
        OIcd.sizeBound opts ≤ N.card - 2) := by
  constructor
  · intro h
    rw [OIcd.init]
    by_cases hl : order.length ≠ N.card
    · rw [if_pos hl]; rfl
    · rw [if_neg hl]
      rcases h with h | ⟨v, rfl, h⟩
      · exact absurd h hl
      · simp only
        rw [if_pos (by omega)]
        rfl
  · intro hl hm
    rw [OIcd.init, if_neg (not_not_intro hl)]
    cases m with
    | none =>
      refine ⟨_, _, rfl, .refl, rfl, rfl, rfl, rfl, ?_⟩
      simp [OIcd.sizeBound, hl]
    | some v =>
      have := hm v rfl
      simp only
      rw [if_neg (by omega)]
      refine ⟨_, _, rfl, .refl, rfl, rfl, rfl, ?_, ?_⟩
      · simp only [Option.map_some, Option.some.injEq, Int.ofNat_eq_natCast]
        omega
      · simp only [OIcd.sizeBound, Option.map_some]
        omega

/-- C51. After any sequence of calls of `learn_structure` (local or global) and `orient_graph`, any call returns, and in the
resulting graph all edges have an arrowhead at the later node of the given order. -/
theorem C51_order {o : SetOrder α} {ci : CITest α} {opts : OIcdOpts α} {N : Finset α} (ho : OIcd.IsOrder opts.order N)
    {st : OIcdState α} (h : OIcd.Reachable o ci opts N st) :
    (∀ isLocal, ∃ st', OIcd.learnStructure o ci opts isLocal st = .ok st' ∧ st'.graph.OrdMarks opts.order) ∧
      ∀ anytime, ∃ st', OIcd.orient o opts anytime st = .ok st' ∧ st'.graph.OrdMarks opts.order := by
  obtain ⟨T0, T1, hi⟩ := h.inv ho
  refine ⟨fun l => ?_, fun l => ?_⟩
  · obtain ⟨s2, h1, h2⟩ := OIcd.learnStructure_spec o ho l (le_refl _) hi
    exact ⟨s2, h1, h2.ord⟩
  · obtain ⟨s2, h1, -, -, -, -, h2, -⟩ := OIcd.orient_inv o ho.nodup ho.mem l hi
    exact ⟨s2, h1, h2⟩

/-- C51. In every state the graph is a well-formed PAG on the nodes; every pair that is not adjacent has a recorded set of
nodes before the later one, for which the test answered "independent"; calls only remove adjacencies. -/
theorem C51_skeleton {o : SetOrder α} {ci : CITest α} {opts : OIcdOpts α} {N : Finset α} (ho : OIcd.IsOrder opts.order N)
    {st : OIcdState α} (h : OIcd.Reachable o ci opts N st) :
    st.graph.Proper ∧ st.graph.nodes = N ∧ OIcd.SepBefore opts.order st.graph st.sep ∧
      (∀ i ∈ N, ∀ j ∈ N, i ≠ j → ¬ st.graph.MAdj i j → ∃ S, st.sep.get i j = .ok S ∧ Pc.Witness ci N i j S) ∧
      ∀ st', OIcd.Call o ci opts st st' → ∀ a b, st'.graph.MAdj a b → st.graph.MAdj a b := by
  obtain ⟨T0, T1, hi⟩ := h.inv ho
  refine ⟨hi.inv.proper, hi.inv.nodes, fun a b hab hn => ?_, hi.inv.witness, ?_⟩
  · obtain ⟨S, h1, h2, -⟩ := hi.sets a b hab hn
    exact ⟨S, h1, h2⟩
  · rintro st' (⟨l, h⟩ | ⟨l, h⟩) a b hab
    · obtain ⟨s2, h1, h2⟩ := OIcd.learnStructure_spec o ho l (le_refl _) hi
      rw [h1] at h
      cases h
      exact h2.sub a b hab
    · obtain ⟨s2, h1, -, h2, -⟩ := OIcd.orient_inv o ho.nodup ho.mem l hi
      rw [h1] at h
      cases h
      exact h2 a b hab

/-- C51, retained edges: after `learn_structure`, for each adjacent pair `a` before `b` the test without conditioning answered
"dependent", and so did the tests that condition on one of the other nodes before `b` adjacent to `b` (the local variant with
`max_cond_size = 0` does not do the latter). -/
theorem C51_tested {o : SetOrder α} {ci : CITest α} {opts : OIcdOpts α} {N : Finset α} (ho : OIcd.IsOrder opts.order N)
    {st st' : OIcdState α} (h : OIcd.Reachable o ci opts N st) {isLocal : Bool}
    (hc : OIcd.learnStructure o ci opts isLocal st = .ok st') {a b : α} (hab : Before opts.order a b)
    (hadj : st'.graph.MAdj a b) :
    Fci.Dep ci a b ∅ ∧ ((isLocal = true → opts.maxCond ≠ some 0) →
      ∀ v, Before opts.order v b → v ≠ a → st'.graph.MAdj b v → Fci.Dep ci a b {v}) := by
  obtain ⟨T0, T1, hi⟩ := h.inv ho
  obtain ⟨s2, h1, h2⟩ := OIcd.learnStructure_spec o ho isLocal (le_refl _) hi
  rw [h1] at hc
  cases hc
  obtain ⟨i, hib⟩ := List.getElem?_of_mem hab.mem_right
  have hpos : ∀ x, Before opts.order x b → ∃ j, j < i ∧ opts.order[j]? = some x := by
    intro x hx
    have := (OIcd.mem_take ho.nodup hib).mpr hx
    rw [List.mem_take_iff_getElem] at this
    obtain ⟨j, hj, e⟩ := this
    exact ⟨j, by omega, by rw [← e]; exact List.getElem?_eq_getElem _⟩
  obtain ⟨ja, hja, ea⟩ := hpos a hab
  refine ⟨h2.inv.dep0 a b hab (Or.inl ⟨i, by omega, hib⟩) hadj, fun hl v hv hva hadj' => ?_⟩
  obtain ⟨jv, hjv, ev⟩ := hpos v hv
  have hne : ja ≠ jv := by
    rintro rfl
    rw [ea] at ev
    cases ev
    exact hva rfl
  exact h2.inv.dep1 a b v hab hv hva (Or.inl ⟨i, by omega, hib, hl⟩) hadj hadj'

/-- C51, retained edges, larger sets: the pass over the base node `b` with size `r ≥ 2`, from any state that satisfies the
invariant of the run. The test answered "dependent" for all sets of `r` neighbours of `b` that are before `b` and possible
ancestors of the pair, for each pair `a`, `b` that was not marked as done and is still adjacent. -/
theorem C51_pass (o : SetOrder α) {ci : CITest α} {opts : OIcdOpts α} {N : Finset α} (ho : OIcd.IsOrder opts.order N)
    {k r i : Nat} {T0 T1 : α → Prop} {st : OIcdState α} (h : OIcd.Inv ci N opts.order k T0 T1 st) {b : α}
    (hi : opts.order[i]? = some b) (hk : r ≤ k) (ht : T0 b ∧ T1 b) :
    ∃ st' d, OIcd.phaseR o ci opts.order r i st = .ok (st', d) ∧
      ∀ a, Before opts.order a b → (b, a) ∉ st.done → st'.graph.MAdj a b → ∀ T, OIcd.OrdNbr opts.order st'.graph a b r T →
        Fci.Dep ci a b T := by
  obtain ⟨st', d, h1, -, -, -, -, h2, -⟩ := OIcd.phaseR_spec o h ho.nodup ho.mem hi hk ht
  exact ⟨st', d, h1, fun a ha hn hadj T hT => (h2 a ha hn hadj T hT).1⟩

/-- C51, retained edges, exhaustive: a call on a new learner that removes no edge has asked for each pair `a` before `b` and each
set of other nodes before `b` up to the size bound, and all answers were "dependent". -/
theorem C51_no_removal {o : SetOrder α} {ci : CITest α} {opts : OIcdOpts α} {N : Finset α} (ho : OIcd.IsOrder opts.order N)
    {isLocal : Bool} {st' : OIcdState α}
    (hs : OIcd.learnStructure o ci opts isLocal ⟨MG.complete N pagTypes .circle, SepSet.init o N, 0, ∅⟩ = .ok st')
    (hc : st'.graph.Complete) {a b : α} (hab : Before opts.order a b) {T : Finset α} (ha : a ∉ T)
    (hT : ∀ v ∈ T, Before opts.order v b) (hsz : T.card ≤ OIcd.sizeBound opts) : Fci.Dep ci a b T := by
  have hr : OIcd.Reachable o ci opts N ⟨MG.complete N pagTypes .circle, SepSet.init o N, 0, ∅⟩ := .refl
  have hi := OIcd.init_inv o ci N opts.order ho (max 1 (OIcd.sizeBound opts))
  obtain ⟨s2, h1, h2⟩ := OIcd.learnStructure_spec o ho isLocal (le_refl _) hi
  rw [h1] at hs
  cases hs
  have hadj : ∀ x y, Before opts.order x y → st'.graph.MAdj x y := fun x y h =>
    hc x (by rw [h2.inv.inv.nodes]; exact (ho.mem x).mp h.mem_left) y (by rw [h2.inv.inv.nodes]; exact (ho.mem y).mp h.mem_right)
      (h.ne ho.nodup)
  obtain ⟨t0, t1⟩ := C51_tested ho hr h1 hab (hadj a b hab)
  rcases Nat.lt_or_ge T.card 2 with hlt | hge
  · rcases Nat.lt_or_ge T.card 1 with h0 | h0
    · rw [Finset.card_eq_zero.mp (by omega : T.card = 0)]
      exact t0
    · obtain ⟨v, rfl⟩ := Finset.card_eq_one.mp (by omega : T.card = 1)
      refine t1 (fun _ e => ?_) v (hT v (by simp)) (fun e => ha (by simp [e])) (hadj v b (hT v (by simp))).symm
      rw [OIcd.sizeBound, e] at hsz
      simp at hsz
  · rw [OIcd.learnStructure] at h1
    cases isLocal with
    | true =>
      rw [if_pos rfl] at h1
      exact OIcd.learnLocal_complete o ho.nodup ho.mem (le_max_right _ _) hi (fun _ h => h) h1 hc a b T hab ha hT hge hsz
    | false =>
      rw [if_neg (by decide)] at h1
      exact OIcd.learnGlobal_complete o ho.nodup ho.mem (le_refl _) hi (fun _ h => h) h1 hc a b T hab ha hT hge hsz

/-- C60, `max_cond_size`, local variant: the result does not depend on the answers of tests with more conditioning variables
than `max_cond_size` (or than the number of nodes minus 2 if it is not given), and the recorded sets have at most this size. -/
theorem C60_bound_local {o : SetOrder α} {ci ci' : CITest α} {opts : OIcdOpts α} {N : Finset α} (ho : OIcd.IsOrder opts.order N)
    {st : OIcdState α} (h : OIcd.Reachable o ci opts N st) (ha : OIcd.Agree (OIcd.sizeBound opts) ci ci') :
    OIcd.learnStructure o ci opts true st = OIcd.learnStructure o ci' opts true st := by
  obtain ⟨T0, T1, hi⟩ := h.inv ho
  have hl : opts.order.length = st.graph.nodes.card := by
    rw [hi.inv.nodes, ← List.toFinset_card_of_nodup ho.nodup]
    congr 1
    ext v
    rw [List.mem_toFinset, ho.mem]
  exact OIcd.learnLocal_congr o hl ha

theorem C60_size_local (o : SetOrder α) (ci : CITest α) {opts : OIcdOpts α} {N : Finset α} (ho : OIcd.IsOrder opts.order N) :
    ∃ st, OIcd.learnStructure o ci opts true ⟨MG.complete N pagTypes .circle, SepSet.init o N, 0, ∅⟩ = .ok st ∧
      OIcd.SepSize opts.order (OIcd.sizeBound opts) st.graph st.sep := by
  obtain ⟨st', h1, h2⟩ := OIcd.learnLocal_spec o ho.nodup ho.mem (le_refl _) (OIcd.init_inv o ci N opts.order ho _)
  refine ⟨st', h1, fun a b hab hn => ?_⟩
  obtain ⟨S, h3, -, h4⟩ := h2.inv.sets a b hab hn
  exact ⟨S, h3, h4⟩

/-- C60, `max_cond_size`, global variant. The full claim is the one of `C60_bound_local`; it holds if `max_cond_size` is not 0,
but fails for `max_cond_size = 0` (`C60_bound_global_fails`): conditioning on one variable is always tried. -/
theorem C60_bound_global_partial {o : SetOrder α} {ci ci' : CITest α} {opts : OIcdOpts α} {N : Finset α}
    (ho : OIcd.IsOrder opts.order N) {st : OIcdState α} (h : OIcd.Reachable o ci opts N st)
    (ha : OIcd.Agree (max 1 (OIcd.sizeBound opts)) ci ci') :
    OIcd.learnStructure o ci opts false st = OIcd.learnStructure o ci' opts false st := by
  obtain ⟨T0, T1, hi⟩ := h.inv ho
  have hl : opts.order.length = st.graph.nodes.card := by
    rw [hi.inv.nodes, ← List.toFinset_card_of_nodup ho.nodup]
    congr 1
    ext v
    rw [List.mem_toFinset, ho.mem]
  exact OIcd.learnGlobal_congr o hl ha

/-- C60, `max_cond_size`, all states: recorded sets have at most `max 1 max_cond_size` elements. -/
theorem C60_size_partial {o : SetOrder α} {ci : CITest α} {opts : OIcdOpts α} {N : Finset α} (ho : OIcd.IsOrder opts.order N)
    {st : OIcdState α} (h : OIcd.Reachable o ci opts N st) :
    OIcd.SepSize opts.order (max 1 (OIcd.sizeBound opts)) st.graph st.sep := by
  obtain ⟨T0, T1, hi⟩ := h.inv ho
  intro a b hab hn
  obtain ⟨S, h3, -, h4⟩ := hi.sets a b hab hn
  exact ⟨S, h3, h4⟩

/-- C51 with a test that answers m-separation in an ancestral graph `M`: no state loses an adjacency of `M`; and if
`learn_structure` leaves no other adjacency and the edges of `M` respect the order, then all arrowheads of the result are
arrowheads of `M` and all unshielded colliders are found, and (without the tail rules, or if `M` has no bidirected edge) all marks
are right. -/
theorem C51_oracle {o : SetOrder α} {ci : CITest α} {opts : OIcdOpts α} {M : MG α} (ho : OIcd.IsOrder opts.order M.nodes)
    (hM : Ancestral M) (hp : MPerfect ci M) {st : OIcdState α} (h : OIcd.Reachable o ci opts M.nodes st) (isLocal : Bool) :
    (∀ a b, M.MAdj a b → st.graph.MAdj a b) ∧
      ∃ st', OIcd.learnStructure o ci opts isLocal st = .ok st' ∧ (∀ a b, M.MAdj a b → st'.graph.MAdj a b) ∧
        (M.OrdMarks opts.order → (∀ a b, st'.graph.MAdj a b → M.MAdj a b) →
          ArrowsOk st'.graph M ∧ (TailsOk opts.tails M → Compatible st'.graph M)) := by
  obtain ⟨T0, T1, hi⟩ := h.inv ho
  obtain ⟨st', h1, h2⟩ := OIcd.learnStructure_spec o ho isLocal (le_refl _) hi
  have hsup : ∀ a b, M.MAdj a b → st'.graph.MAdj a b := fun a b h => h2.inv.inv.sup hM.proper hp h
  refine ⟨fun a b hab => hi.inv.sup hM.proper hp hab, st', h1, hsup, fun hMo hsub => ?_⟩
  have hadj : ∀ a b, st'.graph.MAdj a b ↔ M.MAdj a b := fun a b => ⟨hsub a b, hsup a b⟩
  exact h2.sound M hM rfl hadj (h2.inv.inv.sepIn hp hadj) hMo

/-! ### Concrete cases -/

theorem exOrder : OIcd.IsOrder [0, 1, 2, 3] exLat.nodes :=
  ⟨by decide, fun v => by simp [exLat, MG.ofMarks]⟩

def exOpts : OIcdOpts Nat := ⟨[0, 1, 2, 3], false, true, none⟩

theorem exLat_ord : exLat.OrdMarks [0, 1, 2, 3] := by
  have : ∀ a ∈ exLat.nodes, ∀ b ∈ exLat.nodes, Before [0, 1, 2, 3] a b → a ∉ exLat.g b .circle ∧ a ∉ exLat.g b .tail := by
    decide +kernel
  intro a b m hab h
  have hm := this a (exLat_proper.mem a b m h).1 b (exLat_proper.mem a b m h).2 hab
  cases m with
  | circle => exact absurd h hm.1
  | arrow => rfl
  | tail => exact absurd h hm.2

/-- Both variants with the m-separation test of the library on `0 --> 2 <-> 3 <-- 1`. -/
example (isLocal : Bool) : ∃ st', OIcd.learnStructure ascending (msepTest ascending exLat) exOpts isLocal
      ⟨MG.complete exLat.nodes pagTypes .circle, SepSet.init ascending exLat.nodes, 0, ∅⟩ = .ok st' ∧
    st'.graph.OrdMarks [0, 1, 2, 3] ∧ (∀ a b, exLat.MAdj a b → st'.graph.MAdj a b) ∧
    ((∀ a b, st'.graph.MAdj a b → exLat.MAdj a b) → ∀ a b, st'.graph.At a b .arrow → exLat.At a b .arrow) := by
  have hr : OIcd.Reachable ascending (msepTest ascending exLat) exOpts exLat.nodes
      ⟨MG.complete exLat.nodes pagTypes .circle, SepSet.init ascending exLat.nodes, 0, ∅⟩ := .refl
  obtain ⟨s1, h1, h2⟩ := (C51_order exOrder hr).1 isLocal
  obtain ⟨-, s2, h3, h4, h5⟩ := C51_oracle exOrder exLat_ancestral (exLat_perfect ascending) hr isLocal
  rw [h1] at h3
  cases h3
  exact ⟨s1, h1, h2, h4, fun h => (h5 exLat_ord h).1.arrow⟩

theorem exOIcd_local : MG.marks ((OIcd.learnStructure ascending (msepTest ascending exLat) exOpts true
      ⟨MG.complete exLat.nodes pagTypes .circle, SepSet.init ascending exLat.nodes, 0, ∅⟩).map (·.graph)) =
    .ok [(2, 0, .circle), (3, 1, .circle), (0, 2, .arrow), (3, 2, .arrow), (1, 3, .arrow), (2, 3, .arrow)] := by decide +kernel

theorem exOIcd_global : MG.marks ((OIcd.learnStructure descending (msepTest ascending exLat) exOpts false
      ⟨MG.complete exLat.nodes pagTypes .circle, SepSet.init descending exLat.nodes, 0, ∅⟩).map (·.graph)) =
    .ok [(2, 0, .circle), (3, 1, .circle), (0, 2, .arrow), (3, 2, .arrow), (1, 3, .arrow), (2, 3, .arrow)] := by decide +kernel

/-- A test that answers "independent" once, for `1`, `3` given `{0, 2}`: both variants remove an edge. -/
def exOnce : CITest Nat := fun _ x y z => decide (z.toFinset = {0, 2} ∧ min x y = 1 ∧ max x y = 3)

example (isLocal : Bool) : ∃ st', OIcd.learnStructure ascending exOnce exOpts isLocal
      ⟨MG.complete {0, 1, 2, 3} pagTypes .circle, SepSet.init ascending {0, 1, 2, 3}, 0, ∅⟩ = .ok st' ∧ ¬ st'.graph.Complete := by
  have ho : OIcd.IsOrder exOpts.order {0, 1, 2, 3} := exOrder
  obtain ⟨s1, h1, -⟩ := (C51_order (o := ascending) (ci := exOnce) ho .refl).1 isLocal
  refine ⟨s1, h1, fun hc => ?_⟩
  obtain ⟨z, k, hz, -, h⟩ := C51_no_removal ho h1 hc (a := 1) (b := 3) (T := {0, 2}) (by decide) (by decide) (by decide) (by decide)
  simp [exOnce, hz] at h

/-- … and with a test that answers "dependent" always, the result is complete. -/
example (isLocal : Bool) : ((OIcd.learnStructure ascending (fun _ _ _ _ => false) exOpts isLocal
      ⟨MG.complete {0, 1, 2, 3} pagTypes .circle, SepSet.init ascending {0, 1, 2, 3}, 0, ∅⟩).map
        (fun st => decide (∀ a ∈ st.graph.nodes, ∀ b ∈ st.graph.nodes, a ≠ b → a ∈ st.graph.g b .arrow ∨ b ∈ st.graph.g a .arrow))) =
    .ok true := by
  cases isLocal <;> decide +kernel

/-- C60, a disagreement: the global variant with `max_cond_size = 0` uses tests with one conditioning variable. Two tests that
agree on all tests without conditioning give different results. -/
theorem C60_bound_global_fails :
    ∃ (ci ci' : CITest Nat) (opts : OIcdOpts Nat) (st : OIcdState Nat), OIcd.IsOrder opts.order {0, 1, 2} ∧
      OIcd.init ascending {0, 1, 2} [0, 1, 2] false false (some 0) = .ok (st, opts) ∧
      OIcd.sizeBound opts = 0 ∧ OIcd.Agree (OIcd.sizeBound opts) ci ci' ∧
      OIcd.learnStructure ascending ci opts false st ≠ OIcd.learnStructure ascending ci' opts false st := by
  refine ⟨fun _ _ _ z => 1 ≤ z.length, fun _ _ _ _ => false, ⟨[0, 1, 2], false, false, some 0⟩,
    ⟨MG.complete {0, 1, 2} pagTypes .circle, SepSet.init ascending {0, 1, 2}, 0, ∅⟩, ⟨by decide, fun v => by simp⟩, rfl, rfl, ?_, ?_⟩
  · intro n a b z hz
    have : z.length = 0 := Nat.le_zero.mp hz
    simp [this]
  · intro h
    have h' := congrArg (fun r => r.map (fun (s : OIcdState Nat) => s.calls)) h
    revert h'
    decide +kernel

/-- C51, a disagreement: the constructor checks the length of the order only. With an order that names a node twice it
succeeds, and `learn_structure` raises an `AssertionError`. -/
theorem C51_init_unchecked : ∃ st opts, OIcd.init ascending {0, 1} [0, 0] false false none = .ok (st, opts) ∧
    (OIcd.learnStructure ascending (fun _ _ _ _ => true) opts true st).map (fun _ => ()) = .error .assertionError :=
  ⟨⟨MG.complete {0, 1} pagTypes .circle, SepSet.init ascending {0, 1}, 0, ∅⟩, ⟨[0, 0], false, false, none⟩, rfl, by decide +kernel⟩

/-- An order that is not the one of the labels, with an arbitrary test. -/
example : MG.marks ((OIcd.learnStructure ascending exFickle ⟨[3, 0, 2, 1], true, false, some 2⟩ true
      ⟨MG.complete {0, 1, 2, 3} pagTypes .circle, SepSet.init ascending {0, 1, 2, 3}, 0, ∅⟩).map (·.graph)) =
    .ok [(2, 0, .tail), (3, 0, .arrow), (3, 1, .arrow), (0, 2, .arrow), (0, 3, .circle), (1, 3, .circle)] := by decide +kernel

end Verif
