import Verif.Lemmas.PagComp
import Verif.Lemmas.PagMat
import Verif.Lemmas.PagOrient
import Verif.Props.Mixed

/-!
# Properties C28, C36, C37, C59: matrices, possible c-components, regions and buckets of PAGs
-/

namespace Verif
variable {α : Type} [DecidableEq α]

/-! ## C28 -/

/-- C28, first half: `get_adj_mat` succeeds, its entries are the documented codes, and `init_from_adj_mat` of the result, with
the sorted nodes as default or as explicit order, on any PAG with the same nodes and types gives a graph with the same marks. -/
theorem C28_round_trip (o : SetOrder α) {G : MG α} (hG : G.Proper) {l : List α} (hnd : l.Nodup) (hl : ∀ x, x ∈ l ↔ x ∈ G.nodes)
    (G' : MG α) (hn : G'.nodes = G.nodes) (ht : G'.types = G.types) :
    ∃ A, MG.pagAdjMat o G l = .ok A ∧
      (∀ i j a b, l[i]? = some a → l[j]? = some b →
        (A i j = 0 ↔ ¬ G.MAdj a b) ∧ (A i j = 1 ↔ G.At a b .circle) ∧ (A i j = 2 ↔ G.At a b .arrow) ∧
          (A i j = 3 ↔ G.At a b .tail)) ∧
      ∀ order, order = none ∨ order = some l →
        ∃ H, MG.initFromAdjMat G' l.length A order l = .ok H ∧ H.nodes = G.nodes ∧ H.types = G.types ∧
          ∀ a b m, H.At a b m ↔ G.At a b m := by
  obtain ⟨A, hA, hA2⟩ := MG.pagAdjMat_spec o hnd hl hG.type hG.mem
  have hval : ∀ i j a b m, l[i]? = some a → l[j]? = some b → (A i j = MG.codeOf m ↔ G.At a b m) := by
    intro i j a b m hi hj
    rcases hA2 i j with ⟨h0, h⟩ | ⟨a', b', m', h1, h2, h3, h4⟩
    · rw [h0]
      constructor
      · intro h'; have := (MG.codeOf_le m).1; omega
      · intro h'; exact absurd ⟨a, b, m, hi, hj, h'⟩ h
    · rw [hi] at h1; rw [hj] at h2
      cases h1; cases h2
      rw [h4]
      constructor
      · intro h; rw [← MG.codeOf_inj h]; exact h3
      · intro h; rw [hG.one _ _ _ _ h h3]
  have hzero : ∀ i j a b, l[i]? = some a → l[j]? = some b → (A i j = 0 ↔ ¬ G.MAdj a b) := by
    intro i j a b hi hj
    rw [hG.adj_iff]
    constructor
    · rintro h0 ⟨m, hm⟩
      have := (hval i j a b m hi hj).2 hm
      have := (MG.codeOf_le m).1
      omega
    · intro h
      rcases hA2 i j with ⟨h0, _⟩ | ⟨a', b', m', h1, h2, h3, _⟩
      · exact h0
      · rw [hi] at h1; rw [hj] at h2
        cases h1; cases h2
        exact absurd ⟨m', h3⟩ h
  refine ⟨A, hA, fun i j a b hi hj => ⟨hzero i j a b hi hj, hval i j a b .circle hi hj, hval i j a b .arrow hi hj,
    hval i j a b .tail hi hj⟩, ?_⟩
  obtain ⟨H, f1, f2, f3, f4⟩ := MG.fillFromAdjMat_spec G' A (Nat.le_refl l.length)
  have hle : ∀ r ∈ List.range l.length, ∀ c ∈ List.range l.length, A r c ≤ 3 := by
    intro r _ c _
    rcases hA2 r c with ⟨h0, _⟩ | ⟨_, _, m, _, _, _, h⟩
    · omega
    · have := (MG.codeOf_le m).2; omega
  intro order ho
  refine ⟨H, ?_, by rw [f2, hn], by rw [f3, ht], fun a b m => ?_⟩
  · rcases ho with rfl | rfl <;> simp only [MG.initFromAdjMat, if_pos hle, if_pos, f1]
  · rw [f4]
    constructor
    · rintro ⟨i, _, j, _, hi, hj, h⟩
      exact (hval i j a b m hi hj).1 h
    · intro h
      obtain ⟨i, hi⟩ := List.mem_iff_getElem?.1 ((hl a).2 (hG.mem _ _ _ h).1)
      obtain ⟨j, hj⟩ := List.mem_iff_getElem?.1 ((hl b).2 (hG.mem _ _ _ h).2)
      exact ⟨i, (List.getElem?_eq_some_iff.1 hi).1, j, (List.getElem?_eq_some_iff.1 hj).1, hi, hj, (hval i j a b m hi hj).2 h⟩

/-- C28, second half: for every square matrix with entries `0..3` and one row per node, `init_from_adj_mat` succeeds and
`get_adj_mat` of the result is the matrix. (The matrix need not describe a graph: a mark at one end only is also kept.) -/
theorem C28_matrix (o : SetOrder α) (G : MG α) (hT : ∀ m, m ∈ G.types) {l : List α} (hnd : l.Nodup)
    (hl : ∀ x, x ∈ l ↔ x ∈ G.nodes) (A : Nat → Nat → Nat) (hA : ∀ i < l.length, ∀ j < l.length, A i j ≤ 3) :
    ∃ H B, MG.initFromAdjMat G l.length A none l = .ok H ∧ MG.initFromAdjMat G l.length A (some l) l = .ok H ∧
      MG.pagAdjMat o H l = .ok B ∧ ∀ i < l.length, ∀ j < l.length, B i j = A i j := by
  obtain ⟨H, f1, f2, f3, f4⟩ := MG.fillFromAdjMat_spec G A (Nat.le_refl l.length)
  have hle : ∀ r ∈ List.range l.length, ∀ c ∈ List.range l.length, A r c ≤ 3 := by
    intro r hr c hc
    exact hA r (List.mem_range.1 hr) c (List.mem_range.1 hc)
  have hmem : ∀ a b m, H.At a b m → a ∈ H.nodes ∧ b ∈ H.nodes := by
    intro a b m h
    obtain ⟨i, _, j, _, hi, hj, _⟩ := (f4 a b m).1 h
    rw [f2, ← hl, ← hl]
    exact ⟨List.mem_of_getElem? hi, List.mem_of_getElem? hj⟩
  obtain ⟨B, hB, hB2⟩ := MG.pagAdjMat_spec o (G := H) hnd (by rw [f2]; exact hl) (fun a b m _ => by rw [f3]; exact hT m) hmem
  refine ⟨H, B, by simp only [MG.initFromAdjMat, if_pos hle, f1], by simp only [MG.initFromAdjMat, if_pos hle, if_pos, f1], hB,
    fun i hi j hj => ?_⟩
  have e1 := List.getElem?_eq_getElem hi
  have e2 := List.getElem?_eq_getElem hj
  have hinj : ∀ i' < l.length, l[i']? = some l[i] → i' = i := fun i' hi' h =>
    (List.Nodup.getElem_inj_iff hnd (hi := hi')).1 (by rw [List.getElem?_eq_getElem hi'] at h; exact Option.some.inj h)
  have hinj' : ∀ i' < l.length, l[i']? = some l[j] → i' = j := fun i' hi' h =>
    (List.Nodup.getElem_inj_iff hnd (hi := hi')).1 (by rw [List.getElem?_eq_getElem hi'] at h; exact Option.some.inj h)
  rcases hB2 i j with ⟨h0, h⟩ | ⟨a, b, m, h1, h2, h3, h4⟩
  · by_contra hne
    have hm : ∃ m, A i j = MG.codeOf m := by
      have := hA i hi j hj
      have h123 : A i j = 1 ∨ A i j = 2 ∨ A i j = 3 := by omega
      rcases h123 with h | h | h
      · exact ⟨.circle, h⟩
      · exact ⟨.arrow, h⟩
      · exact ⟨.tail, h⟩
    obtain ⟨m, hm⟩ := hm
    exact h ⟨_, _, m, e1, e2, (f4 _ _ _).2 ⟨i, hi, j, hj, e1, e2, hm⟩⟩
  · rw [e1] at h1; rw [e2] at h2
    cases h1; cases h2
    obtain ⟨i', hi', j', hj', k1, k2, k3⟩ := (f4 _ _ _).1 h3
    rw [hinj i' hi' k1, hinj' j' hj' k2] at k3
    rw [h4, k3]

/-- C28, error branches: an entry above 3 and an order of the wrong length are rejected. -/
theorem C28_errors (G : MG α) (n : Nat) (A : Nat → Nat → Nat) (order : Option (List α)) (l : List α) :
    ((∃ i < n, ∃ j < n, 3 < A i j) → MG.initFromAdjMat G n A order l = .error .assertionError) ∧
      ∀ l', n ≠ l'.length → MG.initFromAdjMat G n A (some l') l = .error .assertionError := by
  constructor
  · rintro ⟨i, hi, j, hj, h⟩
    have : ¬ ∀ r ∈ List.range n, ∀ c ∈ List.range n, A r c ≤ 3 := fun h' => by
      have := h' i (List.mem_range.2 hi) j (List.mem_range.2 hj)
      omega
    simp only [MG.initFromAdjMat, if_neg this]
  · intro l' h
    by_cases hc : ∀ r ∈ List.range n, ∀ c ∈ List.range n, A r c ≤ 3
    · simp only [MG.initFromAdjMat, if_pos hc, if_neg h]
    · simp only [MG.initFromAdjMat, if_neg hc]

example : ([0, 1, 2, 3, 4].Nodup ∧ ∀ x, x ∈ [0, 1, 2, 3, 4] ↔ x ∈ exM.nodes) ∧
    (MG.pagAdjMat ascending exM [0, 1, 2, 3, 4]).map (fun A => (List.range 5).map fun i => (List.range 5).map (A i)) =
      .ok [[0, 2, 0, 0, 0], [1, 0, 2, 0, 0], [0, 2, 0, 3, 0], [0, 0, 3, 0, 0], [0, 0, 0, 0, 0]] :=
  ⟨⟨by decide, by intro x; simp [exM, MG.ofMarks]⟩, by decide +kernel⟩

/-! ## C37 -/

/-- C37: `get_ordered_buckets(en)` returns, with enough rounds, exactly when the buckets can be put in a topological order.
What it returns is the partition of `en` into buckets, all edges between an earlier and a later bucket pointing into the later
one. If no order exists, then it raises an assertion error when no bucket can be last, and otherwise it never returns: every
number of rounds is too small. -/
theorem C37_ordered_buckets (o : SetOrder α) {G : MG α} (hG : G.Proper) (hT : Mark.circle ∈ G.types) (en : Finset α) :
    (∀ n L, G.orderedBuckets o en n = .ok L → (∀ x, (∃ S ∈ L, x ∈ S) ↔ x ∈ en) ∧ L.Pairwise Disjoint ∧
      (∀ S ∈ L, S.Nonempty) ∧ (∀ S ∈ L, ∀ x ∈ S, ∀ y, y ∈ S ↔ G.SameBucket en x y) ∧ L.Pairwise G.Into) ∧
    (G.Orderable en → ∃ L n, ∀ k, n ≤ k → G.orderedBuckets o en k = .ok L) ∧
    (¬ G.Orderable en → (G.NoLast en → ∀ k, G.orderedBuckets o en (k + 1) = .error .assertionError) ∧
      (¬ G.NoLast en → ∀ k, G.orderedBuckets o en k = .error .outOfFuel)) := by
  obtain ⟨L0, b1, b2, b3, b4, b5⟩ := MG.findBuckets_spec o G hT en
  have hun : ∀ n, G.orderedBuckets o en n = MG.bucketsLoop G n L0 [] (L0.foldl (fun acc b => acc ∪ b) ∅) := by
    intro n
    unfold MG.orderedBuckets
    rw [py_bind b1]
  have hR := MG.foldl_union_eq (bs := L0)
  have hord := MG.orderable_iff hG b2 b3 b5
  have hnl := MG.noLast_iff hG b2 b4 b5 hR
  have hret : ∀ n L, G.orderedBuckets o en n = .ok L → ∃ M, M.Perm L0 ∧ G.SinkSeq M ∧ L = M.reverse := by
    intro n L h
    rw [hun] at h
    simpa using MG.bucketsLoop_ok n L0 [] _ L b3 hR h
  refine ⟨fun n L h => ?_, fun h => ?_, fun h => ⟨fun hN k => ?_, fun hN k => ?_⟩⟩
  · obtain ⟨M, h1, h2, rfl⟩ := hret n L h
    have hp : M.reverse.Perm L0 := (List.reverse_perm M).trans h1
    refine ⟨fun x => ?_, hp.symm.pairwise b3 (fun h => h.symm), fun S hS => b4 S (hp.mem_iff.1 hS),
      fun S hS => b5 S (hp.mem_iff.1 hS), ?_⟩
    · rw [← b2]
      exact exists_congr fun S => and_congr_left fun _ => hp.mem_iff
    · rw [List.pairwise_reverse]
      exact h2.imp fun h => (MG.into_iff hG).2 h
  · obtain ⟨L, hL⟩ := MG.bucketsLoop_complete (G := G) (L0.length + 1) L0 [] _ b3 hR (hord.2 h) (by omega)
    exact ⟨L, L0.length + 1, fun k hk => by rw [hun]; exact hL k hk⟩
  · obtain ⟨h1, h2⟩ := hnl.2 hN
    rw [hun]
    unfold MG.bucketsLoop
    rw [if_pos (by cases L0 with
      | nil => exact absurd rfl h1
      | cons => simp), h2]
    rfl
  · cases hk : G.orderedBuckets o en k with
    | ok L =>
      obtain ⟨M, h1, h2, _⟩ := hret k L hk
      exact absurd (hord.1 ⟨M, h1, h2⟩) h
    | error e =>
      rw [hun] at hk
      cases k with
      | zero => cases hk; rfl
      | succ k =>
        unfold MG.bucketsLoop at hk
        by_cases hne : L0 = []
        · subst hne; cases hk
        · rw [if_pos (by cases L0 with
            | nil => exact absurd rfl hne
            | cons => simp)] at hk
          cases hs : MG.takeSink G (L0.foldl (fun acc b => acc ∪ b) ∅) L0 with
          | none => exact absurd (hnl.1 ⟨hne, hs⟩) hN
          | some r =>
            rw [hs] at hk
            rcases MG.bucketsLoop_error (G := G) k r.2 ([] ++ [r.1]) ((L0.foldl (fun acc b => acc ∪ b) ∅) \ r.1) (by simp) with
              h' | ⟨L, h'⟩
            · exact hk.symm.trans h'
            · exact absurd (hk.symm.trans h') (by simp)

/-- Two nodes joined by `---` and an isolated node: the isolated node is removed, then nothing changes any more. -/
def exLoop : MG Nat := .ofMarks {0, 1, 2} [.tail, .arrow, .circle] [(0, 1, .tail), (1, 0, .tail)]

/-- C37, negation of "it returns or raises": `get_ordered_buckets` never returns on this graph. -/
theorem C37_no_return (o : SetOrder Nat) : exLoop.Proper ∧ ∀ k, exLoop.orderedBuckets o exLoop.nodes k = .error .outOfFuel := by
  have hP : exLoop.Proper := MG.ofMarks_proper (by decide)
  have hat : ∀ a b m, exLoop.At a b m ↔ (a, b, m) ∈ [(0, 1, Mark.tail), (1, 0, .tail)] := by
    intro a b m
    simp only [exLoop, MG.ofMarks, MG.At, Finset.mem_filter]
    constructor
    · exact And.right
    · intro h
      refine ⟨?_, h⟩
      simp only [List.mem_cons, Prod.mk.injEq, List.not_mem_nil, or_false] at h
      rcases h with ⟨rfl, _⟩ | ⟨rfl, _⟩ <;> decide
  have hb : ∀ u v, exLoop.SameBucket exLoop.nodes u v → u = v := by
    intro u v h
    induction h with
    | refl => rfl
    | tail _ h _ =>
      exfalso
      obtain ⟨⟨t, ht, h1, _⟩, _⟩ := h
      simp only [List.mem_singleton] at ht
      subst ht
      simp [hat] at h1
  refine ⟨hP, fun k => ?_⟩
  refine ((C37_ordered_buckets o hP (by decide) exLoop.nodes).2.2 ?_).2 ?_ k
  · rintro ⟨r, _, h⟩
    have h01 := h 0 (by decide) 1 (by decide) (fun h => by cases hb _ _ h) (Or.inl ⟨.tail, by simp [hat]⟩)
    have h10 := h 1 (by decide) 0 (by decide) (fun h => by cases hb _ _ h) (Or.inl ⟨.tail, by simp [hat]⟩)
    rcases Nat.le_total (r 0) (r 1) with hle | hle
    · have := h01 hle; simp [hat] at this
    · have := h10 hle; simp [hat] at this
  · rintro ⟨_, h⟩
    obtain ⟨v, _, w, _, h1, _, h3, _⟩ := h 2 (by decide)
    have := hb _ _ h1
    subst this
    rcases h3 with ⟨m, h⟩ | ⟨m, h⟩ <;> simp [hat] at h

/-- Buckets `{3, 4}`, `{0, 1}`, `{2}` in an orderable graph. -/
def exBuckets : MG Nat := .ofMarks {0, 1, 2, 3, 4} [.tail, .arrow, .circle]
  [(0, 1, .circle), (1, 0, .circle), (1, 2, .arrow), (2, 1, .circle), (0, 2, .arrow), (2, 0, .circle),
   (3, 4, .circle), (4, 3, .circle), (3, 0, .arrow), (0, 3, .tail), (3, 1, .arrow), (1, 3, .tail)]

example : exBuckets.Proper ∧ Mark.circle ∈ exBuckets.types ∧
    (exBuckets.orderedBuckets ascending exBuckets.nodes 9).map (·.map (ascending.iter ())) = .ok [[3, 4], [0, 1], [2]] :=
  ⟨MG.ofMarks_proper (by decide), by decide, by decide +kernel⟩

/-- The hypothesis `Orderable` is met by the example. -/
example : exBuckets.Orderable exBuckets.nodes :=
  let h := C37_ordered_buckets ascending (G := exBuckets) (MG.ofMarks_proper (by decide)) (by decide) exBuckets.nodes
  Classical.byContradiction fun hn => by
    have h2 := h.2.2 hn
    by_cases hl : exBuckets.NoLast exBuckets.nodes
    · have := h2.1 hl 8
      exact absurd (congrArg (fun r => (r.map (·.map (ascending.iter ())) : Py (List (List Nat)))) this)
        (by decide +kernel)
    · have := h2.2 hl 9
      exact absurd (congrArg (fun r => (r.map (·.map (ascending.iter ())) : Py (List (List Nat)))) this)
        (by decide +kernel)

/-! ## C36 -/

/-- C36: `find_union_pc_components_for_node` computes the nodes below; `y` is the last invisible child in the iteration order
(`ys`). Without the call of `find_visible_edges` it fails. -/
theorem C36_as_coded (o : SetOrder α) {G : MG α} (hG : G.Proper) (hT : Mark.arrow ∈ G.types) (vis : Finset (α × α)) (x : α)
    (en : Finset α) : G.unionPcComponents o none x en none = .error .assertionError ∧
    ∃ (ys : List α) (R : Finset α), (∀ y, y ∈ ys ↔ G.InvisCh vis en x y) ∧ G.unionPcComponents o (some vis) x en none = .ok R ∧
      ∀ w, w ∈ R ↔ w = x ∨ G.InvisNb vis en x w ∨ G.ValidDc vis en x w ∨
        w ∈ en ∧ ∃ z y, G.ValidDc vis en x z ∧ z ≠ x ∧ G.At w z .arrow ∧ ys.getLast? = some y ∧ (w, y) ∉ vis := by
  refine ⟨rfl, ?_⟩
  obtain ⟨L, hL, _⟩ := MG.components_mark o G en .arrow hT
  obtain ⟨Y, R, h1, h2, h3⟩ := MG.unionPc_spec o hG hT vis x en (L := L) hL (dc := none) (Or.inl rfl)
  exact ⟨o.iter x Y, R, fun y => (o.mem _ _ _).trans (h1 y), h2, h3⟩

/-- C36 (partial): the result is the documented set when visibility of an edge into the c-component does not depend on which of
its nodes is asked for. Missing: without the hypothesis the claim is false (`C36_order_dependent`). -/
theorem C36_documented_partial (o : SetOrder α) {G : MG α} (hG : G.Proper) (hT : Mark.arrow ∈ G.types) (vis : Finset (α × α))
    (x : α) (en : Finset α) (hvis : ∀ z y w, G.ValidDc vis en x z → G.InvisCh vis en x y → w ∈ en → G.At w z .arrow →
      ((w, z) ∈ vis ↔ (w, y) ∈ vis)) :
    ∃ R, G.unionPcComponents o (some vis) x en none = .ok R ∧ ∀ w, w ∈ R ↔ G.PcDocumented vis en x w := by
  obtain ⟨_, ys, R, h1, h2, h3⟩ := C36_as_coded o hG hT vis x en
  refine ⟨R, h2, fun w => ?_⟩
  rw [h3]
  unfold MG.PcDocumented
  refine or_congr Iff.rfl (or_congr Iff.rfl (or_congr Iff.rfl (and_congr_right fun hw => ?_)))
  constructor
  · rintro ⟨z, y, k1, k2, k3, k4, k5⟩
    exact ⟨z, k1, k2, k3, fun h => k5 ((hvis z y w k1 ((h1 y).1 (List.mem_of_getLast? k4)) hw k3).1 h)⟩
  · rintro ⟨z, k1, k2, k3, k4⟩
    obtain ⟨y0, hy0, _⟩ := id k1
    have hne : ys ≠ [] := List.ne_nil_of_mem ((h1 y0).2 hy0)
    refine ⟨z, ys.getLast hne, k1, k2, k3, List.getLast?_eq_getLast_of_ne_nil hne, fun h => k4 ?_⟩
    exact (hvis z _ w k1 ((h1 _).1 (List.getLast_mem hne)) hw k3).2 h

/-- C36 (partial): with at most one invisible child the result does not depend on the iteration order. -/
theorem C36_order_independent_partial (o o' : SetOrder α) {G : MG α} (hG : G.Proper) (hT : Mark.arrow ∈ G.types)
    (vis : Finset (α × α)) (x : α) (en : Finset α) (h1 : ∀ y y', G.InvisCh vis en x y → G.InvisCh vis en x y' → y = y') :
    G.unionPcComponents o (some vis) x en none = G.unionPcComponents o' (some vis) x en none := by
  obtain ⟨_, ys, R, a1, a2, a3⟩ := C36_as_coded o hG hT vis x en
  obtain ⟨_, ys', R', b1, b2, b3⟩ := C36_as_coded o' hG hT vis x en
  rw [a2, b2]
  congr 1
  ext w
  rw [a3, b3]
  refine or_congr Iff.rfl (or_congr Iff.rfl (or_congr Iff.rfl (and_congr_right fun hw => exists_congr fun z =>
    exists_congr fun y => and_congr_right fun hz => and_congr_right fun _ => and_congr_right fun _ => and_congr_left fun _ => ?_)))
  have key : ∀ (l l' : List α), (∀ y, y ∈ l ↔ G.InvisCh vis en x y) → (∀ y, y ∈ l' ↔ G.InvisCh vis en x y) →
      l.getLast? = some y → l'.getLast? = some y := by
    intro l l' hl hl' h
    have hy := (hl y).1 (List.mem_of_getLast? h)
    have hne : l' ≠ [] := List.ne_nil_of_mem ((hl' y).2 hy)
    rw [List.getLast?_eq_getLast_of_ne_nil hne]
    exact congrArg some (h1 _ _ ((hl' _).1 (List.getLast_mem hne)) hy)
  exact ⟨key ys ys' a1 b1, key ys' ys b1 a1⟩

/-- A PAG with two invisible children of node 0. -/
def exPc : MG Nat := .ofMarks {0, 1, 2, 3, 4, 5, 6} [.tail, .arrow, .circle]
  [(0, 1, .arrow), (1, 0, .circle), (3, 1, .arrow), (1, 3, .tail), (4, 3, .arrow), (3, 4, .circle), (5, 3, .arrow),
   (3, 5, .circle), (0, 2, .arrow), (2, 0, .circle), (6, 2, .arrow), (2, 6, .circle)]

theorem exPc_proper : exPc.Proper := MG.ofMarks_proper (by decide)

/-- C36, negation of order independence: on this PAG, with the visible edges that `find_visible_edges` finds, the result for node
0 depends on the iteration order of a set. -/
theorem C36_order_dependent :
    (exPc.findVisibleEdges ascending).map (fun vis => decide (vis = {(3, 1)})) = .ok true ∧
    (exPc.findVisibleEdges descending).map (fun vis => decide (vis = {(3, 1)})) = .ok true ∧
    (exPc.unionPcComponents ascending (some {(3, 1)}) 0 exPc.nodes none).map (ascending.iter ()) = .ok [0, 1, 2, 3, 6] ∧
    (exPc.unionPcComponents descending (some {(3, 1)}) 0 exPc.nodes none).map (ascending.iter ()) = .ok [0, 1, 2, 6] := by
  decide +kernel

/-! ## C59 -/

/-- C59: `find_union_pc_components_for_set` is the union of the results for the single nodes (with the c-components of the
sub-graph computed once). -/
theorem C59_pc_set (o : SetOrder α) {G : MG α} (hG : G.Proper) (hT : Mark.arrow ∈ G.types) (vis : Finset (α × α))
    (X en : Finset α) :
    ∃ R, G.unionPcSet o (some vis) X en = .ok R ∧
      ∀ w, w ∈ R ↔ ∃ x ∈ X, ∃ S, G.unionPcComponents o (some vis) x en none = .ok S ∧ w ∈ S := by
  obtain ⟨L, hL, _⟩ := MG.components_mark o G en .arrow hT
  have hone : ∀ x, ∃ S, G.unionPcComponents o (some vis) x en (some L) = .ok S ∧
      G.unionPcComponents o (some vis) x en none = .ok S := by
    intro x
    obtain ⟨Y, R, h1, h2, h3⟩ := MG.unionPc_spec o hG hT vis x en (L := L) hL (dc := none) (Or.inl rfl)
    obtain ⟨Y', R', h1', h2', h3'⟩ := MG.unionPc_spec o hG hT vis x en (L := L) hL (dc := some L) (Or.inr rfl)
    have hY : Y = Y' := by ext y; rw [h1, h1']
    have hR : R = R' := by ext w; rw [h3, h3', hY]
    exact ⟨R', h2', hR ▸ h2⟩
  have hloop : ∀ (l : List α) (acc : Finset α), ∃ R, l.foldlM (fun (acc : Finset α) x => do
      let s ← G.unionPcComponents o (some vis) x en (some L)
      return acc ∪ s) acc = .ok R ∧
      ∀ w, w ∈ R ↔ w ∈ acc ∨ ∃ x ∈ l, ∃ S, G.unionPcComponents o (some vis) x en none = .ok S ∧ w ∈ S := by
    intro l
    induction l with
    | nil => intro acc; exact ⟨acc, rfl, by simp⟩
    | cons x l ih =>
      intro acc
      obtain ⟨S, s1, s2⟩ := hone x
      obtain ⟨R, h1, h2⟩ := ih (acc ∪ S)
      refine ⟨R, ?_, fun w => ?_⟩
      · simp only [List.foldlM_cons, s1]
        exact h1
      · rw [h2]
        simp only [Finset.mem_union, List.mem_cons, exists_eq_or_imp, or_assoc, s2, Except.ok.injEq, exists_eq_left']
  obtain ⟨R, h1, h2⟩ := hloop (o.iter 0 X) ∅
  refine ⟨R, ?_, fun w => ?_⟩
  · unfold MG.unionPcSet
    rw [MG.dcComponents, py_bind hL]
    exact h1
  · rw [h2]
    simp only [Finset.notMem_empty, false_or, o.mem]

/-- C59: `find_region` is the union of the buckets that meet the possible c-components of the set. -/
theorem C59_region (o : SetOrder α) {G : MG α} (hG : G.Proper) (hT : Mark.arrow ∈ G.types) (hT' : Mark.circle ∈ G.types)
    (vis : Finset (α × α)) (X en : Finset α) :
    ∃ P R, G.unionPcSet o (some vis) X en = .ok P ∧ G.findRegion o (some vis) X en = .ok R ∧
      ∀ w, w ∈ R ↔ ∃ v ∈ P, v ∈ en ∧ G.SameBucket en v w := by
  obtain ⟨P, hP, _⟩ := C59_pc_set o hG hT vis X en
  obtain ⟨B, b1, b2, _, _, b5⟩ := MG.findBuckets_spec o G hT' en
  refine ⟨P, (o.iter 1 P).foldl (fun acc v => acc ∪ ((B.find? (fun S => v ∈ S)).getD ∅)) ∅, hP, ?_, fun w => ?_⟩
  · unfold MG.findRegion
    rw [py_bind hP, py_bind b1]
    rfl
  · rw [MG.mem_foldl_map_union]
    simp only [Finset.notMem_empty, false_or, o.mem, MG.find_component b2 b5]

/-- C59, error branch: with a non-empty set and no visible edges computed, both calls fail. -/
theorem C59_not_computed (o : SetOrder α) {G : MG α} (hT : Mark.arrow ∈ G.types) (X en : Finset α) (hX : X.Nonempty) :
    G.unionPcSet o none X en = .error .assertionError ∧ G.findRegion o none X en = .error .assertionError := by
  obtain ⟨L, hL, _⟩ := MG.components_mark o G en .arrow hT
  have h : G.unionPcSet o none X en = .error .assertionError := by
    unfold MG.unionPcSet
    rw [MG.dcComponents, py_bind hL]
    obtain ⟨x, hx⟩ := hX
    have := (o.mem 0 X x).2 hx
    cases hl : o.iter 0 X with
    | nil => rw [hl] at this; cases this
    | cons a l => rfl
  refine ⟨h, ?_⟩
  unfold MG.findRegion
  rw [h]
  rfl

/-- The hypotheses of the positive parts are met by `exPc` with node 6, which has one invisible child. -/
example : exPc.Proper ∧ Mark.arrow ∈ exPc.types ∧ Mark.circle ∈ exPc.types ∧
    (exPc.unionPcComponents ascending (some {(3, 1)}) 6 exPc.nodes none).map (ascending.iter ()) = .ok [0, 2, 6] ∧
    (exPc.unionPcSet ascending (some {(3, 1)}) {6, 3} exPc.nodes).map (ascending.iter ()) = .ok [0, 2, 3, 4, 5, 6] ∧
    (exBuckets.findRegion ascending (some ∅) {2} {0, 1, 2, 4}).map (ascending.iter ()) = .ok [0, 1, 2] :=
  ⟨exPc_proper, by decide, by decide, by decide +kernel, by decide +kernel, by decide +kernel⟩

end Verif
