import Verif.Spec.Synth
import Verif.Lemmas.DagMisc
import Verif.Lemmas.OrdMarks
import Verif.Props.Dag
import Mathlib.Tactic.LinearCombination

/-!
# Lemmas about synthetic graphs
-/

namespace Verif
namespace Synth
open Relation

theorem addEdges_ok {G : Dag Nat} {ps : Finset Nat} {v : Nat} (hp : ps ⊆ G.nodes) (hv : v ∈ G.nodes) :
    ∃ G', G.addEdges ps v = .ok G' ∧ G'.nodes = G.nodes ∧ ∀ a b, G'.Edge a b ↔ G.Edge a b ∨ (b = v ∧ a ∈ ps) := by
  refine ⟨{ G with par := fun x => if x = v then G.par x ∪ ps else G.par x }, ?_, rfl, ?_⟩
  · rw [Dag.addEdges, if_neg (by simp [Finset.sdiff_eq_empty_iff_subset.mpr hp]), if_neg (by simpa using hv)]
    rfl
  · intro a b
    simp only [Dag.Edge]
    by_cases h : b = v
    · subst h
      simp
    · simp [h]

/-- One row of the loops. -/
theorem row_spec (rnd : Nat → ℚ) (n p : Nat) (pr : ℚ) (G0 : Dag Nat) (k : Nat) (hn : G0.nodes = Finset.range n) :
    ∀ m, p + 1 + m ≤ n →
    ∃ G, ((List.range m).map (p + 1 + ·)).foldlM (fun (s : Dag Nat × Nat) c =>
      if rnd s.2 < pr then do
        let G ← s.1.addEdges {p} c
        return (G, s.2 + 1)
      else return (s.1, s.2 + 1)) (G0, k) = (.ok (G, k + m) : Py _) ∧ G.nodes = Finset.range n ∧
      ∀ a b, G.Edge a b ↔ G0.Edge a b ∨ (a = p ∧ p < b ∧ b < p + 1 + m ∧ rnd (k + (b - p - 1)) < pr) := by
  intro m
  induction m with
  | zero =>
    intro _
    exact ⟨G0, rfl, hn, fun a b => ⟨Or.inl, fun h => h.elim id (fun h => by omega)⟩⟩
  | succ m ih =>
    intro hm
    obtain ⟨G, h1, h2, h3⟩ := ih (by omega)
    rw [List.range_succ, List.map_append, List.foldlM_append, py_bind h1]
    simp only [List.map_cons, List.map_nil, List.foldlM_cons, List.foldlM_nil]
    have key : ∀ b, p < b → b < p + 1 + (m + 1) → b < p + 1 + m ∨ (b = p + 1 + m ∧ b - p - 1 = m) := by
      intro b _ _
      omega
    by_cases hr : rnd (k + m) < pr
    · obtain ⟨G', e1, e2, e3⟩ := addEdges_ok (G := G) (ps := {p}) (v := p + 1 + m)
        (by rw [h2]; simp only [Finset.singleton_subset_iff, Finset.mem_range]; omega) (by rw [h2, Finset.mem_range]; omega)
      refine ⟨G', ?_, e2.trans h2, fun a b => ?_⟩
      · rw [if_pos hr, py_bind e1]
        rfl
      · rw [e3, h3]
        constructor
        · rintro ((h | ⟨rfl, h5, h6, h7⟩) | ⟨rfl, h⟩)
          · exact Or.inl h
          · exact Or.inr ⟨rfl, h5, by omega, h7⟩
          · rw [Finset.mem_singleton] at h
            subst h
            refine Or.inr ⟨rfl, by omega, by omega, ?_⟩
            rw [show a + 1 + m - a - 1 = m by omega]
            exact hr
        · rintro (h | ⟨rfl, h5, h6, h7⟩)
          · exact Or.inl (Or.inl h)
          · rcases key b h5 h6 with h | ⟨h, _⟩
            · exact Or.inl (Or.inr ⟨rfl, h5, h, h7⟩)
            · exact Or.inr ⟨h, by simp⟩
    · refine ⟨G, ?_, h2, fun a b => ?_⟩
      · rw [if_neg hr]
        rfl
      · rw [h3]
        constructor
        · rintro (h | ⟨rfl, h5, h6, h7⟩)
          · exact Or.inl h
          · exact Or.inr ⟨rfl, h5, by omega, h7⟩
        · rintro (h | ⟨rfl, h5, h6, h7⟩)
          · exact Or.inl h
          · rcases key b h5 h6 with h | ⟨h, e⟩
            · exact Or.inr ⟨rfl, h5, h, h7⟩
            · rw [e] at h7
              exact absurd h7 hr

theorem randomDag_spec (rnd : Nat → ℚ) (k n : Nat) (e : ℚ) :
    ∃ G, randomDag rnd k n e = .ok (G, k + numPairs n) ∧ DrawnFrom rnd k n e G := by
  have key : ∀ m, m ≤ n - 1 → ∃ G, (List.range m).foldlM (fun s p =>
      ((List.range (n - (p + 1))).map (p + 1 + ·)).foldlM (fun (s : Dag Nat × Nat) c =>
        if rnd s.2 < e / ((n : ℚ) - 1) then do
          let G ← s.1.addEdges {p} c
          return (G, s.2 + 1)
        else return (s.1, s.2 + 1)) s) (Dag.empty (Finset.range n), k) =
        (.ok (G, k + ∑ q ∈ Finset.range m, (n - 1 - q)) : Py _) ∧ G.nodes = Finset.range n ∧
      ∀ a b, G.Edge a b ↔ a < m ∧ a < b ∧ b < n ∧ rnd (k + pairIdx n a b) < e / ((n : ℚ) - 1) := by
    intro m
    induction m with
    | zero =>
      intro _
      exact ⟨Dag.empty (Finset.range n), rfl, rfl, fun a b => by simp [Dag.Edge, Dag.empty]⟩
    | succ m ih =>
      intro hm
      obtain ⟨G, h1, h2, h3⟩ := ih (by omega)
      rw [List.range_succ, List.foldlM_append, py_bind h1]
      simp only [List.foldlM_cons, List.foldlM_nil]
      obtain ⟨G', e1, e2, e3⟩ := row_spec rnd n m (e / ((n : ℚ) - 1)) G (k + ∑ q ∈ Finset.range m, (n - 1 - q)) h2 (n - (m + 1)) (by omega)
      refine ⟨G', ?_, e2, fun a b => ?_⟩
      · rw [py_bind e1, Finset.sum_range_succ, show n - (m + 1) = n - 1 - m by omega, Nat.add_assoc]
        rfl
      · rw [e3, h3]
        constructor
        · rintro (⟨h5, h6, h7, h8⟩ | ⟨rfl, h6, h7, h8⟩)
          · exact ⟨by omega, h6, h7, h8⟩
          · refine ⟨by omega, h6, by omega, ?_⟩
            rw [pairIdx, ← Nat.add_assoc]
            exact h8
        · rintro ⟨h5, h6, h7, h8⟩
          by_cases ha : a < m
          · exact Or.inl ⟨ha, h6, h7, h8⟩
          · obtain rfl : a = m := by omega
            refine Or.inr ⟨rfl, h6, by omega, ?_⟩
            rw [pairIdx, ← Nat.add_assoc] at h8
            exact h8
  obtain ⟨G, h1, h2, h3⟩ := key (n - 1) (le_refl _)
  refine ⟨G, h1, h2, fun a b => ?_⟩
  rw [h3]
  constructor
  · rintro ⟨_, h6, h7, h8⟩
    exact ⟨h6, h7, h8⟩
  · rintro ⟨h6, h7, h8⟩
    exact ⟨by omega, h6, h7, h8⟩

theorem pairIdx_lt {n a b : Nat} (h : a < b) (hb : b < n) : pairIdx n a b < ∑ q ∈ Finset.range (a + 1), (n - 1 - q) := by
  rw [pairIdx, Finset.sum_range_succ]
  omega

theorem pairIdx_lt_num {n a b : Nat} (h : a < b) (hb : b < n) : pairIdx n a b < numPairs n := by
  refine lt_of_lt_of_le (pairIdx_lt h hb) ?_
  rw [numPairs]
  exact Finset.sum_le_sum_of_subset (by intro x; simp only [Finset.mem_range]; omega)

theorem pairIdx_inj {n a b a' b' : Nat} (h : a < b) (hb : b < n) (h' : a' < b') (hb' : b' < n)
    (e : pairIdx n a b = pairIdx n a' b') : a = a' ∧ b = b' := by
  have key : ∀ {a b a' b' : Nat}, a < b → b < n → a' < b' → a < a' → pairIdx n a b < pairIdx n a' b' := by
    intro a b a' b' h hb h' hlt
    refine lt_of_lt_of_le (pairIdx_lt h hb) ?_
    rw [pairIdx]
    refine le_trans (Finset.sum_le_sum_of_subset ?_) (Nat.le_add_right _ _)
    intro x
    simp only [Finset.mem_range]
    omega
  rcases Nat.lt_trichotomy a a' with h1 | h1 | h1
  · have := key h hb h' h1
    omega
  · subst h1
    rw [pairIdx, pairIdx] at e
    exact ⟨rfl, by omega⟩
  · have := key h' hb' h h1
    omega

theorem acyclic_of_lt {G : Dag Nat} (h : ∀ a b, G.Edge a b → a < b) : G.Acyclic := by
  have key : ∀ {a b}, TransGen G.Edge a b → a < b := by
    intro a b hab
    induction hab with
    | single h' => exact h _ _ h'
    | tail _ h' ih => exact lt_trans ih (h _ _ h')
  exact fun v hv => lt_irrefl _ (key hv)

theorem maxFan_spec (rng : Rng) (n : Nat) {maxFan : Int} (h0 : 0 ≤ maxFan) :
    ∃ G, randomDagMaxFan rng n maxFan = .ok G ∧ G.nodes = Finset.range n ∧
      ∀ b, G.par b = if 0 < b ∧ b < n then (rng.sample b (rng.int b (min (b : Int) maxFan).toNat)).toFinset else ∅ := by
  have key : ∀ m, m ≤ n - 1 → ∃ G, ((List.range m).map (1 + ·)).foldlM (fun (G : Dag Nat) (v : Nat) => do
      if min (v : Int) maxFan < 0 then throw .valueError
      let k := rng.int v (min (v : Int) maxFan).toNat
      if k > 0 then G.addEdges (rng.sample v k).toFinset v else return G) (Dag.empty (Finset.range n)) = (.ok G : Py _) ∧
      G.nodes = Finset.range n ∧
      ∀ b, G.par b = if 0 < b ∧ b < m + 1 then (rng.sample b (rng.int b (min (b : Int) maxFan).toNat)).toFinset else ∅ := by
    intro m
    induction m with
    | zero =>
      intro _
      refine ⟨_, rfl, rfl, fun b => ?_⟩
      rw [if_neg (by omega)]
      rfl
    | succ m ih =>
      intro hm
      obtain ⟨G, h1, h2, h3⟩ := ih (by omega)
      rw [List.range_succ, List.map_append, List.foldlM_append, py_bind h1]
      simp only [List.map_cons, List.map_nil, List.foldlM_cons, List.foldlM_nil]
      have hneg : ¬ min ((1 + m : Nat) : Int) maxFan < 0 := by omega
      set K := rng.int (1 + m) (min ((1 + m : Nat) : Int) maxFan).toNat with hK
      have hle : K ≤ 1 + m := le_trans (rng.int_le _ _) (by omega)
      have hlast : G.par (1 + m) = ∅ := by rw [h3, if_neg (by omega)]
      rw [if_neg hneg]
      by_cases hk : 0 < K
      · obtain ⟨G', e1, e2, e3⟩ := addEdges_ok (G := G) (ps := (rng.sample (1 + m) K).toFinset) (v := 1 + m) (by
            intro x hx
            rw [h2, Finset.mem_range]
            have := rng.sample_lt _ _ hle x (List.mem_toFinset.mp hx)
            omega) (by rw [h2, Finset.mem_range]; omega)
        refine ⟨G', ?_, e2.trans h2, fun b => ?_⟩
        · rw [if_pos hk, py_bind e1]
          rfl
        · ext a
          rw [show a ∈ G'.par b ↔ G'.Edge a b from Iff.rfl, e3, Dag.Edge, h3]
          by_cases hb : b = 1 + m
          · subst hb
            rw [if_neg (by omega), if_pos (by omega), ← hK]
            simp
          · by_cases hb' : 0 < b ∧ b < m + 1
            · rw [if_pos hb', if_pos (by omega)]
              simp [hb]
            · rw [if_neg hb', if_neg (by omega)]
              simp [hb]
      · refine ⟨G, ?_, h2, fun b => ?_⟩
        · rw [if_neg hk]
          rfl
        · by_cases hb : b = 1 + m
          · subst hb
            rw [hlast, if_pos (by omega), ← hK, show K = 0 by omega]
            have := rng.sample_len (1 + m) 0 (by omega)
            rw [List.length_eq_zero_iff.mp this]
            rfl
          · rw [h3]
            by_cases hb' : 0 < b ∧ b < m + 1
            · rw [if_pos hb', if_pos (by omega)]
            · rw [if_neg hb', if_neg (by omega)]
  obtain ⟨G, h1, h2, h3⟩ := key (n - 1) (le_refl _)
  refine ⟨G, h1, h2, fun b => ?_⟩
  rw [h3]
  by_cases hb : 0 < b ∧ b < n
  · rw [if_pos hb, if_pos (by omega)]
  · rw [if_neg hb, if_neg (by omega)]

/-- The loop over the trials: graph number `j` is drawn from the draws that start with `j * numPairs n`. -/
theorem connectedLoop_spec (o : SetOrder Nat) (rnd : Nat → ℚ) {n : Nat} (hn : 2 ≤ n) (e : ℚ) (timeout : Int) :
    ∀ (fuel acc : Nat), timeout.toNat + 2 ≤ fuel + acc → acc ≤ timeout.toNat + 1 →
    ∃ r, connectedLoop o rnd n e timeout fuel (acc * numPairs n) acc = .ok r ∧
      ((r = none ∧ ∀ j G, acc ≤ j → (j : Int) ≤ timeout → DrawnFrom rnd (j * numPairs n) n e G → ¬ Connected G) ∨
       ∃ j G, r = some G ∧ acc ≤ j ∧ (j : Int) ≤ timeout ∧ DrawnFrom rnd (j * numPairs n) n e G ∧ Connected G ∧
        ∀ i G', acc ≤ i → i < j → DrawnFrom rnd (i * numPairs n) n e G' → ¬ Connected G') := by
  intro fuel
  induction fuel with
  | zero => intro acc h1 h2; omega
  | succ fuel ih =>
    intro acc h1 h2
    rw [connectedLoop]
    by_cases ht : timeout < acc
    · rw [if_pos ht]
      exact ⟨none, rfl, Or.inl ⟨rfl, fun j G h3 h4 => by omega⟩⟩
    · rw [if_neg ht]
      obtain ⟨G, g1, g2⟩ := randomDag_spec rnd (acc * numPairs n) n e
      rw [py_bind g1]
      simp only
      have huniq : ∀ G', DrawnFrom rnd (acc * numPairs n) n e G' → (Connected G' ↔ Connected G) := by
        intro G' hG'
        have hnn : G'.nodes = G.nodes := hG'.nodes.trans g2.nodes.symm
        have hpar : G'.par = G.par := by
          funext b
          ext a
          exact (hG'.edge a b).trans (g2.edge a b).symm
        cases G'
        cases G
        simp only at hnn hpar
        subst hnn hpar
        rfl
      obtain ⟨b, c1, c2⟩ := Dag.isGraphConnected_spec o (G := G) (S := G.nodes) (Finset.Subset.refl _)
        (by rw [g2.nodes, Finset.card_range]; omega)
      rw [py_bind c1]
      cases b with
      | true =>
        refine ⟨some G, rfl, Or.inr ⟨acc, G, rfl, le_refl _, by omega, g2, c2.mp rfl, fun i G' _ _ => by omega⟩⟩
      | false =>
        have hnc : ¬ Connected G := fun h => by have := c2.mpr h; cases this
        obtain ⟨r, r1, r2⟩ := ih (acc + 1) (by omega) (by omega)
        refine ⟨r, ?_, ?_⟩
        · rw [if_neg (by decide), ← r1]
          congr 1
          rw [Nat.add_mul, Nat.one_mul]
        · rcases r2 with ⟨rfl, r2⟩ | ⟨j, G1, rfl, r3, r4, r5, r6, r7⟩
          · refine Or.inl ⟨rfl, fun j G' h3 h4 h5 => ?_⟩
            by_cases hj : j = acc
            · subst hj
              exact fun h => hnc ((huniq G' h5).mp h)
            · exact r2 j G' (by omega) h4 h5
          · refine Or.inr ⟨j, G1, rfl, by omega, r4, r5, r6, fun i G' h3 h4 h5 => ?_⟩
            by_cases hj : i = acc
            · subst hj
              exact fun h => hnc ((huniq G' h5).mp h)
            · exact r7 i G' (by omega) h4 h5

theorem filter_fold (P : Nat → Prop) [DecidablePred P] {l : List Nat} :
    ∀ (f : Finset Nat → Nat → Py (Finset Nat)), (∀ acc, ∀ v ∈ l, f acc v = if P v then .ok (insert v acc) else .ok acc) →
    l.foldlM f ∅ = .ok (l.filter (fun v => decide (P v))).toFinset := by
  intro f hf
  obtain ⟨S, h1, h2⟩ := foldlM_ok_inv (f := f) (fun done s => s = (done.filter (fun v => decide (P v))).toFinset) l [] ∅ rfl (by
    intro done v s hv hI
    subst hI
    by_cases hp : P v
    · refine ⟨_, (hf _ v hv).trans (if_pos hp), ?_⟩
      ext x
      simp only [List.filter_append, List.mem_toFinset, Finset.mem_insert, List.mem_append, List.filter_cons, hp, decide_true, if_true,
        List.filter_nil, List.mem_singleton]
      tauto
    · refine ⟨_, (hf _ v hv).trans (if_neg hp), ?_⟩
      simp [hp])
  rw [h1, h2]
  rfl

theorem selectLatents_spec (o : SetOrder Nat) (G : Dag Nat) :
    selectLatents o G = .ok (G.nodes.filter (fun v => G.par v = ∅ ∧ 2 ≤ (G.nodes.filter (fun c => v ∈ G.par c)).card)) := by
  rw [selectLatents]
  have h1 := filter_fold (fun v => G.par v = ∅) (l := o.iter () G.nodes)
    (fun (acc : Finset Nat) v => do if (← G.parents v).card = 0 then return insert v acc else return acc) (by
      intro acc v hv
      rw [o.mem] at hv
      rw [show G.parents v = .ok (G.par v) from if_pos hv]
      by_cases hp : G.par v = ∅
      · rw [if_pos hp]
        refine (py_bind rfl _).trans (if_pos ?_)
        rw [hp, Finset.card_empty]
      · rw [if_neg hp]
        exact (py_bind rfl _).trans (if_neg (by rwa [Finset.card_eq_zero])))
  rw [py_bind h1]
  set S := ((o.iter () G.nodes).filter (fun v => decide (G.par v = ∅))).toFinset with hS
  have hmem : ∀ v, v ∈ S ↔ v ∈ G.nodes ∧ G.par v = ∅ := by
    intro v
    rw [hS, List.mem_toFinset, List.mem_filter, o.mem, decide_eq_true_eq]
  rw [filter_fold (fun v => 2 ≤ (G.nodes.filter (fun c => v ∈ G.par c)).card) (l := o.iter () S)
    (fun (acc : Finset Nat) p => do if (← G.findChildren p G.nodes).card ≥ 2 then return insert p acc else return acc) (by
      intro acc v hv
      rw [Dag.findChildren_ok (Finset.Subset.refl _)]
      exact py_bind rfl _)]
  congr 1
  ext v
  rw [List.mem_toFinset, List.mem_filter, o.mem, hmem, Finset.mem_filter, decide_eq_true_eq, and_assoc]

/-- One node: its column gets the weighted columns of its parents. -/
theorem inner_spec (sgn : Nat → Bool) (uni : Nat → ℝ) {n v : Nat} (hv : v < n) :
    ∀ (l : List Nat), l.Nodup → v ∉ l → (∀ p ∈ l, p < n) → ∀ (s : (Nat → Nat → ℝ) × Nat),
    ∃ (s' : (Nat → Nat → ℝ) × Nat) (κ : Nat → Nat), l.foldlM (fun (s : (Nat → Nat → ℝ) × Nat) p =>
      if v < n ∧ p < n then
        return ((fun i x => if x = v then s.1 i v + edgeWeight sgn uni s.2 * s.1 i p else s.1 i x), s.2 + 1)
      else throw .indexError) s = (.ok s' : Py _) ∧ s'.2 = s.2 + l.length ∧ (∀ p ∈ l, s.2 ≤ κ p ∧ κ p < s'.2) ∧
      (∀ p ∈ l, ∀ q ∈ l, κ p = κ q → p = q) ∧ (∀ i x, x ≠ v → s'.1 i x = s.1 i x) ∧
      ∀ i, s'.1 i v = s.1 i v + ∑ p ∈ l.toFinset, edgeWeight sgn uni (κ p) * s.1 i p := by
  intro l
  induction l with
  | nil =>
    intro _ _ _ s
    exact ⟨s, fun _ => 0, rfl, rfl, by simp, by simp, fun _ _ _ => rfl, by simp⟩
  | cons p l ih =>
    intro hnd hvl hlt s
    rw [List.nodup_cons] at hnd
    rw [List.mem_cons, not_or] at hvl
    obtain ⟨s', κ, h1, h2, h3, h4, h5, h6⟩ := ih hnd.2 hvl.2 (fun q hq => hlt q (List.mem_cons_of_mem _ hq))
      ((fun i x => if x = v then s.1 i v + edgeWeight sgn uni s.2 * s.1 i p else s.1 i x), s.2 + 1)
    simp only at h2 h3 h5 h6
    refine ⟨s', fun q => if q = p then s.2 else κ q, ?_, ?_, ?_, ?_, ?_, ?_⟩
    · rw [List.foldlM_cons, if_pos ⟨hv, hlt p List.mem_cons_self⟩]
      exact h1
    · rw [h2, List.length_cons]
      omega
    · intro q hq
      by_cases e : q = p
      · simp only [e, if_true]
        omega
      · simp only [if_neg e]
        have := h3 q ((List.mem_cons.mp hq).resolve_left e)
        omega
    · intro q hq r hr he
      by_cases e : q = p
      · by_cases e' : r = p
        · rw [e, e']
        · simp only [if_pos e, if_neg e'] at he
          have := h3 r ((List.mem_cons.mp hr).resolve_left e')
          omega
      · by_cases e' : r = p
        · simp only [if_neg e, if_pos e'] at he
          have := h3 q ((List.mem_cons.mp hq).resolve_left e)
          omega
        · simp only [if_neg e, if_neg e'] at he
          exact h4 q ((List.mem_cons.mp hq).resolve_left e) r ((List.mem_cons.mp hr).resolve_left e') he
    · intro i x hx
      rw [h5 i x hx, if_neg hx]
    · intro i
      have hpl : p ∉ l.toFinset := fun h => hnd.1 (List.mem_toFinset.mp h)
      rw [h6, if_pos trivial, List.toFinset_cons, Finset.sum_insert hpl, add_assoc]
      simp only [if_true]
      congr 2
      refine Finset.sum_congr rfl (fun q hq => ?_)
      have hq' := List.mem_toFinset.mp hq
      have e : q ≠ p := fun e => hnd.1 (e ▸ hq')
      have e' : q ≠ v := fun e => hvl.2 (e ▸ hq')
      rw [if_neg e, if_neg e']

theorem outer_spec (o : SetOrder Nat) {G : Dag Nat} (hirr : ∀ v, v ∉ G.par v) (hlt : ∀ v ∈ G.nodes, v < G.nodes.card)
    (hWF : G.WF) (sgn : Nat → Bool) (uni : Nat → ℝ) :
    ∀ (l : List Nat), l.Nodup → (∀ v ∈ l, v ∈ G.nodes) → l.Pairwise (fun x y => ¬ G.Edge y x) → ∀ (s : (Nat → Nat → ℝ) × Nat),
    ∃ (s' : (Nat → Nat → ℝ) × Nat) (κ : Nat → Nat → Nat), l.foldlM (fun (s : (Nat → Nat → ℝ) × Nat) v => do
      let ps ← G.parents v
      (o.iter v ps).foldlM (fun (s : (Nat → Nat → ℝ) × Nat) p =>
        if v < G.nodes.card ∧ p < G.nodes.card then
          return ((fun i x => if x = v then s.1 i v + edgeWeight sgn uni s.2 * s.1 i p else s.1 i x), s.2 + 1)
        else throw .indexError) s) s = (.ok s' : Py _) ∧ s'.2 = s.2 + ∑ v ∈ l.toFinset, (G.par v).card ∧
      (∀ v ∈ l, ∀ p ∈ G.par v, s.2 ≤ κ p v ∧ κ p v < s'.2) ∧
      (∀ v ∈ l, ∀ p ∈ G.par v, ∀ w ∈ l, ∀ q ∈ G.par w, κ p v = κ q w → p = q ∧ v = w) ∧
      (∀ i x, x ∉ l → s'.1 i x = s.1 i x) ∧
      ∀ v ∈ l, ∀ i, s'.1 i v = s.1 i v + ∑ p ∈ G.par v, edgeWeight sgn uni (κ p v) * s'.1 i p := by
  intro l
  induction l with
  | nil =>
    intro _ _ _ s
    exact ⟨s, fun _ _ => 0, rfl, rfl, by simp, by simp, fun _ _ _ => rfl, by simp⟩
  | cons v l ih =>
    intro hnd hmem hpw s
    rw [List.nodup_cons] at hnd
    rw [List.pairwise_cons] at hpw
    have hvn := hmem v List.mem_cons_self
    obtain ⟨s1, κ1, a1, a2, a3, a4, a5, a6⟩ := inner_spec sgn uni (hlt v hvn) (o.iter v (G.par v)) (o.nodup v _)
      (by rw [o.mem]; exact hirr v) (fun p hp => by rw [o.mem] at hp; exact hlt p (hWF _ _ hp).1) s
    have hlen : (o.iter v (G.par v)).length = (G.par v).card := by
      rw [← List.toFinset_card_of_nodup (o.nodup v _)]
      congr 1
      ext x
      rw [List.mem_toFinset, o.mem]
    have hfs : (o.iter v (G.par v)).toFinset = G.par v := by
      ext x
      rw [List.mem_toFinset, o.mem]
    obtain ⟨s', κ, b1, b2, b3, b4, b5, b6⟩ := ih hnd.2 (fun w hw => hmem w (List.mem_cons_of_mem _ hw)) hpw.2 s1
    have hvl : v ∉ l.toFinset := fun h => hnd.1 (List.mem_toFinset.mp h)
    simp only [o.mem] at a3 a4
    rw [hlen] at a2
    refine ⟨s', fun p w => if w = v then κ1 p else κ p w, ?_, ?_, ?_, ?_, ?_, ?_⟩
    · rw [List.foldlM_cons]
      refine (py_bind (a := s1) ?_ _).trans b1
      rw [show G.parents v = .ok (G.par v) from if_pos hvn]
      exact a1
    · rw [b2, a2, List.toFinset_cons, Finset.sum_insert hvl, Nat.add_assoc]
    · intro w hw p hp
      by_cases e : w = v
      · subst e
        simp only [if_true]
        have := a3 p hp
        omega
      · simp only [if_neg e]
        have := b3 w ((List.mem_cons.mp hw).resolve_left e) p hp
        omega
    · intro w hw p hp w' hw' q hq he
      by_cases e : w = v
      · by_cases e' : w' = v
        · subst e
          subst e'
          simp only [if_true] at he
          exact ⟨a4 p hp q hq he, rfl⟩
        · subst e
          simp only [if_neg e', if_true] at he
          have h1 := a3 p hp
          have h2 := b3 w' ((List.mem_cons.mp hw').resolve_left e') q hq
          omega
      · by_cases e' : w' = v
        · subst e'
          simp only [if_neg e, if_true] at he
          have h1 := a3 q hq
          have h2 := b3 w ((List.mem_cons.mp hw).resolve_left e) p hp
          omega
        · simp only [if_neg e, if_neg e'] at he
          exact b4 w ((List.mem_cons.mp hw).resolve_left e) p hp w' ((List.mem_cons.mp hw').resolve_left e') q hq he
    · intro i x hx
      rw [List.mem_cons, not_or] at hx
      rw [b5 i x hx.2, a5 i x hx.1]
    · intro w hw i
      by_cases e : w = v
      · subst e
        rw [b5 i w hnd.1, a6, hfs]
        congr 1
        refine Finset.sum_congr rfl (fun p hp => ?_)
        have hpw' : p ≠ w := fun e => hirr w (e ▸ hp)
        have hpl : p ∉ l := fun h => hpw.1 p h hp
        simp only [if_true]
        rw [b5 i p hpl, a5 i p hpw']
      · have hwl := (List.mem_cons.mp hw).resolve_left e
        rw [b6 w hwl i, a5 i w e]
        congr 1
        refine Finset.sum_congr rfl (fun p _ => ?_)
        simp only [if_neg e]

theorem foldlM_err {β σ : Type} {f : σ → β → Py σ} {e : PyErr} : ∀ (l : List β),
    (∀ s, ∀ x ∈ l, (∃ s', f s x = .ok s') ∨ f s x = .error e) → (∃ x ∈ l, ∀ s, f s x = .error e) →
    ∀ s, l.foldlM f s = .error e := by
  intro l
  induction l with
  | nil =>
    rintro _ ⟨x, hx, _⟩
    cases hx
  | cons y l ih =>
    intro h1 h2 s
    rw [List.foldlM_cons]
    rcases h1 s y List.mem_cons_self with ⟨s', hs'⟩ | hs'
    · rw [py_bind hs']
      refine ih (fun s x hx => h1 s x (List.mem_cons_of_mem _ hx)) ?_ s'
      obtain ⟨x, hx, h3⟩ := h2
      rcases List.mem_cons.mp hx with rfl | hx
      · rw [h3] at hs'
        cases hs'
      · exact ⟨x, hx, h3⟩
    · rw [hs']
      rfl

theorem foldlM_ok_or {β σ : Type} {f : σ → β → Py σ} {e : PyErr} : ∀ (l : List β),
    (∀ s, ∀ x ∈ l, (∃ s', f s x = .ok s') ∨ f s x = .error e) → ∀ s, (∃ s', l.foldlM f s = .ok s') ∨ l.foldlM f s = .error e := by
  intro l
  induction l with
  | nil => exact fun _ s => Or.inl ⟨s, rfl⟩
  | cons y l ih =>
    intro h1 s
    rw [List.foldlM_cons]
    rcases h1 s y List.mem_cons_self with ⟨s', hs'⟩ | hs'
    · rw [py_bind hs']
      exact ih (fun s x hx => h1 s x (List.mem_cons_of_mem _ hx)) s'
    · rw [hs']
      exact Or.inr rfl

end Synth
end Verif
