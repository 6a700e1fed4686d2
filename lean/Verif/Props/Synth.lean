import Verif.Lemmas.Synth
import Mathlib.Algebra.BigOperators.Intervals
import Mathlib.Tactic.Linarith
import Mathlib.Tactic.NormNum
import Mathlib.Tactic.Ring
import Mathlib.Algebra.Order.Field.Basic

/-!
# C56, C63, C64: synthetic graphs and synthetic data
-/

namespace Verif
open Synth

/-- C56: a random DAG never fails, has the nodes `0 … n-1`, and joins `a → b`, `a < b`, exactly if the draw of this pair is below
`e / (n - 1)`. The pairs use the draws number `k, k+1, …, k + n(n-1)/2 - 1`. -/
theorem C56_random_dag (rnd : Nat → ℚ) (k n : Nat) (e : ℚ) :
    ∃ G, randomDag rnd k n e = .ok (G, k + n * (n - 1) / 2) ∧ DrawnFrom rnd k n e G := by
  obtain ⟨G, h1, h2⟩ := randomDag_spec rnd k n e
  refine ⟨G, ?_, h2⟩
  rw [h1]
  have : numPairs n = n * (n - 1) / 2 := by
    rw [numPairs, ← Finset.sum_range_id_mul_two n, Nat.mul_div_cancel _ Nat.zero_lt_two]
    cases n with
    | zero => rfl
    | succ n =>
      rw [Finset.sum_range_succ', Nat.add_zero]
      have := Finset.sum_range_reflect (fun i => i + 1) n
      rw [← this, Nat.add_sub_cancel]
      refine Finset.sum_congr rfl (fun i hi => ?_)
      rw [Finset.mem_range] at hi
      omega
  rw [this]

/-- C56: different pairs of nodes use different draws, and only the draws of this call. -/
theorem C56_own_draw {n a b a' b' : Nat} (h : a < b) (hb : b < n) (h' : a' < b') (hb' : b' < n) :
    (pairIdx n a b = pairIdx n a' b' → a = a' ∧ b = b') ∧ pairIdx n a b < numPairs n :=
  ⟨pairIdx_inj h hb h' hb', pairIdx_lt_num h hb⟩

/-- C56: the random graph is a DAG, whatever the draws. -/
theorem C56_acyclic {rnd : Nat → ℚ} {k n : Nat} {e : ℚ} {G : Dag Nat} {k' : Nat} (h : randomDag rnd k n e = .ok (G, k')) :
    G.WF ∧ G.Acyclic ∧ G.nodes = Finset.range n := by
  obtain ⟨G', h1, h2⟩ := randomDag_spec rnd k n e
  rw [h1] at h
  cases h
  refine ⟨fun a b hab => ?_, acyclic_of_lt (fun a b hab => ((h2.edge a b).mp hab).1), h2.nodes⟩
  obtain ⟨h3, h4, -⟩ := (h2.edge a b).mp hab
  rw [h2.nodes, Finset.mem_range, Finset.mem_range]
  omega

/-- C56: with draws from `[0, 1)`, an expected degree of at least `n - 1` gives the complete graph and one of at most `0` the empty one. -/
theorem C56_extremes {rnd : Nat → ℚ} {k n : Nat} {e : ℚ} (h0 : ∀ j, 0 ≤ rnd j) (h1 : ∀ j, rnd j < 1) {G : Dag Nat} {k' : Nat}
    (h : randomDag rnd k n e = .ok (G, k')) :
    ((n : ℚ) - 1 ≤ e → ∀ a b, G.Edge a b ↔ a < b ∧ b < n) ∧ (e ≤ 0 → ∀ a b, ¬ G.Edge a b) := by
  obtain ⟨G', h2, h3⟩ := randomDag_spec rnd k n e
  rw [h2] at h
  cases h
  refine ⟨fun he a b => ?_, fun he a b hab => ?_⟩
  · rw [h3.edge]
    refine ⟨fun h => ⟨h.1, h.2.1⟩, fun h => ⟨h.1, h.2, lt_of_lt_of_le (h1 _) ?_⟩⟩
    have hn : (0 : ℚ) < (n : ℚ) - 1 := by
      have : (2 : ℚ) ≤ n := by
        have : 2 ≤ n := by omega
        exact_mod_cast this
      linarith
    rwa [le_div_iff₀ hn, one_mul]
  · obtain ⟨h4, h5, h6⟩ := (h3.edge a b).mp hab
    have hn : (0 : ℚ) ≤ (n : ℚ) - 1 := by
      have : (1 : ℚ) ≤ n := by
        have : 1 ≤ n := by omega
        exact_mod_cast this
      linarith
    exact absurd (lt_of_lt_of_le h6 (div_nonpos_of_nonpos_of_nonneg he hn)) (not_lt.mpr (h0 _))

open Classical in
/-- C56: every DAG whose edges ascend is the result of some draws from `[0, 1)`, if the edge probability is strictly between 0 and 1. -/
theorem C56_every_dag {n : Nat} {e : ℚ} (h0 : 0 < e / ((n : ℚ) - 1)) (h1 : e / ((n : ℚ) - 1) < 1) {G : Dag Nat}
    (hn : G.nodes = Finset.range n) (hlt : ∀ a b, G.Edge a b → a < b ∧ b < n) :
    ∃ rnd : Nat → ℚ, (∀ j, 0 ≤ rnd j ∧ rnd j < 1) ∧ ∃ k, randomDag rnd 0 n e = .ok (G, k) := by
  refine ⟨fun j => if ∃ a b, G.Edge a b ∧ pairIdx n a b = j then 0 else e / ((n : ℚ) - 1), fun j => ?_, ?_⟩
  · by_cases h : ∃ a b, G.Edge a b ∧ pairIdx n a b = j
    · simp only [if_pos h]
      exact ⟨le_refl _, zero_lt_one⟩
    · simp only [if_neg h]
      exact ⟨h0.le, h1⟩
  · obtain ⟨G', h2, h3⟩ := randomDag_spec (fun j => if ∃ a b, G.Edge a b ∧ pairIdx n a b = j then 0 else e / ((n : ℚ) - 1)) 0 n e
    refine ⟨0 + numPairs n, h2.trans ?_⟩
    rw [show G' = G from ?_]
    have hpar : G'.par = G.par := by
      funext b
      ext a
      rw [show a ∈ G'.par b ↔ G'.Edge a b from Iff.rfl, h3.edge, Nat.zero_add]
      constructor
      · rintro ⟨h4, h5, h6⟩
        by_cases h : ∃ a' b', G.Edge a' b' ∧ pairIdx n a' b' = pairIdx n a b
        · obtain ⟨a', b', h7, h8⟩ := h
          obtain ⟨h9, h10⟩ := hlt _ _ h7
          obtain ⟨rfl, rfl⟩ := pairIdx_inj h9 h10 h4 h5 h8
          exact h7
        · simp only [if_neg h, lt_self_iff_false] at h6
      · intro h
        obtain ⟨h4, h5⟩ := hlt a b h
        refine ⟨h4, h5, ?_⟩
        simp only [if_pos (⟨a, b, h, rfl⟩ : ∃ a' b', G.Edge a' b' ∧ pairIdx n a' b' = pairIdx n a b)]
        exact h0
    have hnn : G'.nodes = G.nodes := h3.nodes.trans hn.symm
    cases G'
    cases G
    simp only at hnn hpar
    subst hnn hpar
    rfl

example : (do
    let (G, k) ← randomDag (fun j => if j % 2 = 0 then 0 else 9 / 10) 0 4 (3 / 2)
    return ([0, 1, 2, 3].map (fun v => (List.range 4).filter (· ∈ G.par v)), k) : Py _) = .ok ([[], [0], [], [0, 1]], 6) := by
  decide +kernel

/-- C56: with a bound on the number of parents the graph is a DAG with the nodes `0 … n-1` that respects the bound. -/
theorem C56_max_fan (rng : Rng) (n : Nat) {maxFan : Int} (h0 : 0 ≤ maxFan) :
    ∃ G, randomDagMaxFan rng n maxFan = .ok G ∧ G.nodes = Finset.range n ∧ G.WF ∧ G.Acyclic ∧
      ∀ v, ((G.par v).card : Int) ≤ maxFan ∧ ∀ p ∈ G.par v, p < v := by
  obtain ⟨G, h1, h2, h3⟩ := maxFan_spec rng n h0
  have hle : ∀ b, rng.int b (min (b : Int) maxFan).toNat ≤ (min (b : Int) maxFan).toNat := fun b => rng.int_le _ _
  have hlt : ∀ v, ∀ p ∈ G.par v, p < v ∧ v < n := by
    intro v p hp
    rw [h3] at hp
    by_cases hb : 0 < v ∧ v < n
    · rw [if_pos hb, List.mem_toFinset] at hp
      exact ⟨rng.sample_lt _ _ (by have := hle v; omega) p hp, hb.2⟩
    · rw [if_neg hb] at hp
      simp at hp
  refine ⟨G, h1, h2, fun a b hab => ?_, acyclic_of_lt (fun a b hab => (hlt b a hab).1), fun v => ⟨?_, fun p hp => (hlt v p hp).1⟩⟩
  · rw [h2, Finset.mem_range, Finset.mem_range]
    have := hlt b a hab
    omega
  · rw [h3]
    by_cases hb : 0 < v ∧ v < n
    · rw [if_pos hb]
      have h4 := hle v
      have h5 := List.toFinset_card_le (rng.sample v (rng.int v (min (v : Int) maxFan).toNat))
      rw [rng.sample_len _ _ (by omega)] at h5
      omega
    · rw [if_neg hb, Finset.card_empty]
      exact h0

/-- C56: the parents of each node are exactly a sample of the size that was drawn for it. -/
theorem C56_max_fan_exact (rng : Rng) (n : Nat) {maxFan : Int} (h0 : 0 ≤ maxFan) {G : Dag Nat}
    (h : randomDagMaxFan rng n maxFan = .ok G) {v : Nat} (hv0 : 0 < v) (hv : v < n) :
    G.par v = (rng.sample v (rng.int v (min (v : Int) maxFan).toNat)).toFinset ∧
      (G.par v).card = rng.int v (min (v : Int) maxFan).toNat := by
  obtain ⟨G', h1, h2, h3⟩ := maxFan_spec rng n h0
  rw [h1] at h
  cases h
  have hle := rng.int_le v (min (v : Int) maxFan).toNat
  rw [h3, if_pos ⟨hv0, hv⟩]
  refine ⟨rfl, ?_⟩
  rw [List.toFinset_card_of_nodup (rng.sample_nodup _ _ (by omega)), rng.sample_len _ _ (by omega)]

open Classical in
/-- C56: every DAG with ascending edges that respects the bound is the result of some random choices. -/
theorem C56_max_fan_every {n : Nat} {maxFan : Int} (h0 : 0 ≤ maxFan) {G : Dag Nat} (hn : G.nodes = Finset.range n)
    (hlt : ∀ a b, G.Edge a b → a < b ∧ b < n) (hfan : ∀ v, ((G.par v).card : Int) ≤ maxFan) :
    ∃ rng : Rng, randomDagMaxFan rng n maxFan = .ok G := by
  have hcard : ∀ v, (G.par v).card ≤ v := by
    intro v
    have := Finset.card_le_card (show G.par v ⊆ Finset.range v from fun p hp => Finset.mem_range.mpr (hlt p v hp).1)
    rwa [Finset.card_range] at this
  let rng : Rng :=
    { int := fun v hi => min hi (G.par v).card
      int_le := fun v hi => min_le_left _ _
      sample := fun v k => if k = (G.par v).card then (G.par v).toList else List.range k
      sample_len := by
        intro v k _
        by_cases h : k = (G.par v).card
        · rw [if_pos h, Finset.length_toList, h]
        · rw [if_neg h, List.length_range]
      sample_nodup := by
        intro v k _
        by_cases h : k = (G.par v).card
        · rw [if_pos h]
          exact Finset.nodup_toList _
        · rw [if_neg h]
          exact List.nodup_range
      sample_lt := by
        intro v k hk x hx
        by_cases h : k = (G.par v).card
        · rw [if_pos h, Finset.mem_toList] at hx
          exact (hlt x v hx).1
        · rw [if_neg h, List.mem_range] at hx
          omega }
  refine ⟨rng, ?_⟩
  obtain ⟨G', h1, h2, h3⟩ := maxFan_spec rng n h0
  rw [h1, show G' = G from ?_]
  have hpar : G'.par = G.par := by
    funext v
    rw [h3]
    by_cases hb : 0 < v ∧ v < n
    · have h4 : rng.int v (min (v : Int) maxFan).toNat = (G.par v).card := by
        have := hcard v
        have := hfan v
        show min _ _ = _
        omega
      rw [if_pos hb, h4]
      show (if (G.par v).card = (G.par v).card then (G.par v).toList else _).toFinset = _
      rw [if_pos rfl, Finset.toList_toFinset]
    · rw [if_neg hb]
      symm
      rw [Finset.eq_empty_iff_forall_notMem]
      intro p hp
      have := hlt p v hp
      omega
  have hnn : G'.nodes = G.nodes := h2.trans hn.symm
  cases G'
  cases G
  simp only at hnn hpar
  subst hnn hpar
  rfl

/-- C56: a negative bound is an error as soon as there are two nodes. -/
theorem C56_max_fan_negative (rng : Rng) {n : Nat} (hn : 2 ≤ n) {maxFan : Int} (h0 : maxFan < 0) :
    randomDagMaxFan rng n maxFan = .error .valueError := by
  obtain ⟨m, rfl⟩ : ∃ m, n = m + 2 := ⟨n - 2, by omega⟩
  rw [randomDagMaxFan, show m + 2 - 1 = m + 1 from rfl, List.range_succ_eq_map, List.map_cons, List.foldlM_cons,
    if_pos (show min ((1 + 0 : Nat) : Int) maxFan < 0 by omega)]
  rfl

/-- The generator that always takes the greatest size and the first nodes. -/
def exRng : Rng where
  int := fun _ hi => hi
  int_le := fun _ _ => le_refl _
  sample := fun _ k => List.range k
  sample_len := fun _ _ _ => List.length_range
  sample_nodup := fun _ _ _ => List.nodup_range
  sample_lt := fun _ _ h _ hx => lt_of_lt_of_le (List.mem_range.mp hx) h

example : (do
    let G ← randomDagMaxFan exRng 4 2
    return [0, 1, 2, 3].map (fun v => (List.range 4).filter (· ∈ G.par v)) : Py _) = .ok [[], [0], [0, 1], [0, 1]] := by
  decide +kernel

/-- C56: the search for a connected DAG ends without error; it returns the first connected graph among the `timeout + 1` graphs drawn
one after the other, and `None` exactly if none of them is connected. -/
theorem C56_connected (o : SetOrder Nat) (rnd : Nat → ℚ) {n : Nat} (hn : 2 ≤ n) (e : ℚ) (timeout : Int) :
    ∃ r, randomConnectedDag o rnd n e timeout = .ok r ∧
      ((r = none ∧ ∀ j : Nat, (j : Int) ≤ timeout → ∀ G, DrawnFrom rnd (j * numPairs n) n e G → ¬ Connected G) ∨
       ∃ (j : Nat) (G : Dag Nat), r = some G ∧ (j : Int) ≤ timeout ∧ DrawnFrom rnd (j * numPairs n) n e G ∧ Connected G ∧
        ∀ i < j, ∀ G', DrawnFrom rnd (i * numPairs n) n e G' → ¬ Connected G') := by
  obtain ⟨r, h1, h2⟩ := connectedLoop_spec o rnd hn e timeout (timeout.toNat + 2) 0 (by omega) (by omega)
  rw [Nat.zero_mul] at h1
  refine ⟨r, h1, ?_⟩
  rcases h2 with ⟨h3, h4⟩ | ⟨j, G, h3, -, h4, h5, h6, h7⟩
  · exact Or.inl ⟨h3, fun j hj G hG => h4 j G (Nat.zero_le _) hj hG⟩
  · exact Or.inr ⟨j, G, h3, h4, h5, h6, fun i hi G' hG' => h7 i G' (Nat.zero_le _) hi hG'⟩

/-- C56: the returned graph is a connected DAG over the nodes `0 … n-1`. -/
theorem C56_connected_dag (o : SetOrder Nat) {rnd : Nat → ℚ} {n : Nat} (hn : 2 ≤ n) {e : ℚ} {timeout : Int} {G : Dag Nat}
    (h : randomConnectedDag o rnd n e timeout = .ok (some G)) :
    G.nodes = Finset.range n ∧ G.WF ∧ G.Acyclic ∧ Connected G := by
  obtain ⟨r, h1, h2⟩ := C56_connected o rnd hn e timeout
  rw [h1] at h
  cases h
  rcases h2 with ⟨h3, -⟩ | ⟨j, G', h3, -, h4, h5, -⟩
  · cases h3
  · cases h3
    refine ⟨h4.nodes, fun a b hab => ?_, acyclic_of_lt (fun a b hab => ((h4.edge a b).mp hab).1), h5⟩
    obtain ⟨h6, h7, -⟩ := (h4.edge a b).mp hab
    rw [h4.nodes, Finset.mem_range, Finset.mem_range]
    omega

/-- C56: with at most one node the connectivity check raises AssertionError. -/
theorem C56_connected_small (o : SetOrder Nat) (rnd : Nat → ℚ) {n : Nat} (hn : n ≤ 1) (e : ℚ) {timeout : Int} (ht : 0 ≤ timeout) :
    randomConnectedDag o rnd n e timeout = .error .assertionError := by
  obtain ⟨G, g1, g2⟩ := randomDag_spec rnd 0 n e
  rw [randomConnectedDag, connectedLoop, if_neg (by simpa using ht), py_bind g1]
  have : G.isGraphConnected o G.nodes = .error .assertionError := by
    rw [Dag.isGraphConnected, if_neg (by rw [g2.nodes, Finset.card_range]; omega)]
  simp only [this]
  rfl

example : (do
    let r ← randomConnectedDag ascending (fun j => if j < 3 then 9 / 10 else 0) 3 1 5
    return r.map (fun G => [0, 1, 2].map (fun v => (List.range 3).filter (· ∈ G.par v))) : Py _) = .ok (some [[], [0], [0, 1]]) := by
  decide +kernel

example : (do
    let r ← randomConnectedDag ascending (fun _ => 9 / 10) 3 1 5
    return r.isNone : Py _) = .ok true := by
  decide +kernel

/-- C64: the potential latent variables are exactly the nodes without parents that have at least two children. -/
theorem C64_potential_latents (o : SetOrder Nat) {G : Dag Nat} (hG : G.WF) :
    ∃ S, selectLatents o G = .ok S ∧
      ∀ v, v ∈ S ↔ v ∈ G.nodes ∧ (∀ p, ¬ G.Edge p v) ∧ ∃ a b, a ≠ b ∧ G.Edge v a ∧ G.Edge v b := by
  refine ⟨_, selectLatents_spec o G, fun v => ?_⟩
  rw [Finset.mem_filter, Finset.eq_empty_iff_forall_notMem]
  refine and_congr_right (fun _ => and_congr Iff.rfl ?_)
  rw [← Nat.lt_iff_add_one_le, Finset.one_lt_card]
  constructor
  · rintro ⟨a, ha, b, hb, hab⟩
    exact ⟨a, b, hab, (Finset.mem_filter.mp ha).2, (Finset.mem_filter.mp hb).2⟩
  · rintro ⟨a, b, hab, ha, hb⟩
    exact ⟨a, Finset.mem_filter.mpr ⟨(hG _ _ ha).2, ha⟩, b, Finset.mem_filter.mpr ⟨(hG _ _ hb).2, hb⟩, hab⟩

/-- C64, Python before 3.11 (`random.sample` accepts sets): the observed and the latent nodes partition the nodes of a connected DAG;
the latents are half of the potential ones, without parents and with two children each. -/
theorem C64_with_latents_partial (o : SetOrder Nat) {rnd : Nat → ℚ} {pick : Finset Nat → Nat → Finset Nat}
    (hpick : ∀ S k, k ≤ S.card → pick S k ⊆ S ∧ (pick S k).card = k) {n : Nat} (hn : 2 ≤ n) {e : ℚ} {G : Dag Nat}
    (hc : randomConnectedDag o rnd n e 1000000 = .ok (some G)) :
    ∃ obs lat pot, randomDagWithLatents o false rnd pick n e = .ok (G, obs, lat) ∧
      obs ∪ lat = Finset.range n ∧ Disjoint obs lat ∧ lat ⊆ pot ∧ lat.card = pot.card / 2 ∧
      ∀ v, v ∈ pot ↔ v ∈ G.nodes ∧ (∀ p, ¬ G.Edge p v) ∧ ∃ a b, a ≠ b ∧ G.Edge v a ∧ G.Edge v b := by
  obtain ⟨h1, h2, -, -⟩ := C56_connected_dag o hn hc
  obtain ⟨S, h3, h4⟩ := C64_potential_latents o h2
  have h5 := hpick S (S.card / 2) (Nat.div_le_self _ _)
  refine ⟨G.nodes \ pick S (S.card / 2), pick S (S.card / 2), S, ?_, ?_, Finset.sdiff_disjoint, h5.1, h5.2, h4⟩
  · rw [randomDagWithLatents, py_bind hc]
    simp only
    rw [py_bind h3]
    rfl
  · rw [Finset.sdiff_union_of_subset (h5.1.trans (fun v hv => ((h4 v).mp hv).1)), h1]

/-- C64, disagreement: since Python 3.11 `random.sample` does not accept a set, so the call fails whenever a connected DAG was found; if none was
found it fails on every version. It never succeeds there. -/
theorem C64_with_latents_fails (o : SetOrder Nat) (rnd : Nat → ℚ) (pick : Finset Nat → Nat → Finset Nat) {n : Nat} (hn : 2 ≤ n) (e : ℚ) :
    (∃ G, randomConnectedDag o rnd n e 1000000 = .ok (some G)) ∧ randomDagWithLatents o true rnd pick n e = .error .typeError ∨
    randomConnectedDag o rnd n e 1000000 = .ok none ∧ ∀ py311, randomDagWithLatents o py311 rnd pick n e = .error .attributeError := by
  obtain ⟨r, h1, -⟩ := C56_connected o rnd hn e 1000000
  cases r with
  | none =>
    refine Or.inr ⟨h1, fun py311 => ?_⟩
    rw [randomDagWithLatents, py_bind h1]
  | some G =>
    refine Or.inl ⟨⟨G, h1⟩, ?_⟩
    rw [randomDagWithLatents, py_bind h1]
    simp only
    rw [py_bind (selectLatents_spec o G)]
    rfl

example : ∃ pick : Finset Nat → Nat → Finset Nat, ∀ S k, k ≤ S.card → pick S k ⊆ S ∧ (pick S k).card = k := by
  refine ⟨fun S k => ((ascending.iter () S).take k).toFinset, fun S k hk => ⟨fun x hx => ?_, ?_⟩⟩
  · exact (ascending.mem () S x).mp (List.mem_of_mem_take (List.mem_toFinset.mp hx))
  · rw [List.toFinset_card_of_nodup ((ascending.nodup () S).sublist (List.take_sublist _ _)), List.length_take]
    have : (ascending.iter () S).length = S.card := by
      rw [← List.toFinset_card_of_nodup (ascending.nodup () S)]
      congr 1
      ext x
      rw [List.mem_toFinset, ascending.mem]
    omega

example : (do
    let (_, obs, lat) ← randomDagWithLatents ascending false (fun j => if j = 0 ∨ j = 5 then 9 / 10 else 0)
      (fun S k => ((ascending.iter () S).take k).toFinset) 4 1
    return ((List.range 4).filter (· ∈ obs), (List.range 4).filter (· ∈ lat)) : Py _) = .ok ([1, 2, 3], [0]) := by
  decide +kernel

/-- C63: sampling data from a DAG over `0 … n-1`. The result solves the structural equations: in every record the value of a node is
its noise plus the weighted sum of the values of its parents in the same record. Each edge has one weight for all the records, the
result of its own draw of sign and size, and there is one draw per edge. -/
theorem C63_structural_equations (o : SetOrder Nat) {G : Dag Nat} (hG : G.WF) (hac : G.Acyclic) {n : Nat}
    (hn : G.nodes = Finset.range n) (noise : Nat → Nat → ℝ) (sgn : Nat → Bool) (uni : Nat → ℝ) :
    ∃ (x : Nat → Nat → ℝ) (W : Nat → Nat → ℝ) (draw : Nat → Nat → Nat), sampleData o G noise sgn uni = .ok x ∧
      (∀ i, ∀ v < n, x i v = noise i v + ∑ p ∈ G.par v, W p v * x i p) ∧
      (∀ p v, G.Edge p v → W p v = if sgn (draw p v) then uni (draw p v) else - uni (draw p v)) ∧
      (∀ p v q w, G.Edge p v → G.Edge q w → draw p v = draw q w → p = q ∧ v = w) ∧
      (∀ p v, G.Edge p v → draw p v < ∑ v ∈ G.nodes, (G.par v).card) := by
  obtain ⟨l, h1, h2, h3, h4⟩ := C09_topological_order o (Finset.Subset.refl G.nodes) ((C09_acyclicIn_nodes hG).mpr hac)
  obtain ⟨s, κ, a1, a2, a3, a4, a5, a6⟩ := outer_spec o (fun v hv => hac v (.single hv))
    (fun v hv => by rw [hn, Finset.card_range]; rw [hn] at hv; exact Finset.mem_range.mp hv) hG sgn uni l h2
    (fun v hv => (h3 v).mp hv) h4 (noise, 0)
  refine ⟨s.1, fun p v => edgeWeight sgn uni (κ p v), κ, ?_, ?_, ?_, ?_, ?_⟩
  · rw [sampleData, py_bind h1, py_bind a1]
    rfl
  · intro i v hv
    exact a6 v ((h3 v).mpr (hn ▸ Finset.mem_range.mpr hv)) i
  · intro p v _
    show edgeWeight _ _ _ = _
    rw [edgeWeight]
    cases sgn (κ p v)
    · simp
    · simp only [if_true]
      ring
  · intro p v q w hpv hqw he
    exact a4 v ((h3 v).mpr (hG _ _ hpv).2) p hpv w ((h3 w).mpr (hG _ _ hqw).2) q hqw he
  · intro p v hpv
    have h5 := (a3 v ((h3 v).mpr (hG _ _ hpv).2) p hpv).2
    rw [a2, Nat.zero_add] at h5
    have h6 : l.toFinset = G.nodes := by
      ext x
      rw [List.mem_toFinset, h3]
    rwa [h6] at h5

/-- C63: the equations have one solution only, so they determine the data. -/
theorem C63_unique {G : Dag Nat} (hG : G.WF) (hac : G.Acyclic) {W : Nat → Nat → ℝ} {noise x y : Nat → ℝ}
    (hx : ∀ v ∈ G.nodes, x v = noise v + ∑ p ∈ G.par v, W p v * x p)
    (hy : ∀ v ∈ G.nodes, y v = noise v + ∑ p ∈ G.par v, W p v * y p) : ∀ v ∈ G.nodes, x v = y v := by
  obtain ⟨l, -, -, h3, h4⟩ := C09_topological_order ascending (Finset.Subset.refl G.nodes) ((C09_acyclicIn_nodes hG).mpr hac)
  have key : ∀ l' : List Nat, l'.Pairwise (fun x y => ¬ G.Edge y x) → (∀ v ∈ l', v ∈ G.nodes) →
      (∀ v ∈ G.nodes, v ∉ l' → x v = y v) → ∀ v ∈ G.nodes, x v = y v := by
    intro l'
    induction l' with
    | nil => exact fun _ _ h v hv => h v hv (by simp)
    | cons u l' ih =>
      intro hpw hm h
      rw [List.pairwise_cons] at hpw
      refine ih hpw.2 (fun v hv => hm v (List.mem_cons_of_mem _ hv)) (fun v hv hvl => ?_)
      by_cases e : v = u
      · subst e
        rw [hx v hv, hy v hv]
        congr 1
        refine Finset.sum_congr rfl (fun p hp => ?_)
        rw [h p (hG _ _ hp).1]
        rw [List.mem_cons, not_or]
        exact ⟨fun e => hac v (.single (e ▸ hp)), fun hpl => hpw.1 p hpl hp⟩
      · exact h v hv (by rw [List.mem_cons, not_or]; exact ⟨e, hvl⟩)
  exact key l h4 (fun v hv => (h3 v).mp hv) (fun v hv hv' => absurd ((h3 v).mpr hv) hv')

/-- C63: a graph with a cycle raises AssertionError. -/
theorem C63_cycle (o : SetOrder Nat) {G : Dag Nat} (hG : G.WF) (hcyc : ¬ G.Acyclic) (noise : Nat → Nat → ℝ) (sgn : Nat → Bool)
    (uni : Nat → ℝ) : sampleData o G noise sgn uni = .error .assertionError := by
  have h := C09_assertion_on_cycle o (Finset.Subset.refl G.nodes) (fun h => hcyc ((C09_acyclicIn_nodes hG).mp h))
  have h' : G.topoOrder o G.nodes = .error .assertionError := by
    rw [Dag.topoOrder, h]
    rfl
  rw [sampleData, h']
  rfl

/-- C63: the nodes are used as column numbers. If an edge joins a node that is not below the number of nodes, IndexError is raised. -/
theorem C63_labels (o : SetOrder Nat) {G : Dag Nat} (hG : G.WF) (hac : G.Acyclic) {p v : Nat} (hpv : G.Edge p v)
    (hbad : G.nodes.card ≤ p ∨ G.nodes.card ≤ v) (noise : Nat → Nat → ℝ) (sgn : Nat → Bool) (uni : Nat → ℝ) :
    sampleData o G noise sgn uni = .error .indexError := by
  obtain ⟨l, h1, h2, h3, h4⟩ := C09_topological_order o (Finset.Subset.refl G.nodes) ((C09_acyclicIn_nodes hG).mpr hac)
  have hstep : ∀ v, ∀ s : (Nat → Nat → ℝ) × Nat, ∀ p ∈ o.iter v (G.par v), (∃ s', (if v < G.nodes.card ∧ p < G.nodes.card then
      return ((fun i x => if x = v then s.1 i v + edgeWeight sgn uni s.2 * s.1 i p else s.1 i x), s.2 + 1)
      else throw .indexError : Py _) = .ok s') ∨ (if v < G.nodes.card ∧ p < G.nodes.card then
      return ((fun i x => if x = v then s.1 i v + edgeWeight sgn uni s.2 * s.1 i p else s.1 i x), s.2 + 1)
      else throw .indexError : Py ((Nat → Nat → ℝ) × Nat)) = .error .indexError := by
    intro v s p _
    by_cases h : v < G.nodes.card ∧ p < G.nodes.card
    · exact Or.inl ⟨_, if_pos h⟩
    · exact Or.inr (if_neg h)
  rw [sampleData, py_bind h1]
  rw [foldlM_err (e := .indexError) l]
  · rfl
  · intro s u hu
    rw [show G.parents u = .ok (G.par u) from if_pos ((h3 u).mp hu)]
    exact foldlM_ok_or _ (hstep u) s
  · refine ⟨v, (h3 v).mpr (hG _ _ hpv).2, fun s => ?_⟩
    rw [show G.parents v = .ok (G.par v) from if_pos (hG _ _ hpv).2]
    refine foldlM_err _ (hstep v) ⟨p, (o.mem v _ _).mpr hpv, fun s => if_neg (by omega)⟩ s

/-- 2 → 0 → 1, 2 → 1. -/
def exSem : Dag Nat := ⟨Finset.range 3, fun v => if v = 0 then {2} else if v = 1 then {0, 2} else ∅⟩

theorem exSem_wf : exSem.WF ∧ exSem.Acyclic := by
  have hE : ∀ a b, exSem.Edge a b → (a = 2 ∧ b = 0) ∨ (a = 0 ∧ b = 1) ∨ (a = 2 ∧ b = 1) := by
    intro a b h
    simp only [Dag.Edge, exSem] at h
    by_cases h0 : b = 0
    · simp only [h0, if_true, Finset.mem_singleton] at h
      exact Or.inl ⟨h, h0⟩
    · by_cases h1 : b = 1
      · simp only [h1, if_true, one_ne_zero, if_false, Finset.mem_insert, Finset.mem_singleton] at h
        tauto
      · simp [h0, h1] at h
  constructor
  · intro a b h
    rcases hE a b h with ⟨rfl, rfl⟩ | ⟨rfl, rfl⟩ | ⟨rfl, rfl⟩ <;> decide
  · have key : ∀ a b, Relation.TransGen exSem.Edge a b → (a + 1) % 3 < (b + 1) % 3 := by
      intro a b h
      induction h with
      | single h => rcases hE _ _ h with ⟨rfl, rfl⟩ | ⟨rfl, rfl⟩ | ⟨rfl, rfl⟩ <;> decide
      | tail _ h ih => exact lt_trans ih (by rcases hE _ _ h with ⟨rfl, rfl⟩ | ⟨rfl, rfl⟩ | ⟨rfl, rfl⟩ <;> decide)
    exact fun v hv => lt_irrefl _ (key v v hv)

/-- The hypotheses of `C63_structural_equations` hold for a graph whose labels are not in topological order. -/
example : ∃ G : Dag Nat, G.WF ∧ G.Acyclic ∧ G.nodes = Finset.range 3 ∧ G.Edge 2 0 ∧ G.Edge 0 1 :=
  ⟨exSem, exSem_wf.1, exSem_wf.2, rfl, by simp [Dag.Edge, exSem], by simp [Dag.Edge, exSem]⟩

/-- A graph that meets the hypotheses of `C63_labels`: nodes 1 and 2. -/
example : ∃ G : Dag Nat, G.WF ∧ G.Acyclic ∧ G.Edge 1 2 ∧ G.nodes.card ≤ 2 := by
  refine ⟨⟨{1, 2}, fun v => if v = 2 then {1} else ∅⟩, ?_, ?_, by simp [Dag.Edge], by decide⟩
  · intro a b h
    by_cases hb : b = 2
    · simp only [Dag.Edge, hb, if_true, Finset.mem_singleton] at h
      subst h hb
      decide
    · simp [Dag.Edge, hb] at h
  · refine acyclic_of_lt (fun a b h => ?_)
    by_cases hb : b = 2
    · simp only [Dag.Edge, hb, if_true, Finset.mem_singleton] at h
      subst h hb
      decide
    · simp [Dag.Edge, hb] at h

end Verif
