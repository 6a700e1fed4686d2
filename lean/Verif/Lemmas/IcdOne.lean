import Verif.Lemmas.Icd
import Verif.Lemmas.SepOne
import Verif.Spec.TruePag

/-!
# The first two iterations of ICD
-/

namespace Verif
open Relation MG
variable {α : Type} [LinearOrder α]
namespace Icd

/-- The test that answers like `ci`, but never "independent" for more than `r` conditioning nodes. -/
def capped (ci : CITest α) (r : Nat) : CITest α := fun k i j z => ci k i j z && decide (z.length ≤ r)

theorem firstIndep_capped (ci : CITest α) {r : Nat} (i j : α) {zs : List (List α)} (h : ∀ z ∈ zs, z.length ≤ r) (k : Nat) :
    Pc.firstIndep (capped ci r) i j zs k = Pc.firstIndep ci i j zs k := by
  induction zs generalizing k with
  | nil => rfl
  | cons z zs ih =>
    rw [Pc.firstIndep, Pc.firstIndep, ih (fun w hw => h w (List.mem_cons_of_mem _ hw))]
    have : z.length ≤ r := h z (by simp)
    simp [capped, this]

theorem testPair_capped (ci : CITest α) {r : Nat} (st : IcdState α) (i j : α) {zs : List (List α)} (h : ∀ z ∈ zs, z.length ≤ r) :
    testPair (capped ci r) st i j zs = testPair ci st i j zs := by
  unfold testPair
  rw [firstIndep_capped ci i j h]

theorem baseStep0_capped (o : SetOrder α) (ci : CITest α) (r : Nat) (st : IcdState α) :
    baseStep0 o (capped ci r) st = baseStep0 o ci st := by
  unfold baseStep0
  simp only [testPair_capped ci (r := r) _ _ _ (zs := [[]]) (by simp)]

theorem condSets1_length (o : SetOrder α) {G : MG α} {i j : α} : ∀ z ∈ condSets1 o G i j, z.length ≤ 1 := by
  intro z hz
  rw [condSets1, mem_uniqueElems, List.mem_append] at hz
  rcases hz.1 with h | h <;> exact (mem_combs.mp h).2.le

theorem baseStep1_capped (o : SetOrder α) (ci : CITest α) (opts : IcdOpts) (st : IcdState α) :
    baseStep1 o (capped ci 1) opts st = baseStep1 o ci opts st := by
  unfold baseStep1
  simp only [testPair_capped ci (r := 1) _ _ _ (condSets1_length o)]

/-- The first two iterations do not see the cap. -/
theorem iteration_capped (o : SetOrder α) (ci : CITest α) (opts : IcdOpts) {st : IcdState α} {r : Nat} (hr : r ≤ 1) (h : st.size ≤ r) :
    iteration o (capped ci r) opts st = iteration o ci opts st := by
  have : step o (capped ci r) opts st = step o ci opts st := by
    unfold step
    rw [baseStep0_capped]
    by_cases h1 : r = 1
    · subst h1
      rw [baseStep1_capped]
      by_cases h0 : st.size = 0
      · simp [h0]
      · have : st.size = 1 := by omega
        simp [this]
    · have : st.size = 0 := by omega
      simp [this]
  unfold iteration
  rw [this]

/-- After the second iteration all neighbours of the ends of an edge have been tried. -/
theorem baseStep1_tests (o : SetOrder α) {ci : CITest α} {N : Finset α} (opts : IcdOpts) {st st' : IcdState α} {d : Bool}
    (h : Fci.SkInv ci N st.graph st.sep) (hrun : baseStep1 o ci opts st = .ok (st', d)) :
    ∀ i j v, st'.graph.MAdj i j → st'.graph.MAdj i v → v ≠ j → Fci.Dep ci i j {v} ∨ Fci.Dep ci j i {v} := by
  obtain ⟨s, d', s1, s2, -, -, s5⟩ := pass_spec h 1
    (fun G i j zs => ∀ z, z ∈ zs ↔ ∃ v, z = [v] ∧ ((G.MAdj i v ∧ v ≠ j) ∨ (G.MAdj j v ∧ v ≠ i)))
    (fun (acc : IcdState α × Bool) ij => do
      if !(← acc.1.graph.isConnected ij.1 ij.2) then return acc
      let zs := condSets1 o acc.1.graph ij.1 ij.2
      return (testPair ci acc.1 ij.1 ij.2 zs, acc.2 && zs.isEmpty))
    (pairs (o.iter st.size st.graph.nodes)) (by
      intro s b i j hij hs
      have hne := mem_pairs_ne (o.nodup _ _) hij
      obtain ⟨c, p1, p2⟩ := proper_isConnected hs.inv.proper.type hne
      refine ⟨fun hadj => ?_, fun hadj => ?_⟩
      · cases c with
        | true => exact absurd (p2.mp rfl) hadj
        | false => rw [py_bind p1]; rfl
      · cases c with
        | false => exact absurd (p2.mpr hadj) (by simp)
        | true =>
          refine ⟨condSets1 o s.graph i j, by rw [py_bind p1]; rfl, ?_, fun z => mem_condSets1 o hs.inv.proper⟩
          intro z hz
          obtain ⟨v, rfl, hv⟩ := (mem_condSets1 o hs.inv.proper).mp hz
          simp only [List.mem_singleton, forall_eq, List.nodup_singleton, List.length_singleton, and_true]
          rcases hv with ⟨h1, h2⟩ | ⟨h1, h2⟩
          · exact ⟨hs.inv.proper.ne h1, fun e => h2 e.symm, hs.inv.nodes ▸ (hs.inv.proper.mem_adj h1).2⟩
          · exact ⟨fun e => h2 e.symm, hs.inv.proper.ne h1, hs.inv.nodes ▸ (hs.inv.proper.mem_adj h1).2⟩)
  obtain ⟨H, k1, k2, -, -⟩ := reorient_snd o s2.inv opts.tails
  obtain ⟨K, l1, l2, -⟩ := Fci.finalRules_spec o s.sep opts.selection opts.tails k2.proper (k2.types.trans s2.inv.types)
  have e : st' = { s with graph := K } := by
    rw [baseStep1, py_bind s1] at hrun
    simp only at hrun
    rw [py_bind k1, py_bind l1] at hrun
    have := Except.ok.inj hrun
    exact (congrArg Prod.fst this).symm
  subst e
  have key : ∀ i j v, (i, j) ∈ pairs (o.iter st.size st.graph.nodes) → s.graph.MAdj i j →
      ((s.graph.MAdj i v ∧ v ≠ j) ∨ (s.graph.MAdj j v ∧ v ≠ i)) → Fci.Dep ci i j {v} := by
    intro i j v hij hadj hv
    obtain ⟨G, zs, -, q2, q3, q4⟩ := s5 i j hij hadj
    obtain ⟨q5, k, q6⟩ := q4 [v] ((q3 [v]).mpr ⟨v, rfl, hv.imp (fun h => ⟨q2.adj h.1, h.2⟩) (fun h => ⟨q2.adj h.1, h.2⟩)⟩)
    exact ⟨[v], k, by simp, q5, q6⟩
  intro i j v hadj hv hvj
  have hs := k2.trans l2
  have h1 := (hs.adj i j).mp hadj
  have h2 := (hs.adj i v).mp hv
  have hm := s2.inv.proper.mem_adj h1
  rw [s2.inv.nodes, ← h.nodes] at hm
  rcases mem_pairs_or ((o.mem st.size _ _).mpr hm.1) ((o.mem st.size _ _).mpr hm.2) (s2.inv.proper.ne h1) with h' | h'
  · exact Or.inl (key i j v h' h1 (Or.inl ⟨h2, hvj⟩))
  · exact Or.inr (key j i v h' h1.symm (Or.inr ⟨h2, hvj⟩))

end Icd

namespace Dag
variable {D : Dag α} {O : Finset α} {ci : CITest α}

/-- With a perfect test, "dependent" in some order means d-connected. -/
theorem dep_of (hac : D.Acyclic) (hp : Pc.PerfectOn ci D O) {i j : α} {S : Finset α} (hi : i ∈ O) (hj : j ∈ O) (hij : i ≠ j)
    (h1 : i ∉ S) (h2 : j ∉ S) (hS : S ⊆ O) (h : Fci.Dep ci i j S ∨ Fci.Dep ci j i S) : ¬ D.DSeparated i j S := by
  intro hs
  rcases h with ⟨z, k, rfl, -, hk⟩ | ⟨z, k, rfl, -, hk⟩
  · have := (hp k i j z hi hj hij (by simpa using h1) (by simpa using h2) (fun x hx => hS (by simpa using hx))).mpr hs
    simp [this] at hk
  · have := (hp k j i z hj hi hij.symm (by simpa using h2) (by simpa using h1) (fun x hx => hS (by simpa using hx))).mpr
      ((dseparated_symm hac).mp hs)
    simp [this] at hk

/-- A recorded set of the capped test is small and separates. -/
theorem small_of (hac : D.Acyclic) (hp : Pc.PerfectOn ci D O) {r : Nat} {i j : α} (hi : i ∈ O) (hj : j ∈ O) (hij : i ≠ j) {S : Finset α}
    (h : Pc.Witness (Icd.capped ci r) O i j S) : S ⊆ O ∧ S.card ≤ r ∧ i ∉ S ∧ j ∉ S ∧ D.DSeparated i j S := by
  obtain ⟨l, k, rfl, h1, h2, h3, h4⟩ := h
  have hl : l.length ≤ r ∧ (ci k i j l = true ∨ ci k j i l = true) := by
    rcases h1 with h1 | h1 <;> simp only [Icd.capped, Bool.and_eq_true, decide_eq_true_eq] at h1
    · exact ⟨h1.2, Or.inl h1.1⟩
    · exact ⟨h1.2, Or.inr h1.1⟩
  refine ⟨fun x hx => h4 x (by simpa using hx), (List.toFinset_card_le l).trans hl.1, by simpa using h2, by simpa using h3, ?_⟩
  rcases hl.2 with h | h
  · exact (hp k i j l hi hj hij h2 h3 h4).mp h
  · exact (dseparated_symm hac).mpr ((hp k j i l hj hi hij.symm h3 h2 h4).mp h)

/-- The graph after the first iteration is 0-representing, the graph after the second one is 1-representing. -/
theorem icd_one (o : SetOrder α) (opts : IcdOpts) (hac : D.Acyclic) (hp : Pc.PerfectOn ci D O) :
    ∃ st1 st2 d, Icd.iteration o ci opts (Icd.init o O) = .ok (st1, false, 0) ∧ Icd.iteration o ci opts st1 = .ok (st2, d, 1) ∧
      D.Representing O 0 st1.graph ∧ D.Representing O 1 st2.graph := by
  obtain ⟨st1, d1, a1, a2, a3, a4, ⟨E1, a5, a6⟩, a7, -⟩ := Icd.iteration_spec o opts (Icd.init_inv o ci O) rfl
  obtain rfl : d1 = false := a7 rfl
  obtain ⟨st2, d, b1, b2, b3, b4, ⟨E2, b5, b6⟩, -⟩ := Icd.iteration_spec o opts a4 a2
  have hs1 : st1.size = 1 := a3
  have a1' : Icd.iteration o ci opts (Icd.init o O) = .ok (st1, false, 0) := a1
  -- the same runs with capped tests
  have cap : ∀ r ≤ 1, Fci.SkInv (Icd.capped ci r) O st1.graph st1.sep := by
    intro r hr
    obtain ⟨s, e, c1, -, -, c4, -⟩ := Icd.iteration_spec o opts (Icd.init_inv o (Icd.capped ci r) O) rfl
    rw [Icd.iteration_capped o ci opts hr (Nat.zero_le r), a1] at c1
    cases c1
    exact c4
  have cap2 : Fci.SkInv (Icd.capped ci 1) O st2.graph st2.sep := by
    obtain ⟨s, e, c1, -, -, c4, -⟩ := Icd.iteration_spec o opts (cap 1 le_rfl) a2
    rw [Icd.iteration_capped o ci opts le_rfl hs1.le, b1] at c1
    cases c1
    exact c4
  have hsub : ∀ a b, st2.graph.MAdj a b → st1.graph.MAdj a b := fun a b h => b5.sub.adj ((b6.adj a b).mp h)
  have hmem : ∀ a b, st1.graph.MAdj a b → a ∈ O ∧ b ∈ O ∧ a ≠ b := fun a b h =>
    ⟨a4.nodes ▸ (a4.proper.mem_adj h).1, a4.nodes ▸ (a4.proper.mem_adj h).2, a4.proper.ne h⟩
  -- pairs adjacent after the first iteration are dependent
  have dep0 : ∀ a b, st1.graph.MAdj a b → ¬ D.DSeparated a b ∅ := by
    intro a b h
    obtain ⟨ha, hb, hab⟩ := hmem a b h
    refine dep_of hac hp ha hb hab (by simp) (by simp) (by simp) (a5.tested a b ((a6.adj a b).mp h) ∅ ?_)
    exact ⟨by simp [Icd.init], by simp, by simp, Or.inl (by simp), by simp⟩
  have rep : ∀ {r : Nat} {st : IcdState α}, Fci.SkInv (Icd.capped ci r) O st.graph st.sep → ∀ a ∈ O, ∀ b ∈ O, a ≠ b →
      (∀ S ⊆ O, S.card ≤ r → a ∉ S → b ∉ S → ¬ D.DSeparated a b S) → st.graph.MAdj a b := by
    intro r st hst a ha b hb hab h
    by_contra hn
    obtain ⟨S, -, hS⟩ := hst.witness a ha b hb hab hn
    obtain ⟨h1, h2, h3, h4, h5⟩ := small_of hac hp ha hb hab hS
    exact h S h1 h2 h3 h4 h5
  refine ⟨st1, st2, d, a1', hs1 ▸ b1, ?_, ?_⟩
  · intro a ha b hb hab
    refine ⟨fun h S hS hc _ _ => ?_, rep (cap 0 (by omega)) a ha b hb hab⟩
    obtain rfl : S = ∅ := Finset.card_eq_zero.mp (by omega)
    exact dep0 a b h
  · intro a ha b hb hab
    refine ⟨fun h S hS hc h1 h2 hsep => ?_, rep cap2 a ha b hb hab⟩
    have h0 := dep0 a b (hsub a b h)
    have hS1 : ∃ z, S = {z} := by
      rcases Nat.lt_or_ge S.card 1 with h' | h'
      · obtain rfl : S = ∅ := Finset.card_eq_zero.mp (by omega)
        exact absurd hsep h0
      · exact Finset.card_eq_one.mp (by omega)
    obtain ⟨z, rfl⟩ := hS1
    obtain ⟨z, hz, k1, k2, k3, k4, k5⟩ := DSeparated.closest hac (O := O) h0
      ⟨z, hS (by simp), by simpa using h1, by simpa using h2, hsep⟩
    -- `a` and `z` are still adjacent
    have haz : st2.graph.MAdj a z := by
      refine rep cap2 a ha z hz k1 (fun T hT hc' t1 t2 hsep' => ?_)
      rcases Nat.lt_or_ge T.card 1 with h' | h'
      · obtain rfl : T = ∅ := Finset.card_eq_zero.mp (by omega)
        exact k4 hsep'
      · obtain ⟨w, rfl⟩ := Finset.card_eq_one.mp (show T.card = 1 by omega)
        exact k5 w (hT (by simp)) (by simpa using t1) (by simpa using t2) hsep'
    have hrun : ∃ st2' d', Icd.baseStep1 o ci opts st1 = .ok (st2', d') ∧ st2'.graph = st2.graph := by
      obtain ⟨s, e, c1, -⟩ := Icd.baseStep1_spec o opts a4 hs1
      refine ⟨s, e, c1, ?_⟩
      have : Icd.step o ci opts st1 = .ok (s, e) := by
        unfold Icd.step
        rw [hs1]
        simpa using c1
      rw [Icd.iteration, a2] at b1
      simp only [Bool.false_eq_true, if_false] at b1
      rw [py_bind this] at b1
      have := Except.ok.inj b1
      exact congrArg (fun x => x.1.graph) this
    obtain ⟨st2', d', c1, c2⟩ := hrun
    have := Icd.baseStep1_tests o opts a4 c1 a b z (c2 ▸ h) (c2 ▸ haz) (fun e => k2 e.symm)
    exact dep_of hac hp ha hb hab (by simpa using k1) (by simpa using k2) (by simpa using hz) this k3

end Dag
end Verif
