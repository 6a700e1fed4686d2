import Verif.Props.Fci
import Verif.Lemmas.MagDag
import Verif.Lemmas.IcdWitness

/-!
# Properties C74-C76: DAGs with latent variables
-/

namespace Verif
open Relation MG
variable {α : Type} [LinearOrder α]

/-! ## C75 -/

open Classical in
/-- C75. A graph with the edges and marks of the maximal ancestral graph of a DAG over the observed nodes: for two observed nodes and a set of
other observed nodes, `is_m_separated` on it and `dsep` on the DAG return the same answer, without exception. -/
theorem C75_mag (o o' : SetOrder α) {D : Dag α} (hD : D.WF) (hac : D.Acyclic) {O : Finset α} (hO : O ⊆ D.nodes) {M : MG α}
    (hn : M.nodes = O) (ht : M.types = MG.pagTypes)
    (hM : ∀ a b m, M.At a b m ↔ a ∈ O ∧ b ∈ O ∧ a ≠ b ∧ D.Insep O a b ∧ m = (if D.DPath b a then Mark.tail else Mark.arrow))
    {x y : α} (hx : x ∈ O) (hy : y ∈ O) {Z : Finset α} (hZ : Z ⊆ O) (hxZ : x ∉ Z) (hyZ : y ∉ Z) :
    ∃ b, M.isMSeparated o x y Z = .ok b ∧ D.dsep o' x y Z = .ok b := by
  have e : M = D.mag O := by
    rcases M with ⟨n, t, g⟩
    obtain rfl : n = O := hn
    obtain rfl : t = MG.pagTypes := ht
    have : g = (D.mag n).g := by
      funext v m
      ext u
      have h1 : u ∈ g v m ↔ _ := hM u v m
      rw [h1]
      cases m
      · refine Iff.trans ?_ (Dag.mag_tail (D := D) (O := n) (a := u) (b := v)).symm
        by_cases h : D.DPath v u <;> simp [h]
        tauto
      · refine Iff.trans ?_ (Dag.mag_arrow (D := D) (O := n) (a := u) (b := v)).symm
        by_cases h : D.DPath v u <;> simp [h]
        tauto
      · refine Iff.trans ?_ (iff_false_intro (Dag.mag_circle (D := D) (O := n) (a := u) (b := v))).symm
        by_cases h : D.DPath v u <;> simp [h]
    subst this
    rfl
  subst e
  obtain ⟨b, h1, h2⟩ := isMSeparated_spec o (Dag.mag_proper (O := O) hac) (by simp [Dag.mag]) (Dag.mag_dm hac) (x := x) (y := y) hx hy
    (Z := Z) hZ hxZ hyZ
  obtain ⟨b', h3, h4⟩ := Dag.dsep_spec o' hD hac (hO hx) (hO hy) (hZ.trans hO) hxZ hyZ
  rw [Dag.mag_msep hac hx hy hZ hxZ hyZ, ← h4] at h2
  have : b = b' := by cases b <;> cases b' <;> simp_all
  exact ⟨b, h1, this ▸ h3⟩

/-! ## C74, C76 -/

omit [LinearOrder α] in
/-- From the maximal ancestral graph to ancestry in the DAG. -/
theorem Dag.latent_of {D : Dag α} (hac : D.Acyclic) {O : Finset α} {G : MG α} {tails : Bool}
    (h : (∀ a b, G.MAdj a b → (D.mag O).MAdj a b) →
      ArrowsOk G (D.mag O) ∧ (TailsOk tails (D.mag O) → Compatible G (D.mag O)))
    (hG : G.Proper) (hn : G.nodes = O) (hsub : ∀ a b, G.MAdj a b → D.Insep O a b) :
    D.ArrowsTrue G ∧ D.CollidersFound O G ∧ (tails = false ∨ D.NoConfounded O → D.TailsTrue G) := by
  obtain ⟨h1, h2⟩ := h fun a b hab => (mag_adj hac).mpr
    ⟨hn ▸ (hG.mem_adj hab).1, hn ▸ (hG.mem_adj hab).2, hG.ne hab, hsub a b hab⟩
  refine ⟨fun a b hab => (mag_arrow.mp (h1.arrow a b hab)).2.2.2.2, ?_, fun ht => ?_⟩
  · intro a ha b hb c hc hab hcb hac' i1 i2 i3 j1 j2
    exact h1.colliders a b c hac' (mag_arrow.mpr ⟨ha, hab, hb, i1, j1⟩) (mag_arrow.mpr ⟨hc, hcb, hb, i2, j2⟩)
      fun h => i3 ((mag_adj hac).mp h).2.2.2
  · have hC := h2 (ht.imp id fun hc a b hab => by
      obtain ⟨k1, k2, k3, k4, k5⟩ := mag_arrow.mp hab
      exact mag_tail.mpr ⟨k3, k2.symm, k1, k4.symm hac, (hc a k1 b k3 k2 k4).resolve_right k5⟩)
    exact fun a b hab => (mag_tail.mp (hC.tail a b hab)).2.2.2.2

/-- C76. FCI with a test that answers d-separation in a DAG, on a subset of the nodes of the DAG (the other nodes are latent): no pair
that cannot be separated loses its edge; and if all edges left join such pairs, then every arrowhead is at a node
that is not an ancestor of the other end, all unshielded colliders are found, and (without the tail rules, or without
confounded pairs) every tail is at a node that is an ancestor of the other end. Missing: that all edges left join such pairs; this is
false (`C76_fails`), and so is the statement about tails without its condition (`C76_tails_fail`). -/
theorem C76_fci_partial (o : SetOrder α) {ci : CITest α} (selection tails : Bool) {D : Dag α} (hac : D.Acyclic)
    {O : Finset α} (hp : Pc.PerfectOn ci D O) :
    ∃ st found, Fci.learnStructure o ci selection tails O = .ok (st, found) ∧
      (∀ a ∈ O, ∀ b ∈ O, a ≠ b → D.Insep O a b → st.graph.MAdj a b) ∧
      ((∀ a b, st.graph.MAdj a b → D.Insep O a b) →
        D.ArrowsTrue st.graph ∧ D.CollidersFound O st.graph ∧ (tails = false ∨ D.NoConfounded O → D.TailsTrue st.graph)) := by
  obtain ⟨st, found, h1, h2, h3⟩ := C49_fci_oracle o selection tails (Dag.mag_ancestral (O := O) hac) (Dag.mag_perfect hac hp)
  obtain ⟨pc, st', found', -, k1, k2, k3, -⟩ := C49_fci o ci selection tails O
  have e : Fci.learnStructure o ci selection tails O = .ok (st, found) := h1
  rw [e] at k1
  cases k1
  exact ⟨st, found, e, fun a ha b hb hab h => h2 a b ((Dag.mag_adj hac).mpr ⟨ha, hb, hab, h⟩),
    fun hsub => Dag.latent_of hac h3 k2 k3 hsub⟩

/-- C74. The same for ICD, from every reachable state. -/
theorem C74_icd_partial {o : SetOrder α} {ci : CITest α} {opts : IcdOpts} {D : Dag α} (hac : D.Acyclic) {O : Finset α}
    (hp : Pc.PerfectOn ci D O) {st : IcdState α} (h : Icd.Reachable o ci opts O st) :
    (∀ a ∈ O, ∀ b ∈ O, a ≠ b → D.Insep O a b → st.graph.MAdj a b) ∧
      ∃ st', Icd.learnStructure o ci opts st = .ok st' ∧ st'.graph.Proper ∧ st'.graph.nodes = O ∧
        (∀ a ∈ O, ∀ b ∈ O, a ≠ b → D.Insep O a b → st'.graph.MAdj a b) ∧
        ((∀ a b, st'.graph.MAdj a b → D.Insep O a b) →
          D.ArrowsTrue st'.graph ∧ D.CollidersFound O st'.graph ∧
            (opts.tails = false ∨ D.NoConfounded O → D.TailsTrue st'.graph)) := by
  obtain ⟨h1, st', h2, h3, h4⟩ := C49_icd_oracle (Dag.mag_ancestral (O := O) hac) (Dag.mag_perfect hac hp) h
  obtain ⟨k1, k2, -⟩ := C49_icd (h.tail (Or.inr h2))
  exact ⟨fun a ha b hb hab h => h1 a b ((Dag.mag_adj hac).mpr ⟨ha, hb, hab, h⟩), st', h2, k1, k2,
    fun a ha b hb hab h => h3 a b ((Dag.mag_adj hac).mpr ⟨ha, hb, hab, h⟩), fun hsub => Dag.latent_of hac h4 k1 k2 hsub⟩

theorem Pc.dsepTest_perfectOn (o : SetOrder α) {D : Dag α} (hD : D.WF) (hac : D.Acyclic) {O : Finset α} (hO : O ⊆ D.nodes) :
    Pc.PerfectOn (Pc.dsepTest o D) D O := fun k i j l hi hj hij h1 h2 h3 =>
  C22_dsep_oracle o hD hac k i j l (hO hi) (hO hj) hij h1 h2 fun x hx => hO (h3 x hx)

/-- C74. `find_true_pag` for a DAG and a set of observed nodes: no exception; a well-formed PAG on the observed nodes in which all pairs that
cannot be separated by observed nodes are adjacent; if no other pair is adjacent, then all arrowheads are true, all unshielded colliders
are found, and without confounded pairs the tails are true. Missing: that no other pair is adjacent. This is false (`C74_fails`). -/
theorem C74_partial (o : SetOrder α) {D : Dag α} (hD : D.WF) (hac : D.Acyclic) {O : Finset α} (hO : O ⊆ D.nodes) :
    ∃ G, findTruePag o D O = .ok G ∧ G.Proper ∧ G.nodes = O ∧
      (∀ a ∈ O, ∀ b ∈ O, a ≠ b → D.Insep O a b → G.MAdj a b) ∧
      ((∀ a b, G.MAdj a b → D.Insep O a b) →
        D.ArrowsTrue G ∧ D.CollidersFound O G ∧ (D.NoConfounded O → D.TailsTrue G)) := by
  obtain ⟨-, st, h1, h2, h3, h4, h5⟩ := C74_icd_partial (opts := ⟨false, true, true⟩) hac (Pc.dsepTest_perfectOn o hD hac hO)
    (.refl : Icd.Reachable o _ _ O (Icd.init o O))
  refine ⟨st.graph, ?_, h2, h3, h4, fun hsub => ⟨(h5 hsub).1, (h5 hsub).2.1, fun hc => (h5 hsub).2.2 (Or.inr hc)⟩⟩
  rw [findTruePag, h1]
  rfl

/-! ## The witness -/

theorem exW_wf : exW.WF := by
  intro a b h
  have hb : b < 8 := by
    by_contra hn
    have : exW.par b = ∅ := by 
      rcases b with _ | _ | _ | _ | _ | _ | _ | _ | b <;> first | omega | rfl
    rw [this] at h
    simp at h
  have key : ∀ b < 8, ∀ a ∈ exW.par b, a ∈ exW.nodes ∧ b ∈ exW.nodes := by decide
  exact key b hb a h

theorem exW_acyclic : exW.Acyclic := by
  obtain ⟨b, h1, h2⟩ := Dag.isAcyclic_spec ascending exW_wf
  have : Dag.isAcyclic ascending exW = .ok true := by decide +kernel
  rw [this] at h1
  cases h1
  exact h2.mp rfl

theorem exW_sep : exW.DSeparated 1 5 {2, 4, 7} := by
  have h := (C22_dsep_oracle ascending exW_wf exW_acyclic 0 1 5 [2, 4, 7] (by decide) (by decide) (by decide) (by decide) (by decide)
    (by decide)).mp (by decide +kernel)
  exact h

theorem icd_loop_next {o : SetOrder α} {ci : CITest α} {opts : IcdOpts} {a b : IcdState α} {r : Nat} (n : Nat)
    (h : Icd.iteration o ci opts a = .ok (b, false, r)) : Icd.loop o ci opts (n + 1) a = Icd.loop o ci opts n b := by
  rw [Icd.loop, h]
  rfl

theorem icd_loop_done {o : SetOrder α} {ci : CITest α} {opts : IcdOpts} {a b : IcdState α} {r : Nat} (n : Nat)
    (h : Icd.iteration o ci opts a = .ok (b, true, r)) : Icd.loop o ci opts (n + 1) a = .ok b := by
  rw [Icd.loop, h]
  rfl

theorem exW_run : ∃ st3 st7, Icd.Reachable ascending exWTest ⟨false, true, true⟩ exW.nodes st3 ∧
    Icd.iteration ascending exWTest ⟨false, true, true⟩ st3 = .ok (exW3.state, false, 3) ∧
    Icd.learnStructure ascending exWTest ⟨false, true, true⟩ (Icd.init ascending exW.nodes) = .ok st7 ∧ st7 = exW7.state := by
  have h0 := exWNext_eq exW_next0 (Icd.init_inv ascending exWTest exW.nodes) rfl
  have h1 := exWNext_eq exW_next1 h0.2 rfl
  have h2 := exWNext_eq exW_next2 h1.2 rfl
  have h3 := exWNext_eq exW_next3 h2.2 rfl
  have h4 := exWNext_eq exW_next4 h3.2 rfl
  have h5 := exWNext_eq exW_next5 h4.2 rfl
  have h6 := exWNext_eq exW_next6 h5.2 rfl
  have h7 := exWNext_eq exW_next7 h6.2 rfl
  refine ⟨exW2.state, exW7.state, ?_, h3.1, ?_, rfl⟩
  · have r0 : Icd.Reachable ascending exWTest ⟨false, true, true⟩ exW.nodes (Icd.init ascending exW.nodes) := .refl
    exact ((r0.tail (Or.inl ⟨_, _, h0.1⟩)).tail (Or.inl ⟨_, _, h1.1⟩)).tail (Or.inl ⟨_, _, h2.1⟩)
  · have e : Icd.learnStructure ascending exWTest ⟨false, true, true⟩ (Icd.init ascending exW.nodes) =
        Icd.loop ascending exWTest ⟨false, true, true⟩ 8 (Icd.init ascending exW.nodes) := rfl
    rw [e, icd_loop_next 7 h0.1, icd_loop_next 6 h1.1, icd_loop_next 5 h2.1, icd_loop_next 4 h3.1, icd_loop_next 3 h4.1,
      icd_loop_next 2 h5.1, icd_loop_next 1 h6.1, icd_loop_done 0 h7.1]

/-- C74 is false: a DAG with eight nodes, all of them observed, for which `find_true_pag` returns a graph with an edge between two nodes
that an observed set d-separates, with an arrowhead at `2` on the edge with `1` although `2 → 1` is in the DAG. -/
theorem C74_fails : ∃ G, exW.WF ∧ exW.Acyclic ∧ findTruePag ascending exW exW.nodes = .ok G ∧
    G.MAdj 1 5 ∧ exW.DSeparated 1 5 {2, 4, 7} ∧ G.At 1 2 .arrow ∧ exW.Edge 2 1 := by
  obtain ⟨-, st, -, -, h, rfl⟩ := exW_run
  refine ⟨_, exW_wf, exW_acyclic, by rw [findTruePag, h]; rfl, Or.inl ⟨.arrow, ?_⟩, exW_sep, ?_, ?_⟩
  · decide
  · decide
  · show 2 ∈ exW.par 1
    decide

/-- C74, the documented claim about iterations is false as well: after the iteration that reports the value 3 the graph is not
3-representing. -/
theorem C74_representing_fails : ∃ st st', Icd.Reachable ascending exWTest ⟨false, true, true⟩ exW.nodes st ∧
    Icd.iteration ascending exWTest ⟨false, true, true⟩ st = .ok (st', false, 3) ∧ ¬ exW.Representing exW.nodes 3 st'.graph := by
  obtain ⟨st, -, h1, h2, -⟩ := exW_run
  refine ⟨st, _, h1, h2, fun h => ?_⟩
  exact (h 1 (by decide) 5 (by decide) (by decide)).mp (Or.inl ⟨.arrow, by decide⟩) {2, 4, 7} (by decide) (by decide) (by decide)
    (by decide) exW_sep

/-! ## A DAG with a latent variable -/

/-- The DAG `0 → 1 ← 4 → 2 ← 3`; the node 4 will be latent. -/
def exLatD : Dag Nat := ⟨{0, 1, 2, 3, 4}, fun v => [∅, {0, 4}, {3, 4}, ∅, ∅].getD v ∅⟩

theorem exLatD_wf : exLatD.WF := by
  intro a b h
  have hb : b < 5 := by
    by_contra hn
    have : exLatD.par b = ∅ := by
      rcases b with _ | _ | _ | _ | _ | b <;> first | omega | rfl
    rw [this] at h
    simp at h
  have key : ∀ b < 5, ∀ a ∈ exLatD.par b, a ∈ exLatD.nodes ∧ b ∈ exLatD.nodes := by decide
  exact key b hb a h

theorem exLatD_acyclic : exLatD.Acyclic := by
  obtain ⟨b, h1, h2⟩ := Dag.isAcyclic_spec ascending exLatD_wf
  have : Dag.isAcyclic ascending exLatD = .ok true := by decide +kernel
  rw [this] at h1
  cases h1
  exact h2.mp rfl

omit [LinearOrder α] in
theorem Dag.Insep.of_adj {D : Dag α} (hac : D.Acyclic) {O : Finset α} {a b : α} (h : D.Adj a b) : D.Insep O a b := by
  intro S _ _ _ hs
  refine hs ⟨[a, b], (Dag.activePath_iff hac).mpr ⟨?_, rfl, rfl, h⟩⟩
  simp only [List.nodup_cons, List.mem_singleton, List.not_mem_nil, not_false_eq_true, List.nodup_nil, and_true]
  rintro rfl
  rcases h with h | h <;> exact hac _ (.single h)

theorem exLatD_insep : exLatD.Insep {0, 1, 2, 3} 1 2 := by
  intro S hS _ _ hs
  have h4 : 4 ∉ S := fun h => absurd (hS h) (by decide)
  refine hs ⟨[1, 4, 2], (Dag.activePath_iff exLatD_acyclic).mpr ⟨by decide, rfl, rfl, Or.inr ?_, ⟨fun h => ?_, fun _ => h4⟩, Or.inl ?_⟩⟩
  · show 4 ∈ exLatD.par 1
    decide
  · have : 1 ∈ exLatD.par 4 := h.1
    exact absurd this (by decide)
  · show 4 ∈ exLatD.par 2
    decide

/-- The result has exactly the edges that it should have; the pair `1`, `2` is adjacent because of the latent node, with arrowheads at both
ends. -/
theorem exLatD_true : ∃ G, findTruePag ascending exLatD {0, 1, 2, 3} = .ok G ∧ (∀ a b, G.MAdj a b → exLatD.Insep {0, 1, 2, 3} a b) ∧
    G.At 1 2 .arrow ∧ G.At 2 1 .arrow ∧ G.At 0 1 .arrow := by
  obtain ⟨G', k1, k2, k3, -⟩ := C74_partial ascending exLatD_wf exLatD_acyclic (O := {0, 1, 2, 3}) (by decide)
  obtain ⟨G, h1, h2⟩ := Py.okWith_iff (x := findTruePag ascending exLatD {0, 1, 2, 3}) (p := fun G : MG Nat => decide
    ((∀ a ∈ List.range 4, ∀ b ∈ List.range 4, ∀ m ∈ [Mark.tail, .arrow, .circle], a ∈ G.g b m →
      (a, b) ∈ [(0, 1), (1, 0), (1, 2), (2, 1), (2, 3), (3, 2)]) ∧ 1 ∈ G.g 2 .arrow ∧ 2 ∈ G.g 1 .arrow ∧ 0 ∈ G.g 1 .arrow))
    (by decide +kernel)
  rw [k1] at h1
  cases h1
  obtain ⟨i1, i2, i3, i4⟩ := of_decide_eq_true h2
  refine ⟨G', k1, ?_, i2, i3, i4⟩
  have hmem : ∀ x ∈ G'.nodes, x ∈ List.range 4 := by rw [k3]; decide
  have key : ∀ a b m, G'.At a b m → exLatD.Insep {0, 1, 2, 3} a b := by
    intro a b m h
    have hab := i1 a (hmem a (k2.mem a b m h).1) b (hmem b (k2.mem a b m h).2) m (by cases m <;> simp) h
    simp only [List.mem_cons, Prod.mk.injEq, List.not_mem_nil, or_false] at hab
    rcases hab with ⟨rfl, rfl⟩ | ⟨rfl, rfl⟩ | ⟨rfl, rfl⟩ | ⟨rfl, rfl⟩ | ⟨rfl, rfl⟩ | ⟨rfl, rfl⟩
    · exact .of_adj exLatD_acyclic (Or.inl (by show 0 ∈ exLatD.par 1; decide))
    · exact .of_adj exLatD_acyclic (Or.inr (by show 0 ∈ exLatD.par 1; decide))
    · exact exLatD_insep
    · exact exLatD_insep.symm exLatD_acyclic
    · exact .of_adj exLatD_acyclic (Or.inr (by show 3 ∈ exLatD.par 2; decide))
    · exact .of_adj exLatD_acyclic (Or.inl (by show 3 ∈ exLatD.par 2; decide))
  rintro a b (⟨m, h⟩ | ⟨m, h⟩)
  · exact key a b m h
  · exact (key b a m h).symm exLatD_acyclic

/-- The hypotheses of C74 and C76 are met (the last one is `exLatD_true`); by C74 the arrowheads are true. -/
example : ¬ exLatD.DPath 1 2 ∧ ¬ exLatD.DPath 2 1 := by
  obtain ⟨G, h1, h2, h3, h4, -⟩ := exLatD_true
  obtain ⟨G', k1, -, -, -, k2⟩ := C74_partial ascending exLatD_wf exLatD_acyclic (O := {0, 1, 2, 3}) (by decide)
  rw [h1] at k1
  cases k1
  exact ⟨(k2 h2).1 2 1 h4, (k2 h2).1 1 2 h3⟩

example : Pc.PerfectOn (Pc.dsepTest descending exLatD) exLatD {0, 1, 2, 3} :=
  Pc.dsepTest_perfectOn descending exLatD_wf exLatD_acyclic (by decide)

/-- The hypotheses of C75 are met by the maximal ancestral graph of every DAG. -/
example : ∃ b, (exLatD.mag {0, 1, 2, 3}).isMSeparated ascending 0 2 {1} = .ok b ∧ exLatD.dsep descending 0 2 {1} = .ok b := by
  classical
  refine C75_mag ascending descending exLatD_wf exLatD_acyclic (O := {0, 1, 2, 3}) (by decide) rfl rfl ?_ (by decide) (by decide)
    (by decide) (by decide) (by decide)
  intro a b m
  cases m
  · rw [Dag.mag_tail]; by_cases h : exLatD.DPath b a <;> simp [h]; tauto
  · rw [Dag.mag_arrow]; by_cases h : exLatD.DPath b a <;> simp [h]; tauto
  · refine (iff_false_intro Dag.mag_circle).trans ?_
    by_cases h : exLatD.DPath b a <;> simp [h]

end Verif
