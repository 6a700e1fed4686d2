import Verif.Lemmas.Icd
import Verif.Props.Pc
import Verif.Props.Pag

/-!
# Properties C49 and C50: FCI and ICD
-/

namespace Verif
open Relation MG
variable {α : Type} [LinearOrder α]

/-! ## C49: FCI -/

/-- C49 (FCI). Any CI test, iteration order and option: no exception; the result is a well-formed PAG on the nodes; every pair
that is not adjacent has a recorded set for which the test answered "independent"; the adjacencies are among the ones found
by PC, and the returned flag tells whether some of them were removed. -/
theorem C49_fci (o : SetOrder α) (ci : CITest α) (selection tails : Bool) (N : Finset α) :
    ∃ pc st found, Pc.learnSkeleton o ci true (Pc.init o N) = .ok pc ∧
      Fci.learnStructure o ci selection tails N = .ok (st, found) ∧
      st.graph.Proper ∧ st.graph.nodes = N ∧
      (∀ i ∈ N, ∀ j ∈ N, i ≠ j → ¬ st.graph.MAdj i j → ∃ S, st.sep.get i j = .ok S ∧ Pc.Witness ci N i j S) ∧
      (∀ a b, st.graph.MAdj a b → pc.graph.Und a b) ∧
      (found = true ↔ ∃ a b, pc.graph.Und a b ∧ ¬ st.graph.MAdj a b) := by
  obtain ⟨pc, st, found, h1, h2, h3, h4, h5, -⟩ := Fci.learnStructure_spec o ci selection tails N
  exact ⟨pc, st, found, h1, h2, h3.proper, h3.nodes, h3.witness, h4, h5⟩

/-- C49 (FCI), retained edges: for every adjacent pair the test answered "dependent" for all subsets of a set that contains
all nodes PC found adjacent to the first node. -/
theorem C49_fci_tested (o : SetOrder α) (ci : CITest α) (selection tails : Bool) (N : Finset α) :
    ∃ pc st found, Pc.learnSkeleton o ci true (Pc.init o N) = .ok pc ∧
      Fci.learnStructure o ci selection tails N = .ok (st, found) ∧
      ∀ x y, st.graph.MAdj x y → ∃ P : Finset α, (∀ v, pc.graph.Und x v → v ∈ P) ∧
        ∀ S ⊆ P \ {y}, ∃ z k, z.toFinset = S ∧ z.Nodup ∧ ci k x y z = false := by
  obtain ⟨pc, st, found, h1, h2, -, -, -, h6, -⟩ := Fci.learnStructure_spec o ci selection tails N
  exact ⟨pc, st, found, h1, h2, h6⟩

/-- C49 (FCI) with a test that answers m-separation in an ancestral graph `M`: no adjacency of `M` is lost; and if no other
adjacency is left, then all arrowheads of the result are arrowheads of `M` and all unshielded colliders are found, and (without the
tail rules, or if `M` has no bidirected edge) all marks are right. -/
theorem C49_fci_oracle (o : SetOrder α) {ci : CITest α} (selection tails : Bool) {M : MG α} (hM : Ancestral M)
    (hp : MPerfect ci M) :
    ∃ st found, Fci.learnStructure o ci selection tails M.nodes = .ok (st, found) ∧
      (∀ a b, M.MAdj a b → st.graph.MAdj a b) ∧
      ((∀ a b, st.graph.MAdj a b → M.MAdj a b) →
        ArrowsOk st.graph M ∧ (TailsOk tails M → Compatible st.graph M)) := by
  obtain ⟨pc, st, found, -, h2, h3, -, -, -, h7⟩ := Fci.learnStructure_spec o ci selection tails M.nodes
  have hsup : ∀ a b, M.MAdj a b → st.graph.MAdj a b := fun a b h => h3.sup hM.proper hp h
  refine ⟨st, found, h2, hsup, fun hsub => ?_⟩
  have hadj : ∀ a b, st.graph.MAdj a b ↔ M.MAdj a b := fun a b => ⟨hsub a b, hsup a b⟩
  exact h7 M hM rfl hadj (h3.sepIn hp hadj)

/-- C49 (FCI) with a test that answers d-separation in a DAG over the same nodes (no latent variables): the skeleton of the
DAG is found, stage 2 removes nothing, all arrowheads and tails agree with the DAG, and all unshielded colliders
of the DAG are oriented, whatever the options. -/
theorem C49_fci_dag (o : SetOrder α) {ci : CITest α} (selection tails : Bool) {D : Dag α} (hD : D.WF) (hac : D.Acyclic)
    (hp : Pc.Perfect ci D) :
    ∃ st, Fci.learnStructure o ci selection tails D.nodes = .ok (st, false) ∧
      (∀ a b, st.graph.MAdj a b ↔ D.Adj a b) ∧ (∀ a b, st.graph.At a b .arrow → D.Edge a b) ∧
      (∀ a b, st.graph.At a b .tail → D.Edge b a) ∧
      ∀ a b c, a ≠ c → D.Edge a b → D.Edge c b → ¬ D.Adj a c → st.graph.At a b .arrow ∧ st.graph.At c b .arrow := by
  obtain ⟨pc, st, found, h1, h2, h3, h4, h5, h6, h7⟩ := Fci.learnStructure_spec o ci selection tails D.nodes
  have hM := Dag.toMg_ancestral hD hac
  have hp' : MPerfect ci D.toMg := by
    intro k i j l hi hj hij h1 h2 h3
    rw [Dag.toMg_msep hD]
    exact hp k i j l hi hj hij h1 h2 h3
  obtain ⟨pc', q1, q2⟩ := Pc.learnSkeleton_perfect o true hD hac hp
  rw [h1] at q1
  cases q1
  have hsup : ∀ a b, D.Adj a b → st.graph.MAdj a b := fun a b h =>
    Fci.SkInv.sup (M := D.toMg) hM.proper hp' h3 ((Dag.toMg_adj hD).mpr h)
  have hadj : ∀ a b, st.graph.MAdj a b ↔ D.Adj a b := fun a b => ⟨fun h => (q2.2 a b).mp (h4 a b h), hsup a b⟩
  have hadj' : ∀ a b, st.graph.MAdj a b ↔ D.toMg.MAdj a b := fun a b => (hadj a b).trans (Dag.toMg_adj hD).symm
  have hf : found = false := by
    rw [← Bool.not_eq_true, h5]
    rintro ⟨a, b, h, h'⟩
    exact h' (hsup a b ((q2.2 a b).mp h))
  subst hf
  obtain ⟨k1, k2⟩ := h7 D.toMg hM rfl hadj' (Fci.SkInv.sepIn (M := D.toMg) hp' h3 hadj')
  have hC := k2 (Or.inr fun a b h => (Dag.toMg_tail hD).mpr h)
  exact ⟨st, h2, hadj, k1.arrow, fun a b h => (Dag.toMg_tail hD).mp (hC.tail a b h), fun a b c h1 h2 h3 h4 =>
    hC.colliders a b c h1 h2 h3 (fun h => h4 ((Dag.toMg_adj hD).mp h))⟩

/-! ## C49, C50: ICD -/

namespace Icd

theorem learnStructure_spec (o : SetOrder α) {ci : CITest α} {N : Finset α} (opts : IcdOpts) {st : IcdState α}
    (h : Fci.SkInv ci N st.graph st.sep) :
    ∃ st', learnStructure o ci opts st = .ok st' ∧ st'.done = true ∧ st'.size ≤ max 2 N.card ∧
      Fci.SkInv ci N st'.graph st'.sep ∧ (∀ a b, st'.graph.MAdj a b → st.graph.MAdj a b) ∧
      Snd opts.tails N st'.graph st'.sep := by
  have := loop_spec o opts (max 2 st.graph.nodes.card) { st with done := false, size := 0 } h rfl (by omega)
    (by rw [h.nodes]; simp) (by simp) (by simp)
  exact this

theorem Reachable.inv {o : SetOrder α} {ci : CITest α} {opts : IcdOpts} {N : Finset α} {st : IcdState α}
    (h : Reachable o ci opts N st) : Fci.SkInv ci N st.graph st.sep := by
  induction h with
  | refl => exact init_inv o ci N
  | @tail s s' _ h ih =>
    rcases h with ⟨d, r, h⟩ | h
    · cases hd : s.done with
      | true => simp [iteration, hd] at h
      | false =>
        obtain ⟨s2, d2, h1, -, -, h2, -⟩ := iteration_spec o opts ih hd
        rw [h1] at h
        cases h
        exact h2
    · obtain ⟨s2, h1, -, -, h2, -⟩ := learnStructure_spec o opts ih
      rw [h1] at h
      cases h
      exact h2

end Icd

/-- C49 (ICD). After any sequence of calls of `learn_structure_iteration` and `learn_structure`, with any CI test: the graph is
a well-formed PAG on the nodes, and every pair that is not adjacent has a recorded set for which the test answered
"independent". -/
theorem C49_icd {o : SetOrder α} {ci : CITest α} {opts : IcdOpts} {N : Finset α} {st : IcdState α}
    (h : Icd.Reachable o ci opts N st) :
    st.graph.Proper ∧ st.graph.nodes = N ∧
      ∀ i ∈ N, ∀ j ∈ N, i ≠ j → ¬ st.graph.MAdj i j → ∃ S, st.sep.get i j = .ok S ∧ Pc.Witness ci N i j S :=
  ⟨h.inv.proper, h.inv.nodes, h.inv.witness⟩

/-- C49 (ICD). No call adds an adjacency. -/
theorem C49_icd_shrinks {o : SetOrder α} {ci : CITest α} {opts : IcdOpts} {N : Finset α} {st st' : IcdState α}
    (h : Icd.Reachable o ci opts N st) (hc : Icd.Call o ci opts st st') {a b : α} (hab : st'.graph.MAdj a b) :
    st.graph.MAdj a b := by
  rcases hc with ⟨d, r, hc⟩ | hc
  · cases hd : st.done with
    | true => simp [Icd.iteration, hd] at hc
    | false =>
      obtain ⟨s2, d2, h1, -, -, -, ⟨E, h2, h3⟩, -⟩ := Icd.iteration_spec o opts h.inv hd
      rw [h1] at hc
      cases hc
      exact h2.sub.adj ((h3.adj a b).mp hab)
  · obtain ⟨s2, h1, -, -, -, h2, -⟩ := Icd.learnStructure_spec o opts h.inv
    rw [h1] at hc
    cases hc
    exact h2 a b hab

/-- C49 (ICD), retained edges. Let `r` be the value returned by an iteration and `E` the graph before it, without the edges it
removed. For every edge that is left and every set of `r` neighbours of one of its ends that are possible ancestors (in `E`)
of the ends, the test answered "dependent". -/
theorem C49_icd_tested {o : SetOrder α} {ci : CITest α} {opts : IcdOpts} {N : Finset α} {st st' : IcdState α} {d : Bool} {r : Nat}
    (h : Icd.Reachable o ci opts N st) (hc : Icd.iteration o ci opts st = .ok (st', d, r)) :
    ∃ E, SubMarks E st.graph ∧ (∀ a b, E.MAdj a b ↔ st'.graph.MAdj a b) ∧
      ∀ i j, E.MAdj i j → ∀ T, E.IcdNbr i j r T → Fci.Dep ci i j T ∨ Fci.Dep ci j i T := by
  cases hd : st.done with
  | true => simp [Icd.iteration, hd] at hc
  | false =>
    obtain ⟨s2, d2, h1, -, -, -, ⟨E, h2, h3⟩, -⟩ := Icd.iteration_spec o opts h.inv hd
    rw [h1] at hc
    cases hc
    exact ⟨E, h2.sub, fun a b => (h3.adj a b).symm, h2.tested⟩

/-- C49 (ICD). The conditioning sets tried for a pair when the size is `r ≥ 2`: no exception; in the order of the distance; all
have size `r`, exclude the pair, consist of possible ancestors of the pair and are connected to an end by possible-d-sep
walks inside of the set; all sets of neighbours with these properties are among them. -/
theorem C49_icd_candidates (o : SetOrder α) {G : MG α} (hG : G.Proper) {i j : α} (hi : i ∈ G.nodes) (hj : j ∈ G.nodes) (r : Nat) :
    ∃ L, Icd.rangeSets o G i j r = .ok L ∧ L.Pairwise (fun c d => c.2 ≤ d.2) ∧ (∀ c ∈ L, G.IcdSep i j r c.1) ∧
      ∀ T, G.IcdNbr i j r T → ∃ c ∈ L, c.1 = T :=
  Icd.rangeSets_spec o hG hi hj r

/-- C49 (ICD) with a test that answers m-separation in an ancestral graph `M`: no state loses an adjacency of `M`; and if
`learn_structure` leaves no other adjacency then all arrowheads of its result are arrowheads of `M` and all unshielded colliders are found,
and (without the tail rules, or if `M` has no bidirected edge) all marks are right. -/
theorem C49_icd_oracle {o : SetOrder α} {ci : CITest α} {opts : IcdOpts} {M : MG α} (hM : Ancestral M) (hp : MPerfect ci M)
    {st : IcdState α} (h : Icd.Reachable o ci opts M.nodes st) :
    (∀ a b, M.MAdj a b → st.graph.MAdj a b) ∧
      ∃ st', Icd.learnStructure o ci opts st = .ok st' ∧ (∀ a b, M.MAdj a b → st'.graph.MAdj a b) ∧
        ((∀ a b, st'.graph.MAdj a b → M.MAdj a b) →
          ArrowsOk st'.graph M ∧ (TailsOk opts.tails M → Compatible st'.graph M)) := by
  obtain ⟨st', h1, -, -, h2, -, h3⟩ := Icd.learnStructure_spec o opts h.inv
  have hsup : ∀ a b, M.MAdj a b → st'.graph.MAdj a b := fun a b h => h2.sup hM.proper hp h
  refine ⟨fun a b hab => h.inv.sup hM.proper hp hab, st', h1, hsup, fun hsub => ?_⟩
  have hadj : ∀ a b, st'.graph.MAdj a b ↔ M.MAdj a b := fun a b => ⟨hsub a b, hsup a b⟩
  exact h3.1 M hM rfl hadj (h2.sepIn hp hadj)

/-- C50. `learn_structure` terminates without exception from every state, after at most `max 2 n` iterations (the size of the
conditioning sets counts the iterations). -/
theorem C50_terminates {o : SetOrder α} {ci : CITest α} {opts : IcdOpts} {N : Finset α} {st : IcdState α}
    (h : Icd.Reachable o ci opts N st) :
    ∃ st', Icd.learnStructure o ci opts st = .ok st' ∧ st'.done = true ∧ st'.size ≤ max 2 N.card := by
  obtain ⟨st', h1, h2, h3, -⟩ := Icd.learnStructure_spec o opts h.inv
  exact ⟨st', h1, h2, h3⟩

/-- C50. `learn_structure_iteration` raises `RuntimeError` if the previous iteration reported that it was the last one, and no
exception otherwise; the reported r-values count up; the report is remembered. -/
theorem C50_iteration {o : SetOrder α} {ci : CITest α} {opts : IcdOpts} {N : Finset α} {st : IcdState α}
    (h : Icd.Reachable o ci opts N st) :
    (st.done = true → Icd.iteration o ci opts st = .error .runtimeError) ∧
      (st.done = false → ∃ st' d, Icd.iteration o ci opts st = .ok (st', d, st.size) ∧ st'.done = d ∧ st'.size = st.size + 1) := by
  refine ⟨fun hd => by rw [Icd.iteration, if_pos hd], fun hd => ?_⟩
  obtain ⟨st', d, h1, h2, h3, -⟩ := Icd.iteration_spec o opts h.inv hd
  exact ⟨st', d, h1, h2, h3⟩

/-- C50. An iteration reports that it is the last one only if there was nothing to test: the graph had no set of `r` neighbours
of an end of an edge that are possible ancestors of the ends; and then no edge is removed. It always does if `r ≥ 1` and
there are fewer than `r` nodes besides a pair. -/
theorem C50_stop {o : SetOrder α} {ci : CITest α} {opts : IcdOpts} {N : Finset α} {st st' : IcdState α} {d : Bool} {r : Nat}
    (h : Icd.Reachable o ci opts N st) (hc : Icd.iteration o ci opts st = .ok (st', d, r)) :
    (d = true → (∀ i j, st.graph.MAdj i j → ∀ T, ¬ st.graph.IcdNbr i j r T) ∧ st'.sep = st.sep ∧
      ∀ a b, st'.graph.MAdj a b ↔ st.graph.MAdj a b) ∧
      (1 ≤ r → N.card < r + 2 → d = true) := by
  cases hd : st.done with
  | true => simp [Icd.iteration, hd] at hc
  | false =>
    obtain ⟨s2, d2, h1, -, -, -, -, -, h2, h3, -⟩ := Icd.iteration_spec o opts h.inv hd
    rw [h1] at hc
    cases hc
    refine ⟨h3, fun hr hN => ?_⟩
    cases hd' : d with
    | true => rfl
    | false => have := h2 hr hd'; omega

/-! ### The hypotheses hold for concrete cases -/

/-- The test that asks the m-separation query of the library for a graph. -/
def msepTest (o : SetOrder α) (M : MG α) : CITest α := fun _ i j l => (M.isMSeparated o i j l.toFinset).toOption.getD false

theorem msepTest_perfect (o : SetOrder α) {M : MG α} (hM : M.Proper) (hT : Mark.arrow ∈ M.types) (hD : M.DirectedMixed) :
    MPerfect (msepTest o M) M := by
  intro k i j l hi hj _ hil hjl hl
  obtain ⟨b, h1, h2⟩ := isMSeparated_spec o hM hT hD hi hj (Z := l.toFinset) (fun v hv => hl v (by simpa using hv))
    (by simpa using hil) (by simpa using hjl)
  rw [msepTest, h1, ← h2]
  rfl

/-- `0 --> 2 <-> 3 <-- 1`, the smallest graph in which a latent variable (between 2 and 3) shows. -/
def exLat : MG Nat := .ofMarks {0, 1, 2, 3} pagTypes
  [(0, 2, .arrow), (2, 0, .tail), (2, 3, .arrow), (3, 2, .arrow), (1, 3, .arrow), (3, 1, .tail)]

theorem exLat_proper : exLat.Proper := MG.ofMarks_proper (by decide)

theorem exLat_ancestral : Ancestral exLat :=
  .of_rank exLat_proper (fun v => [0, 0, 1, 1].getD v 0) (by decide +kernel) (by decide +kernel) (by decide +kernel)

theorem exLat_directed : exLat.DirectedMixed := by
  have : ∀ a ∈ exLat.nodes, ∀ b ∈ exLat.nodes, (a ∈ exLat.g b .tail ∨ a ∈ exLat.g b .arrow ∨ a ∈ exLat.g b .circle) →
      (a ∈ exLat.g b .arrow ∨ a ∈ exLat.g b .tail) ∧ (a ∈ exLat.g b .arrow ∨ b ∈ exLat.g a .arrow) := by decide +kernel
  intro a b h
  obtain ⟨h1, h2, h3⟩ := exLat_proper.madj_iff.1 h
  exact this a h1 b h2 h3

theorem exLat_perfect (o : SetOrder Nat) : MPerfect (msepTest o exLat) exLat :=
  msepTest_perfect o exLat_proper (by decide) exLat_directed

/-- Full FCI and ICD on `exLat`: both find `0 o-> 2 <-> 3 <-o 1`, so the conclusions of the oracle theorems apply in full. -/
example : ∃ st found, Fci.learnStructure ascending (msepTest ascending exLat) true true exLat.nodes = .ok (st, found) ∧
    (∀ a b, exLat.MAdj a b → st.graph.MAdj a b) ∧
      ((∀ a b, st.graph.MAdj a b → exLat.MAdj a b) →
        ArrowsOk st.graph exLat ∧ (TailsOk true exLat → Compatible st.graph exLat)) :=
  C49_fci_oracle ascending true true exLat_ancestral (exLat_perfect ascending)

example : MG.marks ((Fci.learnStructure descending (msepTest ascending exLat) true true exLat.nodes).map (·.1.graph)) =
    .ok [(2, 0, .circle), (3, 1, .circle), (0, 2, .arrow), (3, 2, .arrow), (1, 3, .arrow), (2, 3, .arrow)] := by decide +kernel

example : MG.marks ((Icd.learnStructure ascending (msepTest descending exLat) ⟨true, true, true⟩
    (Icd.init ascending exLat.nodes)).map (·.graph)) =
    .ok [(2, 0, .circle), (3, 1, .circle), (0, 2, .arrow), (3, 2, .arrow), (1, 3, .arrow), (2, 3, .arrow)] := by decide +kernel

/-- FCI with the d-separation test of the library on a DAG. -/
example : ∃ st, Fci.learnStructure ascending (Pc.dsepTest descending exD2) false true exD2.nodes = .ok (st, false) ∧
    (∀ a b, st.graph.MAdj a b ↔ exD2.Adj a b) ∧ (∀ a b, st.graph.At a b .arrow → exD2.Edge a b) ∧
    (∀ a b, st.graph.At a b .tail → exD2.Edge b a) ∧
    ∀ a b c, a ≠ c → exD2.Edge a b → exD2.Edge c b → ¬ exD2.Adj a c → st.graph.At a b .arrow ∧ st.graph.At c b .arrow :=
  C49_fci_dag ascending false true exD2_wf exD2_acyclic (C22_dsep_oracle descending exD2_wf exD2_acyclic)

example : MG.marks ((Fci.learnStructure ascending (Pc.dsepTest ascending exD2) false true exD2.nodes).map (·.1.graph)) =
    .ok [(2, 0, .circle), (4, 0, .circle), (2, 1, .circle), (3, 2, .tail), (0, 2, .arrow), (1, 2, .arrow), (2, 3, .arrow),
      (0, 4, .circle)] := by decide +kernel

/-- ICD on a DAG: four iterations; a further iteration raises `RuntimeError`, a further `learn_structure` does not. -/
example : (Icd.learnStructure ascending (Pc.dsepTest ascending exD2) ⟨false, false, true⟩ (Icd.init ascending exD2.nodes)).map
      (fun st => (st.size, st.done,
        match Icd.iteration ascending (Pc.dsepTest ascending exD2) ⟨false, false, true⟩ st with
        | .ok _ => none
        | .error e => some e,
        (Icd.learnStructure ascending (Pc.dsepTest ascending exD2) ⟨false, false, true⟩ st).toOption.map (·.size))) =
    .ok (4, true, some .runtimeError, some 4) := by decide +kernel

/-- States after some iterations. -/
example : ∃ st, Icd.Reachable ascending exFickle ⟨true, false, false⟩ {0, 1, 2, 3} st ∧ st.size = 2 ∧ st.done = false := by
  have e : ((Icd.iteration ascending exFickle ⟨true, false, false⟩ (Icd.init ascending {0, 1, 2, 3})).bind (fun r =>
      Icd.iteration ascending exFickle ⟨true, false, false⟩ r.1)).map (fun r => (r.1.size, r.1.done)) = .ok (2, false) := by
    decide +kernel
  cases h1 : Icd.iteration ascending exFickle ⟨true, false, false⟩ (Icd.init ascending {0, 1, 2, 3}) with
  | error x => rw [h1] at e; cases e
  | ok r =>
    rw [h1] at e
    simp only [Except.bind] at e
    cases h2 : Icd.iteration ascending exFickle ⟨true, false, false⟩ r.1 with
    | error x => rw [h2] at e; cases e
    | ok q =>
      rw [h2] at e
      simp only [Except.map, Except.ok.injEq, Prod.mk.injEq] at e
      have c1 : Icd.Call ascending exFickle ⟨true, false, false⟩ (Icd.init ascending {0, 1, 2, 3}) r.1 := Or.inl ⟨_, _, h1⟩
      have c2 : Icd.Call ascending exFickle ⟨true, false, false⟩ r.1 q.1 := Or.inl ⟨_, _, h2⟩
      exact ⟨q.1, (Relation.ReflTransGen.single c1).tail c2, e.1, e.2⟩

end Verif
