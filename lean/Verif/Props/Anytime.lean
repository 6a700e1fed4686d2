import Verif.Lemmas.AnytimeRun
import Verif.Props.IcdOne

/-!
# C85: marks of graphs learned with a limited conditioning-set size

The statements are about a DAG `D`, its observed nodes `O`, and a graph over `O` in which nodes are adjacent iff they are dependent given
every set of at most `r` observed nodes. Such a graph can have many edges that the PAG of `D` does not have.
-/

namespace Verif
open Relation MG
variable {α : Type} [LinearOrder α]

/-- C85: orienting an `r`-representing graph with smallest recorded sets. Whatever true marks it starts with: the calls succeed, every
arrowhead and every tail is true, and the middle node of an unshielded triple gets two arrowheads iff it is an ancestor of neither
end node. -/
theorem C85_marks (o : SetOrder α) {D : Dag α} (hac : D.Acyclic) {O : Finset α} {r : Nat} {G : MG α} {sep : SepSet α} (hG : G.Proper)
    (hn : G.nodes = O) (ht : G.types = pagTypes) (hkey : ∀ i ∈ O, ∀ j ∈ O, i ≠ j → ∃ S, sep.get i j = .ok S)
    (hr : D.Representing O r G) (hs : D.SmallestSep O r G sep.get) (h1 : D.ArrowsTrue G) (h2 : D.TailsTrue G)
    {rules : List Nat} (hrules : ∀ idx ∈ rules, idx ∈ [1, 2, 3, 4, 5, 6, 7, 8, 9]) :
    ∃ G' H, G.pagVStructures o (some sep) = .ok G' ∧ MG.pagMaxOrient o sep rules G' = .ok H ∧ SameSkel H G ∧
      D.ArrowsTrue H ∧ D.TailsTrue H ∧
      ∀ a b c, a ≠ c → H.MAdj a b → H.MAdj c b → ¬ H.MAdj a c →
        ((H.At a b .arrow ∧ H.At c b .arrow) ↔ ¬ D.DPath b a ∧ ¬ D.DPath b c) := by
  have hT : ∀ m, m ∈ G.types := by rw [ht]; exact pagTypes_all
  have hok := hs.sepOk hac hG hn hr
  have hall : ∀ idx ∈ rules, idx ∈ allPagRules := fun idx h => by
    have : ∀ idx ∈ [1, 2, 3, 4, 5, 6, 7, 8, 9], idx ∈ allPagRules := by decide
    exact this idx (hrules idx h)
  have h10 : 10 ∉ rules := fun h => by
    have : 10 ∉ [1, 2, 3, 4, 5, 6, 7, 8, 9] := by decide
    exact this (hrules 10 h)
  obtain ⟨G', H, g1, g2, g3, g4⟩ := Fci.orient_marks hac o hG hT (by rw [hn]; exact hkey) hok h1 h2 hall h10
  refine ⟨G', H, g1, g2, g3, g4.arrows, g4.tails, fun a b c hne hab hcb hnac => ⟨fun h => ⟨g4.arrows _ _ h.1, g4.arrows _ _ h.2⟩, fun h => ?_⟩⟩
  have hokH := hok.congr g3.nodes g3.adj
  constructor
  · by_contra hnot
    rcases g4.mem_of_not_arrow hac g3.proper hokH hnot hab hcb hne hnac with k | k
    · exact h.1 k
    · exact h.2 k
  · by_contra hnot
    rcases g4.mem_of_not_arrow hac g3.proper hokH hnot hcb hab hne.symm (fun h => hnac h.symm) with k | k
    · exact h.2 k
    · exact h.1 k

/-- C85 for the orientation stage of the learners, which forgets all marks first; `selection` rules may follow. -/
theorem C85_stage (o : SetOrder α) {D : Dag α} (hac : D.Acyclic) {O : Finset α} {r : Nat} {G : MG α} {sep : SepSet α} (hG : G.Proper)
    (hn : G.nodes = O) (ht : G.types = pagTypes) (hkey : ∀ i ∈ O, ∀ j ∈ O, i ≠ j → ∃ S, sep.get i j = .ok S)
    (hr : D.Representing O r G) (hs : D.SmallestSep O r G sep.get) (selection tails : Bool) :
    ∃ G' H, Fci.reorient o sep G = .ok G' ∧ Fci.finalRules o sep selection tails G' = .ok H ∧ SameSkel H G ∧ D.ArrowsTrue H ∧
      D.TailsTrue G' ∧ (tails = false → D.TailsTrue H) := by
  have hok := hs.sepOk hac hG hn hr
  obtain ⟨G', g1, g2, -⟩ := Fci.reorient_spec o sep hG ht (by rw [hn]; exact hkey)
  have hm := (Fci.reorient_marks hac o hG ht (by rw [hn]; exact hkey) hok g1).1
  obtain ⟨H, k1, k2, k3, -⟩ := Fci.finalRules_spec o sep selection tails g2.proper (g2.types.trans ht)
  refine ⟨G', H, g1, k1, g2.trans k2, fun a b h => hm.arrows a b ((k3 a b).mp h), hm.tails, fun hf => ?_⟩
  subst hf
  exact (Fci.finalRules_marks hac o g2.proper (g2.types.trans ht) (hok.congr g2.nodes g2.adj) hm k1).tails

/-- C85 for ICD stopped after one or two iterations, with latent variables: with a test that answers d-separation, the graph after the
iteration that reports `r ≤ 1` is `r`-representing and has true arrowheads; its tails are true as well, for `r = 1` if the tail rules
are off or the other end of the edge is no arrowhead. -/
theorem C85_icd (o : SetOrder α) {ci : CITest α} (opts : IcdOpts) {D : Dag α} (hac : D.Acyclic) {O : Finset α}
    (hp : Pc.PerfectOn ci D O) :
    ∃ st1 st2 d, Icd.iteration o ci opts (Icd.init o O) = .ok (st1, false, 0) ∧
      D.Representing O 0 st1.graph ∧ D.ArrowsTrue st1.graph ∧ D.TailsTrue st1.graph ∧
      Icd.iteration o ci opts st1 = .ok (st2, d, 1) ∧
      D.Representing O 1 st2.graph ∧ D.ArrowsTrue st2.graph ∧ (opts.tails = false → D.TailsTrue st2.graph) ∧
      ∀ a b, st2.graph.At a b .tail → D.DPath b a ∨ st2.graph.At b a .arrow := by
  obtain ⟨st1, st2, d, h1, h2, h3, h4⟩ := Dag.icd_one o opts hac hp
  obtain ⟨⟨a1, a2⟩, a3, a4, a5⟩ := Dag.icd_marks o opts hac hp h1 h2
  exact ⟨st1, st2, d, h1, h3, a1, a2, h2, h4, a3, a4, a5⟩

/-! ## Examples -/

/-- A graph over the nodes of `exPoly` other than 2: the path 0 – 1 – 3 – 4. -/
def exAny : MG Nat := ⟨{0, 1, 3, 4}, pagTypes, fun v m => match m with
  | .circle => [{1}, {0, 3}, ∅, {1, 4}, {3}].getD v ∅
  | _ => ∅⟩

theorem exAny_at {a b : Nat} {m : Mark} : exAny.At a b m ↔ m = .circle ∧ (a, b) ∈ [(0, 1), (1, 0), (1, 3), (3, 1), (3, 4), (4, 3)] := by
  constructor
  · intro h
    have h' : a ∈ exAny.g b m := h
    cases m with
    | circle =>
      refine ⟨rfl, ?_⟩
      have hb : b < 5 := by
        by_contra hn
        have : exAny.g b .circle = ∅ := by rcases b with _ | _ | _ | _ | _ | b <;> first | omega | rfl
        rw [this] at h'
        simp at h'
      have key : ∀ b < 5, ∀ a ∈ exAny.g b .circle, (a, b) ∈ [(0, 1), (1, 0), (1, 3), (3, 1), (3, 4), (4, 3)] := by decide
      exact key b hb a h'
    | arrow => exact absurd h' (Finset.notMem_empty a)
    | tail => exact absurd h' (Finset.notMem_empty a)
  · rintro ⟨rfl, h⟩
    simp only [List.mem_cons, Prod.mk.injEq, List.not_mem_nil, or_false] at h
    rcases h with ⟨rfl, rfl⟩ | ⟨rfl, rfl⟩ | ⟨rfl, rfl⟩ | ⟨rfl, rfl⟩ | ⟨rfl, rfl⟩ | ⟨rfl, rfl⟩ <;> decide

theorem exAny_proper : exAny.Proper := by
  refine ⟨fun a b m _ => ?_, fun a b m h => ?_, fun a m h => ?_, fun a b m m' h h' => ?_, fun a b m h => ?_⟩
  · exact pagTypes_all m
  · have := (exAny_at.mp h).2
    simp only [List.mem_cons, Prod.mk.injEq, List.not_mem_nil, or_false] at this
    rcases this with ⟨rfl, rfl⟩ | ⟨rfl, rfl⟩ | ⟨rfl, rfl⟩ | ⟨rfl, rfl⟩ | ⟨rfl, rfl⟩ | ⟨rfl, rfl⟩ <;> decide
  · have := (exAny_at.mp h).2
    simp only [List.mem_cons, Prod.mk.injEq, List.not_mem_nil, or_false] at this
    omega
  · rw [(exAny_at.mp h).1, (exAny_at.mp h').1]
  · refine ⟨.circle, exAny_at.mpr ⟨rfl, ?_⟩⟩
    have := (exAny_at.mp h).2
    simp only [List.mem_cons, Prod.mk.injEq, List.not_mem_nil, or_false] at this ⊢
    omega

theorem exAny_adj {a b : Nat} : exAny.MAdj a b ↔ (a, b) ∈ [(0, 1), (1, 0), (1, 3), (3, 1), (3, 4), (4, 3)] := by
  constructor
  · rintro (⟨m, h⟩ | ⟨m, h⟩)
    · exact (exAny_at.mp h).2
    · have := (exAny_at.mp h).2
      simp only [List.mem_cons, Prod.mk.injEq, List.not_mem_nil, or_false] at this ⊢
      omega
  · exact fun h => Or.inl ⟨.circle, exAny_at.mpr ⟨rfl, h⟩⟩

theorem exAny_sep : ∀ a ∈ ({0, 1, 3, 4} : Finset Nat), ∀ b ∈ ({0, 1, 3, 4} : Finset Nat), a ≠ b →
    (exPoly.DSeparated a b ∅ ↔ (a, b) ∉ [(0, 1), (1, 0), (1, 3), (3, 1), (3, 4), (4, 3)]) := by
  intro a ha b hb hab
  have hp := Pc.dsepTest_perfectOn ascending exPoly_wf exPoly_acyclic (O := {0, 1, 3, 4}) (by decide)
  have := hp 0 a b [] ha hb hab (by simp) (by simp) (by simp)
  rw [List.toFinset_nil] at this
  rw [← this]
  have key : ∀ a ∈ ({0, 1, 3, 4} : Finset Nat), ∀ b ∈ ({0, 1, 3, 4} : Finset Nat), a ≠ b →
      (Pc.dsepTest ascending exPoly 0 a b [] = true ↔ (a, b) ∉ [(0, 1), (1, 0), (1, 3), (3, 1), (3, 4), (4, 3)]) := by decide +kernel
  exact key a ha b hb hab

theorem exAny_representing : exPoly.Representing {0, 1, 3, 4} 0 exAny := by
  intro a ha b hb hab
  rw [exAny_adj]
  constructor
  · intro h S _ hc _ _ hsep
    obtain rfl : S = ∅ := Finset.card_eq_zero.mp (by omega)
    exact (exAny_sep a ha b hb hab).mp hsep h
  · intro h
    by_contra hn
    exact h ∅ (by simp) (by simp) (by simp) (by simp) ((exAny_sep a ha b hb hab).mpr hn)

theorem exAny_smallest : exPoly.SmallestSep {0, 1, 3, 4} 0 exAny (SepSet.init ascending ({0, 1, 3, 4} : Finset Nat)).get := by
  intro a ha c hc hne hn
  rw [exAny_adj] at hn
  refine ⟨∅, by rw [SepSet.get_init, if_pos ⟨ha, hc, hne⟩], by simp, by simp, by simp, by simp, (exAny_sep a ha c hc hne).mpr hn, ?_⟩
  simp

/-- Hypotheses of the theorems are met: node 2 is latent, and 1 and 3 have arrowheads. -/
example := C85_marks ascending exPoly_acyclic exAny_proper rfl rfl
  (fun i hi j hj hij => ⟨∅, by rw [SepSet.get_init, if_pos ⟨hi, hj, hij⟩]⟩) exAny_representing exAny_smallest
  (fun a b h => by simp [exAny_at] at h) (fun a b h => by simp [exAny_at] at h) (rules := [1, 2, 3, 4, 8, 9]) (by decide)
example := C85_stage ascending exPoly_acyclic exAny_proper rfl rfl
  (fun i hi j hj hij => ⟨∅, by rw [SepSet.get_init, if_pos ⟨hi, hj, hij⟩]⟩) exAny_representing exAny_smallest true true
example := C85_icd ascending ⟨true, false, true⟩ exPoly_acyclic
  (Pc.dsepTest_perfectOn ascending exPoly_wf exPoly_acyclic (O := {0, 1, 3, 4}) (by decide))

end Verif
