import Verif.Lemmas.OIcdDegRun
import Verif.Props.OIcdLatent

/-!
# C81 and C85: ordered ICD on DAGs without latent nodes, and with at most one conditioning node
-/

namespace Verif
open Relation MG
variable {α : Type} [LinearOrder α]

/-- If a run from a new object leaves only edges of the DAG, then all edges of the DAG are there, each with an arrowhead at the later end
and no other arrowhead, and all tails are right. -/
theorem OIcd.observed_of (o : SetOrder α) {ci : CITest α} {opts : OIcdOpts α} {D : Dag α} (hD : D.WF) (hac : D.Acyclic)
    (ho : D.CausalOrder D.nodes opts.order) (hp : Pc.PerfectOn ci D D.nodes) (isLocal : Bool)
    (later : ∀ st', OIcd.learnStructure o ci opts isLocal ⟨MG.complete D.nodes pagTypes .circle, SepSet.init o D.nodes, 0, ∅⟩ = .ok st' →
      ∀ a b, Before opts.order a b → st'.graph.MAdj a b → D.Adj a b) :
    ∃ st', OIcd.learnStructure o ci opts isLocal ⟨MG.complete D.nodes pagTypes .circle, SepSet.init o D.nodes, 0, ∅⟩ = .ok st' ∧
      st'.graph.Proper ∧ st'.graph.nodes = D.nodes ∧ (∀ a b, st'.graph.MAdj a b ↔ D.Adj a b) ∧
      (∀ a b, st'.graph.At a b .arrow ↔ D.Edge a b) ∧ ∀ a b, st'.graph.At a b .tail → D.Edge b a := by
  obtain ⟨-, st', h1, k1, k2, k3, k4⟩ := C81_partial (o := o) hac ho hp ReflTransGen.refl isLocal
  obtain ⟨st'', h1', hord⟩ := (C51_order (o := o) (ci := ci) ho.isOrder ReflTransGen.refl).1 isLocal
  rw [h1] at h1'
  cases h1'
  have later := later st' h1
  have hsub : ∀ a b, st'.graph.MAdj a b → D.Adj a b := by
    intro a b hab
    have hmem : a ∈ D.nodes ∧ b ∈ D.nodes := by rw [← k2]; exact k1.mem_adj hab
    rcases Before.total ((ho.isOrder.mem a).mpr hmem.1) ((ho.isOrder.mem b).mpr hmem.2) (k1.ne hab) with hb | hb
    · exact later a b hb hab
    · exact (later b a hb hab.symm).symm
  have hins : ∀ a b, D.Adj a b → a ∈ D.nodes ∧ b ∈ D.nodes ∧ a ≠ b ∧ D.Insep D.nodes a b := by
    intro a b h
    have hne : a ≠ b := by
      rintro rfl
      rcases h with h | h <;> exact hac _ (.single h)
    exact ⟨h.elim (fun h => (hD _ _ h).1) (fun h => (hD _ _ h).2), h.elim (fun h => (hD _ _ h).2) (fun h => (hD _ _ h).1), hne,
      .of_adj hac h⟩
  have hnc : D.NoConfounded D.nodes := fun a _ b _ hab h =>
    (D.insep_adj hD hac hab h).imp (fun h => .single h) (fun h => .single h)
  obtain ⟨g5, -, g7⟩ := k4 (fun a b h => .of_adj hac (hsub a b h))
  have hadj : ∀ a b, D.Adj a b → st'.graph.MAdj a b := by
    intro a b h
    obtain ⟨a1, a2, a3, a4⟩ := hins a b h
    exact k3 a a1 b a2 a3 a4
  refine ⟨st', h1, k1, k2, fun a b => ⟨hsub a b, hadj a b⟩, fun a b => ⟨fun h => ?_, fun h => ?_⟩, fun a b h => ?_⟩
  · exact (hsub a b (Or.inl ⟨_, h⟩)).resolve_right (fun h' => g5 a b h (.single h'))
  · obtain ⟨a1, a2, a3, -⟩ := hins a b (Or.inl h)
    obtain ⟨m, hm⟩ : ∃ m, st'.graph.At a b m := (hadj a b (Or.inl h)).elim id fun ⟨m, hm⟩ => k1.both _ _ _ hm
    rwa [hord a b m (ho.anc a a1 b a2 a3 (.single h)) hm] at hm
  · exact (hsub a b (Or.inl ⟨_, h⟩)).resolve_left (fun h' => hac b (TransGen.tail' (g7 (Or.inr hnc) a b h) h'))

/-- C81 without latent nodes: started on a new object, with a causal order and a test that answers d-separation in a DAG in which no
node has more than three parents (local variant) or two (global variant), and no more parents than `max_cond_size`. The edges are those
of the DAG, the arrowheads are those of its arrows, and all tails are right. -/
theorem C81_observed_partial (o : SetOrder α) {ci : CITest α} {opts : OIcdOpts α} {D : Dag α} (hD : D.WF) (hac : D.Acyclic)
    (ho : D.CausalOrder D.nodes opts.order) (hp : Pc.PerfectOn ci D D.nodes) (isLocal : Bool)
    (hdeg : ∀ v, (D.par v).card ≤ if isLocal then 3 else 2) (hm : ∀ m, opts.maxCond = some m → ∀ v, (D.par v).card ≤ m) :
    ∃ st', OIcd.learnStructure o ci opts isLocal ⟨MG.complete D.nodes pagTypes .circle, SepSet.init o D.nodes, 0, ∅⟩ = .ok st' ∧
      st'.graph.Proper ∧ st'.graph.nodes = D.nodes ∧ (∀ a b, st'.graph.MAdj a b ↔ D.Adj a b) ∧
      (∀ a b, st'.graph.At a b .arrow ↔ D.Edge a b) ∧ ∀ a b, st'.graph.At a b .tail → D.Edge b a := by
  refine OIcd.observed_of o hD hac ho hp isLocal fun st' h1 => ?_
  have hfull : ∀ a b, Before opts.order a b → (MG.complete D.nodes pagTypes .circle).MAdj a b := fun a b h =>
    Or.inl ⟨.circle, complete_at.mpr ⟨(ho.isOrder.mem a).mp h.mem_left, (ho.isOrder.mem b).mp h.mem_right, h.ne ho.isOrder.nodup, rfl⟩⟩
  cases isLocal with
  | true =>
    exact OIcd.learnLocal_exact o hD hac ho hp hdeg hm
      (OIcd.init_inv o ci D.nodes opts.order ho.isOrder (3 + opts.order.length)) (by omega) (by omega) rfl hfull h1
  | false =>
    exact OIcd.learnGlobal_exact o hD hac ho hp hdeg hm
      (OIcd.init_inv o ci D.nodes opts.order ho.isOrder (2 + OIcd.sizeBound opts)) (by omega) (by omega) rfl hfull h1

/-- C85 for ordered ICD with `max_cond_size` 0 or 1 and latent variables: the graph is `r`-representing, with `r` = `max_cond_size` for
the local variant and `r = 1` for the global variant (which tests with one conditioning node in any case); all arrowheads are true, and
all tails are true if the tail rules are off. -/
theorem C85_ordered (o : SetOrder α) {ci : CITest α} {opts : OIcdOpts α} {D : Dag α} (hac : D.Acyclic) {O : Finset α}
    (ho : D.CausalOrder O opts.order) (hp : Pc.PerfectOn ci D O) (isLocal : Bool) {m : Nat} (hm : opts.maxCond = some m) (hm1 : m ≤ 1) :
    ∃ st', OIcd.learnStructure o ci opts isLocal ⟨MG.complete O pagTypes .circle, SepSet.init o O, 0, ∅⟩ = .ok st' ∧
      D.Representing O (if isLocal then m else 1) st'.graph ∧ D.ArrowsTrue st'.graph ∧
      (opts.tails = false → D.TailsTrue st'.graph) := by
  have hd := ho.isOrder.nodup
  have hfull : ∀ a b, Before opts.order a b → (MG.complete O pagTypes .circle).MAdj a b := fun a b h =>
    Or.inl ⟨.circle, complete_at.mpr ⟨(ho.isOrder.mem a).mp h.mem_left, (ho.isOrder.mem b).mp h.mem_right, h.ne ho.isOrder.nodup, rfl⟩⟩
  have h0 := OIcd.init_inv o ci O opts.order ho.isOrder 1
  have fin : ∀ {s : OIcdState α} {r : Nat}, Fci.SkInv ci O s.graph s.sep → SepOk D s.sep.get s.graph → D.Representing O r s.graph →
      ∃ st', OIcd.orient o opts false s = .ok st' ∧ D.Representing O r st'.graph ∧ D.ArrowsTrue st'.graph ∧
        (opts.tails = false → D.TailsTrue st'.graph) := by
    intro s r hi hs hr
    obtain ⟨G, g1, g2, -⟩ := OIcd.orient_spec o (opts := opts) hd (fun v hv => (ho.isOrder.mem v).mpr hv) false hi
    obtain ⟨k1, k2⟩ := OIcd.orient_true o hac ho false hi hs g1
    exact ⟨_, g1, fun a ha b hb hab => (g2.adj a b).trans (hr a ha b hb hab), k1, fun ht => k2 (Or.inr ht)⟩
  cases isLocal with
  | false =>
    obtain ⟨s1, s2, s3, s4, a1, a2, a3, a4, a5, -⟩ := OIcd.global01 o hac ho hp h0 le_rfl rfl hfull
    obtain ⟨st', f1, f2⟩ := fin a5.inv.inv (a5.sepOk hac ho hp) (a5.representing hac ho hp)
    refine ⟨st', ?_, f2⟩
    rw [OIcd.learnStructure, if_neg (by simp), OIcd.learnGlobal, py_bind a1, py_bind a2, py_bind a3, py_bind a4, hm]
    simp only
    rw [show m + 1 - 2 = 0 by omega]
    exact f1
  | true =>
    obtain ⟨s, a1, a2, a3⟩ := OIcd.local01 o hac ho hp h0 le_rfl rfl hfull hm hm1
    have run : ∀ {st'}, OIcd.orient o opts false s = .ok st' → OIcd.learnStructure o ci opts true
        ⟨MG.complete O pagTypes .circle, SepSet.init o O, 0, ∅⟩ = .ok st' := by
      intro st' h
      rw [OIcd.learnStructure, if_pos rfl, OIcd.learnLocal, py_bind a1]
      exact h
    have hcases : m = 1 ∨ m = 0 := by omega
    rcases hcases with rfl | rfl
    · have hall : OIcd.AllOne D ci O opts.order 1 s := ⟨OIcd.Inv.all hd (a2.congr (fun _ => Iff.rfl) (fun x => by simp)),
        fun a b hab hn => (a3 a b hab hn).1⟩
      obtain ⟨st', f1, f2⟩ := fin a2.inv (hall.sepOk hac ho hp) (hall.representing hac ho hp)
      exact ⟨st', run f1, f2⟩
    · have hempty : ∀ a b, Before opts.order a b → ¬ s.graph.MAdj a b → s.sep.get a b = .ok ∅ ∧ D.DSeparated a b ∅ := by
        intro a b hab hn
        obtain ⟨-, S, s1, s2⟩ := a3 a b hab hn
        obtain ⟨S', p1, p2, p3, p4, p5, -⟩ := a2.sepOf hac ho hp hab hn
        rw [s1] at p1
        cases p1
        obtain rfl := Finset.card_eq_zero.mp (by omega : S.card = 0)
        exact ⟨s1, p5⟩
      have hempty' : ∀ a ∈ O, ∀ b ∈ O, a ≠ b → ¬ s.graph.MAdj a b → s.sep.get a b = .ok ∅ ∧ D.DSeparated a b ∅ := by
        intro a ha b hb hab hn
        rcases Before.total ((ho.isOrder.mem a).mpr ha) ((ho.isOrder.mem b).mpr hb) hab with hB | hB
        · exact hempty a b hB hn
        · obtain ⟨k1, k2⟩ := hempty b a hB (fun h => hn h.symm)
          exact ⟨by rw [SepSet.get_comm]; exact k1, (Dag.dseparated_symm hac).mp k2⟩
      have hdep : ∀ a b, Before opts.order a b → s.graph.MAdj a b → ¬ D.DSeparated b a ∅ := by
        intro a b hab hadj
        have ha := (ho.isOrder.mem a).mp hab.mem_left
        have hb := (ho.isOrder.mem b).mp hab.mem_right
        obtain ⟨i, i1, i2⟩ := before_iff.mp hab
        refine Dag.dep_of hac hp hb ha (hab.ne hd).symm (by simp) (by simp) (by simp) (Or.inr (a2.dep0 a b hab ⟨i, ?_, i1⟩ hadj))
        by_contra hn
        obtain rfl : i = 0 := by omega
        simp at i2
      have hr : D.Representing O 0 s.graph := by
        intro a ha b hb hab
        constructor
        · intro hadj S _ hc _ _ hsep
          rw [Finset.card_eq_zero.mp (by omega : S.card = 0)] at hsep
          rcases Before.total ((ho.isOrder.mem a).mpr ha) ((ho.isOrder.mem b).mpr hb) hab with hB | hB
          · exact hdep a b hB hadj ((Dag.dseparated_symm hac).mp hsep)
          · exact hdep b a hB hadj.symm hsep
        · intro h
          by_contra hn
          exact h ∅ (by simp) (by simp) (by simp) (by simp) (hempty' a ha b hb hab hn).2
      have hok : SepOk D s.sep.get s.graph := Dag.SmallestSep.sepOk hac (r := 0) a2.inv.proper a2.inv.nodes hr
        (fun a ha c hc hne hn => by
          obtain ⟨k1, k2⟩ := hempty' a ha c hc hne hn
          exact ⟨∅, k1, by simp, by simp, by simp, by simp, k2, fun T _ hT => by simp at hT⟩)
      obtain ⟨st', f1, f2⟩ := fin a2.inv hok hr
      exact ⟨st', run f1, f2⟩

/-! ## Examples -/

/-- The DAG `0 → 3 ← 1`, `2 → 3`, `3 → 4 ← 2`, `0 → 5 ← 4`. -/
def exDeg : Dag Nat := ⟨{0, 1, 2, 3, 4, 5}, fun v => [∅, ∅, ∅, {0, 1, 2}, {2, 3}, {0, 4}].getD v ∅⟩

/-- The same without the edge `2 → 3`. -/
def exDeg2 : Dag Nat := ⟨{0, 1, 2, 3, 4, 5}, fun v => [∅, ∅, ∅, {0, 1}, {2, 3}, {0, 4}].getD v ∅⟩

theorem exDeg_par (v : Nat) : v < 6 ∨ exDeg.par v = ∅ ∧ exDeg2.par v = ∅ := by
  by_cases h : v < 6
  · exact Or.inl h
  · right
    rcases v with _ | _ | _ | _ | _ | _ | v <;> first | omega | exact ⟨rfl, rfl⟩

theorem exDeg_edge {a b : Nat} (h : exDeg.Edge a b) : a < b ∧ b < 6 := by
  have h' : a ∈ exDeg.par b := h
  rcases exDeg_par b with hb | ⟨hb, -⟩
  · have key : ∀ b < 6, ∀ a ∈ exDeg.par b, a < b := by decide
    exact ⟨key b hb a h', hb⟩
  · rw [hb] at h'
    simp at h'

theorem exDeg2_edge {a b : Nat} (h : exDeg2.Edge a b) : a < b ∧ b < 6 := by
  have h' : a ∈ exDeg2.par b := h
  rcases exDeg_par b with hb | ⟨-, hb⟩
  · have key : ∀ b < 6, ∀ a ∈ exDeg2.par b, a < b := by decide
    exact ⟨key b hb a h', hb⟩
  · rw [hb] at h'
    simp at h'

theorem exDeg_path {D : Dag Nat} (h : ∀ a b, D.Edge a b → a < b) {a b : Nat} (hab : TransGen D.Edge a b) : a < b := by
  induction hab with
  | single h' => exact h _ _ h'
  | tail _ h' ih => exact ih.trans (h _ _ h')

theorem exDeg_order {D : Dag Nat} (hn : D.nodes = {0, 1, 2, 3, 4, 5}) (h : ∀ a b, D.Edge a b → a < b) :
    D.CausalOrder D.nodes [0, 1, 2, 3, 4, 5] := by
  rw [hn]
  refine ⟨⟨by decide, fun v => by simp⟩, fun a ha b hb hab hp => ?_⟩
  have key : ∀ a ∈ ({0, 1, 2, 3, 4, 5} : Finset Nat), ∀ b ∈ ({0, 1, 2, 3, 4, 5} : Finset Nat), a < b → Before [0, 1, 2, 3, 4, 5] a b := by
    decide
  refine key a ha b hb ?_
  rcases reflTransGen_iff_eq_or_transGen.mp hp with e | h'
  · exact absurd e.symm hab
  · exact exDeg_path h h'

theorem exDeg_wf : exDeg.WF := fun a b h => by
  obtain ⟨h1, h2⟩ := exDeg_edge h
  have : ∀ a < 6, a ∈ exDeg.nodes := by decide
  exact ⟨this a (by omega), this b h2⟩

theorem exDeg2_wf : exDeg2.WF := fun a b h => by
  obtain ⟨h1, h2⟩ := exDeg2_edge h
  have : ∀ a < 6, a ∈ exDeg2.nodes := by decide
  exact ⟨this a (by omega), this b h2⟩

theorem exDeg_acyclic : exDeg.Acyclic := fun _ h => (exDeg_path (fun _ _ h => (exDeg_edge h).1) h).ne rfl
theorem exDeg2_acyclic : exDeg2.Acyclic := fun _ h => (exDeg_path (fun _ _ h => (exDeg2_edge h).1) h).ne rfl

/-- Hypotheses of the theorems are met. The DAGs are not polytrees. -/
example := C81_observed_partial ascending (opts := ⟨[0, 1, 2, 3, 4, 5], true, true, none⟩) exDeg_wf exDeg_acyclic
  (exDeg_order rfl fun _ _ h => (exDeg_edge h).1)
  (Pc.dsepTest_perfectOn ascending exDeg_wf exDeg_acyclic (Finset.Subset.refl _)) true
  (fun v => by
    rcases exDeg_par v with h | ⟨h, -⟩
    · exact (by decide : ∀ v < 6, (exDeg.par v).card ≤ 3) v h
    · rw [h]; simp)
  (fun m h => by simp at h)
example := C81_observed_partial ascending (opts := ⟨[0, 1, 2, 3, 4, 5], true, true, some 2⟩) exDeg2_wf exDeg2_acyclic
  (exDeg_order rfl fun _ _ h => (exDeg2_edge h).1)
  (Pc.dsepTest_perfectOn ascending exDeg2_wf exDeg2_acyclic (Finset.Subset.refl _)) false
  (fun v => by
    rcases exDeg_par v with h | ⟨-, h⟩
    · exact (by decide : ∀ v < 6, (exDeg2.par v).card ≤ 2) v h
    · rw [h]; simp)
  (fun m h v => by
    cases h
    rcases exDeg_par v with h | ⟨-, h⟩
    · exact (by decide : ∀ v < 6, (exDeg2.par v).card ≤ 2) v h
    · rw [h]; simp)
example (isLocal : Bool) := C85_ordered ascending (opts := ⟨[0, 1, 2, 3, 4], true, false, some 1⟩) exB_acyclic exB_order
  (Pc.dsepTest_perfectOn ascending exB_wf exB_acyclic (by decide)) isLocal rfl le_rfl
example (isLocal : Bool) := C85_ordered ascending (opts := ⟨[0, 1, 2, 3, 4], true, false, some 0⟩) exB_acyclic exB_order
  (Pc.dsepTest_perfectOn ascending exB_wf exB_acyclic (by decide)) isLocal rfl (by decide)

end Verif
