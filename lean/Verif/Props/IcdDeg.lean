import Verif.Lemmas.AnytimeRun
import Verif.Props.IcdOne
import Verif.Props.OIcdDeg

/-!
# C74: ICD on DAGs without latent nodes in which no node has more than two parents
-/

namespace Verif
open Relation MG
variable {α : Type} [LinearOrder α]

namespace Dag
variable {D : Dag α}

omit [LinearOrder α] in
/-- A parent is a possible ancestor. -/
theorem possAnc_of_edge (hac : D.Acyclic) {G : MG α} (h1 : D.ArrowsTrue G)
    (h2 : ∀ a b, G.At a b .tail → D.DPath b a ∨ G.At b a .arrow) {v w : α} (hw : w ∈ G.nodes) (he : D.Edge v w) (hadj : G.MAdj v w) :
    G.PossAnc v w := by
  have hne : v ≠ w := by
    rintro rfl
    exact hac _ (.single he)
  refine pathVia_iff.mpr ⟨hne, .single ⟨⟨hadj, fun h => ?_, fun h => h1 _ _ h (.single he)⟩, hw⟩⟩
  rcases h2 v w h with hp | h'
  · exact hac w (TransGen.tail' hp he)
  · exact h1 _ _ h' (.single he)

omit [LinearOrder α] in
/-- Of two nodes that are not adjacent, one is separated from the other by its parents. -/
theorem one_side (hac : D.Acyclic) {a b : α} (hab : a ≠ b) (hn : ¬ D.Adj a b) {P : α → α → Prop} (hs : ∀ x y, P x y → P y x) (h : P a b) :
    ∃ x y, P x y ∧ x ≠ y ∧ ¬ D.Adj x y ∧ D.DSeparated x y (D.par y) := by
  by_cases hp : D.DPath b a
  · have hp' : ¬ D.DPath a b := fun h' => hac b (by
      rcases reflTransGen_iff_eq_or_transGen.mp hp with e | h1
      · exact absurd e hab
      · exact h1.trans_left h')
    exact ⟨b, a, hs _ _ h, hab.symm, fun h => hn h.symm, (dseparated_symm hac).mp (dseparated_parents hac hab hn hp')⟩
  · exact ⟨a, b, h, hab, hn, (dseparated_symm hac).mp (dseparated_parents hac hab.symm (fun h => hn h.symm) hp)⟩

end Dag

/-- C74 for ICD without latent nodes, with all options: if no node of the DAG has more than two parents, the edges are those of the DAG,
all marks other than circles are right, and all unshielded colliders are found. -/
theorem C74_icd_degree_partial (o : SetOrder α) {ci : CITest α} (opts : IcdOpts) {D : Dag α} (hD : D.WF) (hac : D.Acyclic)
    (hp : Pc.PerfectOn ci D D.nodes) (hdeg : ∀ v, (D.par v).card ≤ 2) :
    ∃ st', Icd.learnStructure o ci opts (Icd.init o D.nodes) = .ok st' ∧ st'.graph.Proper ∧ st'.graph.nodes = D.nodes ∧
      (∀ a b, st'.graph.MAdj a b ↔ D.Adj a b) ∧
      (∀ a b, st'.graph.At a b .arrow → D.Edge a b) ∧ (∀ a b, st'.graph.At a b .tail → D.Edge b a) ∧
      ∀ a b c, a ≠ c → D.Edge a b → D.Edge c b → ¬ D.Adj a c → st'.graph.At a b .arrow ∧ st'.graph.At c b .arrow := by
  obtain ⟨-, st', g1, k1, k2, k3, k4⟩ := C74_icd_partial (opts := opts) hac hp (.refl : Icd.Reachable o ci opts D.nodes (Icd.init o D.nodes))
  obtain ⟨st1, st2, d, h1, h2, -, h4⟩ := Dag.icd_one o opts hac hp
  obtain ⟨⟨m1, m2⟩, m3, -, m4⟩ := Dag.icd_marks o opts hac hp h1 h2
  have hins : ∀ a b, D.Adj a b → a ∈ D.nodes ∧ b ∈ D.nodes ∧ a ≠ b ∧ D.Insep D.nodes a b := by
    intro a b h
    have hne : a ≠ b := by
      rintro rfl
      rcases h with h | h <;> exact hac _ (.single h)
    exact ⟨h.elim (fun h => (hD _ _ h).1) (fun h => (hD _ _ h).2), h.elim (fun h => (hD _ _ h).2) (fun h => (hD _ _ h).1), hne,
      .of_adj hac h⟩
  have hkeep : ∀ {s : IcdState α}, Fci.SkInv ci D.nodes s.graph s.sep → ∀ a b, D.Adj a b → s.graph.MAdj a b := by
    intro s hs a b hab
    obtain ⟨x1, x2, x3, x4⟩ := hins a b hab
    by_contra hn
    obtain ⟨S, -, l, k, rfl, y1, y2, y3, y4⟩ := hs.witness a x1 b x2 x3 hn
    refine x4 l.toFinset (fun v hv => y4 v (by simpa using hv)) (by simpa using y2) (by simpa using y3) ?_
    rcases y1 with y1 | y1
    · exact (hp k a b l x1 x2 x3 y2 y3 y4).mp y1
    · exact (Dag.dseparated_symm hac).mpr ((hp k b a l x2 x1 x3.symm y3 y2 y4).mp y1)
  obtain ⟨_, _, a1, a2, a3, a4, -⟩ := Icd.iteration_spec o opts (Icd.init_inv o ci D.nodes) rfl
  rw [h1] at a1
  cases a1
  have hs1 : st1.size = 1 := a3
  obtain ⟨_, _, b1, b2, b3, b4, ⟨E2, b5, b6⟩, -, -, b7, -⟩ := Icd.iteration_spec o opts a4 a2
  rw [h2] at b1
  simp only [Except.ok.injEq, Prod.mk.injEq] at b1
  obtain ⟨rfl, rfl, -⟩ := b1
  rw [hs1] at b3 b7
  -- surplus edges after the second iteration
  have hpar : ∀ x y, st2.graph.MAdj x y → D.DSeparated x y (D.par y) → ¬ D.Adj x y → (D.par y).card = 2 := by
    intro x y hxy hsep hn
    have hm := b4.proper.mem_adj hxy
    rw [b4.nodes] at hm
    by_contra hc
    have := hdeg y
    exact (h4 x hm.1 y hm.2 (b4.proper.ne hxy)).mp hxy (D.par y) (fun v hv => (hD v y hv).1) (by omega) (fun h => hn (Or.inl h))
      (fun h => hac y (.single h)) hsep
  obtain ⟨n, hn⟩ : ∃ n, max 2 D.nodes.card = n + 2 := ⟨max 2 D.nodes.card - 2, by omega⟩
  have g1' : Icd.loop o ci opts (n + 2) (Icd.init o D.nodes) = .ok st' := by rw [← hn]; exact g1
  rw [icd_loop_next (n + 1) h1, Icd.loop, py_bind h2] at g1'
  have hsub : ∀ a b, st'.graph.MAdj a b → D.Adj a b := by
    intro a b hab
    by_contra hna
    cases d with
    | true =>
      cases g1'
      obtain ⟨x, y, hxy, hne, hn', hsep⟩ := Dag.one_side hac (b4.proper.ne hab) hna (P := st'.graph.MAdj) (fun _ _ h => h.symm) hab
      have hc := hpar x y hxy hsep hn'
      obtain ⟨p, hpy⟩ : (D.par y).Nonempty := Finset.card_pos.mp (by omega)
      have hadj := hkeep a4 p y (Or.inl hpy)
      obtain ⟨c1, -, c3⟩ := b7 rfl
      refine c1 x y ((c3 x y).mp hxy) {p} ⟨by simp, ?_, ?_, Or.inr ?_, ?_⟩
      · rw [Finset.mem_singleton]
        rintro rfl
        exact hn' (Or.inl hpy)
      · rw [Finset.mem_singleton]
        rintro rfl
        exact hac _ (.single hpy)
      · intro v hv
        rw [Finset.mem_singleton.mp hv]
        exact hadj.symm
      · intro v hv
        rw [Finset.mem_singleton.mp hv]
        exact Or.inr (Dag.possAnc_of_edge hac m1 (fun a b h => Or.inl (m2 a b h)) (a4.proper.mem_adj hadj).2 hpy hadj)
    | false =>
      obtain ⟨st3, d3, e1, e2, e3, e4, ⟨E, e5, e6⟩, -⟩ := Icd.iteration_spec o opts b4 b2
      rw [show st2.size = 2 from b3] at e5
      match n, g1' with
      | 0, g1' => cases g1'
      | n + 1, g1' =>
        have hab3 : st3.graph.MAdj a b := by
          simp only [Bool.false_eq_true, if_false] at g1'
          rw [Icd.loop, py_bind e1] at g1'
          cases d3 with
          | true =>
            cases g1'
            exact hab
          | false => exact Icd.loop_sub o _ n e4 e2 g1' a b hab
        have habE := (e6.adj a b).mp hab3
        obtain ⟨x, y, hxy, hne, hn', hsep⟩ := Dag.one_side hac (e4.proper.ne hab3) hna (P := E.MAdj) (fun _ _ h => h.symm) habE
        have hc := hpar x y (e5.sub.adj hxy) hsep hn'
        have hm := b4.proper.mem_adj (e5.sub.adj hxy)
        rw [b4.nodes] at hm
        have hx : x ∉ D.par y := fun h => hn' (Or.inl h)
        have hy : y ∉ D.par y := fun h => hac y (.single h)
        have hE : ∀ v ∈ D.par y, E.MAdj v y := fun v hv => (e6.adj v y).mp (hkeep e4 v y (Or.inl hv))
        refine Dag.dep_of hac hp hm.1 hm.2 hne hx hy (fun v hv => (hD v y hv).1)
          (e5.tested x y hxy (D.par y) ⟨hc, hx, hy, Or.inr fun v hv => (hE v hv).symm, fun v hv => Or.inr ?_⟩) hsep
        exact Dag.possAnc_of_edge hac (fun a b h => m3 a b ((e5.sub.marks a b _).mp h).1)
          (fun a b h => (m4 a b ((e5.sub.marks a b _).mp h).1).imp_right fun h' =>
            (e5.sub.marks b a _).mpr ⟨h', MAdj.symm (Or.inl ⟨_, h⟩)⟩)
          (by rw [e5.sub.nodes, b4.nodes]; exact hm.2) hv (hE v hv)
  have hnc : D.NoConfounded D.nodes := fun a _ b _ hab h =>
    (D.insep_adj hD hac hab h).imp (fun h => .single h) (fun h => .single h)
  obtain ⟨g5, g6, g7⟩ := k4 (fun a b h => .of_adj hac (hsub a b h))
  refine ⟨st', g1, k1, k2, fun a b => ⟨hsub a b, fun h => ?_⟩, fun a b h => ?_, fun a b h => ?_, ?_⟩
  · obtain ⟨a1, a2, a3, a4⟩ := hins a b h
    exact k3 a a1 b a2 a3 a4
  · exact (hsub a b (Or.inl ⟨_, h⟩)).resolve_right (fun h' => g5 a b h (.single h'))
  · exact (hsub a b (Or.inl ⟨_, h⟩)).resolve_left (fun h' => hac b (TransGen.tail' (g7 (Or.inr hnc) a b h) h'))
  · intro a b c hac' hab hcb hn
    obtain ⟨a1, a2, a3, a4⟩ := hins a b (Or.inl hab)
    obtain ⟨b1, b2, b3, b4⟩ := hins c b (Or.inl hcb)
    exact g6 a a1 b a2 c b1 a3 b3 hac' a4 b4 (fun h => hn (D.insep_adj hD hac hac' h)) (fun h => hac b (TransGen.tail' h hab))
      (fun h => hac b (TransGen.tail' h hcb))

/-- C74 for `find_true_pag` with all nodes observed and at most two parents per node. -/
theorem C74_degree_partial (o : SetOrder α) {D : Dag α} (hD : D.WF) (hac : D.Acyclic) (hdeg : ∀ v, (D.par v).card ≤ 2) :
    ∃ G, findTruePag o D D.nodes = .ok G ∧ G.Proper ∧ G.nodes = D.nodes ∧ (∀ a b, G.MAdj a b ↔ D.Adj a b) ∧
      (∀ a b, G.At a b .arrow → D.Edge a b) ∧ (∀ a b, G.At a b .tail → D.Edge b a) ∧
      ∀ a b c, a ≠ c → D.Edge a b → D.Edge c b → ¬ D.Adj a c → G.At a b .arrow ∧ G.At c b .arrow := by
  obtain ⟨st, h1, h2⟩ := C74_icd_degree_partial o ⟨false, true, true⟩ hD hac
    (Pc.dsepTest_perfectOn o hD hac (Finset.Subset.refl _)) hdeg
  exact ⟨st.graph, by rw [findTruePag, h1]; rfl, h2⟩

theorem exDeg2_par (v : Nat) : (exDeg2.par v).card ≤ 2 := by
  rcases exDeg_par v with h | ⟨-, h⟩
  · exact (by decide : ∀ v < 6, (exDeg2.par v).card ≤ 2) v h
  · rw [h]; simp

/-- Hypotheses of the theorems are met. -/
example := C74_degree_partial ascending exDeg2_wf exDeg2_acyclic exDeg2_par
example := C74_icd_degree_partial ascending ⟨true, false, true⟩ exDeg2_wf exDeg2_acyclic
  (Pc.dsepTest_perfectOn ascending exDeg2_wf exDeg2_acyclic (Finset.Subset.refl _)) exDeg2_par

end Verif
