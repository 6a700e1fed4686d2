import Verif.Lemmas.OrdMarks

/-!
# Ordered ICD: `orient_graph`
-/

namespace Verif
open Relation
variable {α : Type} [LinearOrder α]
namespace OIcd
open MG

omit [LinearOrder α] in
theorem mem_causalPairs {order : List α} {a b : α} : (a, b) ∈ causalPairs order ↔ Before order a b := by
  rw [before_iff]
  simp only [causalPairs, List.mem_flatMap, List.mem_range]
  constructor
  · rintro ⟨i, -, h⟩
    cases hi : order[i]? with
    | none => rw [hi] at h; simp at h
    | some c =>
      rw [hi] at h
      simp only [List.mem_map, Prod.mk.injEq] at h
      obtain ⟨x, hx, rfl, rfl⟩ := h
      exact ⟨i, hi, hx⟩
  · rintro ⟨i, h1, h2⟩
    obtain ⟨hi, -⟩ := List.getElem?_eq_some_iff.mp h1
    exact ⟨i, hi, by rw [h1]; exact List.mem_map.mpr ⟨a, h2, rfl⟩⟩

/-- The marks after the reset. -/
theorem reset_spec {order : List α} (hd : order.Nodup) {G : MG α} (hG : G.Proper) (hT : ∀ m, m ∈ G.types) :
    ∃ H, reset order G = .ok H ∧ SameSkel H G ∧ H.OrdMarks order ∧ ∀ a b m, H.At b a m → Before order a b → m = .circle := by
  obtain ⟨H, h1, h2, -, h3, h4⟩ := foldlM_ok_inv (f := fun (G : MG α) (ab : α × α) => do
      if ← G.isConnected ab.1 ab.2 then
        let G ← G.replaceEdgeMark ab.1 ab.2 .arrow
        G.replaceEdgeMark ab.2 ab.1 .circle
      else return G)
    (fun done K => SameSkel K G ∧ (∀ a b, (a, b) ∈ done → Before order a b) ∧ (∀ a b m, (a, b) ∈ done → K.At a b m → m = .arrow) ∧
      ∀ a b m, (a, b) ∈ done → K.At b a m → m = .circle)
    (causalPairs order) [] G ⟨⟨hG, rfl, rfl, fun _ _ => Iff.rfl⟩, by simp, by simp, by simp⟩ (by
      rintro done ⟨a, b⟩ K hab ⟨i1, i0, i2, i3⟩
      have hB := mem_causalPairs.mp hab
      have j0 : ∀ u v, (u, v) ∈ done ++ [(a, b)] → Before order u v := by
        intro u v huv
        rw [List.mem_append, List.mem_singleton, Prod.mk.injEq] at huv
        rcases huv with huv | ⟨rfl, rfl⟩
        · exact i0 u v huv
        · exact hB
      have hne := hB.ne hd
      have hTK : ∀ m, m ∈ K.types := by rw [i1.types]; exact hT
      obtain ⟨c, p1, p2⟩ := proper_isConnected i1.proper.type hne
      cases c with
      | false =>
        have hn : ¬ K.MAdj a b := fun h => absurd (p2.mpr h) (by simp)
        refine ⟨K, by rw [py_bind p1]; rfl, i1, j0, fun u v m huv h => ?_, fun u v m huv h => ?_⟩
        · rw [List.mem_append, List.mem_singleton, Prod.mk.injEq] at huv
          rcases huv with huv | ⟨rfl, rfl⟩
          · exact i2 u v m huv h
          · exact absurd (Or.inl ⟨m, h⟩) hn
        · rw [List.mem_append, List.mem_singleton, Prod.mk.injEq] at huv
          rcases huv with huv | ⟨rfl, rfl⟩
          · exact i3 u v m huv h
          · exact absurd (Or.inr ⟨m, h⟩) hn
      | true =>
        have hadj := p2.mp rfl
        obtain ⟨K1, a1, a2, a3, a4⟩ := replaceEdgeMark_spec i1.proper.type (s := a) (t := b) (hTK .arrow)
        have hTK1 : ∀ m, m ∈ K1.types := by rw [a3]; exact hTK
        obtain ⟨K2, b1, b2, b3, b4⟩ := replaceEdgeMark_spec (G := K1) (fun _ _ m _ => hTK1 m) (s := b) (t := a) (hTK1 .circle)
        have hat : ∀ u v m, K2.At u v m ↔ if u = b ∧ v = a then m = .circle else if u = a ∧ v = b then m = .arrow
            else K.At u v m := by
          intro u v m
          rw [b4]
          split_ifs with h5 h6
          · rfl
          · rw [a4, if_pos h6]
          · rw [a4, if_neg h6]
        have hex : ∀ u v, (∃ m, K2.At u v m) ↔ ∃ m, K.At u v m := by
          intro u v
          simp only [hat]
          split_ifs with h5 h6
          · obtain ⟨rfl, rfl⟩ := h5
            exact ⟨fun _ => i1.proper.adj_iff.mp hadj.symm, fun _ => ⟨_, rfl⟩⟩
          · obtain ⟨rfl, rfl⟩ := h6
            exact ⟨fun _ => i1.proper.adj_iff.mp hadj, fun _ => ⟨_, rfl⟩⟩
          · rfl
        have hadj2 : ∀ u v, K2.MAdj u v ↔ K.MAdj u v := fun u v => or_congr (hex u v) (hex v u)
        have hp : K2.Proper := by
          refine ⟨fun u v m _ => by rw [b3]; exact hTK1 m, fun u v m h => ?_, fun u m h => ?_, fun u v m m' h h' => ?_,
            fun u v m h => ?_⟩
          · obtain ⟨m', h'⟩ := (hex u v).mp ⟨m, h⟩
            have := i1.proper.mem _ _ _ h'
            rw [b2, a2]
            exact this
          · obtain ⟨m', h'⟩ := (hex u u).mp ⟨m, h⟩
            exact i1.proper.irrefl _ _ h'
          · rw [hat] at h h'
            split_ifs at h h' with h5 h6
            · exact h.trans h'.symm
            · exact h.trans h'.symm
            · exact i1.proper.one _ _ _ _ h h'
          · obtain ⟨m', h'⟩ := (hex u v).mp ⟨m, h⟩
            exact (hex v u).mpr (i1.proper.both _ _ _ h')
        refine ⟨K2, by rw [py_bind p1]; simp only [if_true]; rw [py_bind a1]; exact b1,
          ⟨hp, b2.trans (a2.trans i1.nodes), b3.trans (a3.trans i1.types), fun u v => (hadj2 u v).trans (i1.adj u v)⟩, j0,
          fun u v m huv h => ?_, fun u v m huv h => ?_⟩
        · have hj := j0 u v huv
          rw [hat] at h
          rw [List.mem_append, List.mem_singleton, Prod.mk.injEq] at huv
          split_ifs at h with h5 h6
          · obtain ⟨rfl, rfl⟩ := h5
            exact absurd hj (hB.asymm hd)
          · exact h
          · rcases huv with huv | huv
            · exact i2 u v m huv h
            · exact absurd huv h6
        · have hj := j0 u v huv
          rw [hat] at h
          rw [List.mem_append, List.mem_singleton, Prod.mk.injEq] at huv
          split_ifs at h with h5 h6
          · exact h
          · obtain ⟨rfl, rfl⟩ := h6
            exact absurd hj (hB.asymm hd)
          · rcases huv with huv | huv
            · exact i3 u v m huv h
            · exact absurd ⟨huv.2, huv.1⟩ h5)
  rw [List.nil_append] at h3 h4
  exact ⟨H, h1, h2, fun a b m hab h => h3 a b m (mem_causalPairs.mpr hab) h,
    fun a b m h hab => h4 a b m (mem_causalPairs.mpr hab) h⟩

theorem orient_spec (o : SetOrder α) {ci : CITest α} {N : Finset α} {opts : OIcdOpts α} (hd : opts.order.Nodup)
    (hm : ∀ v ∈ N, v ∈ opts.order) (anytime : Bool) {st : OIcdState α} (h : Fci.SkInv ci N st.graph st.sep) :
    ∃ G, orient o opts anytime st = .ok { st with graph := G } ∧ SameSkel G st.graph ∧ G.OrdMarks opts.order ∧
      ∀ M, Ancestral M → M.nodes = N → (∀ a b, st.graph.MAdj a b ↔ M.MAdj a b) → SepIn st.sep.get M → M.OrdMarks opts.order →
        ArrowsOk G M ∧ (anytime = true ∨ TailsOk opts.tails M → Compatible G M) := by
  obtain ⟨G1, g1, g2, g3, g4⟩ := reset_spec hd h.proper h.all_types
  have h1 := h.same g2
  obtain ⟨G2, v1, v2, v3⟩ := pagVStructures_spec o st.sep h1.proper h1.all_types h1.keyG
  have h2 := h1.same v2.same
  have o2 : G2.OrdMarks opts.order := g3.upd v3 (fun u v m h => Or.inl h.1)
  obtain ⟨G3, r1, r2, r3, r4⟩ := pagMaxOrient_spec o st.sep (rules := [1, 2, 3, 4]) (by decide) h2.proper h2.all_types
    (fun _ => h2.keyG)
  have h3 := h2.same r2.same
  have o3 := OrdMarks.maxOrient o st.sep hd (by decide) h2.proper h2.all_types (by rw [h2.nodes]; exact hm)
    (fun _ => h2.keyG) r1 o2
  have hs := (g2.trans v2.same).trans r2.same
  have hC : ∀ M, Ancestral M → M.nodes = N → (∀ a b, st.graph.MAdj a b ↔ M.MAdj a b) → SepIn st.sep.get M →
      M.OrdMarks opts.order → Compatible G3 M := by
    intro M hM hn hadj hsep hMo
    have hadj1 : ∀ a b, G1.MAdj a b ↔ M.MAdj a b := fun a b => (g2.adj a b).trans (hadj a b)
    have := vs_compatible (H := G2) hM (hn.trans h1.nodes.symm) hadj1 hsep h1.proper h1.keyG (by
      intro a b m hab
      have hab' : G1.MAdj a b := Or.inl ⟨m, hab⟩
      have hmem := h1.proper.mem_adj hab'
      rw [h1.nodes] at hmem
      rcases Before.total (hm _ hmem.1) (hm _ hmem.2) (h1.proper.ne hab') with hB | hB
      · refine Or.inr ⟨g3 _ _ _ hB hab, ?_⟩
        obtain ⟨m', hm'⟩ := hM.proper.adj_iff.mp ((hadj1 _ _).mp hab')
        exact hMo _ _ _ hB hm' ▸ hm'
      · exact Or.inl (g4 _ _ _ hab hB)) v2 v3
    exact pagSteps_sound v2.proper h2.all_types hM this (fun _ => hsep) (by simp) r3
  cases anytime with
  | true =>
    refine ⟨G3, ?_, hs, o3, fun M hM hn hadj hsep hMo => ?_⟩
    · rw [orient, py_bind g1, py_bind v1, py_bind r1]; rfl
    · have := hC M hM hn hadj hsep hMo
      exact ⟨this.arrowsOk, fun _ => this⟩
  | false =>
    obtain ⟨K, l1, l2, l3, l4⟩ := Fci.finalRules_spec o st.sep opts.selection opts.tails h3.proper h3.types
    refine ⟨K, ?_, hs.trans l2, ?_, fun M hM hn hadj hsep hMo => ?_⟩
    · rw [orient, py_bind g1, py_bind v1, py_bind r1]
      simp only [Bool.false_eq_true, if_false]
      rw [py_bind l1]; rfl
    · rw [Fci.finalRules] at l1
      obtain ⟨K1, k1, k2⟩ := py_bind_ok l1
      have o4 : Oriented K1 G3 ∧ K1.OrdMarks opts.order := by
        split_ifs at k1
        · obtain ⟨K1', p1, p2, -⟩ := pagMaxOrient_spec o st.sep (rules := [5, 6, 7]) (by decide) h3.proper h3.all_types (by simp)
          rw [k1] at p1
          cases p1
          exact ⟨p2, OrdMarks.maxOrient o st.sep hd (by decide) h3.proper h3.all_types (by rw [h3.nodes]; exact hm)
            (by simp) k1 o3⟩
        · cases k1
          exact ⟨.refl h3.proper, o3⟩
      split_ifs at k2
      · exact OrdMarks.maxOrient o st.sep hd (by decide) o4.1.proper (by rw [o4.1.types]; exact h3.all_types)
          (by rw [o4.1.nodes, h3.nodes]; exact hm) (by simp) k2 o4.2
      · cases k2
        exact o4.2
    · have := hC M hM hn hadj hsep hMo
      exact ⟨this.arrowsOk.congr l3, fun ht => l4 M hM this (ht.resolve_left (by simp))⟩

end OIcd
end Verif
