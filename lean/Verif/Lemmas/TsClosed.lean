import Verif.Lemmas.TsIcd
import Verif.Lemmas.Icd

/-!
# TS-ICD on graphs whose skeleton does not depend on time: no exception, skeleton kept
-/

namespace Verif
open TsSpec

namespace TsIcd
variable {α : Type} [LinearOrder α] {sets : List (List α)}
open MG (Keep Weak SameSkel pagTypes pagTypes_all)
open SepSet (hkey)

/-- Filling keeps a time-independent skeleton. -/
theorem fill_ok (hg : Grid sets) (o : SetOrder α) {G : MG α} (hG : G.Proper) (ht : G.types = pagTypes)
    (hn : ∀ v, v ∈ G.nodes ↔ v ∈ sets.flatten) (hc : Closed sets G) :
    ∃ K, fillHomology o sets G = .ok K ∧ SameSkel K G := by
  have hw : G.Weak := hG.weak ht
  have hboth : ∀ a b, G.MAdj a b → ∃ m, G.At a b m := by
    rintro a b (h | ⟨m, h⟩)
    · exact h
    · exact hG.both _ _ _ h
  obtain ⟨K, k1, -⟩ := (fill_spec hg o hw hn).2 hboth
  obtain ⟨f1, f2, f3, -, -, -, -, f8⟩ := fill_facts hg o hw hn k1
  have hadj : ∀ a b, K.MAdj a b ↔ G.MAdj a b := by
    refine fun a b => ⟨fun h => ?_, f3 a b⟩
    rcases f8 a b h with h | ⟨c, d, h1, h2⟩
    · exact h
    · exact hc _ _ _ _ h2 h1
  obtain ⟨K', k1', -, -, k4, k5⟩ := (fill_spec hg o hw hn).2 hboth
  rw [k1] at k1'
  cases k1'
  refine ⟨K, k1, ⟨fun a b m _ => f1.ty m, f1.mem, f1.irrefl, f1.one, ?_⟩, f2, f1.types.trans ht.symm, hadj⟩
  intro a b m h
  have hab : G.MAdj b a := ((hadj a b).mp (Or.inl ⟨m, h⟩)).symm
  by_cases ho : Oriented sets G b a
  · obtain ⟨p, c, m', -, -, -, q⟩ := k4 b a ho
    obtain ⟨ha, hb⟩ := hG.mem_adj hab
    exact ⟨m', (q b a (Homologous.refl' ((hn _).mp ha) ((hn _).mp hb)) m').mpr rfl⟩
  · obtain ⟨m', hm'⟩ := hboth _ _ hab
    exact ⟨m', (k5 b a ho m').mpr hm'⟩

/-- Writing the fixed marks. -/
theorem setFixed_ok (o : SetOrder α) {fixed : Dict (α × α) Mark} {G : MG α} (hG : G.Proper) (ht : G.types = pagTypes)
    (hf : ∀ a b, G.MAdj a b → ∃ m, Dict.get? fixed (a, b) = some m) : ∃ K, setFixed o fixed G = .ok K ∧ SameSkel K G := by
  have hw : G.Weak := hG.weak ht
  have hok : ∃ K, setFixed o fixed G = .ok K := by
    obtain ⟨K, k1, -⟩ := foldlM_ok_inv (f := fun (G : MG α) (ij : α × α) => do
      if ← G.isConnected ij.1 ij.2 then
        let G ← G.replaceEdgeMark ij.1 ij.2 (← Dict.get fixed (ij.1, ij.2))
        G.replaceEdgeMark ij.2 ij.1 (← Dict.get fixed (ij.2, ij.1))
      else return G) (fun _ H => H.Weak ∧ ∀ a b, H.MAdj a b → G.MAdj a b) (pairs (o.iter 2 G.nodes)) [] G ⟨hw, fun _ _ h => h⟩ (by
        rintro done ⟨i, j⟩ H hij ⟨hH, hs⟩
        have hne := mem_pairs_ne (o.nodup _ _) hij
        obtain ⟨b, p1, p2⟩ := MG.proper_isConnected (G := H) (fun _ _ m _ => hH.ty m) hne
        cases b with
        | false => exact ⟨H, by rw [py_bind p1]; rfl, hH, hs⟩
        | true =>
          have hadj := p2.mp rfl
          obtain ⟨m1, e1⟩ := hf i j (hs _ _ hadj)
          obtain ⟨m2, e2⟩ := hf j i (hs _ _ hadj.symm)
          obtain ⟨q1, q2, -⟩ := hH.mem_adj hadj
          obtain ⟨H1, r1⟩ := hH.replace_ok i j m1
          obtain ⟨n1, -, a1⟩ := hH.replace r1
          have w1 := hH.of_replace r1 q1 q2 hne
          obtain ⟨H2, r2⟩ := w1.replace_ok j i m2
          obtain ⟨n2, -, a2⟩ := w1.replace r2
          have w2 := w1.of_replace r2 (by rw [n1]; exact q2) (by rw [n1]; exact q1) hne.symm
          refine ⟨H2, ?_, w2, ?_⟩
          · rw [py_bind p1]
            simp only [if_true]
            rw [py_bind (Dict.get_eq_ok.mpr e1), py_bind r1, py_bind (Dict.get_eq_ok.mpr e2)]
            exact r2
          · have hs1 : ∀ a b, H1.MAdj a b → G.MAdj a b := by
              rintro a b (⟨m, hm⟩ | ⟨m, hm⟩)
              · rw [a1] at hm
                split_ifs at hm with hc
                · obtain ⟨rfl, rfl⟩ := hc; exact hs _ _ hadj
                · exact hs _ _ (Or.inl ⟨m, hm⟩)
              · rw [a1] at hm
                split_ifs at hm with hc
                · obtain ⟨rfl, rfl⟩ := hc; exact hs _ _ hadj.symm
                · exact hs _ _ (Or.inr ⟨m, hm⟩)
            rintro a b (⟨m, hm⟩ | ⟨m, hm⟩)
            · rw [a2] at hm
              split_ifs at hm with hc
              · obtain ⟨rfl, rfl⟩ := hc; exact hs _ _ hadj.symm
              · exact hs1 _ _ (Or.inl ⟨m, hm⟩)
            · rw [a2] at hm
              split_ifs at hm with hc
              · obtain ⟨rfl, rfl⟩ := hc; exact hs _ _ hadj
              · exact hs1 _ _ (Or.inr ⟨m, hm⟩))
    exact ⟨K, k1⟩
  obtain ⟨K, k1⟩ := hok
  obtain ⟨w, n, a, m, e⟩ := setFixed_spec o hw k1
  refine ⟨K, k1, ⟨fun _ _ m _ => w.ty m, w.mem, w.irrefl, w.one, ?_⟩, n, w.types.trans ht.symm, a⟩
  intro x y m' h
  have hadj := ((m _ _ _).mp h).1
  obtain ⟨m'', h''⟩ := hf y x hadj.symm
  exact ⟨m'', (m _ _ _).mpr ⟨hadj.symm, h''⟩⟩

omit [LinearOrder α] in
theorem _root_.Verif.TsSpec.Closed.same {G H : MG α} (h : Closed sets G) (hs : SameSkel H G) : Closed sets H :=
  fun a b c d hh hab => (hs.adj c d).mpr (h a b c d hh ((hs.adj a b).mp hab))

/-- One orientation of a graph with time-independent skeleton: no exception, same skeleton. -/
theorem orientGraph_ok (o : SetOrder α) {cfg : TsCfg α} (hg : Grid cfg.sets) {sep : SepSet α} {c : Bool} {G : MG α}
    (hG : G.Proper) (ht : G.types = pagTypes) (hn : ∀ v, v ∈ G.nodes ↔ v ∈ cfg.sets.flatten) (hc : Closed cfg.sets G)
    (hf : ∀ a b, G.MAdj a b → ∃ m, Dict.get? cfg.fixed (a, b) = some m)
    (hkey : ∀ i ∈ G.nodes, ∀ j ∈ G.nodes, i ≠ j → ∃ S, sep.get i j = .ok S) :
    ∃ K, orientGraph o cfg sep c G = .ok K ∧ SameSkel K G := by
  have hT : ∀ m, m ∈ G.types := by rw [ht]; exact pagTypes_all
  obtain ⟨G1, g1, -⟩ := MG.resetOrientations_spec o hG.type (S := G.nodes) (hT .circle)
  obtain ⟨w1, n1, a1, -⟩ := MG.resetCircle_spec o (hG.weak ht) g1
  have s1 : SameSkel G1 G := ⟨hG.resetOrientations o g1, n1, w1.types.trans ht.symm, a1⟩
  obtain ⟨G2, g2, s2⟩ := setFixed_ok o s1.proper (s1.types.trans ht) (fun a b h => hf a b ((s1.adj a b).mp h))
  have s2 := s1.trans s2
  obtain ⟨G3, g3, s3, -⟩ := MG.pagVStructures_spec o sep s2.proper (by rw [s2.types]; exact hT) (by rw [s2.nodes]; exact hkey)
  have s3 := s2.trans s3.same
  obtain ⟨G4, g4, s4⟩ := fill_ok hg o s3.proper (s3.types.trans ht) (fun v => by rw [s3.nodes]; exact hn v) (hc.same s3)
  have s4 := s3.trans s4
  obtain ⟨G5, g5, s5, -⟩ := MG.pagMaxOrient_spec o sep (rules := [1, 2, 3, 4]) (by decide) s4.proper (by rw [s4.types]; exact hT)
    (by intro _; rw [s4.nodes]; exact hkey)
  have s5 := s4.trans s5.same
  obtain ⟨G6, g6, s6⟩ : ∃ G6, (if c then Fci.finalRules o sep cfg.opts.selection cfg.opts.tails G5 else pure G5) = .ok G6 ∧
      SameSkel G6 G := by
    cases c with
    | false => exact ⟨G5, rfl, s5⟩
    | true =>
      obtain ⟨G6, q1, q2, -⟩ := Fci.finalRules_spec o sep cfg.opts.selection cfg.opts.tails s5.proper (s5.types.trans ht)
      exact ⟨G6, q1, s5.trans q2⟩
  obtain ⟨G7, g7, s7⟩ := fill_ok hg o s6.proper (s6.types.trans ht) (fun v => by rw [s6.nodes]; exact hn v) (hc.same s6)
  refine ⟨G7, ?_, s6.trans s7⟩
  rw [orientGraph, py_bind g1, py_bind g2, py_bind g3, py_bind g4, py_bind g5, py_bind g6]
  exact g7

/-! ### removal of edges -/

/-- State of a run on a time-independent skeleton. -/
structure Good (cfg : TsCfg α) (st : IcdState α) : Prop where
  proper : st.graph.Proper
  types : st.graph.types = pagTypes
  nodes : ∀ v, v ∈ st.graph.nodes ↔ v ∈ cfg.sets.flatten
  closed : Closed cfg.sets st.graph
  key : ∀ a ∈ cfg.sets.flatten, ∀ b ∈ cfg.sets.flatten, a ≠ b → ∃ S, st.sep.get a b = .ok S

/-- What the tests of one step do to a state. -/
structure Red (cfg : TsCfg α) (st st' : IcdState α) : Prop where
  good : Good cfg st'
  sub : ∀ a b, st'.graph.MAdj a b → st.graph.MAdj a b
  nodes : st'.graph.nodes = st.graph.nodes
  size : st'.size = st.size
  cond : st'.cond = st.cond
  done : st'.done = st.done

theorem Red.refl {cfg : TsCfg α} {st : IcdState α} (h : Good cfg st) : Red cfg st st := ⟨h, fun _ _ h => h, rfl, rfl, rfl, rfl⟩

theorem Red.trans {cfg : TsCfg α} {s1 s2 s3 : IcdState α} (h1 : Red cfg s1 s2) (h2 : Red cfg s2 s3) : Red cfg s1 s3 :=
  ⟨h2.good, fun a b h => h1.sub a b (h2.sub a b h), h2.nodes.trans h1.nodes, h2.size.trans h1.size, h2.cond.trans h1.cond,
    h2.done.trans h1.done⟩

/-- Removing a list of edges. -/
theorem removeAll_spec : ∀ (L : List (α × α × Finset α)) (st : IcdState α), st.graph.Proper →
    let st' := L.foldl (fun (st : IcdState α) abS =>
      { st with graph := st.graph.deleteEdge abS.1 abS.2.1, sep := st.sep.set abS.1 abS.2.1 abS.2.2 }) st
    st'.graph.Proper ∧ st'.graph.types = st.graph.types ∧ st'.graph.nodes = st.graph.nodes ∧
      (∀ a b, st'.graph.MAdj a b ↔ st.graph.MAdj a b ∧ ∀ abS ∈ L, ¬ ((a = abS.1 ∧ b = abS.2.1) ∨ (a = abS.2.1 ∧ b = abS.1))) ∧
      (∀ a b, (∃ S, st.sep.get a b = .ok S) → ∃ S, st'.sep.get a b = .ok S) ∧
      st'.size = st.size ∧ st'.cond = st.cond ∧ st'.done = st.done := by
  intro L
  induction L with
  | nil => intro st hG; exact ⟨hG, rfl, rfl, by simp, fun _ _ h => h, rfl, rfl, rfl⟩
  | cons abS L ih =>
    intro st hG
    obtain ⟨d1, d2, -⟩ := MG.deleteEdge_spec hG.type (i := abS.1) (j := abS.2.1)
    obtain ⟨q1, q2, q3, q4, q5, q6, q7, q8⟩ := ih { st with graph := st.graph.deleteEdge abS.1 abS.2.1, sep := st.sep.set abS.1 abS.2.1 abS.2.2 }
      (hG.deleteEdge _ _)
    refine ⟨q1, q2.trans d2, q3.trans d1, ?_, ?_, q6, q7, q8⟩
    · intro a b
      rw [List.foldl_cons, q4]
      dsimp only
      rw [Fci.deleteEdge_adj hG]
      simp only [List.mem_cons, forall_eq_or_imp, and_assoc]
    · intro a b h
      refine q5 a b ?_
      dsimp only
      rw [SepSet.get_set]
      split_ifs
      · exact ⟨_, rfl⟩
      · exact h

omit [LinearOrder α] in
/-- A conditioning tuple without nodes earlier than `j` can be moved back with `j`. -/
theorem shifts_of_local (hg : Grid sets) {j b : α} {t1 i1 k : Nat} (hj : Cell sets t1 i1 j) (hb : Cell sets (t1 + k) i1 b) :
    ∀ (z : List α), (∀ x ∈ z, x ∈ sets.flatten) → (∀ x ∈ z, ¬ Later sets j x) → ∃ c, List.Forall₂ (Shift sets k) z c := by
  intro z
  induction z with
  | nil => intro _ _; exact ⟨[], .nil⟩
  | cons x z ih =>
    intro h1 h2
    obtain ⟨c, hc⟩ := ih (fun y hy => h1 y (List.mem_cons_of_mem _ hy)) (fun y hy => h2 y (List.mem_cons_of_mem _ hy))
    obtain ⟨t, i, hx⟩ := cell_of_mem (h1 x (by simp))
    have hl := h2 x (by simp)
    rw [Later.iff hg hj hx] at hl
    obtain ⟨y, hy⟩ := hx.move hg (t' := t + k) (by have := hb.lt; omega)
    exact ⟨y :: c, .cons ⟨t, i, hx, hy⟩ hc⟩

/-- One CI test and the removals it causes. -/
theorem testHom_good {ci : CITest α} {cfg : TsCfg α} (hg : Grid cfg.sets) (hh : cfg.homology = true)
    (hloc : NoEarlier ci cfg.sets) {st : IcdState α} (h : Good cfg st) {i j : α} {z : List α}
    (hi : ∃ v, Cell cfg.sets 0 v i) (hj : j ∈ cfg.sets.flatten) (hz : ∀ x ∈ z, x ∈ cfg.sets.flatten) :
    ∃ st', testHom cfg ci st i j z = .ok (st', ci st.calls i j z) ∧ Red cfg st st' ∧
      (ci st.calls i j z = true → ∀ a b, Homologous cfg.sets i j a b → ¬ st'.graph.MAdj a b) := by
  obtain ⟨i0, hi⟩ := hi
  obtain ⟨t1, i1, hj⟩ := cell_of_mem hj
  by_cases hci : ci st.calls i j z = true
  swap
  · refine ⟨{ st with calls := st.calls + 1 }, ?_, ?_, fun h => absurd h hci⟩
    · rw [testHom, if_neg hci]
      simp only [Bool.not_eq_true] at hci
      rw [hci]
      rfl
    · exact ⟨⟨h.proper, h.types, h.nodes, h.closed, h.key⟩, fun _ _ h => h, rfl, rfl, rfl, rfl⟩
  -- the pairs removed
  have key : ∀ (L : List (α × α × Finset α)), (∀ a b, (∃ S, (a, b, S) ∈ L) ↔ Homologous cfg.sets i j a b) →
      let st' := L.foldl (fun (st : IcdState α) abS =>
        { st with graph := st.graph.deleteEdge abS.1 abS.2.1, sep := st.sep.set abS.1 abS.2.1 abS.2.2 })
        { st with calls := st.calls + 1 }
      Red cfg st st' ∧ ∀ a b, Homologous cfg.sets i j a b → ¬ st'.graph.MAdj a b := by
    intro L hL
    obtain ⟨q1, q2, q3, q4, q5, q6, q7, q8⟩ := removeAll_spec L { st with calls := st.calls + 1 } h.proper
    have hadj : ∀ a b, (L.foldl (fun (st : IcdState α) abS =>
        { st with graph := st.graph.deleteEdge abS.1 abS.2.1, sep := st.sep.set abS.1 abS.2.1 abS.2.2 })
        { st with calls := st.calls + 1 }).graph.MAdj a b ↔
        st.graph.MAdj a b ∧ ¬ Homologous cfg.sets i j a b ∧ ¬ Homologous cfg.sets i j b a := by
      intro a b
      rw [q4, ← hL, ← hL]
      refine and_congr_right fun _ => ⟨fun hq => ⟨?_, ?_⟩, ?_⟩
      · rintro ⟨S, hS⟩; exact hq _ hS (Or.inl ⟨rfl, rfl⟩)
      · rintro ⟨S, hS⟩; exact hq _ hS (Or.inr ⟨rfl, rfl⟩)
      · rintro ⟨p1, p2⟩ ⟨x, y, S⟩ hS (⟨rfl, rfl⟩ | ⟨rfl, rfl⟩)
        · exact p1 ⟨S, hS⟩
        · exact p2 ⟨S, hS⟩
    refine ⟨⟨⟨q1, q2.trans h.types, fun v => by rw [q3]; exact h.nodes v, ?_, fun a ha b hb hab => q5 a b (h.key a ha b hb hab)⟩,
      fun a b hab => ((hadj a b).mp hab).1, q3, q6, q7, q8⟩, fun a b hab h' => ((hadj a b).mp h').2.1 hab⟩
    intro a b c d hab h'
    rw [hadj] at h' ⊢
    exact ⟨h.closed _ _ _ _ hab h'.1, fun q => h'.2.1 (q.trans hg hab.symm), fun q => h'.2.2 (q.trans hg hab.swap.symm)⟩
  have hhom : ∀ a b, Homologous cfg.sets i j a b ↔ ∃ k, Cell cfg.sets k i0 a ∧ Cell cfg.sets (t1 + k) i1 b := by
    intro a b
    rw [Homologous.iff hg hi hj]
    constructor
    · rintro ⟨tc, td, q1, q2, q3⟩
      exact ⟨tc, q1, by rwa [show t1 + tc = td by omega]⟩
    · rintro ⟨k, q1, q2⟩
      exact ⟨k, t1 + k, q1, q2, by omega⟩
  by_cases hzl : z.length = 0
  · obtain rfl := List.length_eq_zero_iff.mp hzl
    obtain ⟨l, l1, l2⟩ := edgeHomology_spec hg hi hj
    obtain ⟨k1, k2⟩ := key ((i, j, ∅) :: l.map (fun ab => (ab.1, ab.2, (∅ : Finset α)))) (by
      intro a b
      rw [hhom]
      simp only [List.mem_cons, Prod.mk.injEq, List.mem_map, Prod.exists]
      constructor
      · rintro ⟨S, ⟨rfl, rfl, -⟩ | ⟨a', b', q, rfl, rfl, -⟩⟩
        · exact ⟨0, hi, hj⟩
        · obtain ⟨k, -, q⟩ := (l2 _ _).mp q; exact ⟨k, q⟩
      · rintro ⟨k, q1, q2⟩
        rcases Nat.eq_zero_or_pos k with rfl | hk
        · exact ⟨∅, Or.inl ⟨q1.det hi, q2.det hj, rfl⟩⟩
        · exact ⟨∅, Or.inr ⟨a, b, (l2 _ _).mpr ⟨k, hk, q1, q2⟩, rfl, rfl, rfl⟩⟩)
    refine ⟨_, ?_, k1, fun _ => k2⟩
    rw [testHom, if_pos hci, hci]
    dsimp only
    rw [if_pos hh, if_pos (by rfl), py_bind l1, List.foldl_cons, List.foldl_map]
    rfl
  · have hne : z ≠ [] := by rintro rfl; exact hzl rfl
    obtain ⟨l, l1, l2⟩ := ciHomology_spec hg hi hj hz hne
    obtain ⟨k1, k2⟩ := key ((i, j, z.toFinset) :: l.map (fun abc => (abc.1, abc.2.1, abc.2.2.toFinset))) (by
      intro a b
      rw [hhom]
      simp only [List.mem_cons, Prod.mk.injEq, List.mem_map, Prod.exists]
      constructor
      · rintro ⟨S, ⟨rfl, rfl, -⟩ | ⟨a', b', c, q, rfl, rfl, -⟩⟩
        · exact ⟨0, hi, hj⟩
        · obtain ⟨k, -, q1, q2, -⟩ := (l2 _ _ _).mp q; exact ⟨k, q1, q2⟩
      · rintro ⟨k, q1, q2⟩
        rcases Nat.eq_zero_or_pos k with rfl | hk
        · exact ⟨_, Or.inl ⟨q1.det hi, q2.det hj, rfl⟩⟩
        · obtain ⟨c, hc⟩ := shifts_of_local hg hj q2 z hz (hloc _ _ _ _ hci)
          exact ⟨_, Or.inr ⟨a, b, c, (l2 _ _ _).mpr ⟨k, hk, q1, q2, hc⟩, rfl, rfl, rfl⟩⟩)
    refine ⟨_, ?_, k1, fun _ => k2⟩
    rw [testHom, if_pos hci, hci]
    dsimp only
    rw [if_pos hh, if_neg hzl, py_bind l1, List.foldl_cons, List.foldl_map]
    rfl

/-- The tests of one pair. -/
theorem testList_good {ci : CITest α} {cfg : TsCfg α} (hg : Grid cfg.sets) (hh : cfg.homology = true)
    (hloc : NoEarlier ci cfg.sets) {i j : α} (hi : ∃ v, Cell cfg.sets 0 v i) (hj : j ∈ cfg.sets.flatten) :
    ∀ (zs : List (List α)) (st : IcdState α), Good cfg st → (∀ z ∈ zs, ∀ x ∈ z, x ∈ cfg.sets.flatten) →
    ∃ st', testList cfg ci i j zs st = .ok st' ∧ Red cfg st st' ∧
      (st'.graph.MAdj i j → ∀ z ∈ zs, ∃ k, ci k i j z = false) := by
  intro zs
  induction zs with
  | nil => intro st h _; exact ⟨st, rfl, Red.refl h, by simp⟩
  | cons z zs ih =>
    intro st h hz
    obtain ⟨s1, e1, r1, k1⟩ := testHom_good hg hh hloc h (i := i) (j := j) hi hj (hz z (by simp))
    cases hci : ci st.calls i j z with
    | true =>
      rw [hci] at e1 k1
      refine ⟨s1, ?_, r1, fun h' => absurd h' (k1 rfl i j (Homologous.refl' ?_ hj))⟩
      · rw [testList, py_bind e1]; rfl
      · obtain ⟨v, hv⟩ := hi; exact hv.mem
    | false =>
      rw [hci] at e1
      obtain ⟨s2, e2, r2, k2⟩ := ih s1 r1.good (fun z' hz' => hz z' (List.mem_cons_of_mem _ hz'))
      refine ⟨s2, ?_, r1.trans r2, fun h' z' hz' => ?_⟩
      · rw [testList, py_bind e1]; exact e2
      · rcases List.mem_cons.mp hz' with rfl | hz'
        · exact ⟨_, hci⟩
        · exact k2 h' z' hz'

/-! ### one step -/

omit [LinearOrder α] in
theorem crossLag_ne (hg : Grid sets) {ij : α × α} (h : ij ∈ crossLag sets) : ij.1 ≠ ij.2 := by
  obtain ⟨i, j⟩ := ij
  rw [crossLag, List.pair_mem_product] at h
  cases sets with
  | nil => simp at h
  | cons l ls =>
    have hd := hg.nodup
    rw [List.flatten_cons, List.nodup_append] at hd
    exact hd.2.2 i h.1 j h.2

omit [LinearOrder α] in
theorem head_nodup (hg : Grid sets) : (sets.headD []).Nodup := by
  cases sets with
  | nil => exact List.nodup_nil
  | cons l ls =>
    have hd := hg.nodup
    rw [List.flatten_cons, List.nodup_append] at hd
    exact hd.1

omit [LinearOrder α] in
theorem contemporaneous_ne (hg : Grid sets) {ij : α × α} (h : ij ∈ contemporaneous sets) : ij.1 ≠ ij.2 :=
  mem_pairs_ne (head_nodup hg) h

omit [LinearOrder α] in
theorem edges_all {i j : α} (hi : ∃ v, Cell sets 0 v i) (hj : j ∈ sets.flatten) (hij : i ≠ j) :
    (i, j) ∈ crossLag sets ∨ (i, j) ∈ contemporaneous sets ∨ (j, i) ∈ contemporaneous sets := by
  cases sets with
  | nil => simp at hj
  | cons l ls =>
    obtain ⟨v, l', h1, h2⟩ := hi
    simp only [List.getElem?_cons_zero, Option.some.injEq] at h1
    subst h1
    have hi := List.mem_of_getElem? h2
    rw [List.flatten_cons, List.mem_append] at hj
    rcases hj with hj | hj
    · exact Or.inr (mem_pairs_or hi hj hij)
    · exact Or.inl (List.pair_mem_product.mpr ⟨hi, hj⟩)

/-- The list of pairs of a pass. -/
def PassList (sets : List (List α)) (l : List (α × α)) : Prop :=
  ∀ ij ∈ l, (∃ v, Cell sets 0 v ij.1) ∧ ij.2 ∈ sets.flatten ∧ ij.1 ≠ ij.2

omit [LinearOrder α] in
theorem crossLag_pass (hg : Grid sets) : PassList sets (crossLag sets) :=
  fun _ h => ⟨(crossLag_mem h).1, (crossLag_mem h).2, crossLag_ne hg h⟩

omit [LinearOrder α] in
theorem contemporaneous_pass (hg : Grid sets) : PassList sets (contemporaneous sets) :=
  fun _ h => ⟨(contemporaneous_mem h).1, (contemporaneous_mem h).2, contemporaneous_ne hg h⟩

/-- The pairs of the list that are independent unconditionally, at any time, are not adjacent. -/
def Marginal (ci : CITest α) (sets : List (List α)) (l : List (α × α)) (G : MG α) : Prop :=
  ∀ ij ∈ l, (∀ n, ci n ij.1 ij.2 [] = true) → ∀ a b, Homologous sets ij.1 ij.2 a b → ¬ G.MAdj a b

theorem step0Fold_good {ci : CITest α} {cfg : TsCfg α} (hg : Grid cfg.sets) (hh : cfg.homology = true)
    (hloc : NoEarlier ci cfg.sets) {l : List (α × α)} (hl : PassList cfg.sets l) {st : IcdState α} (h : Good cfg st) :
    ∃ st', l.foldlM (fun st ij => do return (← testHom cfg ci st ij.1 ij.2 []).1) st = .ok st' ∧ Red cfg st st' ∧
      Marginal ci cfg.sets l st'.graph := by
  obtain ⟨st', e, r, m⟩ := foldlM_ok_inv (f := fun st (ij : α × α) => do return (← testHom cfg ci st ij.1 ij.2 []).1)
    (fun done s => Red cfg st s ∧ Marginal ci cfg.sets done s.graph) l [] st ⟨Red.refl h, fun _ h => by cases h⟩ (by
      intro done ij s hij ⟨hs, hm⟩
      obtain ⟨s', e1, r1, k1⟩ := testHom_good hg hh hloc hs.good (z := []) (hl ij hij).1 (hl ij hij).2.1 (by simp)
      refine ⟨s', by rw [py_bind e1]; rfl, hs.trans r1, ?_⟩
      intro xy hxy hind a b hab hadj
      rcases List.mem_append.mp hxy with hxy | hxy
      · exact hm xy hxy hind a b hab (r1.sub _ _ hadj)
      · rw [List.mem_singleton] at hxy
        subst hxy
        exact k1 (hind _) a b hab hadj)
  exact ⟨st', e, r, by rwa [List.nil_append] at m⟩

/-- One pass over pairs. -/
theorem pass_good {ci : CITest α} {cfg : TsCfg α} (hg : Grid cfg.sets) (hh : cfg.homology = true)
    (hloc : NoEarlier ci cfg.sets) {l : List (α × α)} (hl : PassList cfg.sets l) {st0 : IcdState α} {b0 : Bool} (h0 : Good cfg st0)
    {r : Nat} (hb0 : b0 = false → r + 2 ≤ (nodesOf cfg.sets).card) (f : IcdState α × Bool → α × α → Py (IcdState α × Bool))
    (hf : ∀ st b ij, ij ∈ l → Red cfg st0 st →
      (¬ st.graph.MAdj ij.1 ij.2 → f (st, b) ij = .ok (st, b)) ∧
      (st.graph.MAdj ij.1 ij.2 → ∃ zs, f (st, b) ij = (do return (← testList cfg ci ij.1 ij.2 zs st, b && zs.isEmpty)) ∧
        ∀ z ∈ zs, z.Nodup ∧ z.length = r ∧ ij.1 ∉ z ∧ ij.2 ∉ z ∧ ∀ x ∈ z, x ∈ cfg.sets.flatten)) :
    ∃ st b, l.foldlM f (st0, b0) = .ok (st, b) ∧ Red cfg st0 st ∧ (b = false → r + 2 ≤ (nodesOf cfg.sets).card) := by
  obtain ⟨⟨st, b⟩, e, q1, q2⟩ := foldlM_ok_inv (f := f)
    (fun _ (acc : IcdState α × Bool) => Red cfg st0 acc.1 ∧ (acc.2 = false → r + 2 ≤ (nodesOf cfg.sets).card)) l [] (st0, b0)
    ⟨Red.refl h0, hb0⟩ (by
      rintro done ij ⟨st, b⟩ hij ⟨i1, i2⟩
      obtain ⟨f1, f2⟩ := hf st b ij hij i1
      obtain ⟨p1, p2, p3⟩ := hl ij hij
      by_cases hadj : st.graph.MAdj ij.1 ij.2
      · obtain ⟨zs, g1, g2⟩ := f2 hadj
        obtain ⟨st', e1, r1, -⟩ := testList_good hg hh hloc p1 p2 zs st i1.good (fun z hz => (g2 z hz).2.2.2.2)
        refine ⟨(st', b && zs.isEmpty), by rw [g1, py_bind e1]; rfl, i1.trans r1, ?_⟩
        intro hb
        rcases (Bool.and_eq_false_iff.mp hb) with hb | hb
        · exact i2 hb
        · cases zs with
          | nil => simp at hb
          | cons z zs =>
            obtain ⟨z1, z2, z3, z4, z5⟩ := g2 z (by simp)
            have hnd : (ij.1 :: ij.2 :: z).Nodup := by simp [z1, z3, z4, p3]
            have := Finset.card_le_card (s := (ij.1 :: ij.2 :: z).toFinset) (t := nodesOf cfg.sets) (by
              intro v hv
              rw [nodesOf, List.mem_toFinset]
              simp only [List.mem_toFinset, List.mem_cons] at hv
              rcases hv with rfl | rfl | hv
              · obtain ⟨w, hw⟩ := p1; exact hw.mem
              · exact p2
              · exact z5 v hv)
            rw [List.toFinset_card_of_nodup hnd] at this
            simp only [List.length_cons] at this
            omega
      · exact ⟨_, f1 hadj, i1, i2⟩)
  exact ⟨st, b, e, q1, q2⟩

theorem Good.same {cfg : TsCfg α} {st : IcdState α} (h : Good cfg st) {K : MG α} (hK : SameSkel K st.graph) :
    Red cfg st { st with graph := K } :=
  ⟨⟨hK.proper, hK.types.trans h.types, fun v => by dsimp only; rw [hK.nodes]; exact h.nodes v, h.closed.same hK, h.key⟩,
    fun a b hab => (hK.adj a b).mp hab, hK.nodes, rfl, rfl, rfl⟩

/-- Fixed marks for all pairs. -/
def FixedAll (cfg : TsCfg α) : Prop :=
  ∀ a ∈ cfg.sets.flatten, ∀ b ∈ cfg.sets.flatten, a ≠ b → ∃ m, Dict.get? cfg.fixed (a, b) = some m

theorem orient_good (o : SetOrder α) {cfg : TsCfg α} (hg : Grid cfg.sets) (hx : FixedAll cfg) {st : IcdState α} (h : Good cfg st)
    (c : Bool) : ∃ K, orientGraph o cfg st.sep c st.graph = .ok K ∧ Red cfg st { st with graph := K } := by
  obtain ⟨K, k1, k2⟩ := orientGraph_ok o hg (sep := st.sep) (c := c) h.proper h.types h.nodes h.closed
    (fun a b hab => by
      obtain ⟨q1, q2⟩ := h.proper.mem_adj hab
      exact hx a ((h.nodes a).mp q1) b ((h.nodes b).mp q2) (h.proper.ne hab))
    (fun i hi j hj hij => h.key i ((h.nodes i).mp hi) j ((h.nodes j).mp hj) hij)
  exact ⟨K, k1, h.same k2⟩

theorem baseStep0_good (o : SetOrder α) {ci : CITest α} {cfg : TsCfg α} (hg : Grid cfg.sets) (hh : cfg.homology = true)
    (hloc : NoEarlier ci cfg.sets) (hx : FixedAll cfg) {st : IcdState α} (h : Good cfg st) :
    ∃ st', baseStep0 o cfg ci st = .ok st' ∧ Red cfg st st' ∧ Marginal ci cfg.sets (crossLag cfg.sets) st'.graph ∧
      Marginal ci cfg.sets (contemporaneous cfg.sets) st'.graph := by
  obtain ⟨s1, e1, r1, m1⟩ := step0Fold_good hg hh hloc (crossLag_pass hg) h
  obtain ⟨s2, e2, r2, m2⟩ := step0Fold_good hg hh hloc (contemporaneous_pass hg) r1.good
  obtain ⟨K, e3, r3⟩ := orient_good o hg hx r2.good false
  refine ⟨_, ?_, (r1.trans r2).trans r3, ?_, ?_⟩
  · rw [baseStep0, py_bind e1, py_bind e2, py_bind e3]; rfl
  · intro ij hij hind a b hab hadj
    exact m1 ij hij hind a b hab (r2.sub _ _ (r3.sub _ _ hadj))
  · intro ij hij hind a b hab hadj
    exact m2 ij hij hind a b hab (r3.sub _ _ hadj)

theorem step1Edges_good (o : SetOrder α) {ci : CITest α} {cfg : TsCfg α} (hg : Grid cfg.sets) (hh : cfg.homology = true)
    (hloc : NoEarlier ci cfg.sets) {l : List (α × α)} (hl : PassList cfg.sets l) {st0 : IcdState α} {b0 : Bool} (h0 : Good cfg st0)
    (hb0 : b0 = false → 1 + 2 ≤ (nodesOf cfg.sets).card) :
    ∃ st b, step1Edges o cfg ci l (st0, b0) = .ok (st, b) ∧ Red cfg st0 st ∧ (b = false → 1 + 2 ≤ (nodesOf cfg.sets).card) := by
  refine pass_good hg hh hloc hl h0 hb0 _ ?_
  intro st b ij hij hr
  obtain ⟨c, c1, c2⟩ := MG.proper_isConnected hr.good.proper.type (hl ij hij).2.2
  constructor
  · intro hn
    cases c with
    | true => exact absurd (c2.mp rfl) hn
    | false => rw [py_bind c1]; rfl
  · intro hadj
    cases c with
    | false => exact absurd (c2.mpr hadj) (by simp)
    | true =>
      refine ⟨Icd.condSets1 o st.graph ij.1 ij.2, by rw [py_bind c1]; rfl, ?_⟩
      intro z hz
      obtain ⟨v, rfl, hv⟩ := (Icd.mem_condSets1 o hr.good.proper).mp hz
      have hG := hr.good.proper
      rcases hv with ⟨h1, h2⟩ | ⟨h1, h2⟩
      · refine ⟨by simp, rfl, by simpa using hG.ne h1, by simpa using h2.symm, ?_⟩
        intro x hx; rw [List.mem_singleton] at hx; subst hx
        exact (hr.good.nodes _).mp (hG.mem_adj h1).2
      · refine ⟨by simp, rfl, by simpa using h2.symm, by simpa using hG.ne h1, ?_⟩
        intro x hx; rw [List.mem_singleton] at hx; subst hx
        exact (hr.good.nodes _).mp (hG.mem_adj h1).2

/-- A list of conditioning sets for a pair. -/
def CondsOk (sets : List (List α)) (i j : α) (r : Nat) (L : List (Finset α × WithTop Nat)) : Prop :=
  ∀ c ∈ L, c.1.card = r ∧ (∀ v ∈ c.1, v ∈ sets.flatten) ∧ i ∉ c.1 ∧ j ∉ c.1

theorem incrementalEdges_good (o : SetOrder α) {ci : CITest α} {cfg : TsCfg α} (hg : Grid cfg.sets) (hh : cfg.homology = true)
    (hloc : NoEarlier ci cfg.sets) {l : List (α × α)} (hl : PassList cfg.sets l) {st0 : IcdState α} (h0 : Good cfg st0)
    (hcond : cfg.opts.preCalc = true → ∀ ij ∈ l, st0.graph.MAdj ij.1 ij.2 → ∃ L, Dict.get? st0.cond (hkey ij.1 ij.2) = some L ∧
      CondsOk cfg.sets ij.1 ij.2 st0.size L) :
    ∃ st b, incrementalEdges o cfg ci l st0 = .ok (st, b) ∧ Red cfg st0 st ∧
      (b = false → st0.size + 2 ≤ (nodesOf cfg.sets).card) := by
  refine pass_good hg hh hloc hl h0 (by simp) _ ?_
  intro st b ij hij hr
  have hG := hr.good.proper
  obtain ⟨c, c1, c2⟩ := MG.proper_isConnected hG.type (hl ij hij).2.2
  constructor
  · intro hn
    cases c with
    | true => exact absurd (c2.mp rfl) hn
    | false => rw [py_bind c1]; rfl
  · intro hadj
    cases c with
    | false => exact absurd (c2.mpr hadj) (by simp)
    | true =>
      have key : ∃ L, (if cfg.opts.preCalc then Dict.get st.cond (hkey ij.1 ij.2)
          else Icd.rangeSets o st.graph ij.1 ij.2 st.size) = .ok L ∧ CondsOk cfg.sets ij.1 ij.2 st0.size L := by
        cases hp : cfg.opts.preCalc with
        | true =>
          obtain ⟨L, l1, l2⟩ := hcond hp ij hij (hr.sub _ _ hadj)
          exact ⟨L, by rw [if_pos rfl, hr.cond]; exact Dict.get_eq_ok.mpr l1, l2⟩
        | false =>
          obtain ⟨q1, q2⟩ := hG.mem_adj hadj
          obtain ⟨L, l1, -, l3, -⟩ := Icd.rangeSets_spec o hG q1 q2 st.size
          refine ⟨L, by rw [if_neg (by simp)]; exact l1, fun c hc => ?_⟩
          have := l3 c hc
          exact ⟨this.size.trans hr.size, fun v hv => (hr.good.nodes v).mp (this.mem hv), this.left, this.right⟩
      obtain ⟨L, l1, l2⟩ := key
      refine ⟨L.map (fun c => o.iter (ij.1, ij.2) c.1), ?_, ?_⟩
      · rw [py_bind c1]
        dsimp only
        simp only [Bool.not_true, Bool.false_eq_true, if_false]
        rw [py_bind l1]
        cases L <;> rfl
      · intro z hz
        obtain ⟨c, hc, rfl⟩ := List.mem_map.mp hz
        obtain ⟨q1, q2, q3, q4⟩ := l2 c hc
        refine ⟨o.nodup _ _, ?_, fun h => q3 ((o.mem _ _ _).mp h), fun h => q4 ((o.mem _ _ _).mp h),
          fun x hx => q2 x ((o.mem _ _ _).mp hx)⟩
        rw [← q1, ← List.toFinset_card_of_nodup (o.nodup (ij.1, ij.2) c.1)]
        congr 1
        ext v
        rw [List.mem_toFinset, o.mem]

theorem preCalc_good (o : SetOrder α) {cfg : TsCfg α} (hg : Grid cfg.sets) {st : IcdState α} (h : Good cfg st) :
    ∃ d, preCalc o cfg st = .ok { st with cond := d } ∧
      ∀ ij ∈ contemporaneous cfg.sets ++ crossLag cfg.sets, st.graph.MAdj ij.1 ij.2 →
        ∃ L, Dict.get? d (hkey ij.1 ij.2) = some L ∧ CondsOk cfg.sets ij.1 ij.2 st.size L := by
  obtain ⟨d, e, hd⟩ := foldlM_ok_inv (f := fun (d : Dict (α × α) (List (Finset α × WithTop Nat))) (ij : α × α) => do
      if ← st.graph.isConnected ij.1 ij.2 then
        let l ← Icd.rangeSets o st.graph ij.1 ij.2 st.size
        return Dict.set d (hkey ij.1 ij.2) l
      else return d)
    (fun done d => ∀ ij ∈ done, st.graph.MAdj ij.1 ij.2 →
        ∃ L, Dict.get? d (hkey ij.1 ij.2) = some L ∧ CondsOk cfg.sets ij.1 ij.2 st.size L)
    (contemporaneous cfg.sets ++ crossLag cfg.sets) [] st.cond (by simp) (by
      intro done ij d hij hd
      have hne : ij.1 ≠ ij.2 := by
        rcases List.mem_append.mp hij with h | h
        · exact contemporaneous_ne hg h
        · exact crossLag_ne hg h
      obtain ⟨c, c1, c2⟩ := MG.proper_isConnected h.proper.type hne
      cases c with
      | false =>
        refine ⟨d, by rw [py_bind c1]; rfl, ?_⟩
        intro xy hxy hadj
        rcases List.mem_append.mp hxy with hxy | hxy
        · exact hd xy hxy hadj
        · rw [List.mem_singleton] at hxy
          subst hxy
          exact absurd (c2.mpr hadj) (by simp)
      | true =>
        obtain ⟨q1, q2⟩ := h.proper.mem_adj (c2.mp rfl)
        obtain ⟨L, l1, -, l3, -⟩ := Icd.rangeSets_spec o h.proper q1 q2 st.size
        have hL : CondsOk cfg.sets ij.1 ij.2 st.size L := fun c hc =>
          ⟨(l3 c hc).size, fun v hv => (h.nodes v).mp ((l3 c hc).mem hv), (l3 c hc).left, (l3 c hc).right⟩
        refine ⟨Dict.set d (hkey ij.1 ij.2) L, by rw [py_bind c1]; simp only [if_true]; rw [py_bind l1]; rfl, ?_⟩
        intro xy hxy hadj
        rw [Dict.get?_set]
        by_cases he : hkey ij.1 ij.2 = hkey xy.1 xy.2
        · rw [if_pos he]
          refine ⟨L, rfl, ?_⟩
          rcases SepSet.hkey_eq_iff.mp he with ⟨e1, e2⟩ | ⟨e1, e2⟩
          · rw [← e1, ← e2]; exact hL
          · intro c hc
            obtain ⟨k1, k2, k3, k4⟩ := hL c hc
            exact ⟨k1, k2, by rw [← e2]; exact k4, by rw [← e1]; exact k3⟩
        · rw [if_neg he]
          rcases List.mem_append.mp hxy with hxy | hxy
          · exact hd xy hxy hadj
          · rw [List.mem_singleton] at hxy
            subst hxy
            exact absurd rfl he)
  refine ⟨d, by rw [preCalc, py_bind e]; rfl, ?_⟩
  rwa [List.nil_append] at hd

/-- One iteration step. -/
theorem step_good (o : SetOrder α) {ci : CITest α} {cfg : TsCfg α} (hg : Grid cfg.sets) (hh : cfg.homology = true)
    (hloc : NoEarlier ci cfg.sets) (hx : FixedAll cfg) {st : IcdState α} (h : Good cfg st) (hdone : st.done = false) :
    ∃ st' b, step o cfg ci st = .ok (st', b) ∧ Good cfg st' ∧ (∀ a b, st'.graph.MAdj a b → st.graph.MAdj a b) ∧
      st'.graph.nodes = st.graph.nodes ∧ st'.size = st.size ∧
      (b = false → st.size = 0 ∨ st.size + 2 ≤ (nodesOf cfg.sets).card) ∧
      (st.size = 0 → b = false ∧ Marginal ci cfg.sets (crossLag cfg.sets) st'.graph ∧
        Marginal ci cfg.sets (contemporaneous cfg.sets) st'.graph) := by
  by_cases h0 : st.size = 0
  · obtain ⟨st', e, r, m⟩ := baseStep0_good o hg hh hloc hx h
    refine ⟨st', false, ?_, r.good, r.sub, r.nodes, r.size, fun _ => Or.inl h0, fun _ => ⟨rfl, m⟩⟩
    rw [step, if_pos h0, py_bind e, hdone]
    rfl
  by_cases h1 : st.size = 1
  · obtain ⟨s1, b1, e1, r1, k1⟩ := step1Edges_good o hg hh hloc (crossLag_pass hg) (b0 := true) h (by simp)
    obtain ⟨s2, b2, e2, r2, k2⟩ := step1Edges_good o hg hh hloc (contemporaneous_pass hg) (b0 := b1) r1.good k1
    obtain ⟨K, e3, r3⟩ := orient_good o hg hx r2.good b2
    have r := (r1.trans r2).trans r3
    refine ⟨_, b2, ?_, r.good, r.sub, r.nodes, r.size, fun hb => Or.inr (by rw [h1]; exact k2 hb), fun h => absurd h h0⟩
    rw [step, if_neg h0, if_pos h1, baseStep1, py_bind e1, py_bind e2]
    dsimp only
    rw [py_bind e3]
    rfl
  · have key : ∃ s0, (if cfg.opts.preCalc then preCalc o cfg st else pure st) = .ok s0 ∧ Good cfg s0 ∧ s0.graph = st.graph ∧
        s0.size = st.size ∧ (cfg.opts.preCalc = true → ∀ ij ∈ contemporaneous cfg.sets ++ crossLag cfg.sets,
          s0.graph.MAdj ij.1 ij.2 → ∃ L, Dict.get? s0.cond (hkey ij.1 ij.2) = some L ∧ CondsOk cfg.sets ij.1 ij.2 s0.size L) := by
      cases hp : cfg.opts.preCalc with
      | true =>
        obtain ⟨d, e, hd⟩ := preCalc_good o hg h
        exact ⟨{ st with cond := d }, by rw [if_pos rfl]; exact e, ⟨h.proper, h.types, h.nodes, h.closed, h.key⟩, rfl, rfl, fun _ => hd⟩
      | false => exact ⟨st, rfl, h, rfl, rfl, by simp⟩
    obtain ⟨s0, e0, g0, q1, q2, q3⟩ := key
    obtain ⟨s1, b1, e1, r1, k1⟩ := incrementalEdges_good o hg hh hloc (crossLag_pass hg) g0
      (fun hp ij hij => q3 hp ij (List.mem_append_right _ hij))
    obtain ⟨s2, b2, e2, r2, k2⟩ := incrementalEdges_good o hg hh hloc (contemporaneous_pass hg) r1.good
      (fun hp ij hij hadj => by
        rw [r1.cond, r1.size]
        exact q3 hp ij (List.mem_append_left _ hij) (r1.sub _ _ hadj))
    obtain ⟨K, e3, r3⟩ := orient_good o hg hx r2.good (b1 && b2)
    have r := (r1.trans r2).trans r3
    refine ⟨_, b1 && b2, ?_, r.good, fun a b hab => by rw [← q1]; exact r.sub a b hab, by rw [← q1]; exact r.nodes,
      r.size.trans q2, ?_, fun h => absurd h h0⟩
    · rw [step, if_neg h0, if_neg h1, py_bind e0, incrementalStep, py_bind e1]
      dsimp only
      rw [py_bind e2]
      dsimp only
      rw [py_bind e3]
      rfl
    · intro hb
      right
      rw [← q2]
      rcases Bool.and_eq_false_iff.mp hb with hb | hb
      · exact k1 hb
      · rw [← r1.size]; exact k2 hb

/-- The loop from a state with size `s > 0`. -/
theorem loop_good (o : SetOrder α) {ci : CITest α} {cfg : TsCfg α} (hg : Grid cfg.sets) (hh : cfg.homology = true)
    (hloc : NoEarlier ci cfg.sets) (hx : FixedAll cfg) : ∀ (n : Nat) (st : IcdState α), Good cfg st → st.done = false →
    0 < st.size → n + st.size = max 2 (nodesOf cfg.sets).card → 0 < n →
    ∃ st', loop o cfg ci n st = .ok st' ∧ Good cfg st' ∧ ∀ a b, st'.graph.MAdj a b → st.graph.MAdj a b := by
  intro n
  induction n with
  | zero => intro st _ _ _ _ h; exact absurd h (by omega)
  | succ n ih =>
    intro st h hd hs hn _
    obtain ⟨s1, b, e1, g1, sub1, -, z1, p1, -⟩ := step_good o hg hh hloc hx h hd
    have hit : iteration o cfg ci st = .ok ({ s1 with done := b, size := s1.size + 1 }, b, s1.size) := by
      rw [iteration, if_neg (by rw [hd]; simp), py_bind e1]
      rfl
    cases b with
    | true =>
      exact ⟨{ s1 with done := true, size := s1.size + 1 }, by rw [loop, py_bind hit]; rfl, ⟨g1.proper, g1.types, g1.nodes, g1.closed, g1.key⟩, sub1⟩
    | false =>
      have hlt := (p1 rfl).resolve_left (by omega)
      obtain ⟨s2, e2, g2, sub2⟩ := ih { s1 with done := false, size := s1.size + 1 }
        ⟨g1.proper, g1.types, g1.nodes, g1.closed, g1.key⟩ rfl (by dsimp only; omega) (by dsimp only; rw [z1]; omega) (by omega)
      refine ⟨s2, ?_, g2, fun a b hab => sub1 _ _ (sub2 _ _ hab)⟩
      rw [loop, py_bind hit]
      exact e2

theorem learn_good (o : SetOrder α) {ci : CITest α} {cfg : TsCfg α} (hg : Grid cfg.sets) (hh : cfg.homology = true)
    (hloc : NoEarlier ci cfg.sets) (hx : FixedAll cfg) {st : IcdState α} (h : Good cfg st) :
    ∃ st', learnStructure o cfg ci st = .ok st' ∧ Good cfg st' ∧ (∀ a b, st'.graph.MAdj a b → st.graph.MAdj a b) ∧
      Marginal ci cfg.sets (crossLag cfg.sets) st'.graph ∧ Marginal ci cfg.sets (contemporaneous cfg.sets) st'.graph := by
  have hN : st.graph.nodes = nodesOf cfg.sets := by
    ext v
    rw [h.nodes, nodesOf, List.mem_toFinset]
  obtain ⟨s1, b, e1, g1, sub1, -, z1, -, m1⟩ := step_good o hg hh hloc hx (st := { st with done := false, size := 0 })
    ⟨h.proper, h.types, h.nodes, h.closed, h.key⟩ rfl
  obtain ⟨rfl, m1, m2⟩ := m1 rfl
  have hit : iteration o cfg ci { st with done := false, size := 0 } =
      .ok ({ s1 with done := false, size := s1.size + 1 }, false, s1.size) := by
    rw [iteration, if_neg (by simp), py_bind e1]
    rfl
  obtain ⟨n, hn⟩ : ∃ n, max 2 st.graph.nodes.card = n + 1 := ⟨max 2 st.graph.nodes.card - 1, by omega⟩
  dsimp only at z1
  obtain ⟨s2, e2, g2, sub2⟩ := loop_good o hg hh hloc hx n { s1 with done := false, size := s1.size + 1 }
    ⟨g1.proper, g1.types, g1.nodes, g1.closed, g1.key⟩ rfl (by dsimp only; omega) (by dsimp only; rw [z1, ← hN]; omega) (by omega)
  refine ⟨s2, ?_, g2, fun a b hab => sub1 _ _ (sub2 _ _ hab), ?_, ?_⟩
  · rw [learnStructure, hn, loop, py_bind hit]
    exact e2
  · intro ij hij hind a b hab hadj; exact m1 ij hij hind a b hab (sub2 _ _ hadj)
  · intro ij hij hind a b hab hadj; exact m2 ij hij hind a b hab (sub2 _ _ hadj)

/-! ### the constructor -/

theorem initial_edge' (hg : Grid sets) {P : MG α} (h : defaultPag sets = .ok P) {a b : α} :
    (a ∈ sets.flatten ∧ b ∈ sets.flatten ∧ a ≠ b) ↔ P.MAdj a b := by
  classical
  obtain ⟨P', e1, -, -, e4⟩ := defaultPag_spec hg
  rw [h] at e1
  cases e1
  simp only [MG.MAdj, e4]
  constructor
  · rintro ⟨h1, h2, h3⟩
    by_cases hl : Later sets b a
    · exact Or.inl ⟨.arrow, h1, h2, h3, by rw [if_pos hl]⟩
    · exact Or.inl ⟨.circle, h1, h2, h3, by rw [if_neg hl]⟩
  · rintro (⟨m, h1, h2, h3, -⟩ | ⟨m, h1, h2, h3, -⟩)
    · exact ⟨h1, h2, h3⟩
    · exact ⟨h2, h1, h3.symm⟩

theorem copyPag_ok (o : SetOrder α) {N : Finset α} {P : MG α} (hP : P.Proper) (ht : P.types = pagTypes) :
    ∃ G, copyPag o N P = .ok G := by
  have hw : P.Weak := hP.weak ht
  have key : ∀ (l : List (α × α)) (G : MG α), l.Pairwise (fun p q => p ≠ q ∧ p ≠ q.swap) → (∀ ij ∈ l, ij.1 ≠ ij.2) →
      (∀ m, m ∈ G.types) → (∀ ij ∈ l, ¬ G.MAdj ij.1 ij.2) → ∃ K, l.foldlM (fun (G : MG α) (ij : α × α) => do
      if ← P.isConnected ij.1 ij.2 then
        match P.getEdgeMark ij.2 ij.1, P.getEdgeMark ij.1 ij.2 with
        | some mi, some mj => G.addEdge ij.1 ij.2 mi mj
        | _, _ => (throw PyErr.assertionError : Py (MG α))
      else return G) G = .ok K := by
    intro l
    induction l with
    | nil => intro G _ _ _ _; exact ⟨G, rfl⟩
    | cons ij l ih =>
      intro G hp hne hT hG
      obtain ⟨i, j⟩ := ij
      rw [List.pairwise_cons] at hp
      have hij : i ≠ j := hne (i, j) (by simp)
      obtain ⟨c, c1, c2⟩ := MG.proper_isConnected hP.type hij
      have next : ∀ H : MG α, (do
          if ← P.isConnected i j then
            match P.getEdgeMark j i, P.getEdgeMark i j with
            | some mi, some mj => G.addEdge i j mi mj
            | _, _ => (throw PyErr.assertionError : Py (MG α))
          else return G) = .ok H → (∀ m, m ∈ H.types) → (∀ ij ∈ l, ¬ H.MAdj ij.1 ij.2) →
          ∃ K, ((i, j) :: l).foldlM (fun (G : MG α) (ij : α × α) => do
            if ← P.isConnected ij.1 ij.2 then
              match P.getEdgeMark ij.2 ij.1, P.getEdgeMark ij.1 ij.2 with
              | some mi, some mj => G.addEdge ij.1 ij.2 mi mj
              | _, _ => (throw PyErr.assertionError : Py (MG α))
            else return G) G = .ok K := by
        intro H e hT' hH
        obtain ⟨K, k⟩ := ih H hp.2 (fun q hq => hne q (List.mem_cons_of_mem _ hq)) hT' hH
        exact ⟨K, by rw [List.foldlM_cons, py_bind e]; exact k⟩
      cases c with
      | false => exact next G (by rw [py_bind c1]; rfl) hT (fun q hq => hG q (List.mem_cons_of_mem _ hq))
      | true =>
        have hb : ∀ a b, P.MAdj a b → ∃ m, P.At a b m := by
          rintro a b (h | ⟨m, h⟩)
          · exact h
          · exact hP.both _ _ _ h
        obtain ⟨mi, h1⟩ := hb j i (c2.mp rfl).symm
        obtain ⟨mj, h2⟩ := hb i j (c2.mp rfl)
        obtain ⟨H, f1, -, f3, f4⟩ := MG.addEdge_spec (fun _ _ m _ => hT m) hij (hG (i, j) (by simp)) (hT mi) (hT mj)
        refine next H ?_ (by rw [f3]; exact hT) ?_
        · rw [py_bind c1, hw.getMark.mpr h1, hw.getMark.mpr h2]
          exact f1
        · rintro ⟨x, y⟩ hq hadj
          obtain ⟨q1, q2⟩ := hp.1 (x, y) hq
          simp only [MG.MAdj, f4] at hadj
          have hG' := hG (x, y) (List.mem_cons_of_mem _ hq)
          simp only [ne_eq, Prod.mk.injEq, Prod.swap_prod_mk] at q1 q2
          rcases hadj with ⟨m, h | ⟨rfl, rfl, -⟩ | ⟨rfl, rfl, -⟩⟩ | ⟨m, h | ⟨rfl, rfl, -⟩ | ⟨rfl, rfl, -⟩⟩
          · exact hG' (Or.inl ⟨m, h⟩)
          · exact q2 ⟨rfl, rfl⟩
          · exact q1 ⟨rfl, rfl⟩
          · exact hG' (Or.inr ⟨m, h⟩)
          · exact q1 ⟨rfl, rfl⟩
          · exact q2 ⟨rfl, rfl⟩
  exact key _ (MG.empty N pagTypes) (pairs_pairwise (o.nodup _ _)) (fun ij hij => mem_pairs_ne (o.nodup _ _) hij) pagTypes_all
    (by intro ij _ h; simp [MG.MAdj, MG.empty, MG.At] at h)

theorem fixedOf_ok (o : SetOrder α) {P : MG α} (hP : P.Proper) (ht : P.types = pagTypes) :
    ∃ d, fixedOf o P = .ok d ∧ ∀ a b, P.MAdj a b → ∃ m, Dict.get? d (a, b) = some m := by
  have hw : P.Weak := hP.weak ht
  have hb : ∀ a b, P.MAdj a b → ∃ m, P.At a b m := by
    rintro a b (h | ⟨m, h⟩)
    · exact h
    · exact hP.both _ _ _ h
  obtain ⟨d, e, hd⟩ := foldlM_ok_inv (f := fun (d : Dict (α × α) Mark) (ij : α × α) => do
    if ← P.isConnected ij.1 ij.2 then
      match P.getEdgeMark ij.1 ij.2, P.getEdgeMark ij.2 ij.1 with
      | some m12, some m21 => return Dict.set (Dict.set d (ij.1, ij.2) m12) (ij.2, ij.1) m21
      | _, _ => (throw PyErr.assertionError : Py (Dict (α × α) Mark))
    else return d)
    (fun done d => ∀ a b, P.MAdj a b → (a, b) ∈ done ∨ (b, a) ∈ done → ∃ m, Dict.get? d (a, b) = some m)
    (pairs (o.iter 1 P.nodes)) [] [] (by simp) (by
      rintro done ⟨i, j⟩ d hij hd
      obtain ⟨c, c1, c2⟩ := MG.proper_isConnected hP.type (mem_pairs_ne (o.nodup _ _) hij)
      cases c with
      | false =>
        refine ⟨d, by rw [py_bind c1]; rfl, fun a b hab h => hd a b hab ?_⟩
        simp only [List.mem_append, List.mem_singleton, Prod.mk.injEq] at h
        rcases h with (h | ⟨rfl, rfl⟩) | (h | ⟨rfl, rfl⟩)
        · exact Or.inl h
        · exact absurd (c2.mpr hab) (by simp)
        · exact Or.inr h
        · exact absurd (c2.mpr hab.symm) (by simp)
      | true =>
        obtain ⟨m1, h1⟩ := hb i j (c2.mp rfl)
        obtain ⟨m2, h2⟩ := hb j i (c2.mp rfl).symm
        refine ⟨Dict.set (Dict.set d (i, j) m1) (j, i) m2, ?_, ?_⟩
        · rw [py_bind c1, hw.getMark.mpr h1, hw.getMark.mpr h2]
          rfl
        · intro a b hab h
          rw [Dict.get?_set, Dict.get?_set]
          split_ifs with q1 q2
          · exact ⟨_, rfl⟩
          · exact ⟨_, rfl⟩
          · refine hd a b hab ?_
            simp only [List.mem_append, List.mem_singleton, Prod.mk.injEq] at h
            rcases h with (h | ⟨rfl, rfl⟩) | (h | ⟨rfl, rfl⟩)
            · exact Or.inl h
            · exact absurd rfl q2
            · exact Or.inr h
            · exact absurd rfl q1)
  refine ⟨d, e, fun a b hab => hd a b hab ?_⟩
  obtain ⟨q1, q2⟩ := hP.mem_adj hab
  rw [List.nil_append]
  exact mem_pairs_or ((o.mem _ _ _).mpr q1) ((o.mem _ _ _).mpr q2) (hP.ne hab)

/-- The constructor on a window without an initial graph. -/
theorem init_good (o : SetOrder α) (hg : Grid sets) (opts : IcdOpts) :
    ∃ cfg st, init o sets true none opts = .ok (cfg, st) ∧ cfg.sets = sets ∧ cfg.homology = true ∧ FixedAll cfg ∧ Good cfg st ∧
      ∀ a ∈ sets.flatten, ∀ b ∈ sets.flatten, a ≠ b → st.graph.MAdj a b := by
  classical
  obtain ⟨P, e1, w, n, m⟩ := defaultPag_spec hg
  have hadj : ∀ a b, P.MAdj a b ↔ a ∈ sets.flatten ∧ b ∈ sets.flatten ∧ a ≠ b := by
    intro a b
    exact (initial_edge' hg e1).symm
  have hP : P.Proper := by
    refine ⟨fun _ _ m _ => w.ty m, w.mem, w.irrefl, w.one, ?_⟩
    intro a b m' h
    obtain ⟨h1, h2, h3, -⟩ := (m _ _ _).mp h
    by_cases hl : Later sets a b
    · exact ⟨.arrow, (m _ _ _).mpr ⟨h2, h1, h3.symm, by rw [if_pos hl]⟩⟩
    · exact ⟨.circle, (m _ _ _).mpr ⟨h2, h1, h3.symm, by rw [if_neg hl]⟩⟩
  obtain ⟨G, e2⟩ := copyPag_ok o (N := nodesOf sets) hP w.types
  obtain ⟨d, e3, hd⟩ := fixedOf_ok o hP w.types
  obtain ⟨c1, c2, c3⟩ := copyPag_spec o w (by rw [n]) e2
  have hadjG : ∀ a b, G.MAdj a b ↔ a ∈ sets.flatten ∧ b ∈ sets.flatten ∧ a ≠ b := by
    intro a b
    rw [← hadj]
    simp only [MG.MAdj, c3]
  have hcard : (nodesOf sets).card = sets.length * (sets.headD []).length := by
    obtain ⟨k, hk⟩ := hg.len
    rw [nodesOf, List.toFinset_card_of_nodup hg.nodup, List.length_flatten]
    have h2 := hg.two
    cases sets with
    | nil => simp at h2
    | cons l ls =>
      rw [List.headD_cons, hk l (by simp), List.map_congr_left (g := fun _ => k) hk]
      simp
      ring
  have hall : sets.all (fun l => l.length == (sets.headD []).length) = true := by
    obtain ⟨k, hk⟩ := hg.len
    have h2 := hg.two
    cases sets with
    | nil => simp at h2
    | cons l ls =>
      rw [List.all_eq_true]
      intro x hx
      rw [List.headD_cons, hk x hx, hk l (by simp)]
      simp
  refine ⟨⟨sets, true, d, opts⟩, { Icd.init o (nodesOf sets) with graph := G }, ?_, rfl, rfl, ?_, ⟨?_, c1.types, ?_, ?_, ?_⟩, ?_⟩
  · unfold init
    dsimp only
    rw [if_neg (not_not.mpr hg.two), if_neg (not_not.mpr hall), if_neg (not_not.mpr hcard)]
    change (do
      let P ← defaultPag sets
      let G ← copyPag o (nodesOf sets) P
      let fixed ← fixedOf o P
      return ((⟨sets, true, fixed, opts⟩, { Icd.init o (nodesOf sets) with graph := G }) : TsCfg α × IcdState α)) = _
    rw [py_bind e1, py_bind e2, py_bind e3]
    rfl
  · intro a ha b hb hab
    exact hd a b ((hadj a b).mpr ⟨ha, hb, hab⟩)
  · refine ⟨fun _ _ m _ => c1.ty m, c1.mem, c1.irrefl, c1.one, fun a b m h => ?_⟩
    obtain ⟨m', h'⟩ := hP.both _ _ _ ((c3 _ _ _).mp h)
    exact ⟨m', (c3 _ _ _).mpr h'⟩
  · intro v
    dsimp only
    rw [c2, nodesOf, List.mem_toFinset]
  · intro a b c d hh hab
    dsimp only at hab ⊢
    rw [hadjG] at hab ⊢
    obtain ⟨-, -, ⟨_, _, h3⟩, ⟨_, _, h4⟩⟩ := hh.cells
    exact ⟨h3.mem, h4.mem, hh.ne hg hab.2.2⟩
  · intro a ha b hb hab
    exact ⟨∅, by rw [Icd.init, SepSet.get_init, if_pos ⟨List.mem_toFinset.mpr ha, List.mem_toFinset.mpr hb, hab⟩]⟩
  · intro a ha b hb hab
    exact (hadjG a b).mpr ⟨ha, hb, hab⟩

end TsIcd
end Verif
