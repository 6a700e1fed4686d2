import Verif.Lemmas.Anytime
import Verif.Lemmas.IcdOne

/-!
# True marks in the first two iterations of ICD
-/

namespace Verif
open Relation MG
variable {α : Type} [LinearOrder α] {D : Dag α}

namespace Dag

/-- Smallest separating sets in an `r`-representing graph have what the orientation rules need. -/
theorem SmallestSep.sepOk (hac : D.Acyclic) {O : Finset α} {r : Nat} {G : MG α} {sep : SepSet α} (hG : G.Proper) (hn : G.nodes = O)
    (hr : D.Representing O r G) (hs : D.SmallestSep O r G sep.get) : SepOk D sep.get G := by
  classical
  refine ⟨fun a c => sep.get_comm a c, ?_⟩
  rw [hn]
  intro a ha c hc hne hna
  obtain ⟨S, s1, s2, s3, s4, s5, s6, s7⟩ := hs a ha c hc hne hna
  refine ⟨S, s1, s4, s5, s6, ?_, ?_⟩
  · have hT : ∀ x, x ∈ S.filter (fun x => D.Anc a c x) ↔ x ∈ S ∧ D.Anc a c x := fun x => by simp
    have h1 := s6.ancestors hac s4 s5 hT
    intro z hz
    refine Or.inl ?_
    by_contra hA
    refine s7 _ ((Finset.filter_subset _ S).trans s2) (Finset.card_lt_card ⟨Finset.filter_subset _ S, fun h => hA ?_⟩)
      (fun h => s4 ((hT _).mp h).1) (fun h => s5 ((hT _).mp h).1) h1
    exact ((hT z).mp (h hz)).2
  · intro u v huv _ _
    have hm := hG.mem_adj huv
    rw [hn] at hm
    refine (hr u hm.1 v hm.2 (hG.ne huv)).mp huv _ ?_ ?_ ?_ ?_
    · exact fun x hx => s2 (linkSet_spec.mp hx).1
    · exact (Finset.card_le_card fun x hx => (linkSet_spec.mp hx).1).trans s3
    · exact fun h => (linkSet_spec.mp h).2.2.1 rfl
    · exact fun h => (linkSet_spec.mp h).2.2.2 rfl

end Dag

namespace Fci

/-- The v-structures and any of the rules 1 to 9. -/
theorem orient_marks (hac : D.Acyclic) (o : SetOrder α) {sep : SepSet α} {G : MG α} (hG : G.Proper) (hT : ∀ m, m ∈ G.types)
    (hkey : ∀ i ∈ G.nodes, ∀ j ∈ G.nodes, i ≠ j → ∃ S, sep.get i j = .ok S) (hs : SepOk D sep.get G)
    (h1 : D.ArrowsTrue G) (h2 : D.TailsTrue G) {rules : List Nat} (hr : ∀ idx ∈ rules, idx ∈ allPagRules) (h10 : 10 ∉ rules) :
    ∃ G' H, G.pagVStructures o (some sep) = .ok G' ∧ MG.pagMaxOrient o sep rules G' = .ok H ∧ SameSkel H G ∧
      MarksOk D sep.get H := by
  obtain ⟨G', g1, g2, g3⟩ := pagVStructures_spec o sep hG hT hkey
  have hT' : ∀ m, m ∈ G'.types := by rw [g2.types]; exact hT
  obtain ⟨H, r1, r2, r3, -⟩ := pagMaxOrient_spec o sep hr g2.proper hT' (fun _ => by rw [g2.nodes]; exact hkey)
  exact ⟨G', H, g1, r1, g2.same.trans r2.same,
    ((marksOk_vs hac hs hG h1 h2 g3 g2).steps hac g2.proper hT' (hs.congr g2.nodes g2.adj) h10 r3).1⟩

theorem reorient_marks (hac : D.Acyclic) (o : SetOrder α) {sep : SepSet α} {G H : MG α} (hG : G.Proper) (ht : G.types = pagTypes)
    (hkey : ∀ i ∈ G.nodes, ∀ j ∈ G.nodes, i ≠ j → ∃ S, sep.get i j = .ok S) (hs : SepOk D sep.get G)
    (hrun : reorient o sep G = .ok H) : MarksOk D sep.get H ∧ SameSkel H G := by
  have hT : ∀ m, m ∈ G.types := by rw [ht]; exact pagTypes_all
  obtain ⟨G1, g1, g2, g3, g4⟩ := resetOrientations_spec o hG.type (S := G.nodes) (hT .circle)
  have hG1 := hG.resetOrientations o g1
  have hat : ∀ a b m, G1.At a b m ↔ G.MAdj a b ∧ m = .circle := by
    intro a b m
    rw [g4]
    by_cases h : G.MAdj a b
    · rw [if_pos ⟨(hG.mem_adj h).1, (hG.mem_adj h).2, hG.ne h, h⟩]; simp [h]
    · rw [if_neg (fun h' => h h'.2.2.2)]
      simp only [h, false_and, iff_false]
      exact fun h' => h (Or.inl ⟨_, h'⟩)
  have hadj1 : ∀ a b, G1.MAdj a b ↔ G.MAdj a b := by
    intro a b
    simp only [MAdj, hat, exists_and_left, exists_eq, and_true]
    exact ⟨fun h => h.elim id MAdj.symm, Or.inl⟩
  have hT1 : ∀ m, m ∈ G1.types := by rw [g3]; exact hT
  obtain ⟨G2, K, k1, k2, k3, k4⟩ := orient_marks hac o (rules := [1, 2, 3, 4]) hG1 hT1 (by rw [g2]; exact hkey) (hs.congr g2 hadj1)
    (fun a b h => by simp [hat] at h) (fun a b h => by simp [hat] at h) (by decide) (by decide)
  rw [reorient, py_bind g1, py_bind k1, k2] at hrun
  cases hrun
  exact ⟨k4, SameSkel.trans ⟨hG1, g2, g3, hadj1⟩ k3⟩

theorem finalRules_marks (hac : D.Acyclic) (o : SetOrder α) {sep : SepSet α} {G H : MG α} {selection : Bool} (hG : G.Proper)
    (ht : G.types = pagTypes) (hs : SepOk D sep.get G) (h : MarksOk D sep.get G) (hrun : finalRules o sep selection false G = .ok H) :
    MarksOk D sep.get H := by
  have hT : ∀ m, m ∈ G.types := by rw [ht]; exact pagTypes_all
  cases selection with
  | false =>
    cases hrun
    exact h
  | true =>
    obtain ⟨K, r1, r2, r3, -⟩ := pagMaxOrient_spec o sep (rules := [5, 6, 7]) (by decide) hG hT (by simp)
    have : finalRules o sep true false G = .ok K := by
      unfold finalRules
      simp only [if_true]
      rw [py_bind r1]
      rfl
    rw [this] at hrun
    cases hrun
    exact (h.steps hac hG hT hs (by decide) r3).1

/-- The tails written by rules 8 to 10 are opposite to arrowheads. -/
theorem finalRules_late (hac : D.Acyclic) (o : SetOrder α) {sep : SepSet α} {G H : MG α} {selection tails : Bool} (hG : G.Proper)
    (ht : G.types = pagTypes) (hs : SepOk D sep.get G) (h : MarksOk D sep.get G) (hrun : finalRules o sep selection tails G = .ok H) :
    ∀ a b, H.At a b .tail → D.DPath b a ∨ H.At b a .arrow := by
  have hT : ∀ m, m ∈ G.types := by rw [ht]; exact pagTypes_all
  obtain ⟨K, k1, k2, -⟩ := finalRules_spec o sep selection false hG ht
  have hK := finalRules_marks hac o hG ht hs h k1
  have hTK : ∀ m, m ∈ K.types := by rw [k2.types]; exact hT
  cases tails with
  | false =>
    rw [k1] at hrun
    cases hrun
    exact fun a b hab => Or.inl (hK.tails a b hab)
  | true =>
    obtain ⟨L, l1, -, l3, -⟩ := pagMaxOrient_spec o sep (rules := [8, 9, 10]) (by decide) k2.proper hTK (by simp)
    have hL : finalRules o sep selection true G = .ok L := by
      have q : (if selection then MG.pagMaxOrient o sep [5, 6, 7] G else pure G) = .ok K := by
        cases e : (if selection then MG.pagMaxOrient o sep [5, 6, 7] G else pure G) with
        | error x =>
          rw [finalRules, e] at k1
          cases k1
        | ok K' =>
          rw [finalRules, py_bind e] at k1
          exact k1
      rw [finalRules, py_bind q]
      exact l1
    obtain rfl : L = H := Except.ok.inj (hL.symm.trans hrun)
    have key : ∀ a b, L.At a b .tail → D.DPath b a ∨ K.At b a .arrow := by
      have hkeep : ∀ {L' : MG α}, PagSteps sep.get [8, 9, 10] K L' → ∀ a b, L'.At a b .arrow → K.At a b .arrow :=
        fun h => pagSteps_tails (by simp) h
      clear hL l1 hrun
      induction l3 with
      | refl => exact fun a b hab => Or.inl (hK.tails a b hab)
      | tail hst h ih =>
        intro a b hab
        obtain ⟨idx, hidx, h⟩ := h
        cases h with
        | r8 x y z _ _ _ h4 u =>
          rcases (u.marks _ _ _).mp hab with ⟨rfl, rfl, -⟩ | ⟨-, hab⟩
          · exact Or.inr (hkeep hst _ _ h4)
          · exact ih a b hab
        | r9 x y z d p _ h2 _ _ _ _ u =>
          rcases (u.marks _ _ _).mp hab with ⟨rfl, rfl, -⟩ | ⟨-, hab⟩
          · exact Or.inr (hkeep hst _ _ h2)
          · exact ih a b hab
        | r10 x z _ h2 _ u =>
          rcases (u.marks _ _ _).mp hab with ⟨rfl, rfl, -⟩ | ⟨-, hab⟩
          · exact Or.inr (hkeep hst _ _ h2)
          · exact ih a b hab
        | _ => simp at hidx
    exact fun a b hab => (key a b hab).imp_right fun h => pagSteps_keep (by simp) k2.proper hTK l3 b a h

end Fci

open Classical in
/-- The test that answers like `ci` for no conditioning node, and for one conditioning node if the pair is dependent without it. -/
noncomputable def Icd.needed (D : Dag α) (ci : CITest α) : CITest α := fun k i j z =>
  ci k i j z && decide (z = [] ∨ (z.length = 1 ∧ ¬ D.DSeparated i j ∅))

namespace Dag
variable {O : Finset α} {ci : CITest α}

/-- A recorded set of this test is a smallest one. -/
theorem smallest_of (hac : D.Acyclic) (hp : Pc.PerfectOn ci D O) {i j : α} (hi : i ∈ O) (hj : j ∈ O) (hij : i ≠ j) {S : Finset α}
    (h : Pc.Witness (Icd.needed D ci) O i j S) : S ⊆ O ∧ S.card ≤ 1 ∧ i ∉ S ∧ j ∉ S ∧ D.DSeparated i j S ∧
      ∀ T ⊆ O, T.card < S.card → i ∉ T → j ∉ T → ¬ D.DSeparated i j T := by
  obtain ⟨l, k, rfl, h1, h2, h3, h4⟩ := h
  have hl : (l = [] ∨ (l.length = 1 ∧ ¬ D.DSeparated i j ∅)) ∧ (ci k i j l = true ∨ ci k j i l = true) := by
    rcases h1 with h1 | h1 <;> simp only [Icd.needed, Bool.and_eq_true, decide_eq_true_eq] at h1
    · exact ⟨h1.2, Or.inl h1.1⟩
    · exact ⟨h1.2.imp_right fun h => ⟨h.1, fun h' => h.2 ((dseparated_symm hac).mp h')⟩, Or.inr h1.1⟩
  have hlen : l.length ≤ 1 := by
    rcases hl.1 with h | h
    · simp [h]
    · exact h.1.le
  refine ⟨fun x hx => h4 x (by simpa using hx), (List.toFinset_card_le l).trans hlen, by simpa using h2, by simpa using h3, ?_, ?_⟩
  · rcases hl.2 with h | h
    · exact (hp k i j l hi hj hij h2 h3 h4).mp h
    · exact (dseparated_symm hac).mpr ((hp k j i l hj hi hij.symm h3 h2 h4).mp h)
  · intro T _ hT _ _
    have hc := List.toFinset_card_le l
    obtain rfl : T = ∅ := Finset.card_eq_zero.mp (by omega)
    rcases hl.1 with h | h
    · subst h
      simp at hT
    · exact h.2

end Dag

namespace Icd
variable {O : Finset α} {ci : CITest α}

theorem testPair_needed {st : IcdState α} {i j : α} {zs : List (List α)}
    (h : ∀ z ∈ zs, z = [] ∨ (z.length = 1 ∧ ¬ D.DSeparated i j ∅)) :
    testPair (needed D ci) st i j zs = testPair ci st i j zs := by
  have : ∀ (zs : List (List α)) k, (∀ z ∈ zs, z = [] ∨ (z.length = 1 ∧ ¬ D.DSeparated i j ∅)) →
      Pc.firstIndep (needed D ci) i j zs k = Pc.firstIndep ci i j zs k := by
    intro zs
    induction zs with
    | nil => intro _ _; rfl
    | cons z zs ih =>
      intro k h
      rw [Pc.firstIndep, Pc.firstIndep, ih _ (fun w hw => h w (List.mem_cons_of_mem _ hw))]
      have := h z (by simp)
      simp [needed, this]
  unfold testPair
  rw [this zs _ h]

theorem baseStep0_needed (o : SetOrder α) (st : IcdState α) : baseStep0 o (needed D ci) st = baseStep0 o ci st := by
  unfold baseStep0
  simp only [testPair_needed (D := D) (ci := ci) (zs := [[]]) (by simp)]

/-- The first iteration writes true marks. -/
theorem baseStep0_marks (hac : D.Acyclic) (hp : Pc.PerfectOn ci D O) (o : SetOrder α) {st st' : IcdState α} (hcirc : ∀ a b m, st.graph.At a b m → m = .circle)
    (h : Fci.SkInv (needed D ci) O st.graph st.sep) (hrun : baseStep0 o ci st = .ok st')
    (hr : D.Representing O 0 st'.graph) (hs : ∀ a ∈ O, ∀ b ∈ O, a ≠ b → ¬ st'.graph.MAdj a b → ∀ S, st'.sep.get a b = .ok S → S.card ≤ 0) :
    MarksOk D st'.sep.get st'.graph := by
  rw [← baseStep0_needed (D := D)] at hrun
  have key : ∀ (l : List (α × α)) (s : IcdState α), Pass (needed D ci) O st s →
      Pass (needed D ci) O st (l.foldl (fun st ij => testPair (needed D ci) st ij.1 ij.2 [[]]) s) := by
    intro l
    induction l with
    | nil => exact fun s hs => hs
    | cons ij l ih => exact fun s hs => ih _ (testPair_spec hs (i := ij.1) (j := ij.2) (zs := [[]]) (by simp)).1
  have s2 := key (pairs (o.iter st.size st.graph.nodes)) st ⟨h, SubMarks.refl h.proper, rfl, rfl, rfl⟩
  generalize hs' : (pairs (o.iter st.size st.graph.nodes)).foldl (fun st ij => testPair (needed D ci) st ij.1 ij.2 [[]]) st = s at s2
  rw [baseStep0] at hrun
  simp only [hs'] at hrun
  obtain ⟨G1, g1, g2, -⟩ := pagVStructures_spec o s.sep s2.inv.proper s2.inv.all_types s2.inv.keyG
  have hi := s2.inv.same g2.same
  obtain ⟨G2, r1, r2, -⟩ := pagMaxOrient_spec o s.sep (rules := [1, 2, 3, 4]) (by decide) hi.proper hi.all_types (fun _ => hi.keyG)
  rw [py_bind g1, py_bind r1] at hrun
  cases hrun
  have hsk := g2.same.trans r2.same
  have circ : ∀ a b m, s.graph.At a b m → m = .circle := fun a b m h => hcirc a b m ((s2.sub.marks a b m).mp h).1
  have hok : SepOk D s.sep.get s.graph := by
    refine Dag.SmallestSep.sepOk hac (r := 0) s2.inv.proper s2.inv.nodes ?_ ?_
    · intro a ha b hb hab
      exact (hsk.adj a b).symm.trans (hr a ha b hb hab)
    · intro a ha c hc hne hn
      obtain ⟨S, s1, hS⟩ := s2.inv.witness a ha c hc hne hn
      obtain ⟨k1, k2, k3, k4, k5, k6⟩ := Dag.smallest_of hac hp ha hc hne hS
      exact ⟨S, s1, k1, hs a ha c hc hne (fun h => hn ((hsk.adj a c).mp h)) S s1, k3, k4, k5, k6⟩
  obtain ⟨G', H, v1, v2, -, v4⟩ := Fci.orient_marks hac o (rules := [1, 2, 3, 4]) s2.inv.proper s2.inv.all_types s2.inv.keyG hok
    (fun a b h => by have := circ a b _ h; simp at this) (fun a b h => by have := circ a b _ h; simp at this) (by decide) (by decide)
  rw [g1] at v1
  cases v1
  rw [r1] at v2
  cases v2
  exact v4

/-- The second iteration writes true arrowheads, and true tails without the tail rules. -/
theorem baseStep1_marks (hac : D.Acyclic) (hp : Pc.PerfectOn ci D O) (o : SetOrder α) {opts : IcdOpts} {st st' : IcdState α} {d : Bool}
    (h : Fci.SkInv (needed D ci) O st.graph st.sep) (h0 : ∀ a b, st.graph.MAdj a b → ¬ D.DSeparated a b ∅)
    (hrun : baseStep1 o ci opts st = .ok (st', d)) (hr : D.Representing O 1 st'.graph) :
    D.ArrowsTrue st'.graph ∧ (opts.tails = false → D.TailsTrue st'.graph) ∧
      ∀ a b, st'.graph.At a b .tail → D.DPath b a ∨ st'.graph.At b a .arrow := by
  obtain ⟨s, d', s1, s2, -, -, -⟩ := pass_spec h 1 (fun _ _ _ _ => True)
    (fun (acc : IcdState α × Bool) ij => do
      if !(← acc.1.graph.isConnected ij.1 ij.2) then return acc
      let zs := condSets1 o acc.1.graph ij.1 ij.2
      return (testPair ci acc.1 ij.1 ij.2 zs, acc.2 && zs.isEmpty))
    (pairs (o.iter st.size st.graph.nodes)) (by
      intro s b i j hij hs
      have hne := mem_pairs_ne (o.nodup _ _) hij
      obtain ⟨c, p1, p2⟩ := proper_isConnected hs.inv.proper.type hne
      refine ⟨fun hadj => ?_, fun hadj => ?_⟩
      · cases c with
        | true => exact absurd (p2.mp rfl) hadj
        | false => rw [py_bind p1]; rfl
      · cases c with
        | false => exact absurd (p2.mpr hadj) (by simp)
        | true =>
          have hsingle : ∀ z ∈ condSets1 o s.graph i j, ∃ v, z = [v] := fun z hz =>
            (((mem_condSets1 o hs.inv.proper).mp hz).imp fun v hv => hv.1)
          refine ⟨condSets1 o s.graph i j, ?_, ?_, trivial⟩
          · rw [testPair_needed (D := D) (ci := ci) (fun z hz => ?_), py_bind p1]
            · rfl
            · obtain ⟨v, rfl⟩ := hsingle z hz
              exact Or.inr ⟨rfl, h0 i j (hs.sub.adj hadj)⟩
          · intro z hz
            obtain ⟨v, rfl, hv⟩ := (mem_condSets1 o hs.inv.proper).mp hz
            simp only [List.mem_singleton, forall_eq, List.nodup_singleton, List.length_singleton, and_true]
            rcases hv with ⟨h1, h2⟩ | ⟨h1, h2⟩
            · exact ⟨hs.inv.proper.ne h1, fun e => h2 e.symm, hs.inv.nodes ▸ (hs.inv.proper.mem_adj h1).2⟩
            · exact ⟨fun e => h2 e.symm, hs.inv.proper.ne h1, hs.inv.nodes ▸ (hs.inv.proper.mem_adj h1).2⟩)
  obtain ⟨H, k1, k2, -⟩ := reorient_snd o s2.inv opts.tails
  obtain ⟨K, l1, l2, l3, -⟩ := Fci.finalRules_spec o s.sep opts.selection opts.tails k2.proper (k2.types.trans s2.inv.types)
  have e : st' = { s with graph := K } := by
    rw [baseStep1, py_bind s1] at hrun
    simp only at hrun
    rw [py_bind k1, py_bind l1] at hrun
    have := Except.ok.inj hrun
    exact (congrArg Prod.fst this).symm
  subst e
  have hsk := k2.trans l2
  have hok : SepOk D s.sep.get s.graph := by
    refine Dag.SmallestSep.sepOk hac (r := 1) s2.inv.proper s2.inv.nodes ?_ ?_
    · intro a ha b hb hab
      exact (hsk.adj a b).symm.trans (hr a ha b hb hab)
    · intro a ha c hc hne hn
      obtain ⟨S, s1, hS⟩ := s2.inv.witness a ha c hc hne hn
      exact ⟨S, s1, Dag.smallest_of hac hp ha hc hne hS⟩
  have hm := (Fci.reorient_marks hac o s2.inv.proper s2.inv.types s2.inv.keyG hok k1).1
  refine ⟨fun a b hab => hm.arrows a b ((l3 a b).mp hab), fun ht => ?_,
    Fci.finalRules_late hac o k2.proper (k2.types.trans s2.inv.types) (hok.congr k2.nodes k2.adj) hm l1⟩
  rw [ht] at l1
  exact (Fci.finalRules_marks hac o k2.proper (k2.types.trans s2.inv.types) (hok.congr k2.nodes k2.adj) hm l1).tails

end Icd

namespace Dag
variable {O : Finset α} {ci : CITest α}

/-- The marks after the first two iterations. -/
theorem icd_marks (o : SetOrder α) (opts : IcdOpts) (hac : D.Acyclic) (hp : Pc.PerfectOn ci D O) {st1 st2 : IcdState α} {d1 d : Bool}
    {r1 r2 : Nat} (h1 : Icd.iteration o ci opts (Icd.init o O) = .ok (st1, d1, r1)) (h2 : Icd.iteration o ci opts st1 = .ok (st2, d, r2)) :
    (D.ArrowsTrue st1.graph ∧ D.TailsTrue st1.graph) ∧ D.ArrowsTrue st2.graph ∧ (opts.tails = false → D.TailsTrue st2.graph) ∧
      ∀ a b, st2.graph.At a b .tail → D.DPath b a ∨ st2.graph.At b a .arrow := by
  obtain ⟨s1, s2, e, a1, a2, a3, a4⟩ := icd_one o opts hac hp
  rw [h1] at a1
  simp only [Except.ok.injEq, Prod.mk.injEq] at a1
  obtain ⟨rfl, rfl, rfl⟩ := a1
  rw [h2] at a2
  simp only [Except.ok.injEq, Prod.mk.injEq] at a2
  obtain ⟨rfl, rfl, rfl⟩ := a2
  -- the first iteration with the other tests
  have step0 : ∀ ci' : CITest α, Icd.baseStep0 o ci' (Icd.init o O) = Icd.baseStep0 o ci (Icd.init o O) →
      Icd.iteration o ci' opts (Icd.init o O) = .ok (st1, false, 0) := by
    intro ci' he
    rw [← h1]
    unfold Icd.iteration Icd.step
    have hs : (Icd.init o O).size = 0 := rfl
    rw [hs]
    simp only [if_true]
    rw [he]
  obtain ⟨_, _, b1, b2, b3, b4, -⟩ := Icd.iteration_spec o opts (Icd.init_inv o (Icd.needed D ci) O) rfl
  rw [step0 _ (Icd.baseStep0_needed o _)] at b1
  cases b1
  obtain ⟨_, _, c1, c2, c3, c4, -⟩ := Icd.iteration_spec o opts (Icd.init_inv o (Icd.capped ci 0) O) rfl
  rw [step0 _ (Icd.baseStep0_capped o ci 0 _)] at c1
  cases c1
  obtain ⟨s0, E, k1, k2, k3, k4, k5, k6⟩ := Icd.baseStep0_spec o (Icd.init_inv o ci O)
  have e1 : s0.graph = st1.graph ∧ s0.sep = st1.sep := by
    have : Icd.step o ci opts (Icd.init o O) = .ok (s0, false) := by
      have hs : (Icd.init o O).size = 0 := rfl
      unfold Icd.step
      rw [hs]
      simp only [if_true]
      rw [py_bind k1]
      rfl
    have hd : (Icd.init o O).done = false := rfl
    rw [Icd.iteration, hd] at h1
    simp only [Bool.false_eq_true, if_false] at h1
    rw [py_bind this] at h1
    have := Except.ok.inj h1
    exact ⟨congrArg (fun x => x.1.graph) this, congrArg (fun x => x.1.sep) this⟩
  have m0 := Icd.baseStep0_marks hac hp o (fun a b m h => (complete_at.mp h).2.2.2) (Icd.init_inv o (Icd.needed D ci) O) k1 (by rw [e1.1]; exact a3) (by
    intro a ha b hb hab hn S hS
    rw [e1.1] at hn
    rw [e1.2] at hS
    obtain ⟨T, t1, t2⟩ := c4.witness a ha b hb hab hn
    rw [hS] at t1
    cases t1
    exact (small_of hac hp ha hb hab t2).2.1)
  rw [e1.1] at m0
  refine ⟨⟨m0.arrows, m0.tails⟩, ?_⟩
  have hrun : ∃ st2' d', Icd.baseStep1 o ci opts st1 = .ok (st2', d') ∧ st2'.graph = st2.graph := by
    have c3' : st1.size = 1 := c3
    obtain ⟨s, e, c1, -⟩ := Icd.baseStep1_spec (ci := ci) o opts
      (by obtain ⟨_, _, q1, -, -, q4, -⟩ := Icd.iteration_spec o opts (Icd.init_inv o ci O) rfl
          rw [h1] at q1
          cases q1
          exact q4) c3
    refine ⟨s, e, c1, ?_⟩
    have : Icd.step o ci opts st1 = .ok (s, e) := by
      unfold Icd.step
      rw [c3']
      simpa using c1
    rw [Icd.iteration, c2] at h2
    simp only [Bool.false_eq_true, if_false] at h2
    rw [py_bind this] at h2
    have := Except.ok.inj h2
    exact congrArg (fun x => x.1.graph) this
  obtain ⟨st2', d', q1, q2⟩ := hrun
  have := Icd.baseStep1_marks hac hp o b4 (fun a b hab => ?_) q1 (by rw [q2]; exact a4)
  · rwa [q2] at this
  · have hm := b4.proper.mem_adj hab
    rw [b4.nodes] at hm
    exact (a3 a hm.1 b hm.2 (b4.proper.ne hab)).mp hab ∅ (by simp) (by simp) (by simp) (by simp)

end Dag
end Verif
