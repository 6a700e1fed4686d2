import Verif.Lemmas.AnytimeRun
import Verif.Lemmas.PagKeep

/-!
# One iteration of ICD, seen with a test that only accepts smallest separating sets

In an iteration that tests conditioning sets of `n` nodes for pairs that no smaller set separates, every recorded set is a smallest one.
-/

namespace Verif
open Relation MG
variable {α : Type} [LinearOrder α]
namespace Icd
open SepSet (hkey)

theorem testPair_congr {ci ci' : CITest α} {st : IcdState α} {i j : α} {zs : List (List α)} (h : ∀ z ∈ zs, ∀ k, ci k i j z = ci' k i j z) :
    testPair ci st i j zs = testPair ci' st i j zs := by
  have : ∀ (zs : List (List α)) k, (∀ z ∈ zs, ∀ k, ci k i j z = ci' k i j z) → Pc.firstIndep ci i j zs k = Pc.firstIndep ci' i j zs k := by
    intro zs
    induction zs with
    | nil => intro _ _; rfl
    | cons z zs ih =>
      intro k h
      rw [Pc.firstIndep, Pc.firstIndep, ih _ (fun w hw => h w (List.mem_cons_of_mem _ hw)), h z (by simp)]
  unfold testPair
  rw [this zs _ h]

/-- How the marks of the graph `G` after an iteration come from the graph `E` after its tests. -/
inductive Out (o : SetOrder α) (opts : IcdOpts) (sep : SepSet α) (E G : MG α) : Prop
  | first (H : MG α) : E.pagVStructures o (some sep) = .ok H → MG.pagMaxOrient o sep [1, 2, 3, 4] H = .ok G → Out o opts sep E G
  | second (H : MG α) : Fci.reorient o sep E = .ok H → Fci.finalRules o sep opts.selection opts.tails H = .ok G → Out o opts sep E G
  | next : Fci.reorient o sep E = .ok G → Out o opts sep E G
  | last : Fci.finalRules o sep opts.selection opts.tails E = .ok G → Out o opts sep E G

/-- The tests `ci` and `ci'` give the same answers for the adjacent pairs of `G` and `n` conditioning nodes. -/
def AgreeAt (ci ci' : CITest α) (N : Finset α) (G : MG α) (n : Nat) : Prop :=
  (∀ k i j, ci k i j [] = ci' k i j []) ∧
  ∀ i j, G.MAdj i j → ∀ k z, i ∉ z → j ∉ z → (∀ v ∈ z, v ∈ N) → z.length = n → ci k i j z = ci' k i j z

variable {ci ci' : CITest α} {N : Finset α}

theorem baseStep0_out (o : SetOrder α) (opts : IcdOpts) {st st' : IcdState α} (h : Fci.SkInv ci' N st.graph st.sep)
    (ha : AgreeAt ci ci' N st.graph st.size) (hrun : baseStep0 o ci st = .ok st') :
    ∃ E, SubMarks E st.graph ∧ Fci.SkInv ci' N E st'.sep ∧ SameSkel st'.graph E ∧ Out o opts st'.sep E st'.graph := by
  have key : ∀ (l : List (α × α)) (s : IcdState α), Pass ci' N st s →
      Pass ci' N st (l.foldl (fun st ij => testPair ci st ij.1 ij.2 [[]]) s) := by
    intro l
    induction l with
    | nil => exact fun s hs => hs
    | cons ij l ih =>
      intro s hs
      refine ih _ ?_
      change Pass ci' N st (testPair ci s ij.1 ij.2 [[]])
      rw [testPair_congr (ci := ci) (ci' := ci') (i := ij.1) (j := ij.2) (zs := [[]]) (by simpa using fun k => ha.1 k ij.1 ij.2)]
      exact (testPair_spec hs (i := ij.1) (j := ij.2) (zs := [[]]) (by simp)).1
  have s2 := key (pairs (o.iter st.size st.graph.nodes)) st ⟨h, SubMarks.refl h.proper, rfl, rfl, rfl⟩
  generalize hs' : (pairs (o.iter st.size st.graph.nodes)).foldl (fun st ij => testPair ci st ij.1 ij.2 [[]]) st = s at s2
  rw [baseStep0] at hrun
  simp only [hs'] at hrun
  obtain ⟨G1, g1, g2, -⟩ := pagVStructures_spec o s.sep s2.inv.proper s2.inv.all_types s2.inv.keyG
  have hi := s2.inv.same g2.same
  obtain ⟨G2, r1, r2, -⟩ := pagMaxOrient_spec o s.sep (rules := [1, 2, 3, 4]) (by decide) hi.proper hi.all_types (fun _ => hi.keyG)
  rw [py_bind g1, py_bind r1] at hrun
  cases hrun
  exact ⟨s.graph, s2.sub, s2.inv, g2.same.trans r2.same, .first G1 g1 r1⟩

theorem baseStep1_out (o : SetOrder α) (opts : IcdOpts) {st st' : IcdState α} {d : Bool} (h : Fci.SkInv ci' N st.graph st.sep)
    (h1 : st.size = 1) (ha : AgreeAt ci ci' N st.graph st.size) (hrun : baseStep1 o ci opts st = .ok (st', d)) :
    ∃ E, SubMarks E st.graph ∧ Fci.SkInv ci' N E st'.sep ∧ SameSkel st'.graph E ∧ Out o opts st'.sep E st'.graph := by
  obtain ⟨s, d', s1, s2, -, -, -⟩ := pass_spec h 1 (fun _ _ _ _ => True)
    (fun (acc : IcdState α × Bool) ij => do
      if !(← acc.1.graph.isConnected ij.1 ij.2) then return acc
      let zs := condSets1 o acc.1.graph ij.1 ij.2
      return (testPair ci acc.1 ij.1 ij.2 zs, acc.2 && zs.isEmpty))
    (pairs (o.iter st.size st.graph.nodes)) (by
      intro s b i j hij hs
      have hne := mem_pairs_ne (o.nodup _ _) hij
      obtain ⟨c, p1, p2⟩ := proper_isConnected hs.inv.proper.type hne
      refine ⟨fun hadj => ?_, fun hadj => ?_⟩
      · cases c with
        | true => exact absurd (p2.mp rfl) hadj
        | false => rw [py_bind p1]; rfl
      · cases c with
        | false => exact absurd (p2.mpr hadj) (by simp)
        | true =>
          have hz : ∀ z ∈ condSets1 o s.graph i j, i ∉ z ∧ j ∉ z ∧ (∀ v ∈ z, v ∈ N) ∧ z.Nodup ∧ z.length = 1 := by
            intro z hz
            obtain ⟨v, rfl, hv⟩ := (mem_condSets1 o hs.inv.proper).mp hz
            simp only [List.mem_singleton, forall_eq, List.nodup_singleton, List.length_singleton, and_true]
            rcases hv with ⟨h1, h2⟩ | ⟨h1, h2⟩
            · exact ⟨hs.inv.proper.ne h1, fun e => h2 e.symm, hs.inv.nodes ▸ (hs.inv.proper.mem_adj h1).2⟩
            · exact ⟨fun e => h2 e.symm, hs.inv.proper.ne h1, hs.inv.nodes ▸ (hs.inv.proper.mem_adj h1).2⟩
          refine ⟨condSets1 o s.graph i j, ?_, hz, trivial⟩
          rw [← testPair_congr (ci := ci) fun z hz' k => ha.2 i j (hs.sub.adj hadj) k z (hz z hz').1 (hz z hz').2.1 (hz z hz').2.2.1
            ((hz z hz').2.2.2.2.trans h1.symm), py_bind p1]
          rfl)
  obtain ⟨H, k1, k2, -⟩ := reorient_snd o s2.inv opts.tails
  obtain ⟨K, l1, l2, l3, -⟩ := Fci.finalRules_spec o s.sep opts.selection opts.tails k2.proper (k2.types.trans s2.inv.types)
  have e : st' = { s with graph := K } := by
    rw [baseStep1, py_bind s1] at hrun
    simp only at hrun
    rw [py_bind k1, py_bind l1] at hrun
    have := Except.ok.inj hrun
    exact (congrArg Prod.fst this).symm
  subst e
  exact ⟨s.graph, s2.sub, s2.inv, k2.trans l2, .second H k1 l1⟩

theorem incrementalStep_out (o : SetOrder α) (opts : IcdOpts) {st st' : IcdState α} {d : Bool} (h : Fci.SkInv ci' N st.graph st.sep)
    (hpre : opts.preCalc = true → ∀ i j, st.graph.MAdj i j → ∃ L, Dict.get? st.cond (hkey i j) = some L ∧
      (∀ c ∈ L, st.graph.IcdSep i j st.size c.1) ∧ ∀ T, st.graph.IcdNbr i j st.size T → ∃ c ∈ L, c.1 = T)
    (ha : AgreeAt ci ci' N st.graph st.size) (hrun : incrementalStep o ci opts st = .ok (st', d)) :
    ∃ E, SubMarks E st.graph ∧ Fci.SkInv ci' N E st'.sep ∧ SameSkel st'.graph E ∧ Out o opts st'.sep E st'.graph := by
  obtain ⟨s, d', s1, s2, -, -, -⟩ := pass_spec h st.size (fun _ _ _ _ => True)
    (fun (acc : IcdState α × Bool) ij => do
      if !(← acc.1.graph.isConnected ij.1 ij.2) then return acc
      let conds ← (if opts.preCalc then Dict.get acc.1.cond (hkey ij.1 ij.2)
        else rangeSets o acc.1.graph ij.1 ij.2 acc.1.size)
      return (testPair ci acc.1 ij.1 ij.2 (conds.map (fun c => o.iter (ij.1, ij.2) c.1)), acc.2 && conds.isEmpty))
    (pairs (o.iter st.size st.graph.nodes)) (by
      intro s b i j hij hs
      have hne := mem_pairs_ne (o.nodup _ _) hij
      obtain ⟨c, p1, p2⟩ := proper_isConnected hs.inv.proper.type hne
      refine ⟨fun hadj => ?_, fun hadj => ?_⟩
      · cases c with
        | true => exact absurd (p2.mp rfl) hadj
        | false => rw [py_bind p1]; rfl
      · cases c with
        | false => exact absurd (p2.mpr hadj) (by simp)
        | true =>
          have hm := hs.inv.proper.mem_adj hadj
          have hL : ∃ L, (if opts.preCalc then Dict.get s.cond (hkey i j) else rangeSets o s.graph i j s.size) = .ok L ∧
              ∀ c ∈ L, ∃ E : MG α, E.nodes = N ∧ E.IcdSep i j st.size c.1 := by
            cases hp : opts.preCalc with
            | true =>
              obtain ⟨L, l1, l2, l3⟩ := hpre hp i j (hs.sub.adj hadj)
              refine ⟨L, ?_, fun c hc => ⟨st.graph, h.nodes, l2 c hc⟩⟩
              simp only [if_true]
              rw [hs.cond]
              exact Dict.get_eq_ok.mpr l1
            | false =>
              obtain ⟨L, l1, -, l3, l4⟩ := rangeSets_spec o hs.inv.proper hm.1 hm.2 st.size
              refine ⟨L, ?_, fun c hc => ⟨s.graph, hs.inv.nodes, l3 c hc⟩⟩
              simp only [Bool.false_eq_true, if_false]
              rw [hs.size]
              exact l1
          obtain ⟨L, l1, l2⟩ := hL
          have hz : ∀ z ∈ L.map (fun c => o.iter (i, j) c.1), i ∉ z ∧ j ∉ z ∧ (∀ v ∈ z, v ∈ N) ∧ z.Nodup ∧ z.length = st.size := by
            intro z hz
            obtain ⟨c, hc, rfl⟩ := List.mem_map.mp hz
            obtain ⟨E, e1, e2⟩ := l2 c hc
            refine ⟨fun h => e2.left ((o.mem _ _ _).mp h), fun h => e2.right ((o.mem _ _ _).mp h),
              fun v hv => e1 ▸ e2.mem ((o.mem _ _ _).mp hv), o.nodup _ _, ?_⟩
            rw [← e2.size, ← List.toFinset_card_of_nodup (o.nodup (i, j) c.1)]
            congr 1
            ext v
            rw [List.mem_toFinset, o.mem]
          refine ⟨L.map (fun c => o.iter (i, j) c.1), ?_, hz, trivial⟩
          rw [← testPair_congr (ci := ci) fun z hz' k => ha.2 i j (hs.sub.adj hadj) k z (hz z hz').1 (hz z hz').2.1 (hz z hz').2.2.1
            (hz z hz').2.2.2.2, py_bind p1]
          simp only [Bool.not_true, Bool.false_eq_true, if_false]
          rw [py_bind l1]
          cases L <;> rfl)
  rw [incrementalStep, py_bind s1] at hrun
  simp only at hrun
  cases d' with
  | true =>
    obtain ⟨K, l1, l2, l3, l4⟩ := Fci.finalRules_spec o s.sep opts.selection opts.tails s2.inv.proper s2.inv.types
    simp only [if_true] at hrun
    rw [py_bind l1] at hrun
    obtain rfl : { s with graph := K } = st' := congrArg Prod.fst (Except.ok.inj hrun)
    exact ⟨s.graph, s2.sub, s2.inv, l2, .last l1⟩
  | false =>
    obtain ⟨H, k1, k2, k3, -⟩ := reorient_snd o s2.inv opts.tails
    simp only [Bool.false_eq_true, if_false] at hrun
    rw [py_bind k1] at hrun
    obtain rfl : { s with graph := H } = st' := congrArg Prod.fst (Except.ok.inj hrun)
    exact ⟨s.graph, s2.sub, s2.inv, k2, .next k1⟩

/-- An iteration with the test `ci` keeps what is known about the recorded sets in terms of a test that gives the same answers. -/
theorem iteration_out (o : SetOrder α) (opts : IcdOpts) {st st' : IcdState α} {d : Bool} {r : Nat} (h : Fci.SkInv ci' N st.graph st.sep)
    (ha : AgreeAt ci ci' N st.graph st.size) (hrun : iteration o ci opts st = .ok (st', d, r)) :
    ∃ E, SubMarks E st.graph ∧ Fci.SkInv ci' N E st'.sep ∧ SameSkel st'.graph E ∧ Out o opts st'.sep E st'.graph := by
  have hd : st.done = false := by
    cases hd : st.done with
    | false => rfl
    | true => rw [iteration, hd] at hrun; cases hrun
  rw [iteration, hd] at hrun
  simp only [Bool.false_eq_true, if_false] at hrun
  obtain ⟨⟨s, e⟩, s1, hrun⟩ := py_bind_ok hrun
  simp only at hrun
  have he := Except.ok.inj hrun
  simp only [Prod.mk.injEq] at he
  obtain ⟨rfl, -, -⟩ := he
  change ∃ E, SubMarks E st.graph ∧ Fci.SkInv ci' N E s.sep ∧ SameSkel s.graph E ∧ Out o opts s.sep E s.graph
  rw [step] at s1
  by_cases h0 : st.size = 0
  · rw [if_pos h0] at s1
    obtain ⟨s', e1, e2⟩ := py_bind_ok s1
    cases e2
    exact baseStep0_out o opts h ha e1
  rw [if_neg h0] at s1
  by_cases h1 : st.size = 1
  · rw [if_pos h1] at s1
    exact baseStep1_out o opts h h1 ha s1
  rw [if_neg h1] at s1
  cases hp : opts.preCalc with
  | true =>
    obtain ⟨c, c1, c2⟩ := preCalc_spec o h
    rw [hp] at s1
    simp only [if_true] at s1
    rw [py_bind c1] at s1
    exact incrementalStep_out o opts (st := { st with cond := c }) h (fun _ => c2) ha s1
  | false =>
    rw [hp] at s1
    exact incrementalStep_out o opts h (by simp [hp]) ha s1

/-- Without edges to orient, nothing is oriented. -/
theorem Out.plain {D : Dag α} (hac : D.Acyclic) {o : SetOrder α} {opts : IcdOpts} {sep : SepSet α} {E G : MG α} (h : Out o opts sep E G)
    (hE : Fci.SkInv ci' N E sep) (hs : SepOk D sep.get E) (hp : ∀ a b m, E.At a b m → m = .circle)
    (hv : ∀ a b c, ¬ VTriple sep.get E a b c) : ∀ a b m, G.At a b m → m = .circle := by
  -- no rule applies
  have hst : ∀ {rules : List Nat} {F H : MG α}, SameSkel F E → (∀ a b m, F.At a b m → m = .circle) → PagSteps sep.get rules F H → H = F := by
    intro rules F H hF hpF hr
    rcases ReflTransGen.cases_head hr with e | ⟨K, ⟨idx, -, hst⟩, -⟩
    · exact e.symm
    exfalso
    have hvF : ∀ a b c, ¬ VTriple sep.get F a b c := fun a b c ⟨k1, k2, k3, k4, k5⟩ =>
      hv a b c ⟨k1, (hF.adj _ _).mp k2, (hF.adj _ _).mp k3, fun h => k4 ((hF.adj _ _).mpr h), k5⟩
    have hm : MarksOk D sep.get F := ⟨fun a b h => by simpa using hpF a b _ h, fun a b h => by simpa using hpF a b _ h,
      fun a b c h => absurd h (hvF a b c)⟩
    cases hst with
    | r1 a b c h1 => simpa using hpF _ _ _ h1
    | r2 a b c h1 => simpa using hpF _ _ _ h1
    | r3 a b c d _ h1 => simpa using hpF _ _ _ h1
    | r4in a b c d l S _ _ h1 => simpa using hpF _ _ _ h1
    | r4out a b c d l S _ _ h1 => simpa using hpF _ _ _ h1
    | r5 a b na nb p h1 h2 h3 h4 h5 u => exact hm.no_r5 hac hF.proper (hs.congr hF.nodes hF.adj) h1 h2 h3 h4 h5
    | r6 a b c h1 => simpa using hpF _ _ _ h1
    | r7 a b c _ h1 => simpa using hpF _ _ _ h1
    | r8 a b c h1 => simpa using hpF _ _ _ h1
    | r9 a b c d p _ h1 => simpa using hpF _ _ _ h1
    | r10 a c _ h1 => simpa using hpF _ _ _ h1
  have hmax : ∀ {rules : List Nat} {F H : MG α}, SameSkel F E → (∀ a b m, F.At a b m → m = .circle) → (∀ idx ∈ rules, idx ∈ allPagRules) →
      MG.pagMaxOrient o sep rules F = .ok H → H = F := by
    intro rules F H hF hpF hr hrun
    have hi := hE.same hF
    obtain ⟨H', r1, -, r3, -⟩ := pagMaxOrient_spec o sep hr hi.proper hi.all_types (fun _ => hi.keyG)
    rw [hrun] at r1
    cases r1
    exact hst hF hpF r3
  have hvs : ∀ {F H : MG α}, SameSkel F E → (∀ a b m, F.At a b m → m = .circle) → F.pagVStructures o (some sep) = .ok H →
      SameSkel H E ∧ ∀ a b m, H.At a b m → m = .circle := by
    intro F H hF hpF hrun
    have hi := hE.same hF
    obtain ⟨H', g1, g2, g3⟩ := pagVStructures_spec o sep hi.proper hi.all_types hi.keyG
    rw [hrun] at g1
    cases g1
    refine ⟨hF.trans g2.same, fun a b m h => ?_⟩
    rcases (g3.marks a b m).mp h with ⟨-, w, k1, k2, k3, k4, k5⟩ | ⟨-, h'⟩
    · exact absurd ⟨k1, (hF.adj _ _).mp k2, (hF.adj _ _).mp k3, fun h => k4 ((hF.adj _ _).mpr h), k5⟩ (hv a b w)
    · exact hpF a b m h'
  have hre : ∀ {H : MG α}, Fci.reorient o sep E = .ok H → SameSkel H E ∧ ∀ a b m, H.At a b m → m = .circle := by
    intro H hrun
    obtain ⟨G1, g1, g2, g3, g4⟩ := resetOrientations_spec o hE.proper.type (S := E.nodes) (hE.all_types .circle)
    have hG1 := hE.proper.resetOrientations o g1
    have hat : ∀ a b m, G1.At a b m ↔ E.MAdj a b ∧ m = .circle := by
      intro a b m
      rw [g4]
      by_cases h : E.MAdj a b
      · rw [if_pos ⟨(hE.proper.mem_adj h).1, (hE.proper.mem_adj h).2, hE.proper.ne h, h⟩]; simp [h]
      · rw [if_neg (fun h' => h h'.2.2.2)]
        simp only [h, false_and, iff_false]
        exact fun h' => h (Or.inl ⟨_, h'⟩)
    have hsk : SameSkel G1 E := ⟨hG1, g2, g3, fun a b => by
      simp only [MAdj, hat, exists_and_left, exists_eq, and_true]
      exact ⟨fun h => h.elim id MAdj.symm, Or.inl⟩⟩
    rw [Fci.reorient, py_bind g1] at hrun
    obtain ⟨G2, e1, e2⟩ := py_bind_ok hrun
    obtain ⟨v1, v2⟩ := hvs hsk (fun a b m h => ((hat a b m).mp h).2) e1
    obtain rfl := hmax v1 v2 (by decide) e2
    exact ⟨v1, v2⟩
  have hfin : ∀ {F H : MG α}, SameSkel F E → (∀ a b m, F.At a b m → m = .circle) →
      Fci.finalRules o sep opts.selection opts.tails F = .ok H → ∀ a b m, H.At a b m → m = .circle := by
    intro F H hF hpF hrun
    rw [Fci.finalRules] at hrun
    obtain ⟨F', e1, e2⟩ := py_bind_ok hrun
    have h1 : F' = F := by
      cases hsel : opts.selection with
      | true =>
        rw [hsel] at e1
        exact hmax hF hpF (by decide) e1
      | false =>
        rw [hsel] at e1
        cases e1
        rfl
    subst h1
    cases ht : opts.tails with
    | true =>
      rw [ht] at e2
      obtain rfl := hmax hF hpF (by decide) e2
      exact hpF
    | false =>
      rw [ht] at e2
      cases e2
      exact hpF
  have hrefl : SameSkel E E := ⟨hE.proper, rfl, rfl, fun _ _ => Iff.rfl⟩
  cases h with
  | first H h1 h2 =>
    obtain ⟨v1, v2⟩ := hvs hrefl hp h1
    obtain rfl := hmax v1 v2 (by decide) h2
    exact v2
  | second H h1 h2 =>
    obtain ⟨v1, v2⟩ := hre h1
    exact hfin v1 v2 h2
  | next h1 => exact (hre h1).2
  | last h1 => exact hfin hrefl hp h1

open Classical in
/-- The test that answers like `ci` for at most `r` conditioning nodes if no smaller set separates the pair. -/
noncomputable def least (D : Dag α) (O : Finset α) (ci : CITest α) (r : Nat) : CITest α := fun k i j z =>
  ci k i j z && decide (z.length ≤ r ∧ ∀ T ⊆ O, T.card < z.length → i ∉ T → j ∉ T → ¬ D.DSeparated i j T)

theorem least_agree {D : Dag α} {O : Finset α} {G : MG α} {n r : Nat} (hr : n ≤ r)
    (hG : ∀ i j, G.MAdj i j → ∀ T ⊆ O, T.card < n → i ∉ T → j ∉ T → ¬ D.DSeparated i j T) : AgreeAt ci (least D O ci r) O G n := by
  refine ⟨fun k i j => by simp [least], fun i j hij k z _ _ _ hz => ?_⟩
  have : z.length ≤ r ∧ ∀ T ⊆ O, T.card < z.length → i ∉ T → j ∉ T → ¬ D.DSeparated i j T := ⟨hz.le.trans hr, hz ▸ hG i j hij⟩
  unfold least
  cases ci k i j z with
  | false => rfl
  | true =>
    symm
    simp only [Bool.true_and, decide_eq_true_eq]
    exact this

theorem least_witness {D : Dag α} (hac : D.Acyclic) {O : Finset α} (hp : Pc.PerfectOn ci D O) {r : Nat} {i j : α} (hi : i ∈ O) (hj : j ∈ O)
    (hij : i ≠ j) {S : Finset α} (h : Pc.Witness (least D O ci r) O i j S) : S ⊆ O ∧ S.card ≤ r ∧ i ∉ S ∧ j ∉ S ∧ D.DSeparated i j S ∧
      ∀ T ⊆ O, T.card < S.card → i ∉ T → j ∉ T → ¬ D.DSeparated i j T := by
  obtain ⟨l, k, rfl, h1, h2, h3, h4⟩ := h
  have hl : (l.length ≤ r ∧ ∀ T ⊆ O, T.card < l.length → i ∉ T → j ∉ T → ¬ D.DSeparated i j T) ∧ (ci k i j l = true ∨ ci k j i l = true) := by
    rcases h1 with h1 | h1 <;> simp only [least, Bool.and_eq_true, decide_eq_true_eq] at h1
    · exact ⟨h1.2, Or.inl h1.1⟩
    · exact ⟨⟨h1.2.1, fun T hT hc hi hj hs => h1.2.2 T hT hc hj hi ((Dag.dseparated_symm hac).mp hs)⟩, Or.inr h1.1⟩
  have hc := List.toFinset_card_le l
  refine ⟨fun x hx => h4 x (by simpa using hx), hc.trans hl.1.1, by simpa using h2, by simpa using h3, ?_,
    fun T hT hlt => hl.1.2 T hT (hlt.trans_le hc)⟩
  rcases hl.2 with h | h
  · exact (hp k i j l hi hj hij h2 h3 h4).mp h
  · exact (Dag.dseparated_symm hac).mpr ((hp k j i l hj hi hij.symm h3 h2 h4).mp h)

end Icd
end Verif
