import Verif.Lemmas.PcCount
import Verif.Lemmas.FciSound
import Verif.Spec.Minimal

/-!
# The separating sets recorded by PC and FCI are minimal
-/

namespace Verif
variable {α : Type} [LinearOrder α] {ci : CITest α} {N : Finset α}

namespace Pc

theorem Dependent.symm {i j : α} {S : Finset α} (h : Dependent ci i j S) : Dependent ci j i S := by
  obtain ⟨l, k, h1, h2, h3⟩ := h
  exact ⟨l, k, h1, h2, h3.symm⟩

theorem MinimalFor.symm {i j : α} {S : Finset α} (h : MinimalFor ci i j S) : MinimalFor ci j i S := fun T hT => (h T hT).symm

/-- The recorded sets of the pairs that are not adjacent are minimal. -/
def AllMinimal (ci : CITest α) (N : Finset α) (adj : α → α → Prop) (sep : SepSet α) : Prop :=
  ∀ i ∈ N, ∀ j ∈ N, i ≠ j → ¬ adj i j → ∀ S, sep.get i j = .ok S → MinimalFor ci i j S

/-- Recording one more set. -/
theorem AllMinimal.set {adj adj' : α → α → Prop} {sep : SepSet α} (h : AllMinimal ci N adj sep) {i j : α} {S : Finset α}
    (hS : MinimalFor ci i j S) (hadj : ∀ a b, adj' a b ↔ adj a b ∧ ¬ ((a = i ∧ b = j) ∨ (a = j ∧ b = i))) :
    AllMinimal ci N adj' (sep.set i j S) := by
  intro a ha b hb hab hn T hT
  rw [SepSet.get_set] at hT
  split at hT
  · next he =>
    cases hT
    rcases he with ⟨rfl, rfl⟩ | ⟨rfl, rfl⟩
    · exact hS
    · exact hS.symm
  · next he =>
    refine h a ha b hb hab (fun h' => hn ((hadj a b).mpr ⟨h', fun h'' => he ?_⟩)) T hT
    tauto

theorem Tested.mono {G H : MG α} {size : Nat} (h : Tested ci G size) (hs : ∀ a b, H.Und a b → G.Und a b) : Tested ci H size :=
  fun i j hu S hS hj hc => h i j (hs i j hu) S (fun a ha => hs a i (hS ha)) hj hc

/-- A tuple that is tried in a round in which all smaller sets have been tested. -/
theorem minimal_of_condSets (o : SetOrder α) {G : MG α} (hG : G.PdagWF) {size : Nat} (ht : Tested ci G size) {i j : α} (hu : G.Und i j)
    {z : List α} (hz : z ∈ condSets o G size i j) : MinimalFor ci i j z.toFinset := by
  intro T hT
  have hlen : z.toFinset.card ≤ size := (List.toFinset_card_le z).trans (condSets_length hz).le
  have hc : T.card < size := (Finset.card_lt_card hT).trans_le hlen
  rw [condSets, mem_uniqueElems, List.mem_append, mem_combs, mem_combs] at hz
  have key : ∀ u v, z.Sublist (o.iter (size, i, j) (G.und u \ {v})) → T ⊆ G.und u ∧ v ∉ T := by
    intro u v hs
    have hm : ∀ x ∈ T, x ∈ G.und u ∧ x ≠ v := by
      intro x hx
      have := (o.mem _ _ _).mp (hs.subset (List.mem_toFinset.mp (hT.1 hx)))
      simpa using this
    exact ⟨fun x hx => (hm x hx).1, fun h => (hm v h).2 rfl⟩
  rcases hz.1 with h | h
  · obtain ⟨h1, h2⟩ := key i j h.1
    obtain ⟨l, k, h3, h4, h5⟩ := ht i j hu T h1 h2 hc
    exact ⟨l, k, h3, h4, h5⟩
  · obtain ⟨h1, h2⟩ := key j i h.1
    obtain ⟨l, k, h3, h4, h5⟩ := ht j i (hG.symm _ _ hu) T h1 h2 hc
    exact ⟨l, k, h3, h4, h5.symm⟩

/-- One pair, with the conditioning sets from the current graph. -/
theorem testPair_minimal (o : SetOrder α) (size : Nat) {st st' : PcState α} (hst : Inv ci N st) (ht : Tested ci st.graph size)
    (hm : AllMinimal ci N st.graph.Und st.sep) {i j : α} (hij : i ≠ j) (h : testPair o ci st.graph size st (i, j) = .ok st') :
    AllMinimal ci N st'.graph.Und st'.sep := by
  obtain ⟨b, hb, hb'⟩ := MG.isConnected_spec hst.wf hij
  cases b with
  | false =>
    simp only [testPair, hb] at h
    cases h
    exact hm
  | true =>
    have hu : st.graph.Und i j := by
      rcases hb'.mp rfl with h | h | h | h
      · exact absurd h (hst.noArrow _ _)
      · exact absurd h (hst.noArrow _ _)
      · exact h
      · exact hst.wf.symm _ _ h
    obtain ⟨f1, -⟩ := firstIndep_spec ci i j (condSets o st.graph size i j) st.calls
    cases hf : firstIndep ci i j (condSets o st.graph size i j) st.calls with
    | mk r k =>
      rw [hf] at f1
      simp only [testPair, hb, bind, Except.bind, hf] at h
      cases r with
      | none =>
        cases h
        exact hm
      | some z =>
        cases h
        exact hm.set (minimal_of_condSets o hst.wf ht hu (f1 z rfl).1) (fun a b => MG.deleteEdge_und)

/-- The loop over sizes. -/
theorem skeletonLoop_minimal (o : SetOrder α) {orig : MG α} (horig : orig.PdagWF) (hon : orig.nodes = N) :
    ∀ (n size : Nat) (st st' : PcState α), Inv ci N st → Tested ci st.graph size → AllMinimal ci N st.graph.Und st.sep →
      (∀ a b, st.graph.Und a b → orig.Und a b) → skeletonLoop o ci true orig n size st = .ok st' → AllMinimal ci N st'.graph.Und st'.sep := by
  intro n
  induction n with
  | zero => intro size st st' _ _ _ _ h; simp [skeletonLoop] at h
  | succ n ih =>
    intro size st st' hst ht hm hsub h
    rw [skeletonLoop] at h
    by_cases he : exitCond st.graph size = true
    · rw [if_pos he] at h
      cases h
      exact hm
    · rw [if_neg he] at h
      obtain ⟨s1, r1, r2, r3, -, r5⟩ := round_spec o true horig hon size hst hsub
      obtain ⟨s2, k1, k2, k3, k4⟩ := foldlM_ok_inv (f := fun st ij => testPair o ci (if true then st.graph else orig) size st ij)
        (fun _ s => Inv ci N s ∧ (∀ a b, s.graph.Und a b → st.graph.Und a b) ∧ AllMinimal ci N s.graph.Und s.sep)
        (pairs (o.iter size orig.nodes)) [] st ⟨hst, fun _ _ h => h, hm⟩
        (by
          rintro done ⟨i, j⟩ s hij ⟨i1, i2, i3⟩
          have hi := (o.mem _ _ _).mp (mem_pairs_left hij)
          have hj := (o.mem _ _ _).mp (mem_pairs_right hij)
          have hne := mem_pairs_ne (o.nodup _ _) hij
          rw [hon] at hi hj
          obtain ⟨s', g1, g2, g3, -⟩ := testPair_spec o i1.wf i1.nodes size i1 (fun _ _ h => h) hi hj hne
          exact ⟨s', by simpa using g1, g2, fun a b h => i2 a b (g3 a b h),
            testPair_minimal o size i1 (ht.mono i2) i3 hne g1⟩)
      rw [r1] at k1
      obtain rfl : s1 = s2 := by simpa using k1
      rw [py_bind r1] at h
      exact ih (size + 1) s1 st' r2 (ht.step o hon r2 r3 r5) k4 (fun a b h => hsub a b (r3 a b h)) h

theorem learnSkeleton_minimal (o : SetOrder α) {st : PcState α} (h : learnSkeleton o ci true (init o N) = .ok st) :
    AllMinimal ci N st.graph.Und st.sep :=
  skeletonLoop_minimal o (MG.pdagComplete_wf N) rfl _ 0 _ st (init_inv o ci N) (fun _ _ _ _ _ _ h => absurd h (Nat.not_lt_zero _))
    (fun _ hi _ hj hij hn => absurd (MG.pdagComplete_und.mpr ⟨hi, hj, hij⟩) hn) (fun _ _ h => h) h

omit [LinearOrder α] in
/-- The tuples before the one found are those for which the test answered "dependent". -/
theorem firstIndep_first (i j : α) : ∀ (zs : List (List α)) (k : Nat) (z : List α), (firstIndep ci i j zs k).1 = some z →
    ∃ pre post, zs = pre ++ z :: post ∧ ∀ w ∈ pre, ∃ k, ci k i j w = false := by
  intro zs
  induction zs with
  | nil => intro k z h; simp [firstIndep] at h
  | cons y zs ih =>
    intro k z h
    rw [firstIndep] at h
    by_cases hy : ci k i j y = true
    · rw [if_pos hy] at h
      cases h
      exact ⟨[], zs, rfl, by simp⟩
    · rw [if_neg hy] at h
      obtain ⟨pre, post, h1, h2⟩ := ih (k + 1) z h
      refine ⟨y :: pre, post, by rw [h1]; rfl, fun w hw => ?_⟩
      rcases List.mem_cons.mp hw with rfl | hw
      · exact ⟨k, by simpa using hy⟩
      · exact h2 w hw

end Pc

namespace Fci
open Pc

omit [LinearOrder α] in
/-- The tuples are tried in the order of their sizes. -/
theorem condSets_sorted (o : SetOrder α) (x y : α) (pds : Finset α) : (condSets o x y pds).Pairwise (fun z w => z.length ≤ w.length) := by
  rw [condSets, List.pairwise_flatMap]
  refine ⟨fun n _ => ?_, ?_⟩
  · refine List.pairwise_of_forall_mem_list fun z hz w hw => ?_
    rw [(mem_combs.mp hz).2, (mem_combs.mp hw).2]
  · refine List.pairwise_lt_range.imp fun hab z hz w hw => ?_
    rw [(mem_combs.mp hz).2, (mem_combs.mp hw).2]
    exact hab.le

/-- The search by increasing size finds minimal sets. -/
theorem testCi_minimal (o : SetOrder α) {st : PcState α} (hG : st.graph.Proper) (hm : AllMinimal ci N st.graph.MAdj st.sep) (x y : α)
    (pds : Finset α) : (testCiIncreasing o ci st x y pds).1.graph.Proper ∧
      AllMinimal ci N (testCiIncreasing o ci st x y pds).1.graph.MAdj (testCiIncreasing o ci st x y pds).1.sep := by
  have f1 := firstIndep_first (ci := ci) x y (condSets o x y pds) st.calls
  rw [testCiIncreasing]
  generalize firstIndep ci x y (condSets o x y pds) st.calls = q at f1
  obtain ⟨z, k⟩ := q
  cases z with
  | none => exact ⟨hG, hm⟩
  | some z =>
    obtain ⟨pre, post, h1, h2⟩ := f1 z rfl
    refine ⟨hG.deleteEdge x y, hm.set (fun T hT => ?_) fun a b => deleteEdge_adj hG⟩
    have hz : z ∈ condSets o x y pds := by rw [h1]; simp
    obtain ⟨w, w1, rfl⟩ := condSets_complete o (x := x) (y := y) (hT.1.trans (mem_condSets hz).2)
    have hlt : w.length < z.length := by
      rw [← List.toFinset_card_of_nodup (mem_condSets w1).1, ← List.toFinset_card_of_nodup (mem_condSets hz).1]
      exact Finset.card_lt_card hT
    have hs := condSets_sorted o x y pds
    have hmem := w1
    rw [h1] at hs hmem
    rcases List.mem_append.mp hmem with hw | hw
    · obtain ⟨k, hk⟩ := h2 w hw
      exact ⟨w, k, rfl, (List.toFinset_card_of_nodup (mem_condSets w1).1).symm, Or.inl hk⟩
    · rcases List.mem_cons.mp hw with rfl | hw
      · exact absurd hlt (lt_irrefl _)
      · have := (List.pairwise_cons.mp (List.pairwise_append.mp hs).2.1).1 w hw
        omega

/-- The first stage. -/
theorem pcSkeleton_minimal (o : SetOrder α) {st : PcState α} (h : pcSkeleton o ci N = .ok st) :
    AllMinimal ci N st.graph.MAdj st.sep := by
  obtain ⟨pc, st1, p1, p2, -, -, p5⟩ := pcSkeleton_spec o ci N
  obtain rfl : st1 = st := by rw [p2] at h; simpa using h
  have hinv : Pc.Inv ci N pc := by
    obtain ⟨pc', q1, q2, -⟩ := Pc.learnSkeleton_spec o ci true N (fun _ => True) trivial (fun _ _ _ _ _ _ _ => trivial)
    rw [p1] at q1
    cases q1
    exact q2
  obtain ⟨sep, s1, -, s3⟩ := SepSet.copyLoop_spec pc.sep (pairs (o.iter () N)) (SepSet.init o N) (by
    rintro ⟨i, j⟩ hij
    exact hinv.key i ((o.mem _ _ _).mp (mem_pairs_left hij)) j ((o.mem _ _ _).mp (mem_pairs_right hij))
      (mem_pairs_ne (o.nodup _ _) hij))
  have s1' : (SepSet.init o N).copyFrom o pc.sep N = .ok sep := s1
  have hsep : st1.sep = sep := by
    rw [pcSkeleton, py_bind p1, py_bind s1'] at p2
    cases hc : (MG.pagEmpty N).copySkeleton o pc.graph N with
    | error e => rw [hc] at p2; cases p2
    | ok G => rw [hc] at p2; cases p2; rfl
  intro i hi j hj hij hn S hS
  rw [hsep] at hS
  have := s3 (SepSet.hkey i j)
  rw [if_pos ((SepSet.pair_key_iff o () N i j).mpr ⟨hi, hj, hij⟩)] at this
  exact learnSkeleton_minimal o p1 i hi j hj hij (fun h => hn ((p5 i j).mpr h)) S
    (by simpa only [SepSet.get, Dict.get, this] using hS)

/-- The second stage. -/
theorem refine_minimal (o : SetOrder α) {st st' : PcState α} {b : Bool} (hG : SkInv ci N st.graph st.sep)
    (hm : AllMinimal ci N st.graph.MAdj st.sep) (h : refine o ci st = .ok (st', b)) : AllMinimal ci N st'.graph.MAdj st'.sep := by
  rw [refine] at h
  obtain ⟨d, -, h⟩ := py_bind_ok h
  have key : ∀ (l : List α) (acc acc' : PcState α × Bool), acc.1.graph.Proper → AllMinimal ci N acc.1.graph.MAdj acc.1.sep →
      l.foldlM (fun (acc : PcState α × Bool) x => do
        let pds ← Dict.get d x
        return (o.iter (x, 2) (acc.1.graph.findAdjacentNodes x none none)).foldl (fun (acc : PcState α × Bool) y =>
          let r := testCiIncreasing o ci acc.1 x y (pds \ {y})
          (r.1, acc.2 || r.2)) acc) acc = .ok acc' → AllMinimal ci N acc'.1.graph.MAdj acc'.1.sep := by
    intro l
    induction l with
    | nil => intro acc acc' _ h2 h; cases h; exact h2
    | cons x l ih =>
      intro acc acc' h1 h2 h
      rw [List.foldlM_cons] at h
      obtain ⟨acc1, k1, k2⟩ := py_bind_ok h
      obtain ⟨pds, -, k1⟩ := py_bind_ok k1
      cases k1
      have := foldl_inv (f := fun (acc : PcState α × Bool) y =>
          let r := testCiIncreasing o ci acc.1 x y (pds \ {y})
          (r.1, acc.2 || r.2)) (fun _ (acc : PcState α × Bool) => acc.1.graph.Proper ∧ AllMinimal ci N acc.1.graph.MAdj acc.1.sep)
        (o.iter (x, 2) (acc.1.graph.findAdjacentNodes x none none)) [] acc ⟨h1, h2⟩
        (fun _ y s _ hs => testCi_minimal o hs.1 hs.2 x y _)
      exact ih _ acc' this.1 this.2 k2
  exact key _ _ _ hG.proper hm h

end Fci
end Verif
