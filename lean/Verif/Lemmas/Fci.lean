import Verif.Lemmas.PagVs
import Verif.Lemmas.PagSound
import Verif.Lemmas.Pc
import Verif.Model.Icd
import Verif.Props.PdsTree

/-!
# FCI: the skeleton invariant, the refinement stage, the orientation stage
-/

namespace Verif
open Relation
variable {α : Type}

namespace MG

/-- In an unshielded triple the middle node is a collider iff it is outside of a separating set of the ends. -/
theorem MSep.collider_iff {M : MG α} (hM : M.Proper) {u v w : α} {S : Finset α} (hS : M.MSep u w S) (h1 : M.MAdj u v)
    (h2 : M.MAdj w v) (hne : u ≠ w) : v ∉ S ↔ M.MCollider u v w := by
  have huv := hM.ne h1
  have hwv := hM.ne h2
  have inf : ∀ a b c, [a, b, c] <:+: [u, v, w] → a = u ∧ b = v ∧ c = w := by
    intro a b c h
    have := h.eq_of_length rfl
    simpa using this
  have path : (M.MCollider u v w → v ∈ S) → (¬ M.MCollider u v w → v ∉ S) → M.MActivePath S u w [u, v, w] := by
    intro h3 h4
    refine ⟨by simp [huv, hne, hwv.symm], rfl, rfl, ?_, ?_, ?_⟩
    · simp only [List.isChain_cons_cons, List.isChain_singleton, and_true]
      exact ⟨h1, h2.symm⟩
    · intro a b c h hc
      obtain ⟨rfl, rfl, rfl⟩ := inf a b c h
      exact ⟨_, h3 hc, .refl⟩
    · intro a b c h hc
      obtain ⟨rfl, rfl, rfl⟩ := inf a b c h
      exact h4 hc
  constructor
  · intro hv
    by_contra hc
    exact hS ⟨_, path (fun h => absurd h hc) (fun _ => hv)⟩
  · intro hc hv
    exact hS ⟨_, path (fun _ => hv) (fun h => absurd hc h)⟩

theorem MSep.not_adj {M : MG α} (hM : M.Proper) {u v : α} {S : Finset α} (hS : M.MSep u v S) : ¬ M.MAdj u v := by
  intro h
  refine hS ⟨[u, v], by simp [hM.ne h], rfl, rfl, by simpa using h, ?_, ?_⟩
  · intro a b c hi
    exact absurd hi.length_le (by simp)
  · intro a b c hi
    exact absurd hi.length_le (by simp)

variable [LinearOrder α]

/-- The v-structure step from circles and sound arrowheads, with separating sets of `M`. -/
theorem vs_compatible {sep : SepSet α} {G H M : MG α} (hM : Ancestral M) (hn : M.nodes = G.nodes)
    (hadj : ∀ a b, G.MAdj a b ↔ M.MAdj a b) (hsep : SepIn sep.get M) (hG : G.Proper)
    (hkey : ∀ i ∈ G.nodes, ∀ j ∈ G.nodes, i ≠ j → ∃ S, sep.get i j = .ok S)
    (hc : ∀ a b m, G.At a b m → m = .circle ∨ (m = .arrow ∧ M.At a b .arrow)) (ho : Oriented H G)
    (hu : Upd G H (fun u v m => m = .arrow ∧ ∃ w, VTriple sep.get G u v w)) : Compatible H M := by
  have hv : ∀ u v w, VTriple sep.get G u v w → M.MCollider u v w := by
    rintro u v w ⟨h1, h2, h3, h4, S, h5, h6⟩
    have hS := hsep u (by rw [hn]; exact (hG.mem_adj h2).1) w (by rw [hn]; exact (hG.mem_adj h3).1) h1
      (fun h => h4 ((hadj _ _).mpr h)) S h5
    exact (hS.collider_iff hM.proper ((hadj _ _).mp h2) ((hadj _ _).mp h3) h1).mp h6
  have hv' : ∀ a b c, a ≠ c → M.At a b .arrow → M.At c b .arrow → ¬ M.MAdj a c → VTriple sep.get G a b c := by
    intro a b c h1 h2 h3 h4
    have a1 := (hadj a b).mpr (Or.inl ⟨_, h2⟩)
    have a2 := (hadj c b).mpr (Or.inl ⟨_, h3⟩)
    obtain ⟨S, hS⟩ := hkey a (hG.mem_adj a1).1 c (hG.mem_adj a2).1 h1
    have := hsep a (by rw [hn]; exact (hG.mem_adj a1).1) c (by rw [hn]; exact (hG.mem_adj a2).1) h1 h4 S hS
    exact ⟨h1, a1, a2, fun h => h4 ((hadj _ _).mp h), S, hS,
      (this.collider_iff hM.proper ((hadj _ _).mp a1) ((hadj _ _).mp a2) h1).mpr ⟨h2, h3⟩⟩
  refine ⟨fun a b => (ho.adj a b).trans (hadj a b), ?_, ?_, ?_⟩
  · intro a b h
    rcases (hu.marks _ _ _).mp h with ⟨-, w, h⟩ | ⟨-, h⟩
    · exact (hv _ _ _ h).1
    · rcases hc _ _ _ h with h | h
      · exact absurd h (by simp)
      · exact h.2
  · intro a b h
    rcases (hu.marks _ _ _).mp h with ⟨h, -⟩ | ⟨-, h⟩
    · exact absurd h (by simp)
    · rcases hc _ _ _ h with h | h
      · exact absurd h (by simp)
      · exact absurd h.1 (by simp)
  · intro a b c h1 h2 h3 h4
    have := hv' a b c h1 h2 h3 h4
    exact ⟨(hu.marks _ _ _).mpr (Or.inl ⟨rfl, c, this⟩), (hu.marks _ _ _).mpr (Or.inl ⟨rfl, a, vTriple_symm this⟩)⟩

theorem pagTypes_all (m : Mark) : m ∈ pagTypes := by cases m <;> simp [pagTypes]

omit [LinearOrder α] in
/-- Rules 5 to 10 write only tails. -/
theorem pagSteps_tails {sep : α → α → Py (Finset α)} {rules : List Nat} (hr : ∀ idx ∈ rules, 5 ≤ idx) {G H : MG α}
    (h : PagSteps sep rules G H) : ∀ a b, H.At a b .arrow → G.At a b .arrow := by
  induction h with
  | refl => exact fun _ _ h => h
  | tail _ h ih =>
    intro a b hab
    apply ih
    obtain ⟨idx, hidx, h⟩ := h
    have hidx := hr idx hidx
    have key : ∀ {G H : MG α} {F : α → α → Mark → Prop}, Upd G H F → (∀ u v m, F u v m → m = .tail) →
        H.At a b .arrow → G.At a b .arrow := by
      intro G H F hu hF h
      rcases (hu.marks _ _ _).mp h with h | ⟨-, h⟩
      · exact absurd (hF _ _ _ h) (by simp)
      · exact h
    cases h with
    | r5 _ _ _ _ _ _ _ _ _ _ hu => exact key hu (fun _ _ _ h => h.2) hab
    | r6 _ _ _ _ _ _ _ hu => exact key hu (fun _ _ _ h => h.2.2) hab
    | r7 _ _ _ _ _ _ _ _ _ hu => exact key hu (fun _ _ _ h => h.2.2) hab
    | r8 _ _ _ _ _ _ _ hu => exact key hu (fun _ _ _ h => h.2.2) hab
    | r9 _ _ _ _ _ _ _ _ _ _ _ hu => exact key hu (fun _ _ _ h => h.2.2) hab
    | r10 _ _ _ _ _ hu => exact key hu (fun _ _ _ h => h.2.2) hab
    | _ => omega

omit [LinearOrder α] in
/-- Rules 5 to 10 do not overwrite arrowheads. -/
theorem pagSteps_keep {sep : α → α → Py (Finset α)} {rules : List Nat} (hr : ∀ idx ∈ rules, 5 ≤ idx) {G H : MG α} (hG : G.Proper)
    (hT : ∀ m, m ∈ G.types) (h : PagSteps sep rules G H) : ∀ a b, G.At a b .arrow → H.At a b .arrow := by
  have : Oriented H G ∧ ∀ a b, G.At a b .arrow → H.At a b .arrow := by
    induction h with
    | refl => exact ⟨.refl hG, fun _ _ h => h⟩
    | @tail G1 H1 _ h ih =>
      obtain ⟨idx, hidx, h⟩ := h
      have hidx := hr idx hidx
      have hT' := fun m => (ih.1.types ▸ hT m : m ∈ _)
      refine ⟨ih.1.trans (h.oriented ih.1.proper hT'), fun a b hab => ?_⟩
      have hab := ih.2 a b hab
      have hone : ∀ {x y : α}, G1.At x y .circle → ¬ G1.At x y .arrow := fun h h' => by
        simpa using ih.1.proper.one _ _ _ _ h h'
      have key : ∀ {x y : α}, ¬ G1.At x y .arrow → Upd G1 H1 (fun u v m => u = x ∧ v = y ∧ m = .tail) → H1.At a b .arrow := by
        intro x y hc hu
        refine (hu.marks _ _ _).mpr (Or.inr ⟨?_, hab⟩)
        rintro m ⟨rfl, rfl, rfl⟩
        exact hc hab
      cases h with
      | r5 x y na nb p h1 _ _ _ h5 u =>
        have hk : ∀ v w, [v, w] <:+: x :: (p ++ [y, x]) → ¬ G1.At v w .arrow ∧ ¬ G1.At w v .arrow := by
          intro v w hvw
          rcases cycle_pair h1.first h1.last hvw with ⟨rfl, rfl⟩ | h | ⟨rfl, rfl⟩ | ⟨rfl, rfl⟩
          · exact (h5 _ _ (Or.inr (Or.inl rfl))).2
          · exact ⟨hone (infix_two_chain h1.chain h).1, hone (infix_two_chain h1.chain h).2⟩
          · exact (h5 _ _ (Or.inr (Or.inr rfl))).2.symm
          · exact (h5 _ _ (Or.inl rfl)).2.symm
        refine (u.marks _ _ _).mpr (Or.inr ⟨?_, hab⟩)
        rintro m ⟨h | h, rfl⟩
        · exact (hk _ _ h).1 hab
        · exact (hk _ _ h).2 hab
      | r6 _ _ _ _ _ _ h3 u => exact key h3 u
      | r7 _ _ _ _ _ _ _ _ h3 u => exact key h3 u
      | r8 a b c _ _ h3 _ u => exact key (hone h3) u
      | r9 a b c d p h1 _ _ _ _ _ u => exact key (hone h1) u
      | r10 a c h1 _ _ u => exact key (hone h1) u
      | _ => omega
  exact this.2

omit [LinearOrder α] in
/-- Rules 8 to 10 are sound if the graph has no bidirected edges. -/
theorem pagSteps_nobidir {sep : α → α → Py (Finset α)} {G H M : MG α} (hG : G.Proper) (hT : ∀ m, m ∈ G.types)
    (hM : Ancestral M) (hC : Compatible G M) (hnb : ∀ a b, M.At a b .arrow → M.At b a .tail)
    (h : PagSteps sep [8, 9, 10] G H) : Compatible H M := by
  have : Oriented H G ∧ Compatible H M := by
    induction h with
    | refl => exact ⟨.refl hG, hC⟩
    | tail _ h ih =>
      obtain ⟨idx, hidx, h⟩ := h
      have hT' := fun m => (ih.1.types ▸ hT m : m ∈ _)
      have hO := h.oriented ih.1.proper hT'
      refine ⟨ih.1.trans hO, ?_⟩
      cases h with
      | r8 a b c _ _ _ h4 u => exact ih.2.upd hM hO u (by rintro x y m ⟨rfl, rfl, rfl⟩; exact hnb _ _ (ih.2.arrow _ _ h4))
      | r9 a b c d p _ h2 _ _ _ _ u => exact ih.2.upd hM hO u (by rintro x y m ⟨rfl, rfl, rfl⟩; exact hnb _ _ (ih.2.arrow _ _ h2))
      | r10 a c _ h2 _ u => exact ih.2.upd hM hO u (by rintro x y m ⟨rfl, rfl, rfl⟩; exact hnb _ _ (ih.2.arrow _ _ h2))
      | _ => simp at hidx
  exact this.2

end MG

variable [LinearOrder α]

namespace Fci
open MG

/-- The orientation stage from scratch: no exception, same skeleton, closed under rules 1 to 4, and sound if the separating
sets separate in an ancestral graph with the same skeleton. -/
theorem reorient_spec (o : SetOrder α) (sep : SepSet α) {G : MG α} (hG : G.Proper) (ht : G.types = pagTypes)
    (hkey : ∀ i ∈ G.nodes, ∀ j ∈ G.nodes, i ≠ j → ∃ S, sep.get i j = .ok S) :
    ∃ H, reorient o sep G = .ok H ∧ SameSkel H G ∧ (∀ idx ∈ [1, 2, 3, 4], ¬ H.PagPattern idx) ∧
      ∀ M, Ancestral M → M.nodes = G.nodes → (∀ a b, G.MAdj a b ↔ M.MAdj a b) → SepIn sep.get M → Compatible H M := by
  have hT : ∀ m, m ∈ G.types := by rw [ht]; exact pagTypes_all
  obtain ⟨G1, g1, g2, g3, g4⟩ := resetOrientations_spec o hG.type (S := G.nodes) (hT .circle)
  have hG1 := hG.resetOrientations o g1
  have hat : ∀ a b m, G1.At a b m ↔ G.MAdj a b ∧ m = .circle := by
    intro a b m
    rw [g4]
    by_cases h : G.MAdj a b
    · rw [if_pos ⟨(hG.mem_adj h).1, (hG.mem_adj h).2, hG.ne h, h⟩]; simp [h]
    · rw [if_neg (fun h' => h h'.2.2.2)]
      simp only [h, false_and, iff_false]
      exact fun h' => h (Or.inl ⟨_, h'⟩)
  have hadj1 : ∀ a b, G1.MAdj a b ↔ G.MAdj a b := by
    intro a b
    simp only [MAdj, hat, exists_and_left, exists_eq, and_true]
    exact ⟨fun h => h.elim id MAdj.symm, Or.inl⟩
  have hT1 : ∀ m, m ∈ G1.types := by rw [g3]; exact hT
  obtain ⟨G2, v1, v2, v3⟩ := pagVStructures_spec o sep hG1 hT1 (by rw [g2]; exact hkey)
  have hT2 : ∀ m, m ∈ G2.types := by rw [v2.types]; exact hT1
  obtain ⟨G3, r1, r2, r3, r4⟩ := pagMaxOrient_spec o sep (rules := [1, 2, 3, 4]) (by decide) v2.proper hT2
    (by intro _; rw [v2.nodes, g2]; exact hkey)
  refine ⟨G3, ?_, (SameSkel.trans ⟨hG1, g2, g3, hadj1⟩ v2.same).trans r2.same, fun idx h => (r4 idx h).2, ?_⟩
  · rw [reorient, py_bind g1, py_bind v1]; exact r1
  · intro M hM hn hadj hsep
    have hC := vs_compatible (H := G2) hM (hn.trans g2.symm) (fun a b => (hadj1 a b).trans (hadj a b)) hsep hG1
      (by rw [g2]; exact hkey) (fun a b m h => Or.inl ((hat _ _ _).mp h).2) v2 v3
    exact pagSteps_sound v2.proper hT2 hM hC (fun _ => hsep) (by simp) r3

/-- The optional rules: no exception, same skeleton, no new arrowheads, sound without the tail rules. -/
theorem finalRules_spec (o : SetOrder α) (sep : SepSet α) (selection tails : Bool) {G : MG α} (hG : G.Proper)
    (ht : G.types = pagTypes) :
    ∃ H, finalRules o sep selection tails G = .ok H ∧ SameSkel H G ∧ (∀ a b, H.At a b .arrow ↔ G.At a b .arrow) ∧
      (∀ M, Ancestral M → Compatible G M → TailsOk tails M → Compatible H M) := by
  have hT : ∀ m, m ∈ G.types := by rw [ht]; exact pagTypes_all
  have h1 : ∃ H, (if selection then MG.pagMaxOrient o sep [5, 6, 7] G else pure G) = .ok H ∧ Oriented H G ∧
      (∀ a b, H.At a b .arrow ↔ G.At a b .arrow) ∧ (∀ M, Ancestral M → Compatible G M → Compatible H M) := by
    cases selection with
    | false => exact ⟨G, rfl, .refl hG, fun _ _ => Iff.rfl, fun _ _ h => h⟩
    | true =>
      obtain ⟨H, r1, r2, r3, r4⟩ := pagMaxOrient_spec o sep (rules := [5, 6, 7]) (by decide) hG hT (by simp)
      exact ⟨H, r1, r2, fun a b => ⟨pagSteps_tails (by simp) r3 a b, pagSteps_keep (by simp) hG hT r3 a b⟩,
        fun M hM hC => pagSteps_sound hG hT hM hC (by simp) (by simp) r3⟩
  obtain ⟨H, p1, p2, p3, p4⟩ := h1
  cases tails with
  | false =>
    refine ⟨H, ?_, p2.same, p3, fun M hM hC _ => p4 M hM hC⟩
    rw [finalRules, py_bind p1]; rfl
  | true =>
    have hT' : ∀ m, m ∈ H.types := by rw [p2.types]; exact hT
    obtain ⟨K, r1, r2, r3, r4⟩ := pagMaxOrient_spec o sep (rules := [8, 9, 10]) (by decide) p2.proper hT' (by simp)
    refine ⟨K, ?_, p2.same.trans r2.same, fun a b =>
      (Iff.intro (pagSteps_tails (by simp) r3 a b) (pagSteps_keep (by simp) p2.proper hT' r3 a b)).trans (p3 a b), ?_⟩
    · rw [finalRules, py_bind p1]; exact r1
    · intro M hM hC h
      rcases h with h | h
      · simp at h
      · exact pagSteps_nobidir p2.proper hT' hM (p4 M hM hC) h r3

omit [LinearOrder α] in
/-- The arrowheads are the same. -/
theorem _root_.Verif.MG.ArrowsOk.congr {G H M : MG α} (h : ArrowsOk G M) (hH : ∀ a b, H.At a b .arrow ↔ G.At a b .arrow) : ArrowsOk H M :=
  ⟨fun a b hab => h.arrow a b ((hH a b).mp hab), fun a b c h1 h2 h3 h4 =>
    (h.colliders a b c h1 h2 h3 h4).imp (hH _ _).mpr (hH _ _).mpr⟩

theorem SkInv.same {ci : CITest α} {N : Finset α} {G H : MG α} {sep : SepSet α} (h : SkInv ci N G sep)
    (hs : SameSkel H G) : SkInv ci N H sep :=
  ⟨hs.proper, hs.nodes.trans h.nodes, hs.types.trans h.types, h.key,
    fun i hi j hj hij hn => h.witness i hi j hj hij (fun h' => hn ((hs.adj i j).mpr h'))⟩

theorem SkInv.all_types {ci : CITest α} {N : Finset α} {G : MG α} {sep : SepSet α} (h : SkInv ci N G sep) (m : Mark) :
    m ∈ G.types := by rw [h.types]; exact pagTypes_all m

theorem SkInv.keyG {ci : CITest α} {N : Finset α} {G : MG α} {sep : SepSet α} (h : SkInv ci N G sep) :
    ∀ i ∈ G.nodes, ∀ j ∈ G.nodes, i ≠ j → ∃ S, sep.get i j = .ok S := by rw [h.nodes]; exact h.key

theorem deleteEdge_adj {G : MG α} (hG : G.Proper) {i j a b : α} :
    (G.deleteEdge i j).MAdj a b ↔ G.MAdj a b ∧ ¬ ((a = i ∧ b = j) ∨ (a = j ∧ b = i)) := by
  obtain ⟨-, -, h⟩ := deleteEdge_spec hG.type (i := i) (j := j)
  simp only [MAdj, h]
  constructor
  · rintro (⟨m, h1, h2⟩ | ⟨m, h1, h2⟩)
    · exact ⟨Or.inl ⟨m, h1⟩, by tauto⟩
    · exact ⟨Or.inr ⟨m, h1⟩, by tauto⟩
  · rintro ⟨⟨m, h1⟩ | ⟨m, h1⟩, h2⟩
    · exact Or.inl ⟨m, h1, by tauto⟩
    · exact Or.inr ⟨m, h1, by tauto⟩

theorem SkInv.delete {ci : CITest α} {N : Finset α} {G : MG α} {sep : SepSet α} (h : SkInv ci N G sep) {i j : α}
    {S : Finset α} (hw : Pc.Witness ci N i j S) : SkInv ci N (G.deleteEdge i j) (sep.set i j S) := by
  obtain ⟨d1, d2, -⟩ := deleteEdge_spec h.proper.type (i := i) (j := j)
  refine ⟨h.proper.deleteEdge i j, d1.trans h.nodes, d2.trans h.types, ?_, ?_⟩
  · intro a ha b hb hab
    rw [SepSet.get_set]
    split
    · exact ⟨_, rfl⟩
    · exact h.key a ha b hb hab
  · intro a ha b hb hab hn
    rw [SepSet.get_set]
    split
    · next he =>
      refine ⟨S, rfl, ?_⟩
      rcases he with ⟨rfl, rfl⟩ | ⟨rfl, rfl⟩
      · exact hw
      · exact hw.symm
    · next he =>
      refine h.witness a ha b hb hab fun h' => hn ?_
      rw [deleteEdge_adj h.proper]
      exact ⟨h', by tauto⟩

theorem mem_condSets {o : SetOrder α} {x y : α} {pds : Finset α} {z : List α} :
    z ∈ condSets o x y pds → z.Nodup ∧ z.toFinset ⊆ pds := by
  intro h
  simp only [condSets, List.mem_flatMap, List.mem_range, mem_combs] at h
  obtain ⟨size, -, h, -⟩ := h
  refine ⟨h.nodup (o.nodup _ _), fun v hv => (o.mem _ _ _).mp (h.subset (List.mem_toFinset.mp hv))⟩

theorem condSets_complete (o : SetOrder α) {x y : α} {pds S : Finset α} (h : S ⊆ pds) :
    ∃ z ∈ condSets o x y pds, z.toFinset = S := by
  refine ⟨(o.iter (x, y, S.card) pds).filter (· ∈ S), ?_, ?_⟩
  · have hS : ((o.iter (x, y, S.card) pds).filter (· ∈ S)).toFinset = S := by
      ext v
      simp only [List.mem_toFinset, List.mem_filter, o.mem, decide_eq_true_eq]
      exact ⟨fun h => h.2, fun hv => ⟨h hv, hv⟩⟩
    simp only [condSets, List.mem_flatMap, List.mem_range, mem_combs]
    refine ⟨S.card, Nat.lt_succ_of_le (Finset.card_le_card h), List.filter_sublist, ?_⟩
    conv_rhs => rw [← hS]
    exact (List.toFinset_card_of_nodup ((o.nodup _ _).filter _)).symm
  · ext v
    simp only [List.mem_toFinset, List.mem_filter, o.mem, decide_eq_true_eq]
    exact ⟨fun h => h.2, fun hv => ⟨h hv, hv⟩⟩

theorem testCi_spec (o : SetOrder α) {ci : CITest α} {N : Finset α} {st : PcState α} (h : SkInv ci N st.graph st.sep)
    {x y : α} {pds : Finset α} (hp : pds ⊆ N) (hx : x ∉ pds) (hy : y ∉ pds) :
    let r := testCiIncreasing o ci st x y pds
    SkInv ci N r.1.graph r.1.sep ∧
      (r.2 = true → ∀ a b, r.1.graph.MAdj a b ↔ st.graph.MAdj a b ∧ ¬ ((a = x ∧ b = y) ∨ (a = y ∧ b = x))) ∧
      (r.2 = false → r.1.graph = st.graph ∧ r.1.sep = st.sep ∧ ∀ S ⊆ pds, Dep ci x y S) := by
  intro r
  obtain ⟨f1, f2⟩ := Pc.firstIndep_spec ci x y (condSets o x y pds) st.calls
  have hr : r = testCiIncreasing o ci st x y pds := rfl
  rw [testCiIncreasing] at hr
  generalize hf : Pc.firstIndep ci x y (condSets o x y pds) st.calls = q at hr f1 f2
  obtain ⟨z, k⟩ := q
  cases z with
  | none =>
    simp only at hr
    rw [hr]
    refine ⟨h, by simp, fun _ => ⟨rfl, rfl, fun S hS => ?_⟩⟩
    obtain ⟨z, hz, rfl⟩ := condSets_complete o (x := x) (y := y) hS
    obtain ⟨k, hk⟩ := f2 rfl z hz
    exact ⟨z, k, rfl, (mem_condSets hz).1, hk⟩
  | some z =>
    simp only at hr
    rw [hr]
    obtain ⟨hz, k', hk⟩ := f1 z rfl
    have hz' := (mem_condSets hz).2
    refine ⟨h.delete ⟨z, k', rfl, Or.inl hk, ?_, ?_, ?_⟩, fun _ a b => deleteEdge_adj h.proper, by simp⟩
    · exact fun h' => hx (hz' (List.mem_toFinset.mpr h'))
    · exact fun h' => hy (hz' (List.mem_toFinset.mpr h'))
    · exact fun v hv => hp (hz' (List.mem_toFinset.mpr hv))

/-- One node of the refinement stage. -/
theorem refineInner_spec (o : SetOrder α) {ci : CITest α} {N : Finset α} {x : α} {pds : Finset α} (hp : pds ⊆ N)
    (hx : x ∉ pds) : ∀ (l : List α) (acc : PcState α × Bool), l.Nodup → x ∉ l → SkInv ci N acc.1.graph acc.1.sep →
    (∀ y ∈ l, acc.1.graph.MAdj x y) →
    let r := l.foldl (fun (acc : PcState α × Bool) y =>
      let r := testCiIncreasing o ci acc.1 x y (pds \ {y})
      (r.1, acc.2 || r.2)) acc
    SkInv ci N r.1.graph r.1.sep ∧ (∀ a b, r.1.graph.MAdj a b → acc.1.graph.MAdj a b) ∧
      (r.2 = true ↔ acc.2 = true ∨ ∃ a b, acc.1.graph.MAdj a b ∧ ¬ r.1.graph.MAdj a b) ∧
      ∀ y ∈ l, r.1.graph.MAdj x y → ∀ S ⊆ pds \ {y}, Dep ci x y S := by
  intro l
  induction l with
  | nil => intro acc _ _ h _; exact ⟨h, fun _ _ h => h, by simp, by simp⟩
  | cons y l ih =>
    intro acc hnd hxl h hl
    obtain ⟨t1, t2, t3⟩ := testCi_spec o h (x := x) (y := y) (pds := pds \ {y}) (Finset.sdiff_subset.trans hp)
      (fun h => hx (Finset.mem_sdiff.mp h).1) (by simp)
    rw [List.nodup_cons] at hnd
    rw [List.mem_cons, not_or] at hxl
    simp only [List.foldl_cons]
    generalize hr : testCiIncreasing o ci acc.1 x y (pds \ {y}) = q at t1 t2 t3
    obtain ⟨st, b⟩ := q
    simp only at t1 t2 t3
    have hsub : ∀ a b, st.graph.MAdj a b → acc.1.graph.MAdj a b := by
      intro a b' h'
      cases b with
      | true => exact ((t2 rfl a b').mp h').1
      | false => rw [(t3 rfl).1] at h'; exact h'
    have hl' : ∀ y' ∈ l, st.graph.MAdj x y' := by
      intro y' hy'
      cases b with
      | true =>
        refine (t2 rfl _ _).mpr ⟨hl y' (List.mem_cons_of_mem _ hy'), ?_⟩
        rintro (⟨-, rfl⟩ | ⟨h1, -⟩)
        · exact hnd.1 hy'
        · exact hxl.1 h1
      | false => rw [(t3 rfl).1]; exact hl y' (List.mem_cons_of_mem _ hy')
    obtain ⟨i1, i2, i3, i4⟩ := ih (st, acc.2 || b) hnd.2 hxl.2 t1 hl'
    refine ⟨i1, fun a b h => hsub _ _ (i2 a b h), ?_, ?_⟩
    · rw [i3]
      constructor
      · rintro (h1 | ⟨u, v, h1, h2⟩)
        · rw [Bool.or_eq_true] at h1
          rcases h1 with h1 | rfl
          · exact Or.inl h1
          · refine Or.inr ⟨x, y, hl y (by simp), fun h' => ?_⟩
            exact ((t2 rfl _ _).mp (i2 _ _ h')).2 (Or.inl ⟨rfl, rfl⟩)
        · exact Or.inr ⟨u, v, hsub _ _ h1, h2⟩
      · rintro (h1 | ⟨u, v, h1, h2⟩)
        · exact Or.inl (by simp [h1])
        · by_cases h3 : st.graph.MAdj u v
          · exact Or.inr ⟨u, v, h3, h2⟩
          · left
            cases b with
            | true => simp
            | false => rw [(t3 rfl).1] at h3; exact absurd h1 h3
    · intro y' hy' hadj S hS
      rcases List.mem_cons.mp hy' with rfl | hy'
      · cases b with
        | true => exact absurd (Or.inl ⟨rfl, rfl⟩) ((t2 rfl _ _).mp (i2 _ _ hadj)).2
        | false => exact (t3 rfl).2.2 S hS
      · exact i4 y' hy' hadj S hS

/-- The refinement stage. -/
theorem refine_spec (o : SetOrder α) {ci : CITest α} {N : Finset α} {st : PcState α} (h : SkInv ci N st.graph st.sep) :
    ∃ st' b, refine o ci st = .ok (st', b) ∧ SkInv ci N st'.graph st'.sep ∧
      (∀ a b, st'.graph.MAdj a b → st.graph.MAdj a b) ∧
      (b = true ↔ ∃ a b, st.graph.MAdj a b ∧ ¬ st'.graph.MAdj a b) ∧
      ∀ x y, st'.graph.MAdj x y → ∃ P, st.graph.createPdsSet o x = .ok P ∧ ∀ S ⊆ P \ {y}, Dep ci x y S := by
  have hpds : ∀ x ∈ N, ∃ P, st.graph.createPdsSet o x = .ok P ∧ P ⊆ N ∧ x ∉ P := by
    intro x hx
    obtain ⟨P, p1, p2, -⟩ := C48_set o h.proper (root := x) (by rw [h.nodes]; exact hx)
    refine ⟨P, p1, fun v hv => ?_, fun hv => ?_⟩
    · obtain ⟨l, hl⟩ := p2 v hv
      rw [← h.nodes]
      exact hl.mem v (by simp)
    · obtain ⟨l, hl⟩ := p2 x hv
      exact hl.avoid (by simp)
  obtain ⟨d, d1, d2⟩ := foldlM_ok_inv
    (f := fun (d : Dict α (Finset α)) x => do
      let S ← st.graph.createPdsSet o x
      return Dict.set d x S)
    (fun done d => ∀ x ∈ done, ∃ P, Dict.get? d x = some P ∧ st.graph.createPdsSet o x = .ok P)
    (o.iter 0 st.graph.nodes) [] [] (by simp) (by
      intro done x d hx hd
      rw [o.mem, h.nodes] at hx
      obtain ⟨P, p1, -⟩ := hpds x hx
      refine ⟨Dict.set d x P, by rw [py_bind p1]; rfl, fun y hy => ?_⟩
      rw [Dict.get?_set]
      by_cases hxy : x = y
      · subst hxy; exact ⟨P, by simp, p1⟩
      · rw [if_neg hxy]
        rw [List.mem_append, List.mem_singleton] at hy
        exact hd y (hy.resolve_right (fun h => hxy h.symm)))
  obtain ⟨⟨st', b⟩, r1, r2, r3, r4, r5⟩ := foldlM_ok_inv
    (f := fun (acc : PcState α × Bool) x => do
      let pds ← Dict.get d x
      return (o.iter (x, 2) (acc.1.graph.findAdjacentNodes x none none)).foldl (fun (acc : PcState α × Bool) y =>
        let r := testCiIncreasing o ci acc.1 x y (pds \ {y})
        (r.1, acc.2 || r.2)) acc)
    (fun done (acc : PcState α × Bool) => SkInv ci N acc.1.graph acc.1.sep ∧
      (∀ a b, acc.1.graph.MAdj a b → st.graph.MAdj a b) ∧
      (acc.2 = true ↔ ∃ a b, st.graph.MAdj a b ∧ ¬ acc.1.graph.MAdj a b) ∧
      ∀ x ∈ done, ∀ y, acc.1.graph.MAdj x y → ∃ P, st.graph.createPdsSet o x = .ok P ∧ ∀ S ⊆ P \ {y}, Dep ci x y S)
    (o.iter 1 st.graph.nodes) [] (st, false) ⟨h, fun _ _ h => h, by simp, by simp⟩ (by
      rintro done x ⟨s, b⟩ hx ⟨i1, i2, i3, i4⟩
      simp only at i1 i2 i3 i4
      rw [o.mem, h.nodes] at hx
      obtain ⟨P, p1, p2⟩ := d2 x (by rw [List.nil_append, o.mem, h.nodes]; exact hx)
      obtain ⟨P', q1, q2, q3⟩ := hpds x hx
      rw [p2] at q1
      cases q1
      obtain ⟨j1, j2, j3, j4⟩ := refineInner_spec o (ci := ci) q2 q3 (o.iter (x, 2) (s.graph.findAdjacentNodes x none none)) (s, b)
        (o.nodup _ _) (by
          rw [o.mem, mem_findAdjacent i1.proper]
          exact fun h => i1.proper.ne h rfl) i1 (by
          intro y hy
          rwa [o.mem, mem_findAdjacent i1.proper] at hy)
      refine ⟨_, by rw [py_bind (Dict.get_eq_ok.mpr p1)]; rfl, j1, fun a b h => i2 _ _ (j2 a b h), ?_, ?_⟩
      · rw [j3, i3]
        constructor
        · rintro (⟨u, v, h1, h2⟩ | ⟨u, v, h1, h2⟩)
          · exact ⟨u, v, h1, fun h => h2 (j2 _ _ h)⟩
          · exact ⟨u, v, i2 _ _ h1, h2⟩
        · rintro ⟨u, v, h1, h2⟩
          by_cases h3 : s.graph.MAdj u v
          · exact Or.inr ⟨u, v, h3, h2⟩
          · exact Or.inl ⟨u, v, h1, h3⟩
      · intro x' hx' y hadj
        rw [List.mem_append, List.mem_singleton] at hx'
        rcases hx' with hx' | rfl
        · exact i4 x' hx' y (j2 _ _ hadj)
        · exact ⟨P, p2, j4 y (by rw [o.mem, mem_findAdjacent i1.proper]; exact j2 _ _ hadj) hadj⟩)
  refine ⟨st', b, by rw [refine, py_bind d1]; exact r1, r2, r3, r4, fun x y hadj => ?_⟩
  refine r5 x ?_ y hadj
  rw [List.nil_append, o.mem, h.nodes, ← r2.nodes]
  exact (r2.proper.mem_adj hadj).1

/-- The first stage: the skeleton of the PC algorithm. -/
theorem pcSkeleton_spec (o : SetOrder α) (ci : CITest α) (N : Finset α) :
    ∃ pc st, Pc.learnSkeleton o ci true (Pc.init o N) = .ok pc ∧ pcSkeleton o ci N = .ok st ∧
      SkInv ci N st.graph st.sep ∧ (∀ a b m, st.graph.At a b m → m = .circle) ∧
      (∀ a b, st.graph.MAdj a b ↔ pc.graph.Und a b) := by
  obtain ⟨pc, p1, p2, -, p4⟩ := Pc.learnSkeleton_spec o ci true N (fun _ => True) trivial (fun _ _ _ _ _ _ _ => trivial)
  obtain ⟨sep, s1, s2, s3⟩ := SepSet.copyLoop_spec pc.sep (pairs (o.iter () N)) (SepSet.init o N) (by
    rintro ⟨i, j⟩ hij
    exact p2.key i ((o.mem _ _ _).mp (mem_pairs_left hij)) j ((o.mem _ _ _).mp (mem_pairs_right hij))
      (mem_pairs_ne (o.nodup _ _) hij))
  obtain ⟨G, g1, g2, g3, g4, g5, g6⟩ := copySkeleton_spec o N p2.wf
  have hadj : ∀ a b, G.MAdj a b ↔ pc.graph.Und a b := by
    intro a b
    rw [g6]
    simp only [PAdj, p2.noArrow, false_or]
    constructor
    · rintro ⟨-, -, -, h | h⟩
      · exact h
      · exact p2.wf.symm _ _ h
    · intro h
      have := p2.wf.mem _ _ _ h
      rw [p2.nodes] at this
      refine ⟨this.1, this.2, ?_, Or.inl h⟩
      rintro rfl
      exact p2.wf.irrefl _ _ h
  have hget : ∀ i ∈ N, ∀ j ∈ N, i ≠ j → sep.get i j = pc.sep.get i j := by
    intro i hi j hj hij
    have := s3 (SepSet.hkey i j)
    rw [if_pos ((SepSet.pair_key_iff o () N i j).mpr ⟨hi, hj, hij⟩)] at this
    simp only [SepSet.get, Dict.get, this]
  refine ⟨pc, ⟨G, sep, pc.calls⟩, p1, ?_, ⟨g2, g3, g4, ?_, ?_⟩, g5, hadj⟩
  · have s1' : (SepSet.init o N).copyFrom o pc.sep N = .ok sep := s1
    rw [pcSkeleton, py_bind p1, py_bind s1', py_bind g1]
    rfl
  · intro i hi j hj hij
    rw [hget i hi j hj hij]
    exact p2.key i hi j hj hij
  · intro i hi j hj hij hn
    rw [hget i hi j hj hij]
    exact p2.witness i hi j hj hij (fun h => hn ((hadj i j).mpr h))

end Fci
end Verif
