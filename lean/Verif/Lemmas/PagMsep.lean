import Verif.Lemmas.PagQuery
import Verif.Lemmas.Dsep
import Verif.Lemmas.Moral

/-!
# Correctness of `PAG.is_m_separated` on graphs with edges `-->` and `<->`
-/

namespace Verif
open Relation

namespace MG
variable {α : Type} [DecidableEq α]

/-- Components of a symmetric edge mark. -/
theorem components_mark (o : SetOrder α) (G : MG α) (en : Finset α) (m : Mark) (hm : m ∈ G.types) :
    ∃ L, G.findUnconnectedSubgraphs o en (some m) = .ok L ∧ (∀ x, (∃ S ∈ L, x ∈ S) ↔ x ∈ en) ∧ L.Pairwise Disjoint ∧
      ∀ S ∈ L, ∀ x ∈ S, ∀ y, y ∈ S ↔ G.Joined (some [(m, m)]) en x y := by
  have hs : ∀ x y, G.Nbr (some [(m, m)]) x y → G.Nbr (some [(m, m)]) y x := by
    rintro x y ⟨t, ht, h1, h2⟩
    simp only [List.mem_singleton] at ht
    subst ht
    exact ⟨_, List.mem_singleton.mpr rfl, h2, h1⟩
  have := MG.subgraphsLoop_spec o G (some [(m, m)]) hs (en.card + 1) en (by omega)
  simpa [findUnconnectedSubgraphs, hm] using this

omit [DecidableEq α] in
theorem nbr_mark {G : MG α} {m : Mark} {x y : α} : G.Nbr (some [(m, m)]) x y ↔ G.At y x m ∧ G.At x y m := by
  simp [Nbr]

section
variable {G : MG α} (hG : G.Proper) (hD : G.DirectedMixed)
include hG hD

omit [DecidableEq α] in
theorem dm_dir {a b : α} : Walk.dir (fun a b => G.At a b .arrow) a b ↔ G.Par a b := by
  constructor
  · rintro ⟨h1, h2⟩
    refine ⟨h1, ?_⟩
    rcases (hD b a (Or.inr ⟨_, h1⟩)).1 with h | h
    · exact absurd h h2
    · exact h
  · rintro ⟨h1, h2⟩
    refine ⟨h1, fun h => ?_⟩
    have := hG.one _ _ _ _ h h2
    simp at this

omit [DecidableEq α] in
theorem dm_possPar {a b : α} : G.PossPar a b ↔ G.Par a b := by
  constructor
  · rintro ⟨h1, h2, h3⟩
    refine ⟨?_, ?_⟩
    · rcases (hD a b h1).1 with h | h
      · exact h
      · exact absurd h h2
    · rcases (hD b a h1.symm).1 with h | h
      · exact absurd h h3
      · exact h
  · rintro ⟨h1, h2⟩
    refine ⟨Or.inl ⟨_, h1⟩, fun h => ?_, fun h => ?_⟩
    · have := hG.one _ _ _ _ h h1; simp at this
    · have := hG.one _ _ _ _ h h2; simp at this

theorem dm_ancestors (o : SetOrder α) {x : α} (hx : x ∈ G.nodes) :
    ∃ A, G.findPossibleAncestors o {x} G.nodes = .ok A ∧ ∀ v, v ∈ A ↔ ReflTransGen G.Par v x := by
  obtain ⟨A, h1, h2⟩ := findPossibleAncestors_spec o hG.type hG.irrefl {x} G.nodes
  refine ⟨A, h1, fun v => ?_⟩
  rw [h2]
  simp only [Finset.mem_singleton, exists_eq_left]
  constructor
  · rintro (rfl | ⟨_, h⟩)
    · exact .refl
    · exact (tg_mono (fun a b h => (dm_possPar hG hD).1 h.1) h).to_reflTransGen
  · intro h
    rcases reflTransGen_iff_eq_or_transGen.1 h with h | h
    · exact Or.inl h.symm
    · right
      obtain ⟨w, hw, _⟩ := TransGen.head'_iff.1 h
      refine ⟨(hG.mem _ _ _ hw.1).1, tg_mono (fun a b h => ⟨(dm_possPar hG hD).2 h, (hG.mem _ _ _ h.1).2⟩) h⟩

omit [DecidableEq α] in
theorem mActivePath_iff {Z : Finset α} {i j : α} {l : List α} :
    G.MActivePath Z i j l ↔ l.Nodup ∧ l.head? = some i ∧ l.getLast? = some j ∧
      Walk.Act G.MAdj (fun a b => G.At a b .arrow) (Walk.AnZ (fun a b => G.At a b .arrow) (· ∈ Z)) (· ∈ Z) l := by
  have hdir : Walk.dir (fun a b => G.At a b .arrow) = G.Par := by
    funext a b
    exact propext (dm_dir hG hD)
  rw [Walk.act_iff_infix]
  simp only [Walk.okc, Walk.AnZ, hdir]
  constructor
  · intro h
    exact ⟨h.nodup, h.first, h.last, h.chain, fun a b c hh => ⟨fun hc => h.open_collider a b c hh hc,
      fun hc => h.open_noncollider a b c hh hc⟩⟩
  · rintro ⟨h1, h2, h3, h4, h5⟩
    exact ⟨h1, h2, h3, h4, fun a b c hh hc => (h5 a b c hh).1 hc, fun a b c hh hc => (h5 a b c hh).2 hc⟩

omit [DecidableEq α] in
theorem mActivePath_iff_aug {Z : Finset α} {i j : α} (hi : i ∉ Z) (hj : j ∉ Z) :
    (∃ l, G.MActivePath Z i j l) ↔
      ReflTransGen (Walk.augStep G.MAdj (fun a b => G.At a b .arrow)
        (Walk.InA (fun a b => G.At a b .arrow) (· ∈ Z) i j) (· ∈ Z)) i j := by
  simp only [mActivePath_iff hG hD]
  exact Walk.act_path_iff_aug (fun a b h => h.symm) (hG.adj_irrefl) (fun a b h => Or.inl ⟨_, h⟩)
    (fun a b h => (hD a b h).2) hi hj

end

omit [DecidableEq α] in
/-- Extending a collider walk along `<->` edges. -/
theorem cw_extend {G : MG α} {A : α → Prop} {a c d : α}
    (h : ReflTransGen (fun x y => G.At y x .arrow ∧ G.At x y .arrow ∧ A y) c d)
    (hc : Walk.CW G.MAdj (fun a b => G.At a b .arrow) A a c) : Walk.CW G.MAdj (fun a b => G.At a b .arrow) A a d := by
  induction h with
  | refl => exact hc
  | tail _ h2 ih => exact ih.step (Or.inl ⟨_, h2.2.1⟩) h2.2.1 h2.1 h2.2.2

omit [DecidableEq α] in
theorem cw_of_joined {G : MG α} {A : α → Prop} {a d : α}
    (h : ReflTransGen (fun x y => G.At y x .arrow ∧ G.At x y .arrow ∧ A y) a d) (hne : a ≠ d) :
    Walk.CW G.MAdj (fun a b => G.At a b .arrow) A a d := by
  rcases ReflTransGen.cases_head h with h | ⟨c, h1, h2⟩
  · exact absurd h hne
  · exact cw_extend h2 (.base (Or.inl ⟨_, h1.2.1⟩) h1.2.1 h1.2.2)

theorem isMSeparated_spec (o : SetOrder α) {G : MG α} (hG : G.Proper) (hT : Mark.arrow ∈ G.types) (hD : G.DirectedMixed)
    {x y : α} (hx : x ∈ G.nodes) (hy : y ∈ G.nodes) {Z : Finset α} (hZ : Z ⊆ G.nodes) (hxZ : x ∉ Z) (hyZ : y ∉ Z) :
    ∃ b, G.isMSeparated o x y Z = .ok b ∧ (b = true ↔ G.MSep x y Z) := by
  obtain ⟨ax, hax, hax'⟩ := dm_ancestors hG hD o hx
  obtain ⟨ay, hay, hay'⟩ := dm_ancestors hG hD o hy
  -- the anterior set
  obtain ⟨A, hA, hA'⟩ := foldlM_ok_inv (f := fun (A : Finset α) z => do
      return A ∪ (← G.findPossibleAncestors o {z} G.nodes))
    (fun (done : List α) (A : Finset α) => ∀ v, v ∈ A ↔ v ∈ ax ∪ ay ∨ ∃ z ∈ done, ReflTransGen G.Par v z)
    (o.iter 0 Z) [] (ax ∪ ay) (by simp) (by
      intro done z A hz hI
      rw [o.mem] at hz
      obtain ⟨az, haz, haz'⟩ := dm_ancestors hG hD o (hZ hz)
      refine ⟨A ∪ az, by rw [haz]; rfl, fun v => ?_⟩
      rw [Finset.mem_union, hI, haz']
      simp only [List.mem_append, List.mem_singleton]
      constructor
      · rintro ((h | ⟨w, h1, h2⟩) | h)
        · exact Or.inl h
        · exact Or.inr ⟨w, Or.inl h1, h2⟩
        · exact Or.inr ⟨z, Or.inr rfl, h⟩
      · rintro (h | ⟨w, h1 | rfl, h2⟩)
        · exact Or.inl (Or.inl h)
        · exact Or.inl (Or.inr ⟨w, h1, h2⟩)
        · exact Or.inr h2)
  have hdir : Walk.dir (fun a b => G.At a b .arrow) = G.Par := by
    funext a b
    exact propext (dm_dir hG hD)
  have hInA : ∀ v, v ∈ A ↔ Walk.InA (fun a b => G.At a b .arrow) (· ∈ Z) x y v := by
    intro v
    rw [hA', Walk.InA, hdir, Finset.mem_union, hax', hay']
    simp only [List.nil_append, o.mem]
    constructor
    · rintro ((h | h) | ⟨z, h1, h2⟩)
      · exact ⟨x, Or.inl rfl, h⟩
      · exact ⟨y, Or.inr (Or.inl rfl), h⟩
      · exact ⟨z, Or.inr (Or.inr h1), h2⟩
    · rintro ⟨w, rfl | rfl | h, h2⟩
      · exact Or.inl (Or.inl h2)
      · exact Or.inl (Or.inr h2)
      · exact Or.inr ⟨w, h, h2⟩
  obtain ⟨U, hU, hU1, hU2⟩ := getSkeletonGraph_spec o hG.type A
  obtain ⟨L, hL, hL1, _, hL3⟩ := components_mark o G A .arrow hT
  have hsub : ∀ K ∈ L, ∀ v ∈ G.augmentComponent A K, v ∈ A := by
    intro K hK v hv
    simp only [augmentComponent, Finset.mem_union, Finset.mem_filter, Finset.mem_sdiff] at hv
    rcases hv with h | h
    · exact (hL1 v).1 ⟨K, hK, h⟩
    · exact h.1.1
  -- the edges of the augmented graph
  obtain ⟨M, hM, hM1, hM2⟩ := Dag.foldlM_ugraph (N := A)
    (f := fun (M : UGraph α) comp => (pairs (o.iter () comp)).foldlM (fun (M : UGraph α) (ij : α × α) => M.addEdge ij.1 ij.2) M)
    (E := fun comp a b => a ∈ comp ∧ b ∈ comp ∧ a ≠ b) (L.map (G.augmentComponent A)) U hU1 (by
      intro comp hcomp M hM
      obtain ⟨K, hK, rfl⟩ := List.mem_map.1 hcomp
      obtain ⟨M', h1, h2, h3⟩ := Dag.foldlM_ugraph (N := A)
        (f := fun (M : UGraph α) (ij : α × α) => M.addEdge ij.1 ij.2)
        (E := fun ij a b => a = ij.1 ∧ b = ij.2 ∨ a = ij.2 ∧ b = ij.1) (pairs (o.iter () (G.augmentComponent A K))) M hM (by
          intro ij hij M' hM'
          have hl := mem_pairs_left hij
          have hr := mem_pairs_right hij
          rw [o.mem] at hl hr
          have := Dag.addEdge_spec (M := M') (i := ij.1) (j := ij.2) (by rw [hM']; exact hsub K hK _ hl)
            (by rw [hM']; exact hsub K hK _ hr)
          rw [hM'] at this
          exact this)
      refine ⟨M', h1, h2, fun a b => ?_⟩
      rw [h3]
      apply or_congr_right
      constructor
      · rintro ⟨ij, hij, h⟩
        have hl := mem_pairs_left hij
        have hr := mem_pairs_right hij
        have hne := mem_pairs_ne (o.nodup _ _) hij
        rw [o.mem] at hl hr
        rcases h with ⟨rfl, rfl⟩ | ⟨rfl, rfl⟩
        · exact ⟨hl, hr, hne⟩
        · exact ⟨hr, hl, hne.symm⟩
      · rintro ⟨h1, h2, h3⟩
        have ha : a ∈ o.iter () (G.augmentComponent A K) := by rw [o.mem]; exact h1
        have hb : b ∈ o.iter () (G.augmentComponent A K) := by rw [o.mem]; exact h2
        rcases mem_pairs_or ha hb h3 with h | h
        · exact ⟨(a, b), h, Or.inl ⟨rfl, rfl⟩⟩
        · exact ⟨(b, a), h, Or.inr ⟨rfl, rfl⟩⟩)
  have hMadj : ∀ a b, b ∈ M.adj a ↔ a ∈ A ∧ b ∈ A ∧ a ≠ b ∧
      Walk.aug G.MAdj (fun a b => G.At a b .arrow) (· ∈ A) a b := by
    intro a b
    have hjoin : ∀ K ∈ L, ∀ c ∈ K, ∀ d ∈ K,
        ReflTransGen (fun x y => G.At y x .arrow ∧ G.At x y .arrow ∧ y ∈ A) c d := by
      intro K hK c hc d hd
      refine rtg_mono ?_ ((hL3 K hK c hc d).1 hd)
      rintro s t ⟨h1, _, h2⟩
      rw [nbr_mark] at h1
      exact ⟨h1.1, h1.2, h2⟩
    rw [hM2, hU2]
    constructor
    · rintro (⟨h1, h2, h3⟩ | ⟨comp, hcomp, h1, h2, h3⟩)
      · exact ⟨h1, h2, h3.1, Or.inl h3.2⟩
      · obtain ⟨K, hK, rfl⟩ := List.mem_map.1 hcomp
        refine ⟨hsub K hK _ h1, hsub K hK _ h2, h3, ?_⟩
        simp only [augmentComponent, Finset.mem_union, Finset.mem_filter, Finset.mem_sdiff] at h1 h2
        rcases h2 with h2 | ⟨_, cb, hcb, h2⟩
        · rcases h1 with h1 | ⟨_, ca, hca, h1⟩
          · rcases ReflTransGen.cases_tail (hjoin K hK a h1 b h2) with h | ⟨p, hp, hp'⟩
            · exact absurd h.symm h3
            · by_cases hap : a = p
              · subst hap; exact Or.inl (Or.inl ⟨_, hp'.2.1⟩)
              · exact Or.inr ⟨p, cw_of_joined hp hap, Or.inl ⟨_, hp'.1⟩, hp'.1⟩
          · rcases ReflTransGen.cases_tail (hjoin K hK ca hca b h2) with h | ⟨p, hp, hp'⟩
            · subst h; exact Or.inl (Or.inl ⟨.arrow, h1⟩)
            · exact Or.inr ⟨p, cw_extend hp (.base (Or.inl ⟨.arrow, h1⟩) h1 ((hL1 ca).1 ⟨K, hK, hca⟩)),
                Or.inl ⟨_, hp'.1⟩, hp'.1⟩
        · rcases h1 with h1 | ⟨_, ca, hca, h1⟩
          · by_cases hac : a = cb
            · subst hac; exact Or.inl (Or.inr ⟨.arrow, h2⟩)
            · exact Or.inr ⟨cb, cw_of_joined (hjoin K hK a h1 cb hcb) hac, Or.inl ⟨.arrow, h2⟩, h2⟩
          · exact Or.inr ⟨cb, cw_extend (hjoin K hK ca hca cb hcb)
              (.base (Or.inl ⟨.arrow, h1⟩) h1 ((hL1 ca).1 ⟨K, hK, hca⟩)), Or.inl ⟨.arrow, h2⟩, h2⟩
    · rintro ⟨h1, h2, h3, h | ⟨c, hc, _, h⟩⟩
      · exact Or.inl ⟨h1, h2, h3, h⟩
      · right
        have hcw : ∀ c, Walk.CW G.MAdj (fun a b => G.At a b .arrow) (· ∈ A) a c →
            c ∈ A ∧ ∀ K ∈ L, c ∈ K → a ∈ G.augmentComponent A K := by
          intro c hc
          induction hc with
          | @base c _ g2 g3 =>
            refine ⟨g3, fun K hK hcK => ?_⟩
            by_cases haK : a ∈ K
            · simp [augmentComponent, haK]
            · simp only [augmentComponent, Finset.mem_union, Finset.mem_filter, Finset.mem_sdiff]
              exact Or.inr ⟨⟨h1, haK⟩, c, hcK, g2⟩
          | @step c d _ _ g2 g3 g4 ih =>
            refine ⟨g4, fun K hK hdK => ?_⟩
            refine ih.2 K hK ?_
            rw [hL3 K hK d hdK]
            exact ReflTransGen.single ⟨nbr_mark.2 ⟨g2, g3⟩, g4, ih.1⟩
        obtain ⟨hcA, hcK⟩ := hcw c hc
        obtain ⟨K, hK, hcK'⟩ := (hL1 c).2 hcA
        refine ⟨_, List.mem_map_of_mem hK, hcK K hK hcK', ?_, h3⟩
        by_cases hbK : b ∈ K
        · simp [augmentComponent, hbK]
        · simp only [augmentComponent, Finset.mem_union, Finset.mem_filter, Finset.mem_sdiff]
          exact Or.inr ⟨⟨h2, hbK⟩, c, hcK', h⟩
  have hxA : x ∈ A := (hInA x).2 ⟨x, Or.inl rfl, .refl⟩
  obtain ⟨b, hb, hb'⟩ := UGraph.isReachable_spec o (G := M) (s := x) (e := y)
    (by intro a c h; rw [hMadj] at h; rw [hM1]; exact h.2.1) (by rw [hM1]; exact hxA) Z
  refine ⟨!b, ?_, ?_⟩
  · have hLd : G.dcComponents o A = .ok L := hL
    unfold isMSeparated
    rw [py_bind hax, py_bind hay, py_bind hA, py_bind hU, py_bind hLd, py_bind hM, py_bind hb]
    rfl
  · rw [Bool.not_eq_true', ← Bool.not_eq_true, hb', MSep, mActivePath_iff_aug hG hD hxZ hyZ]
    have hAe : (Walk.InA (fun a b => G.At a b .arrow) (· ∈ Z) x y) = (· ∈ A) := by
      funext v
      exact propext (hInA v).symm
    rw [hAe]
    apply not_congr
    constructor
    · apply rtg_mono
      rintro a c ⟨h1, h2⟩
      rw [hMadj] at h1
      exact ⟨h1.2.2.2, h1.2.1, h2⟩
    · intro h
      have : ∀ c, ReflTransGen (Walk.augStep G.MAdj (fun a b => G.At a b .arrow) (· ∈ A) (· ∈ Z)) x c →
          c ∈ A ∧ M.PathAvoiding Z x c := by
        intro c hc
        induction hc with
        | refl => exact ⟨hxA, .refl⟩
        | @tail a c _ hac ih =>
          refine ⟨hac.2.1, ?_⟩
          by_cases hne : a = c
          · subst hne; exact ih.2
          · refine ReflTransGen.tail ih.2 ⟨?_, hac.2.2⟩
            rw [hMadj]
            exact ⟨ih.1, hac.2.1, hne, hac.1⟩
      exact (this y h).2

end MG
end Verif
