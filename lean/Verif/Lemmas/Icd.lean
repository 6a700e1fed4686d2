import Verif.Lemmas.PagEssential
import Verif.Spec.Icd

/-!
# ICD: candidate sets, one pass over the pairs
-/

namespace Verif
open Relation
variable {α : Type}

namespace MG

theorem SubMarks.refl {G : MG α} (_hG : G.Proper) : SubMarks G G := ⟨rfl, fun _ _ _ => ⟨fun h => ⟨h, Or.inl ⟨_, h⟩⟩, fun h => h.1⟩⟩

theorem SubMarks.adj {E G : MG α} (h : SubMarks E G) {a b : α} (hab : E.MAdj a b) : G.MAdj a b := by
  rcases hab with ⟨m, h'⟩ | ⟨m, h'⟩
  · exact Or.inl ⟨m, ((h.marks _ _ _).mp h').1⟩
  · exact Or.inr ⟨m, ((h.marks _ _ _).mp h').1⟩

theorem SubMarks.trans {E F G : MG α} (h1 : SubMarks E F) (h2 : SubMarks F G) : SubMarks E G := by
  refine ⟨h1.nodes.trans h2.nodes, fun a b m => ?_⟩
  rw [h1.marks, h2.marks]
  exact ⟨fun h => ⟨h.1.1, h.2⟩, fun h => ⟨⟨h.1, h1.adj h.2⟩, h.2⟩⟩

theorem SubMarks.possPar {E G : MG α} (h : SubMarks E G) {a b : α} (hp : E.PossPar a b) : G.PossPar a b := by
  obtain ⟨h1, h2, h3⟩ := hp
  exact ⟨h.adj h1, fun h' => h2 ((h.marks _ _ _).mpr ⟨h', h1⟩), fun h' => h3 ((h.marks _ _ _).mpr ⟨h', h1.symm⟩)⟩

theorem SubMarks.possAnc {E G : MG α} (h : SubMarks E G) {a b : α} (hp : E.PossAnc a b) : G.PossAnc a b := by
  obtain ⟨l, h1, h2, h3, h4, h5, h6⟩ := hp
  exact ⟨l, h1, h2, h3, h4, h5.imp (fun _ _ => h.possPar), by rw [← h.nodes]; exact h6⟩

theorem SubMarks.icdNbr {E G : MG α} (h : SubMarks E G) {i j : α} {r : Nat} {T : Finset α} (hT : E.IcdNbr i j r T) :
    G.IcdNbr i j r T :=
  ⟨hT.size, hT.left, hT.right, hT.nbr.imp (fun h' v hv => h.adj (h' v hv)) (fun h' v hv => h.adj (h' v hv)),
    fun v hv => (hT.anc v hv).imp h.possAnc h.possAnc⟩

theorem IcdNbr.symm {G : MG α} {i j : α} {r : Nat} {T : Finset α} (h : G.IcdNbr i j r T) : G.IcdNbr j i r T :=
  ⟨h.size, h.right, h.left, h.nbr.symm, fun v hv => (h.anc v hv).symm⟩

theorem IcdSep.symm {G : MG α} {i j : α} {r : Nat} {T : Finset α} (h : G.IcdSep i j r T) : G.IcdSep j i r T :=
  ⟨h.size, h.mem, h.right, h.left, h.path.symm, fun v hv => (h.anc v hv).symm⟩

end MG

variable [LinearOrder α]
namespace Icd
open MG PdsTree
open SepSet (hkey)

theorem possAncSet_spec (o : SetOrder α) {G : MG α} (hG : G.Proper) (S : Finset α) (i j : α) :
    ∃ b, isPossibleAncestorSet o G S i j = .ok b ∧ (b = true ↔ ∀ v ∈ S, G.PossAnc v i ∨ G.PossAnc v j) := by
  obtain ⟨b, h1, h2⟩ := forAny_spec (f := fun z => do
      if ← G.isPossibleAncestor o z i G.nodes then return false
      if ← G.isPossibleAncestor o z j G.nodes then return false
      return true) (P := fun z => ¬ (G.PossAnc z i ∨ G.PossAnc z j)) (o.iter (i, j) S) (by
    intro z _
    obtain ⟨b1, p1, p2⟩ := isPossibleAncestor_spec o hG.type hG.irrefl z i G.nodes
    obtain ⟨b2, q1, q2⟩ := isPossibleAncestor_spec o hG.type hG.irrefl z j G.nodes
    rw [← pathVia_iff] at p2 q2
    simp only [PossAnc, ← p2, ← q2, p1, q1]
    cases b1
    · cases b2
      · exact ⟨true, rfl, by simp⟩
      · exact ⟨false, rfl, by simp⟩
    · exact ⟨false, rfl, by simp⟩)
  refine ⟨!b, by rw [isPossibleAncestorSet, py_bind h1]; rfl, ?_⟩
  rw [Bool.not_eq_true', ← Bool.not_eq_true, h2]
  simp only [o.mem, not_exists, not_and, not_not]

theorem rangeSets_spec (o : SetOrder α) {G : MG α} (hG : G.Proper) {i j : α} (hi : i ∈ G.nodes) (hj : j ∈ G.nodes)
    (r : Nat) :
    ∃ L, rangeSets o G i j r = .ok L ∧ L.Pairwise (fun c d => c.2 ≤ d.2) ∧ (∀ c ∈ L, G.IcdSep i j r c.1) ∧
      ∀ T, G.IcdNbr i j r T → ∃ c ∈ L, c.1 = T := by
  obtain ⟨ti, si, a1, a2, a3, a4, a5, a6, a7, -⟩ := C48_tree o hG (root := i) (en := none) (some r) (by simp) hi
  obtain ⟨tj, sj, b1, b2, b3, b4, b5, b6, b7, -⟩ := C48_tree o hG (root := j) (en := none) (some r) (by simp) hj
  simp only [Option.getD_none, Option.getD_some] at a6 a7 b6 b7
  obtain ⟨L, l1, l2⟩ := Verif.filterPy_spec (p := fun c : Finset α × WithTop Nat =>
      if i ∈ c.1 ∨ j ∈ c.1 then return false else isPossibleAncestorSet o G c.1 i j)
    (P := fun c => (i ∉ c.1 ∧ j ∉ c.1) ∧ ∀ v ∈ c.1, G.PossAnc v i ∨ G.PossAnc v j)
    (ti.subsetsList o si r ++ tj.subsetsList o sj r) (by
      intro c _
      by_cases hc : i ∈ c.1 ∨ j ∈ c.1
      · exact ⟨false, by rw [if_pos hc]; rfl, by simp only [Bool.false_eq_true, false_iff]; tauto⟩
      · obtain ⟨b, p1, p2⟩ := possAncSet_spec o hG c.1 i j
        exact ⟨b, by rw [if_neg hc]; exact p1, by rw [p2]; push Not at hc; exact ⟨fun h => ⟨hc, h⟩, fun h => h.2⟩⟩)
  have sub : ∀ {x : α} {t : PdsTree α} {S : Finset α}, (∀ v, v ∈ S ↔ ∃ l, IsBranch t (l ++ [v])) →
      (∀ l, IsBranch t l → G.PdsWalk G.nodes x l ∧ l.length ≤ max 1 r) → ∀ c ∈ t.subsetsList o S r,
      c.1.card = r ∧ c.1 ⊆ G.nodes ∧ G.PdsInside x r c.1 := by
    rintro x t S h5 h6 ⟨T, d⟩ hc
    obtain ⟨c1, c2, c3, -⟩ := ((C47_subsets o t S r).2 T d).mp hc
    refine ⟨c2, fun v hv => ?_, fun v hv => ?_⟩
    · obtain ⟨l, hl, -⟩ := c3 v hv
      exact (h6 _ hl).1.mem v (by simp)
    · obtain ⟨l, hl, hl'⟩ := c3 v hv
      exact ⟨l, (h6 _ hl).1, by simpa using (h6 _ hl).2, hl'⟩
  have sup : ∀ {x : α} {t : PdsTree α} {S : Finset α}, (∀ v, v ∈ S ↔ ∃ l, IsBranch t (l ++ [v])) →
      (∀ v ∈ G.nodes, v ≠ x → G.MAdj x v → IsBranch t [v]) → ∀ T, T.card = r → (∀ v ∈ T, G.MAdj x v) →
      ∃ c ∈ t.subsetsList o S r, c.1 = T := by
    intro x t S h5 h7 T hT hadj
    have hb : ∀ v ∈ T, IsBranch t [v] := fun v hv =>
      h7 v (hG.mem_adj (hadj v hv)).2 (fun e => hG.ne (hadj v hv) e.symm) (hadj v hv)
    exact ⟨(T, _), ((C47_subsets o t S r).2 T _).mpr ⟨fun v hv => (h5 v).mpr ⟨[], hb v hv⟩, hT,
      fun v hv => ⟨[], hb v hv, by simp⟩, rfl⟩, rfl⟩
  refine ⟨L.insertionSort (fun c d => c.2 ≤ d.2), ?_, ?_, ?_, ?_⟩
  · rw [rangeSets, py_bind a1]
    simp only
    rw [py_bind b1]
    simp only
    rw [py_bind l1]
    rfl
  · haveI : Std.Total (fun c d : Finset α × WithTop Nat => c.2 ≤ d.2) := ⟨fun a b => le_total _ _⟩
    haveI : IsTrans (Finset α × WithTop Nat) (fun c d => c.2 ≤ d.2) := ⟨fun a b c h1 h2 => le_trans h1 h2⟩
    exact List.pairwise_insertionSort _ _
  · intro c hc
    rw [List.mem_insertionSort, l2, List.mem_append] at hc
    obtain ⟨hc | hc, ⟨h1, h2⟩, h3⟩ := hc
    · obtain ⟨h4, h5, h6⟩ := sub a5 a6 c hc
      exact ⟨h4, h5, h1, h2, Or.inl h6, h3⟩
    · obtain ⟨h4, h5, h6⟩ := sub b5 b6 c hc
      exact ⟨h4, h5, h1, h2, Or.inr h6, h3⟩
  · intro T hT
    have : ∃ c ∈ ti.subsetsList o si r ++ tj.subsetsList o sj r, c.1 = T := by
      rcases hT.nbr with h | h
      · obtain ⟨c, hc, e⟩ := sup a5 a7 T hT.size h
        exact ⟨c, List.mem_append_left _ hc, e⟩
      · obtain ⟨c, hc, e⟩ := sup b5 b7 T hT.size h
        exact ⟨c, List.mem_append_right _ hc, e⟩
    obtain ⟨c, hc, rfl⟩ := this
    exact ⟨c, by rw [List.mem_insertionSort, l2]; exact ⟨hc, ⟨hT.left, hT.right⟩, hT.anc⟩, rfl⟩

/-- What holds during one pass over the pairs that starts in state `st0`. -/
structure Pass (ci : CITest α) (N : Finset α) (st0 st : IcdState α) : Prop where
  inv : Fci.SkInv ci N st.graph st.sep
  sub : SubMarks st.graph st0.graph
  size : st.size = st0.size
  cond : st.cond = st0.cond
  done : st.done = st0.done

theorem testPair_spec {ci : CITest α} {N : Finset α} {st0 st : IcdState α} (h : Pass ci N st0 st) {i j : α}
    {zs : List (List α)} (hzs : ∀ z ∈ zs, i ∉ z ∧ j ∉ z ∧ ∀ v ∈ z, v ∈ N) :
    Pass ci N st0 (testPair ci st i j zs) ∧ SubMarks (testPair ci st i j zs).graph st.graph ∧
      ((testPair ci st i j zs).graph.MAdj i j → ∀ z ∈ zs, ∃ k, ci k i j z = false) ∧
      (zs = [] → testPair ci st i j zs = st) := by
  obtain ⟨f1, f2⟩ := Pc.firstIndep_spec ci i j zs st.calls
  have hnil : zs = [] → testPair ci st i j zs = st := by rintro rfl; rfl
  rw [testPair] at *
  generalize hf : Pc.firstIndep ci i j zs st.calls = q at *
  obtain ⟨z, k⟩ := q
  cases z with
  | none => exact ⟨⟨h.inv, h.sub, h.size, h.cond, h.done⟩, SubMarks.refl h.inv.proper, fun _ => f2 rfl, hnil⟩
  | some z =>
    simp only at hnil ⊢
    obtain ⟨hz, k', hk⟩ := f1 z rfl
    obtain ⟨z1, z2, z3⟩ := hzs z hz
    obtain ⟨d1, -, d3⟩ := deleteEdge_spec h.inv.proper.type (i := i) (j := j)
    have hs : SubMarks (st.graph.deleteEdge i j) st.graph := by
      refine ⟨d1, fun a b m => ?_⟩
      rw [d3, Fci.deleteEdge_adj h.inv.proper]
      exact ⟨fun h' => ⟨h'.1, Or.inl ⟨m, h'.1⟩, by tauto⟩, fun h' => ⟨h'.1, by tauto⟩⟩
    refine ⟨⟨h.inv.delete ⟨z, k', rfl, Or.inl hk, z1, z2, z3⟩, hs.trans h.sub, h.size, h.cond, h.done⟩, hs, ?_, hnil⟩
    intro h'
    rw [Fci.deleteEdge_adj h.inv.proper] at h'
    exact absurd (Or.inl ⟨rfl, rfl⟩) h'.2

/-- One pass over the pairs; `C` says which conditioning tuples are tried for a pair. -/
theorem pass_spec {ci : CITest α} {N : Finset α} {st0 : IcdState α} (h0 : Fci.SkInv ci N st0.graph st0.sep) (r : Nat)
    (C : MG α → α → α → List (List α) → Prop) (f : IcdState α × Bool → α × α → Py (IcdState α × Bool)) (l : List (α × α))
    (hf : ∀ st b i j, (i, j) ∈ l → Pass ci N st0 st →
      (¬ st.graph.MAdj i j → f (st, b) (i, j) = .ok (st, b)) ∧
      (st.graph.MAdj i j → ∃ zs, f (st, b) (i, j) = .ok (testPair ci st i j zs, b && zs.isEmpty) ∧
        (∀ z ∈ zs, i ∉ z ∧ j ∉ z ∧ (∀ v ∈ z, v ∈ N) ∧ z.Nodup ∧ z.length = r) ∧ C st.graph i j zs)) :
    ∃ st b, l.foldlM f (st0, true) = .ok (st, b) ∧ Pass ci N st0 st ∧
      (b = true → st = st0 ∧ ∀ i j, (i, j) ∈ l → st0.graph.MAdj i j → C st0.graph i j []) ∧
      (b = false → r + 2 ≤ N.card) ∧
      ∀ i j, (i, j) ∈ l → st.graph.MAdj i j → ∃ (G : MG α) (zs : List (List α)), SubMarks G st0.graph ∧ SubMarks st.graph G ∧
        C G i j zs ∧ ∀ z ∈ zs, z.Nodup ∧ ∃ k, ci k i j z = false := by
  obtain ⟨⟨st, b⟩, r1, r2, r3, r4, r5⟩ := foldlM_ok_inv (f := f)
    (fun done (acc : IcdState α × Bool) => Pass ci N st0 acc.1 ∧
      (acc.2 = true → acc.1 = st0 ∧ ∀ i j, (i, j) ∈ done → st0.graph.MAdj i j → C st0.graph i j []) ∧
      (acc.2 = false → r + 2 ≤ N.card) ∧
      ∀ i j, (i, j) ∈ done → acc.1.graph.MAdj i j → ∃ (G : MG α) (zs : List (List α)), SubMarks G st0.graph ∧ SubMarks acc.1.graph G ∧
        C G i j zs ∧ ∀ z ∈ zs, z.Nodup ∧ ∃ k, ci k i j z = false)
    l [] (st0, true) ⟨⟨h0, SubMarks.refl h0.proper, rfl, rfl, rfl⟩, by simp, by simp, by simp⟩ (by
      rintro done ⟨i, j⟩ ⟨st, b⟩ hij ⟨i1, i2, i3, i4⟩
      simp only at i1 i2 i3 i4
      obtain ⟨f1, f2⟩ := hf st b i j hij i1
      by_cases hadj : st.graph.MAdj i j
      · obtain ⟨zs, g1, g2, g3⟩ := f2 hadj
        obtain ⟨t1, t2, t3, t4⟩ := testPair_spec i1 (i := i) (j := j) (zs := zs) (fun z hz =>
          ⟨(g2 z hz).1, (g2 z hz).2.1, (g2 z hz).2.2.1⟩)
        refine ⟨_, g1, t1, ?_, ?_, ?_⟩
        · intro hb
          simp only [Bool.and_eq_true, List.isEmpty_iff] at hb
          obtain ⟨hb, rfl⟩ := hb
          obtain ⟨rfl, j2⟩ := i2 hb
          refine ⟨t4 rfl, fun a c hac hadj' => ?_⟩
          rw [List.mem_append, List.mem_singleton, Prod.mk.injEq] at hac
          rcases hac with hac | ⟨rfl, rfl⟩
          · exact j2 a c hac hadj'
          · exact g3
        · intro hb
          simp only [Bool.and_eq_false_iff] at hb
          rcases hb with hb | hb
          · exact i3 hb
          · cases zs with
            | nil => simp at hb
            | cons z zs =>
              obtain ⟨z1, z2, z3, z4, z5⟩ := g2 z (by simp)
              have hm := i1.inv.proper.mem_adj hadj
              rw [i1.inv.nodes] at hm
              have hnd : (i :: j :: z).Nodup := by simp [z1, z2, z4, i1.inv.proper.ne hadj]
              have := Finset.card_le_card (s := (i :: j :: z).toFinset) (t := N) (by
                intro v hv
                simp only [List.mem_toFinset, List.mem_cons] at hv
                rcases hv with rfl | rfl | hv
                · exact hm.1
                · exact hm.2
                · exact z3 v hv)
              rw [List.toFinset_card_of_nodup hnd] at this
              simp only [List.length_cons] at this
              omega
        · intro a c hac hadj'
          rw [List.mem_append, List.mem_singleton, Prod.mk.injEq] at hac
          rcases hac with hac | ⟨rfl, rfl⟩
          · obtain ⟨G, zs', k1, k2, k3, k4⟩ := i4 a c hac (t2.adj hadj')
            exact ⟨G, zs', k1, t2.trans k2, k3, k4⟩
          · exact ⟨st.graph, zs, i1.sub, t2, g3, fun z hz => ⟨(g2 z hz).2.2.2.1, t3 hadj' z hz⟩⟩
      · refine ⟨_, f1 hadj, i1, ?_, i3, ?_⟩
        · intro hb
          obtain ⟨rfl, j2⟩ := i2 hb
          refine ⟨rfl, fun a c hac hadj' => ?_⟩
          rw [List.mem_append, List.mem_singleton, Prod.mk.injEq] at hac
          rcases hac with hac | ⟨rfl, rfl⟩
          · exact j2 a c hac hadj'
          · exact absurd hadj' hadj
        · intro a c hac hadj'
          rw [List.mem_append, List.mem_singleton, Prod.mk.injEq] at hac
          rcases hac with hac | ⟨rfl, rfl⟩
          · exact i4 a c hac hadj'
          · exact absurd hadj' hadj)
  rw [List.nil_append] at r3 r5
  exact ⟨st, b, r1, r2, r3, r4, r5⟩

/-- Which tuples are tried for a pair: all are ICD-Sep sets of `E`, and all sets of neighbours are among them. -/
def Cand (E : MG α) (i j : α) (r : Nat) (zs : List (List α)) : Prop :=
  (∀ z ∈ zs, E.IcdSep i j r z.toFinset) ∧ ∀ T, E.IcdNbr i j r T → ∃ z ∈ zs, z.toFinset = T

theorem preCalc_spec (o : SetOrder α) {ci : CITest α} {N : Finset α} {st : IcdState α}
    (h : Fci.SkInv ci N st.graph st.sep) :
    ∃ d, preCalc o st = .ok { st with cond := d } ∧ ∀ i j, st.graph.MAdj i j → ∃ L,
      Dict.get? d (hkey i j) = some L ∧ (∀ c ∈ L, st.graph.IcdSep i j st.size c.1) ∧
        ∀ T, st.graph.IcdNbr i j st.size T → ∃ c ∈ L, c.1 = T := by
  obtain ⟨d, d1, d2⟩ := foldlM_ok_inv
    (f := fun (d : Dict (α × α) (List (Finset α × WithTop Nat))) (ij : α × α) => do
      if ← st.graph.isConnected ij.1 ij.2 then
        let l ← rangeSets o st.graph ij.1 ij.2 st.size
        return Dict.set d (hkey ij.1 ij.2) l
      else return d)
    (fun done d => ∀ i j, (i, j) ∈ done → st.graph.MAdj i j → ∃ L,
      Dict.get? d (hkey i j) = some L ∧ (∀ c ∈ L, st.graph.IcdSep i j st.size c.1) ∧
        ∀ T, st.graph.IcdNbr i j st.size T → ∃ c ∈ L, c.1 = T)
    (pairs (o.iter (st.size, 0) st.graph.nodes)) [] st.cond (by simp) (by
      rintro done ⟨i, j⟩ d hij hd
      have hne := mem_pairs_ne (o.nodup _ _) hij
      have hi := (o.mem _ _ _).mp (mem_pairs_left hij)
      have hj := (o.mem _ _ _).mp (mem_pairs_right hij)
      obtain ⟨b, p1, p2⟩ := proper_isConnected h.proper.type hne
      cases b with
      | false =>
        refine ⟨d, by rw [py_bind p1]; rfl, fun a c hac hadj => ?_⟩
        rw [List.mem_append, List.mem_singleton, Prod.mk.injEq] at hac
        rcases hac with hac | ⟨rfl, rfl⟩
        · exact hd a c hac hadj
        · exact absurd (p2.mpr hadj) (by simp)
      | true =>
        obtain ⟨L, l1, -, l3, l4⟩ := rangeSets_spec o h.proper hi hj st.size
        refine ⟨Dict.set d (hkey i j) L, by rw [py_bind p1]; simp only [if_true]; rw [py_bind l1]; rfl, fun a c hac hadj => ?_⟩
        rw [Dict.get?_set]
        by_cases he : hkey i j = hkey a c
        · rw [if_pos he]
          rcases SepSet.hkey_eq_iff.mp he with ⟨rfl, rfl⟩ | ⟨rfl, rfl⟩
          · exact ⟨L, rfl, l3, l4⟩
          · exact ⟨L, rfl, fun c hc => (l3 c hc).symm, fun T hT => l4 T hT.symm⟩
        · rw [if_neg he]
          rw [List.mem_append, List.mem_singleton, Prod.mk.injEq] at hac
          rcases hac with hac | ⟨rfl, rfl⟩
          · exact hd a c hac hadj
          · exact absurd rfl he)
  refine ⟨d, by rw [preCalc, py_bind d1]; rfl, fun i j hadj => ?_⟩
  have hm := h.proper.mem_adj hadj
  rcases mem_pairs_or ((o.mem (st.size, 0) _ _).mpr hm.1) ((o.mem (st.size, 0) _ _).mpr hm.2) (h.proper.ne hadj) with h' | h'
  · exact d2 i j h' hadj
  · obtain ⟨L, l1, l2, l3⟩ := d2 j i h' hadj.symm
    exact ⟨L, by rw [SepSet.hkey_comm]; exact l1, fun c hc => (l2 c hc).symm, fun T hT => l3 T hT.symm⟩

theorem pruned_of {ci : CITest α} {N : Finset α} (o : SetOrder α) {τ : Type} (t : τ) {G0 E : MG α} {r : Nat} (hE : E.Proper)
    (hN : E.nodes = N) (hs : SubMarks E G0)
    (h : ∀ i j, (i, j) ∈ pairs (o.iter t N) → E.MAdj i j → ∃ (G : MG α) (zs : List (List α)), SubMarks E G ∧
        (∀ T, G.IcdNbr i j r T → ∃ z ∈ zs, z.toFinset = T) ∧ ∀ z ∈ zs, z.Nodup ∧ ∃ k, ci k i j z = false) :
    Pruned ci r G0 E := by
  refine ⟨hs, ?_⟩
  have key : ∀ i j, (i, j) ∈ pairs (o.iter t N) → E.MAdj i j → ∀ T, E.IcdNbr i j r T → Fci.Dep ci i j T := by
    intro i j hij hadj T hT
    obtain ⟨G, zs, h1, h2, h3⟩ := h i j hij hadj
    obtain ⟨z, hz, rfl⟩ := h2 T (h1.icdNbr hT)
    obtain ⟨h4, k, h5⟩ := h3 z hz
    exact ⟨z, k, rfl, h4, h5⟩
  intro i j hadj T hT
  have hm := hE.mem_adj hadj
  rw [hN] at hm
  rcases mem_pairs_or ((o.mem t _ _).mpr hm.1) ((o.mem t _ _).mpr hm.2) (hE.ne hadj) with h' | h'
  · exact Or.inl (key i j h' hadj T hT)
  · exact Or.inr (key j i h' hadj.symm T hT.symm)

omit [LinearOrder α] in
/-- Nothing to try for adjacent pairs. -/
theorem stop_of {N : Finset α} (o : SetOrder α) {τ : Type} (t : τ) {G : MG α} {r : Nat} (hG : G.Proper) (hN : G.nodes = N)
    (h : ∀ i j, (i, j) ∈ pairs (o.iter t N) → G.MAdj i j → ∀ T, ¬ G.IcdNbr i j r T) :
    ∀ i j, G.MAdj i j → ∀ T, ¬ G.IcdNbr i j r T := by
  intro i j hadj T hT
  have hm := hG.mem_adj hadj
  rw [hN] at hm
  rcases mem_pairs_or ((o.mem t _ _).mpr hm.1) ((o.mem t _ _).mpr hm.2) (hG.ne hadj) with h' | h'
  · exact h i j h' hadj T hT
  · exact h j i h' hadj.symm T hT.symm

theorem baseStep0_spec (o : SetOrder α) {ci : CITest α} {N : Finset α} {st : IcdState α} (h : Fci.SkInv ci N st.graph st.sep) :
    ∃ st' E, baseStep0 o ci st = .ok st' ∧ Fci.SkInv ci N st'.graph st'.sep ∧ Pruned ci 0 st.graph E ∧ SameSkel st'.graph E ∧
      st'.size = st.size ∧ st'.done = st.done := by
  have key : ∀ (l : List (α × α)) (s : IcdState α), Pass ci N st s →
      ∃ s', l.foldl (fun st ij => testPair ci st ij.1 ij.2 [[]]) s = s' ∧ Pass ci N st s' ∧ SubMarks s'.graph s.graph ∧
        ∀ i j, (i, j) ∈ l → s'.graph.MAdj i j → ∃ k, ci k i j [] = false := by
    intro l
    induction l with
    | nil => intro s hs; exact ⟨s, rfl, hs, SubMarks.refl hs.inv.proper, by simp⟩
    | cons ij l ih =>
      intro s hs
      obtain ⟨t1, t2, t3, -⟩ := testPair_spec hs (i := ij.1) (j := ij.2) (zs := [[]]) (by simp)
      obtain ⟨s', i1, i2, i3, i4⟩ := ih _ t1
      refine ⟨s', i1, i2, i3.trans t2, fun i j hij hadj => ?_⟩
      rcases List.mem_cons.mp hij with rfl | hij
      · exact t3 (i3.adj hadj) [] (by simp)
      · exact i4 i j hij hadj
  obtain ⟨s, s1, s2, -, s4⟩ := key (pairs (o.iter st.size st.graph.nodes)) st
    ⟨h, SubMarks.refl h.proper, rfl, rfl, rfl⟩
  obtain ⟨G1, g1, g2, -⟩ := pagVStructures_spec o s.sep s2.inv.proper s2.inv.all_types s2.inv.keyG
  have hi := s2.inv.same g2.same
  obtain ⟨G2, r1, r2, -⟩ := pagMaxOrient_spec o s.sep (rules := [1, 2, 3, 4]) (by decide) hi.proper hi.all_types (fun _ => hi.keyG)
  refine ⟨{ s with graph := G2 }, s.graph, ?_, hi.same r2.same, ?_, g2.same.trans r2.same, s2.size, s2.done⟩
  · rw [baseStep0]
    simp only [s1]
    rw [py_bind g1, py_bind r1]
    rfl
  · refine pruned_of o st.size s2.inv.proper s2.inv.nodes s2.sub fun i j hij hadj => ?_
    refine ⟨s.graph, [[]], SubMarks.refl s2.inv.proper, fun T hT => ⟨[], by simp, ?_⟩, fun z hz => ?_⟩
    · rw [List.toFinset_nil]; exact (Finset.card_eq_zero.mp hT.size).symm
    · rw [List.mem_singleton] at hz
      subst hz
      exact ⟨List.nodup_nil, s4 i j (by rw [h.nodes]; exact hij) hadj⟩

theorem mem_condSets1 (o : SetOrder α) {G : MG α} (hG : G.Proper) {i j : α} {z : List α} :
    z ∈ condSets1 o G i j ↔ ∃ v, z = [v] ∧ ((G.MAdj i v ∧ v ≠ j) ∨ (G.MAdj j v ∧ v ≠ i)) := by
  have h1 : ∀ l : List α, z ∈ combs 1 l ↔ ∃ v ∈ l, z = [v] := by
    intro l
    rw [mem_combs]
    constructor
    · rintro ⟨h1, h2⟩
      obtain ⟨v, rfl⟩ := List.length_eq_one_iff.mp h2
      exact ⟨v, h1.subset (by simp), rfl⟩
    · rintro ⟨v, hv, rfl⟩
      exact ⟨by simpa using hv, rfl⟩
  simp only [condSets1, mem_uniqueElems, List.mem_append, h1, o.mem, Finset.mem_sdiff, Finset.mem_singleton,
    mem_findAdjacent hG, List.not_mem_nil, not_false_eq_true, and_true]
  constructor
  · rintro (⟨v, h, rfl⟩ | ⟨v, h, rfl⟩)
    · exact ⟨v, rfl, Or.inl h⟩
    · exact ⟨v, rfl, Or.inr h⟩
  · rintro ⟨v, rfl, h | h⟩
    · exact Or.inl ⟨v, h, rfl⟩
    · exact Or.inr ⟨v, h, rfl⟩

/-- What the steps with a non-empty conditioning set do. -/
structure StepSpec (ci : CITest α) (N : Finset α) (tails : Bool) (st st' : IcdState α) (d : Bool) : Prop where
  inv : Fci.SkInv ci N st'.graph st'.sep
  pruned : ∃ E, Pruned ci st.size st.graph E ∧ SameSkel st'.graph E
  size : st'.size = st.size
  progress : d = false → st.size + 2 ≤ N.card
  stop : d = true → (∀ i j, st.graph.MAdj i j → ∀ T, ¬ st.graph.IcdNbr i j st.size T) ∧ st'.sep = st.sep ∧
    ∀ a b, st'.graph.MAdj a b ↔ st.graph.MAdj a b
  sound : (2 ≤ st.size → Snd tails N st.graph st.sep) → Snd tails N st'.graph st'.sep

theorem reorient_snd (o : SetOrder α) {ci : CITest α} {N : Finset α} {G : MG α} {sep : SepSet α} (h : Fci.SkInv ci N G sep)
    (tails : Bool) : ∃ H, Fci.reorient o sep G = .ok H ∧ SameSkel H G ∧ Snd tails N H sep ∧
      ∀ M, Ancestral M → M.nodes = N → (∀ a b, H.MAdj a b ↔ M.MAdj a b) → SepIn sep.get M → Compatible H M := by
  obtain ⟨H, h1, h2, -, h4⟩ := Fci.reorient_spec o sep h.proper h.types h.keyG
  have h5 : ∀ M, Ancestral M → M.nodes = N → (∀ a b, H.MAdj a b ↔ M.MAdj a b) → SepIn sep.get M → Compatible H M :=
    fun M hM hN hadj hs => h4 M hM (hN.trans h.nodes.symm) (fun a b => (h2.adj a b).symm.trans (hadj a b)) hs
  exact ⟨H, h1, h2, ⟨fun M hM hN hadj hs => ⟨(h5 M hM hN hadj hs).arrowsOk, fun _ => h5 M hM hN hadj hs⟩,
    fun D hD hac hN hadj hs => Fci.reorient_essential o sep hD hac h.proper h.types h.keyG (hN.trans h.nodes.symm)
      (fun a b => (h2.adj a b).symm.trans (hadj a b)) hs h1⟩, h5⟩

theorem Ess.congr {N : Finset α} {G H : MG α} {sep : SepSet α} (h : Ess N G sep) (hadj : ∀ a b, H.MAdj a b ↔ G.MAdj a b)
    (ha : ∀ a b, H.At a b .arrow ↔ G.At a b .arrow) : Ess N H sep :=
  fun D hD hac hN hadj' hs a b => (ha a b).trans
    (h D hD hac hN (fun a b => (hadj a b).symm.trans (hadj' a b)) hs a b)

theorem baseStep1_spec (o : SetOrder α) {ci : CITest α} {N : Finset α} (opts : IcdOpts) {st : IcdState α}
    (h : Fci.SkInv ci N st.graph st.sep) (hr : st.size = 1) :
    ∃ st' d, baseStep1 o ci opts st = .ok (st', d) ∧ StepSpec ci N opts.tails st st' d := by
  obtain ⟨s, d, s1, s2, s3, s4, s5⟩ := pass_spec h 1
    (fun G i j zs => ∀ z, z ∈ zs ↔ ∃ v, z = [v] ∧ ((G.MAdj i v ∧ v ≠ j) ∨ (G.MAdj j v ∧ v ≠ i)))
    (fun (acc : IcdState α × Bool) ij => do
      if !(← acc.1.graph.isConnected ij.1 ij.2) then return acc
      let zs := condSets1 o acc.1.graph ij.1 ij.2
      return (testPair ci acc.1 ij.1 ij.2 zs, acc.2 && zs.isEmpty))
    (pairs (o.iter st.size st.graph.nodes)) (by
      intro s b i j hij hs
      have hne := mem_pairs_ne (o.nodup _ _) hij
      obtain ⟨c, p1, p2⟩ := proper_isConnected hs.inv.proper.type hne
      refine ⟨fun hadj => ?_, fun hadj => ?_⟩
      · cases c with
        | true => exact absurd (p2.mp rfl) hadj
        | false => rw [py_bind p1]; rfl
      · cases c with
        | false => exact absurd (p2.mpr hadj) (by simp)
        | true =>
          refine ⟨condSets1 o s.graph i j, by rw [py_bind p1]; rfl, ?_, fun z => mem_condSets1 o hs.inv.proper⟩
          intro z hz
          obtain ⟨v, rfl, hv⟩ := (mem_condSets1 o hs.inv.proper).mp hz
          simp only [List.mem_singleton, forall_eq, List.nodup_singleton, List.length_singleton, and_true]
          rcases hv with ⟨h1, h2⟩ | ⟨h1, h2⟩
          · exact ⟨hs.inv.proper.ne h1, fun e => h2 e.symm, hs.inv.nodes ▸ (hs.inv.proper.mem_adj h1).2⟩
          · exact ⟨fun e => h2 e.symm, hs.inv.proper.ne h1, hs.inv.nodes ▸ (hs.inv.proper.mem_adj h1).2⟩)
  have nbr : ∀ {G : MG α} {i j : α} {zs : List (List α)},
      (∀ z, z ∈ zs ↔ ∃ v, z = [v] ∧ ((G.MAdj i v ∧ v ≠ j) ∨ (G.MAdj j v ∧ v ≠ i))) →
      ∀ T, G.IcdNbr i j 1 T → ∃ z ∈ zs, z.toFinset = T := by
    intro G i j zs hz T hT
    obtain ⟨v, rfl⟩ := Finset.card_eq_one.mp hT.size
    refine ⟨[v], (hz _).mpr ⟨v, rfl, ?_⟩, by simp⟩
    have h1 := hT.left
    have h2 := hT.right
    rw [Finset.mem_singleton] at h1 h2
    rcases hT.nbr with h3 | h3
    · exact Or.inl ⟨h3 v (by simp), fun e => h2 e.symm⟩
    · exact Or.inr ⟨h3 v (by simp), fun e => h1 e.symm⟩
  obtain ⟨H, k1, k2, k3, k4⟩ := reorient_snd o s2.inv opts.tails
  obtain ⟨K, l1, l2, l3, l4⟩ := Fci.finalRules_spec o s.sep opts.selection opts.tails k2.proper (k2.types.trans s2.inv.types)
  have hs := k2.trans l2
  refine ⟨{ s with graph := K }, d, ?_, s2.inv.same hs, ⟨s.graph, ?_, hs⟩, s2.size, ?_, ?_, fun _ => ?_⟩
  · rw [baseStep1, py_bind s1]
    simp only
    rw [py_bind k1, py_bind l1]
    rfl
  · rw [hr]
    refine pruned_of o st.size s2.inv.proper s2.inv.nodes s2.sub fun i j hij hadj => ?_
    obtain ⟨G, zs, q1, q2, q3, q4⟩ := s5 i j (by rw [h.nodes]; exact hij) hadj
    exact ⟨G, zs, q2, nbr q3, q4⟩
  · rw [hr]; exact s4
  · intro hd
    obtain ⟨rfl, q⟩ := s3 hd
    refine ⟨?_, rfl, hs.adj⟩
    rw [hr]
    refine stop_of o s.size h.proper h.nodes fun i j hij hadj T hT => ?_
    obtain ⟨z, hz, -⟩ := nbr (q i j (by rw [h.nodes]; exact hij) hadj) T hT
    simp at hz
  · refine ⟨fun M hM hN hadj hsep => ?_, k3.2.congr l2.adj l3⟩
    have hC := k4 M hM hN (fun a b => (l2.adj a b).symm.trans (hadj a b)) hsep
    exact ⟨hC.arrowsOk.congr l3, l4 M hM hC⟩

theorem incrementalStep_spec (o : SetOrder α) {ci : CITest α} {N : Finset α} (opts : IcdOpts) {st : IcdState α}
    (h : Fci.SkInv ci N st.graph st.sep) (hr : 2 ≤ st.size)
    (hpre : opts.preCalc = true → ∀ i j, st.graph.MAdj i j → ∃ L, Dict.get? st.cond (hkey i j) = some L ∧
      (∀ c ∈ L, st.graph.IcdSep i j st.size c.1) ∧ ∀ T, st.graph.IcdNbr i j st.size T → ∃ c ∈ L, c.1 = T) :
    ∃ st' d, incrementalStep o ci opts st = .ok (st', d) ∧ StepSpec ci N opts.tails st st' d := by
  obtain ⟨s, d, s1, s2, s3, s4, s5⟩ := pass_spec h st.size
    (fun G i j zs => ∀ T, G.IcdNbr i j st.size T → ∃ z ∈ zs, z.toFinset = T)
    (fun (acc : IcdState α × Bool) ij => do
      if !(← acc.1.graph.isConnected ij.1 ij.2) then return acc
      let conds ← (if opts.preCalc then Dict.get acc.1.cond (hkey ij.1 ij.2)
        else rangeSets o acc.1.graph ij.1 ij.2 acc.1.size)
      return (testPair ci acc.1 ij.1 ij.2 (conds.map (fun c => o.iter (ij.1, ij.2) c.1)), acc.2 && conds.isEmpty))
    (pairs (o.iter st.size st.graph.nodes)) (by
      intro s b i j hij hs
      have hne := mem_pairs_ne (o.nodup _ _) hij
      obtain ⟨c, p1, p2⟩ := proper_isConnected hs.inv.proper.type hne
      refine ⟨fun hadj => ?_, fun hadj => ?_⟩
      · cases c with
        | true => exact absurd (p2.mp rfl) hadj
        | false => rw [py_bind p1]; rfl
      · cases c with
        | false => exact absurd (p2.mpr hadj) (by simp)
        | true =>
          have hm := hs.inv.proper.mem_adj hadj
          have hL : ∃ L, (if opts.preCalc then Dict.get s.cond (hkey i j) else rangeSets o s.graph i j s.size) = .ok L ∧
              (∀ c ∈ L, ∃ E : MG α, E.nodes = N ∧ E.IcdSep i j st.size c.1) ∧
              ∀ T, s.graph.IcdNbr i j st.size T → ∃ c ∈ L, c.1 = T := by
            cases hp : opts.preCalc with
            | true =>
              obtain ⟨L, l1, l2, l3⟩ := hpre hp i j (hs.sub.adj hadj)
              refine ⟨L, ?_, fun c hc => ⟨st.graph, h.nodes, l2 c hc⟩, fun T hT => l3 T (hs.sub.icdNbr hT)⟩
              simp only [if_true]
              rw [hs.cond]
              exact Dict.get_eq_ok.mpr l1
            | false =>
              obtain ⟨L, l1, -, l3, l4⟩ := rangeSets_spec o hs.inv.proper hm.1 hm.2 st.size
              refine ⟨L, ?_, fun c hc => ⟨s.graph, hs.inv.nodes, l3 c hc⟩, l4⟩
              simp only [Bool.false_eq_true, if_false]
              rw [hs.size]
              exact l1
          obtain ⟨L, l1, l2, l3⟩ := hL
          refine ⟨L.map (fun c => o.iter (i, j) c.1), ?_, ?_, ?_⟩
          · rw [py_bind p1]
            simp only [Bool.not_true, Bool.false_eq_true, if_false]
            rw [py_bind l1]
            cases L <;> rfl
          · intro z hz
            obtain ⟨c, hc, rfl⟩ := List.mem_map.mp hz
            obtain ⟨E, e1, e2⟩ := l2 c hc
            refine ⟨fun h => e2.left ((o.mem _ _ _).mp h), fun h => e2.right ((o.mem _ _ _).mp h),
              fun v hv => e1 ▸ e2.mem ((o.mem _ _ _).mp hv), o.nodup _ _, ?_⟩
            rw [← e2.size, ← List.toFinset_card_of_nodup (o.nodup (i, j) c.1)]
            congr 1
            ext v
            rw [List.mem_toFinset, o.mem]
          · intro T hT
            obtain ⟨c, hc, rfl⟩ := l3 T hT
            refine ⟨_, List.mem_map.mpr ⟨c, hc, rfl⟩, ?_⟩
            ext v
            rw [List.mem_toFinset, o.mem])
  have hfin : ∃ H, (if d then Fci.finalRules o s.sep opts.selection opts.tails s.graph else Fci.reorient o s.sep s.graph) = .ok H ∧
      SameSkel H s.graph ∧ ((d = true → Snd opts.tails N s.graph s.sep) → Snd opts.tails N H s.sep) := by
    cases d with
    | true =>
      obtain ⟨K, l1, l2, l3, l4⟩ := Fci.finalRules_spec o s.sep opts.selection opts.tails s2.inv.proper s2.inv.types
      refine ⟨K, l1, l2, fun hS => ⟨fun M hM hN hadj hsep => ?_, (hS rfl).2.congr l2.adj l3⟩⟩
      obtain ⟨q1, q2⟩ := (hS rfl).1 M hM hN (fun a b => (l2.adj a b).symm.trans (hadj a b)) hsep
      exact ⟨q1.congr l3, fun ht => l4 M hM (q2 ht) ht⟩
    | false =>
      obtain ⟨H, k1, k2, k3, -⟩ := reorient_snd o s2.inv opts.tails
      exact ⟨H, k1, k2, fun _ => k3⟩
  obtain ⟨H, k1, k2, k3⟩ := hfin
  refine ⟨{ s with graph := H }, d, ?_, s2.inv.same k2, ⟨s.graph, ?_, k2⟩, s2.size, s4, ?_, fun hS => ?_⟩
  · rw [incrementalStep, py_bind s1]
    simp only
    rw [py_bind k1]
    rfl
  · refine pruned_of o st.size s2.inv.proper s2.inv.nodes s2.sub fun i j hij hadj => ?_
    obtain ⟨G, zs, q1, q2, q3, q4⟩ := s5 i j (by rw [h.nodes]; exact hij) hadj
    exact ⟨G, zs, q2, q3, q4⟩
  · intro hd
    obtain ⟨rfl, q⟩ := s3 hd
    refine ⟨?_, rfl, k2.adj⟩
    refine stop_of o s.size h.proper h.nodes fun i j hij hadj T hT => ?_
    obtain ⟨z, hz, -⟩ := q i j (by rw [h.nodes]; exact hij) hadj T hT
    simp at hz
  · refine k3 fun hd => ?_
    obtain ⟨rfl, -⟩ := s3 hd
    exact hS hr

theorem step_spec (o : SetOrder α) {ci : CITest α} {N : Finset α} (opts : IcdOpts) {st : IcdState α}
    (h : Fci.SkInv ci N st.graph st.sep) (hd : st.done = false) :
    ∃ st' d, step o ci opts st = .ok (st', d) ∧ Fci.SkInv ci N st'.graph st'.sep ∧
      (∃ E, Pruned ci st.size st.graph E ∧ SameSkel st'.graph E) ∧ st'.size = st.size ∧
      (st.size = 0 → d = false) ∧ (1 ≤ st.size → StepSpec ci N opts.tails st st' d) := by
  rw [step]
  by_cases h0 : st.size = 0
  · obtain ⟨st', E, s1, s2, s3, s4, s5, s6⟩ := baseStep0_spec o h
    refine ⟨st', st.done, ?_, s2, ⟨E, ?_, s4⟩, s5, fun _ => hd, ?_⟩
    · rw [if_pos h0, py_bind s1]; rfl
    · rw [h0]; exact s3
    · omega
  rw [if_neg h0]
  by_cases h1 : st.size = 1
  · obtain ⟨st', d, s1, s2⟩ := baseStep1_spec o opts h h1
    exact ⟨st', d, by rw [if_pos h1]; exact s1, s2.inv, s2.pruned, s2.size, fun e => absurd e h0, fun _ => s2⟩
  rw [if_neg h1]
  have hc : ∃ c, (if opts.preCalc then preCalc o st else pure st) = .ok { st with cond := c } ∧
      (opts.preCalc = true → ∀ i j, st.graph.MAdj i j → ∃ L, Dict.get? c (hkey i j) = some L ∧
      (∀ c ∈ L, st.graph.IcdSep i j st.size c.1) ∧ ∀ T, st.graph.IcdNbr i j st.size T → ∃ c ∈ L, c.1 = T) := by
    cases hp : opts.preCalc with
    | true =>
      obtain ⟨c, c1, c2⟩ := preCalc_spec o h
      exact ⟨c, c1, fun _ => c2⟩
    | false => exact ⟨st.cond, rfl, by simp⟩
  obtain ⟨c, c1, c2⟩ := hc
  obtain ⟨st', d, s1, s2⟩ := incrementalStep_spec o opts (st := { st with cond := c }) h (by simp only; omega) c2
  refine ⟨st', d, by rw [py_bind c1]; exact s1, s2.inv, s2.pruned, s2.size, fun e => absurd e h0, fun _ => ?_⟩
  exact ⟨s2.inv, s2.pruned, s2.size, s2.progress, s2.stop, s2.sound⟩

theorem iteration_spec (o : SetOrder α) {ci : CITest α} {N : Finset α} (opts : IcdOpts) {st : IcdState α}
    (h : Fci.SkInv ci N st.graph st.sep) (hd : st.done = false) :
    ∃ st' d, iteration o ci opts st = .ok (st', d, st.size) ∧ st'.done = d ∧ st'.size = st.size + 1 ∧
      Fci.SkInv ci N st'.graph st'.sep ∧ (∃ E, Pruned ci st.size st.graph E ∧ SameSkel st'.graph E) ∧
      (st.size = 0 → d = false) ∧
      (1 ≤ st.size → d = false → st.size + 2 ≤ N.card) ∧
      (d = true → (∀ i j, st.graph.MAdj i j → ∀ T, ¬ st.graph.IcdNbr i j st.size T) ∧ st'.sep = st.sep ∧
        ∀ a b, st'.graph.MAdj a b ↔ st.graph.MAdj a b) ∧
      (1 ≤ st.size → (2 ≤ st.size → Snd opts.tails N st.graph st.sep) → Snd opts.tails N st'.graph st'.sep) := by
  obtain ⟨s, d, s1, s2, s3, s4, s5, s6⟩ := step_spec o opts h hd
  refine ⟨{ s with done := d, size := s.size + 1 }, d, ?_, rfl, by simp only [s4], s2, s3, s5, ?_, ?_, ?_⟩
  · rw [iteration, hd]
    simp only [Bool.false_eq_true, if_false]
    rw [py_bind s1]
    simp only [s4]
    rfl
  · exact fun h1 => (s6 h1).progress
  · intro hd
    have : 1 ≤ st.size := by
      by_contra h1
      have := s5 (by omega)
      simp [hd] at this
    exact (s6 this).stop hd
  · exact fun h1 => (s6 h1).sound

theorem loop_spec (o : SetOrder α) {ci : CITest α} {N : Finset α} (opts : IcdOpts) :
    ∀ (fuel : Nat) (st : IcdState α), Fci.SkInv ci N st.graph st.sep → st.done = false → 1 ≤ fuel →
    (max 2 N.card ≤ fuel + st.size) → (2 ≤ st.size → Snd opts.tails N st.graph st.sep) → (2 ≤ st.size → st.size + 1 ≤ N.card) →
    ∃ st', loop o ci opts fuel st = .ok st' ∧ st'.done = true ∧ st'.size ≤ max 2 N.card ∧ Fci.SkInv ci N st'.graph st'.sep ∧
      (∀ a b, st'.graph.MAdj a b → st.graph.MAdj a b) ∧ Snd opts.tails N st'.graph st'.sep := by
  intro fuel
  induction fuel with
  | zero => intro st _ _ h; omega
  | succ fuel ih =>
    intro st h hd _ hf hS hr
    obtain ⟨s, d, i1, i2, i3, i4, ⟨E, i5, i5'⟩, i6, i7, i8, i9⟩ := iteration_spec o opts h hd
    have hsub : ∀ a b, s.graph.MAdj a b → st.graph.MAdj a b := fun a b h => i5.sub.adj ((i5'.adj a b).mp h)
    cases d with
    | true =>
      have h1 : 1 ≤ st.size := by
        by_contra h1
        have := i6 (by omega)
        simp at this
      refine ⟨s, ?_, i2, ?_, i4, hsub, i9 h1 hS⟩
      · rw [loop, py_bind i1]; rfl
      · rw [i3]
        by_cases h2 : 2 ≤ st.size
        · have := hr h2; omega
        · omega
    | false =>
      by_cases h0 : st.size = 0
      · obtain ⟨st', l1, l2, l3, l4, l5, l6⟩ := ih s i4 i2 (by omega) (by omega) (by omega) (by omega)
        exact ⟨st', by rw [loop, py_bind i1]; exact l1, l2, l3, l4, fun a b h => hsub _ _ (l5 a b h), l6⟩
      · have hp := i7 (by omega) rfl
        obtain ⟨st', l1, l2, l3, l4, l5, l6⟩ := ih s i4 i2 (by omega) (by omega) (fun _ => i9 (by omega) hS) (by omega)
        exact ⟨st', by rw [loop, py_bind i1]; exact l1, l2, l3, l4, fun a b h => hsub _ _ (l5 a b h), l6⟩

theorem init_inv (o : SetOrder α) (ci : CITest α) (N : Finset α) : Fci.SkInv ci N (init o N).graph (init o N).sep := by
  have hadj : ∀ i ∈ N, ∀ j ∈ N, i ≠ j → (MG.complete N MG.pagTypes .circle).MAdj i j := by
    intro i hi j hj hij
    exact Or.inl ⟨.circle, complete_at.mpr ⟨hi, hj, hij, rfl⟩⟩
  refine ⟨complete_proper (by simp [pagTypes]), rfl, rfl, ?_, ?_⟩
  · intro i hi j hj hij
    exact ⟨∅, by rw [init, SepSet.get_init, if_pos ⟨hi, hj, hij⟩]⟩
  · intro i hi j hj hij hn
    exact absurd (hadj i hi j hj hij) hn

end Icd
end Verif
