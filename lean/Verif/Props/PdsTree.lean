import Verif.Lemmas.PdsInit
import Verif.Props.Pag

/-!
# Properties C47, C48 (possible-d-sep trees and sets)
-/

namespace Verif
open MG PdsTree

section
variable {α : Type} [DecidableEq α]

/-! ## C47: queries on trees -/

/-- A tree: `9` has the children `1` and `2`; `3` is below `1`; `3` and `1` are below `2`; `4` is below the second `3`. -/
def exTree : PdsTree Nat :=
  .node 9 0 [.node 1 1 [.node 3 2 []], .node 2 1 [.node 3 2 [.node 4 3 []], .node 1 2 []]]

theorem exTree_wf : exTree.Wf := by
  refine .mk _ _ _ (by decide) (by decide) ?_
  intro c hc
  rcases List.mem_cons.mp hc with rfl | hc
  · exact .mk _ _ _ (by decide) (by decide) (by intro c hc; obtain rfl := List.mem_singleton.mp hc; exact leaf_wf _ _)
  · obtain rfl := List.mem_singleton.mp hc
    refine .mk _ _ _ (by decide) (by decide) ?_
    intro c hc
    rcases List.mem_cons.mp hc with rfl | hc
    · exact .mk _ _ _ (by decide) (by decide) (by intro c hc; obtain rfl := List.mem_singleton.mp hc; exact leaf_wf _ _)
    · obtain rfl := List.mem_singleton.mp hc
      exact leaf_wf _ _

/-- C47. A new tree satisfies the invariant, and `add_branch` on any tree object inside of it adds exactly one branch and keeps
the invariant; if the object has that child already the result is a `ValueError`. -/
theorem C47_add_branch :
    (∀ v : α, (PdsTree.node v 0 []).Wf ∧ ∀ l, IsBranch (PdsTree.node v 0 []) l ↔ l = []) ∧
    (∀ {t : PdsTree α} {ref : List α} {v : α}, t.Wf → IsBranch t ref → ¬ IsBranch t (ref ++ [v]) →
      ∃ t', addBranchAt v ref t = .ok t' ∧ t'.Wf ∧ t'.origin = t.origin ∧ t'.depth = t.depth ∧
        ∀ l, IsBranch t' l ↔ IsBranch t l ∨ l = ref ++ [v]) ∧
    (∀ {t : PdsTree α} {v : α}, IsBranch t [v] → t.addBranch v = .error .valueError) := by
  refine ⟨fun v => ⟨leaf_wf v 0, fun l => ?_⟩, fun h1 h2 h3 => addBranchAt_ok h1 h2 h3, ?_⟩
  · cases l with
    | nil => exact ⟨fun _ => rfl, fun _ => .nil _⟩
    | cons x l => exact ⟨fun h => absurd h not_branch_leaf, fun h => by simp at h⟩
  · intro t v h
    obtain ⟨c, hc, rfl, -⟩ := isBranch_cons.mp h
    exact addBranch_err hc

/-- C47. `get_child_branch` returns the child with the given origin, or raises a `ValueError` if there is none. -/
theorem C47_get_child {t : PdsTree α} (ht : t.Wf) (v : α) :
    (IsBranch t [v] → ∃ c, t.getChildBranch v = .ok c ∧ c ∈ t.children ∧ c.origin = v ∧
      ∀ l, IsBranch c l ↔ IsBranch t (v :: l)) ∧
    (¬ IsBranch t [v] → t.getChildBranch v = .error .valueError) := by
  constructor
  · intro h
    obtain ⟨c, hc, rfl, -⟩ := isBranch_cons.mp h
    refine ⟨c, getChildBranch_ok ht.distinct hc, hc, rfl, fun l => ⟨fun h => .cons hc h, fun h => ?_⟩⟩
    obtain ⟨c', hc', e, h'⟩ := isBranch_cons.mp h
    exact child_unique ht.distinct hc' hc e ▸ h'
  · intro h
    exact getChildBranch_err (fun c hc e => h (isBranch_cons.mpr ⟨c, hc, e, .nil _⟩))

/-- C47. `get_minimal_distance` is the least depth at which the node occurs below the root, and infinity iff it does not
occur. -/
theorem C47_min_distance {t : PdsTree α} (ht : t.Wf) (v : α) :
    (t.minDist v = ⊤ ↔ ∀ l, ¬ IsBranch t (l ++ [v])) ∧
    ∀ d, t.minDist v = WithTop.some d ↔
      (∃ l, IsBranch t (l ++ [v]) ∧ d = t.depth + l.length + 1) ∧
        ∀ l, IsBranch t (l ++ [v]) → d ≤ t.depth + l.length + 1 := by
  obtain ⟨h1, h2⟩ := minDist_sol (v := v) ht
  constructor
  · constructor
    · intro h l hl
      have := h1 _ ⟨l, hl, rfl⟩
      rw [h] at this
      exact absurd (top_le_iff.mp this) (WithTop.coe_ne_top)
    · intro h
      rcases h2 with h2 | ⟨n, ⟨l, hl, -⟩, -⟩
      · exact h2
      · exact absurd hl (h l)
  · intro d
    constructor
    · intro h
      rcases h2 with h2 | ⟨n, ⟨l, hl, hn⟩, e⟩
      · rw [h] at h2
        exact absurd h2 WithTop.coe_ne_top
      · rw [h] at e
        have e' : d = n := WithTop.coe_injective e
        refine ⟨⟨l, hl, e'.trans hn⟩, fun l' hl' => ?_⟩
        have := h1 _ ⟨l', hl', rfl⟩
        rw [h] at this
        exact WithTop.coe_le_coe.mp this
    · rintro ⟨⟨l, hl, rfl⟩, hmin⟩
      rcases h2 with h2 | ⟨n, ⟨l', hl', rfl⟩, e⟩
      · have := h1 _ ⟨l, hl, rfl⟩
        rw [h2] at this
        exact absurd (top_le_iff.mp this) WithTop.coe_ne_top
      · rw [e]
        have h3 := hmin l' hl'
        have h4 := h1 _ ⟨l, hl, rfl⟩
        rw [e] at h4
        have h5 := WithTop.coe_le_coe.mp h4
        exact congrArg WithTop.some (le_antisymm h5 h3)

/-- The trees above meet the hypotheses, and the distances are not all equal. -/
example : exTree.Wf ∧ exTree.minDist 1 = WithTop.some 1 ∧ exTree.minDist 3 = WithTop.some 2 ∧
    exTree.minDist 4 = WithTop.some 3 ∧ exTree.minDist 5 = ⊤ :=
  ⟨exTree_wf, by decide +kernel, by decide +kernel, by decide +kernel, by decide +kernel⟩

omit [DecidableEq α] in
/-- C47. `get_max_depth` is the number of nodes on a longest branch, counting the root. -/
theorem C47_max_depth (t : PdsTree α) :
    (∃ l, IsBranch t l ∧ t.maxDepth = l.length + 1) ∧ ∀ l, IsBranch t l → l.length + 1 ≤ t.maxDepth :=
  ⟨(maxDepth_spec t).2, (maxDepth_spec t).1⟩

example : exTree.maxDepth = 4 := by decide +kernel

/-- C47. `is_reachable` says that the target ends a branch whose other nodes are in the given collection (which has to be
nonempty). -/
theorem C47_reachable (t : PdsTree α) (v : α) (S : List α) :
    t.isReachable v S = true ↔ S ≠ [] ∧ ∃ l, IsBranch t (l ++ [v]) ∧ ∀ x ∈ l, x ∈ S := isReachable_spec

/-- C47. `is_legal_cond_set` holds iff every node of the set ends a branch of the tree whose nodes are all in the set. -/
theorem C47_legal (t : PdsTree α) (S : List α) :
    t.isLegal S = true ↔ ∀ v ∈ S, ∃ l, IsBranch t (l ++ [v]) ∧ ∀ x ∈ l ++ [v], x ∈ S := by
  rw [isLegal_spec]
  refine forall₂_congr fun v hv => exists_congr fun l => and_congr_right fun _ => ?_
  simp only [List.mem_append, List.mem_singleton]
  constructor
  · rintro h x (hx | rfl)
    · exact h x hx
    · exact hv
  · exact fun h x hx => h x (Or.inl hx)

/-- Legal and illegal sets. -/
example : exTree.isLegal [4, 2, 3] = true ∧ exTree.isLegal [1, 3, 4] = false ∧ exTree.isLegal [3] = false ∧
    exTree.isLegal [] = true := by decide +kernel

/-- C47. `is_pds_path` holds iff the nodes of the set can be ordered into a branch of the tree. -/
theorem C47_pds_path (t : PdsTree α) (S : Finset α) :
    t.isPdsPath S = true ↔ ∃ l, IsBranch t l ∧ l.Nodup ∧ l.toFinset = S := isPdsPath_spec

example : exTree.isPdsPath {4, 2, 3} = true ∧ exTree.isPdsPath {1, 2, 3} = false := by decide +kernel

/-- C47. `get_subsets_list` enumerates, without repetition, exactly the subsets of the requested size in which every node ends
a branch inside of the subset, each with the sum of the minimal distances of its nodes. -/
theorem C47_subsets (o : SetOrder α) (t : PdsTree α) (S : Finset α) (size : Nat) :
    ((t.subsetsList o S size).map Prod.fst).Nodup ∧
    ∀ T d, (T, d) ∈ t.subsetsList o S size ↔
      T ⊆ S ∧ T.card = size ∧ (∀ v ∈ T, ∃ l, IsBranch t (l ++ [v]) ∧ ∀ x ∈ l, x ∈ T) ∧ d = ∑ v ∈ T, t.minDist v :=
  subsetsList_spec o t S size

example : (exTree.subsetsList ascending {1, 2, 3, 4} 2) =
    [({1, 2}, WithTop.some 2), ({1, 3}, WithTop.some 3), ({2, 3}, WithTop.some 3)] := by decide +kernel

/-! ## C48: the search for possible-d-sep nodes -/

/-- C48. With a root that is not in `en_nodes`, or with `en_nodes` outside of the graph, `create_pds_tree` raises an
`AssertionError`. -/
theorem C48_assert (o : SetOrder α) (G : MG α) (root : α) (en : Finset α) (d : Option Nat)
    (h : root ∉ en ∨ ¬ en ⊆ G.nodes) : G.createPdsTree o root (some en) d = .error .assertionError := by
  rw [createPdsTree]
  simp only [if_pos h]
  rfl

/-- C48. `create_pds_tree` terminates without an exception. The tree is well formed with the given root; the returned set
are the nodes below the root; every branch is a possible-d-sep walk from the root, inside of `en_nodes`, that does not return
to the root and is not longer than the depth bound; all neighbours of the root are its children; and no edge of the graph is used
by two branches, in any direction. -/
theorem C48_tree (o : SetOrder α) {G : MG α} (hG : G.Proper) {root : α} {en : Option (Finset α)} (d : Option Nat)
    (hen : ∀ S, en = some S → S ⊆ G.nodes) (hr : root ∈ en.getD G.nodes) :
    ∃ t S, G.createPdsTree o root en d = .ok (t, S) ∧ t.Wf ∧ t.origin = root ∧ t.depth = 0 ∧
      (∀ v, v ∈ S ↔ ∃ l, IsBranch t (l ++ [v])) ∧
      (∀ l, IsBranch t l → G.PdsWalk (en.getD G.nodes) root l ∧ l.length ≤ max 1 (d.getD ((en.getD G.nodes).card - 1))) ∧
      (∀ v ∈ en.getD G.nodes, v ≠ root → G.MAdj root v → IsBranch t [v]) ∧
      (∀ l l' a b, IsBranch t l → IsBranch t l' → LastEdge root l a b → LastEdge root l' a b ∨ LastEdge root l' b a →
        l = l') := by
  obtain ⟨U, nbs, A, t, h1, h2, h3, h4, h5, h6⟩ := pds_run o hG hr
  obtain ⟨st, s1, s2, s3, s4, s5⟩ := h6 (d.getD ((en.getD G.nodes).card - 1))
  have hpds : ∀ v, v ∈ st.pds.toFinset.erase root ↔ ∃ l, IsBranch st.tree (l ++ [v]) := by
    intro v
    rw [Finset.mem_erase, List.mem_toFinset, s2.pds]
    refine ⟨fun h => h.2, fun h => ⟨?_, h⟩⟩
    rintro rfl
    obtain ⟨l, hl⟩ := h
    exact (s2.walk _ hl).avoid (by simp)
  refine ⟨st.tree, st.pds.toFinset.erase root, ?_, s2.wf, s2.origin, s2.depth, hpds,
    fun l hl => ⟨s2.walk l hl, s2.short l hl⟩, s2.first, s2.uniq⟩
  have key : (do
      let adj ← G.getSkeletonGraph o (en.getD G.nodes)
      let nbs ← adj.getNeighbors o root
      let adj ← nbs.foldlM (fun (A : UGraph α) v => A.removeEdge root v) adj
      let tree ← nbs.foldlM (fun (t : PdsTree α) v => t.addBranch v) (.node root 0 [])
      let st ← pdsLoop o G (d.getD (adj.nodes.card - 1)) (adj.nodes.card * adj.nodes.card + 1)
        ⟨adj, nbs.map (fun v => (root, v, [v])), nbs, tree⟩
      return (st.tree, st.pds.toFinset.erase root)) = (.ok (st.tree, st.pds.toFinset.erase root) : Py _) := by
    rw [py_bind h1, py_bind h2, py_bind h3, py_bind h5]
    rw [h4] at s1 ⊢
    rw [py_bind s1]
    rfl
  rw [createPdsTree.eq_def]
  cases en with
  | none => exact key
  | some S =>
    have hS : ¬ (root ∉ S ∨ ¬ S ⊆ G.nodes) := by
      simpa using ⟨hr, hen S rfl⟩
    simp only [if_neg hS]
    exact key

/-- C48. The set that FCI builds is computed without an exception; every node of it ends a possible-d-sep walk from the given
node, and it contains all neighbours. If the graph has no triangles it is exactly the set of the nodes at the end of a
possible-d-sep walk. -/
theorem C48_set (o : SetOrder α) {G : MG α} (hG : G.Proper) {root : α} (hr : root ∈ G.nodes) :
    ∃ S, G.createPdsSet o root = .ok S ∧ (∀ v ∈ S, ∃ l, G.PdsWalk G.nodes root (l ++ [v])) ∧
      (∀ v ∈ G.nodes, G.MAdj root v → v ∈ S) ∧
      ((∀ a b c, G.MAdj a b → G.MAdj b c → ¬ G.MAdj a c) → ∀ v, v ∈ S ↔ ∃ l, G.PdsWalk G.nodes root (l ++ [v])) := by
  obtain ⟨U, nbs, A, t, h1, h2, h3, h4, h5, h6⟩ := pds_run o hG hr
  obtain ⟨st, s1, s2, s3, s4, s5⟩ := h6 (G.nodes.card * G.nodes.card + 1)
  have hpds : ∀ v, v ∈ st.pds.toFinset.erase root ↔ ∃ l, IsBranch st.tree (l ++ [v]) := by
    intro v
    rw [Finset.mem_erase, List.mem_toFinset, s2.pds]
    refine ⟨fun h => h.2, fun h => ⟨?_, h⟩⟩
    rintro rfl
    obtain ⟨l, hl⟩ := h
    exact (s2.walk _ hl).avoid (by simp)
  have hsound : ∀ v ∈ st.pds.toFinset.erase root, ∃ l, G.PdsWalk G.nodes root (l ++ [v]) := by
    intro v hv
    obtain ⟨l, hl⟩ := (hpds v).mp hv
    exact ⟨l, s2.walk _ hl⟩
  refine ⟨st.pds.toFinset.erase root, ?_, hsound, ?_, ?_⟩
  · rw [createPdsSet, py_bind h1, py_bind h2, py_bind h3]
    have := s5 (by omega)
    rw [py_bind this]
    rfl
  · intro v hv hadj
    have hvr : v ≠ root := by
      rintro rfl
      rcases hadj with ⟨m, h⟩ | ⟨m, h⟩ <;> exact hG.irrefl _ _ h
    exact (hpds v).mpr ⟨[], s2.first v hv hvr hadj⟩
  · intro hT v
    refine ⟨hsound v, ?_⟩
    rintro ⟨l, hl⟩
    obtain ⟨a, b, hab⟩ := LastEdge.exists (root := root) (l := l ++ [v]) (by simp)
    obtain rfl := hab.of_concat
    obtain ⟨l', u, b1, b2, -⟩ := PdsInv.complete s2 s3 (fun l hl => by have := s2.long l hl; omega) hT _ a v hl hab
    obtain ⟨pre, hp⟩ := b2
    refine (hpds v).mpr ?_
    cases pre with
    | nil =>
      obtain ⟨-, e⟩ := List.cons.inj hp
      exact ⟨[], e ▸ b1⟩
    | cons x pre =>
      obtain ⟨-, e⟩ := List.cons.inj hp
      have e' : l' = (pre ++ [u]) ++ [v] := by rw [List.append_assoc]; exact e
      exact ⟨pre ++ [u], e' ▸ b1⟩

omit [DecidableEq α] in
theorem MG.Proper.adj_mem {G : MG α} (hG : G.Proper) {a b : α} (h : G.MAdj a b) : a ∈ G.nodes ∧ b ∈ G.nodes := by
  rcases h with ⟨m, h⟩ | ⟨m, h⟩
  · exact hG.mem _ _ _ h
  · exact (hG.mem _ _ _ h).symm

/-- A graph without triangles in which possible-d-sep walks from `0` reach non-neighbours: `0 o-> 2 <-o 1` and
`0 o-> 2 <-o 3`. -/
example : exPag.Proper ∧ 0 ∈ exPag.nodes ∧ (∀ a b c, exPag.MAdj a b → exPag.MAdj b c → ¬ exPag.MAdj a c) ∧
    (exPag.createPdsSet ascending 0).map (fun r => ascending.iter () r) = .ok [1, 2, 3, 4, 5] ∧
    (exPag.createPdsTree ascending 0 none none).map (fun r => ascending.iter () r.2) = .ok [1, 2, 3, 4, 5] ∧
    (exPag.createPdsTree ascending 0 none (some 1)).map (fun r => ascending.iter () r.2) = .ok [2, 4, 5] := by
  refine ⟨exPag_proper, by decide, ?_, by decide +kernel, by decide +kernel, by decide +kernel⟩
  have h : ∀ a ∈ exPag.nodes, ∀ b ∈ exPag.nodes, exPag.MAdj a b → ∀ c ∈ exPag.nodes, exPag.MAdj b c → ¬ exPag.MAdj a c := by
    decide +kernel
  exact fun a b c h1 h2 => h a (exPag_proper.adj_mem h1).1 b (exPag_proper.adj_mem h1).2 h1 c (exPag_proper.adj_mem h2).2 h2

/-- A triangle `0`, `2`, `3` with `3 *-> 2 <-* 4`. -/
def exTri : MG Nat := .ofMarks {0, 2, 3, 4} pagTypes
  [(0, 2, .circle), (2, 0, .circle), (0, 3, .circle), (3, 0, .circle), (3, 2, .arrow), (2, 3, .circle), (4, 2, .arrow),
   (2, 4, .circle)]

/-- C48. The search is not complete in graphs with triangles, and what it finds depends on the iteration order of sets: the
node `4` is at the end of the possible-d-sep path `0 - 3 - 2 - 4` (that visits no node twice), it is found with one order and
missed with another one, by the search of FCI and by the one of ICD (without depth bound). -/
theorem C48_incomplete :
    exTri.Proper ∧ exTri.PdsWalk exTri.nodes 0 [3, 2, 4] ∧ ([0, 3, 2, 4] : List Nat).Nodup ∧
    (exTri.createPdsSet descending 0).map (fun S => decide (4 ∈ S)) = .ok true ∧
    (exTri.createPdsSet ascending 0).map (fun S => decide (4 ∈ S)) = .ok false ∧
    (exTri.createPdsTree descending 0 none none).map (fun r => decide (4 ∈ r.2)) = .ok true ∧
    (exTri.createPdsTree ascending 0 none none).map (fun r => decide (4 ∈ r.2)) = .ok false := by
  refine ⟨MG.ofMarks_proper (by decide +kernel), ⟨by decide +kernel, by decide, by decide, ?_⟩, by decide, by decide +kernel,
    by decide +kernel, by decide +kernel, by decide +kernel⟩
  intro a b c h
  have h' : [a, b, c] = [0, 3, 2] ∨ [a, b, c] = [3, 2, 4] := by
    rw [List.infix_cons_iff, List.infix_cons_iff] at h
    rcases h with h | h | h
    · exact Or.inl (by have := List.prefix_iff_eq_take.mp h; simpa using this)
    · exact Or.inr (by have := List.prefix_iff_eq_take.mp h; simpa using this)
    · have := h.length_le
      simp at this
  rcases h' with h' | h' <;> (simp at h'; obtain ⟨rfl, rfl, rfl⟩ := h'; decide +kernel)

/-- Two triangles `1`, `2`, `3` and `2`, `3`, `4`, with `0 *-> 1 <-* 2` and `4 *-> 2 <-* 5`. -/
def exRevisit : MG Nat := .ofMarks {0, 1, 2, 3, 4, 5} pagTypes
  [(0, 1, .arrow), (1, 0, .circle), (2, 1, .arrow), (1, 2, .circle), (1, 3, .circle), (3, 1, .circle), (2, 3, .circle),
   (3, 2, .circle), (3, 4, .circle), (4, 3, .circle), (4, 2, .arrow), (2, 4, .circle), (5, 2, .arrow), (2, 5, .circle)]

/-- C48. The set may contain nodes that are not possible-d-sep nodes in the sense of paths: the node `5` is found, but every
possible-d-sep walk from `0` to `5` visits some node twice. -/
theorem C48_revisit :
    exRevisit.Proper ∧ (exRevisit.createPdsSet ascending 0).map (fun S => decide (5 ∈ S)) = .ok true ∧
    ∀ l, exRevisit.PdsWalk exRevisit.nodes 0 l → (0 :: l).Nodup → 5 ∉ l := by
  refine ⟨MG.ofMarks_proper (by decide +kernel), by decide +kernel, ?_⟩
  intro l hl hnd
  have k1 : ∀ c ∈ exRevisit.nodes, exRevisit.MAdj 0 c → c = 1 := by decide +kernel
  have k2 : ∀ c ∈ exRevisit.nodes, exRevisit.PdsTriple 0 1 c → c = 2 := by decide +kernel
  have k3 : ∀ c ∈ exRevisit.nodes, exRevisit.PdsTriple 1 2 c → c = 3 := by decide +kernel
  have k4 : ∀ c ∈ exRevisit.nodes, exRevisit.PdsTriple 2 3 c → c = 1 ∨ c = 4 := by decide +kernel
  have k5 : ∀ c ∈ exRevisit.nodes, exRevisit.PdsTriple 3 4 c → c = 2 := by decide +kernel
  match l, hl, hnd with
  | [], _, _ => simp
  | [a], hl, _ =>
    obtain rfl := k1 a (hl.mem a (by simp)) (by simpa using hl.chain)
    simp
  | a :: b :: [], hl, _ =>
    obtain rfl := k1 a (hl.mem a (by simp)) (by have := hl.chain; simp at this; exact this.1)
    obtain rfl := k2 b (hl.mem b (by simp)) (hl.legal _ _ _ ⟨[], [], by simp⟩)
    simp
  | a :: b :: c :: l, hl, hnd =>
    obtain rfl := k1 a (hl.mem a (by simp)) (by have := hl.chain; simp at this; exact this.1)
    obtain rfl := k2 b (hl.mem b (by simp)) (hl.legal _ _ _ ⟨[], c :: l, by simp⟩)
    obtain rfl := k3 c (hl.mem c (by simp)) (hl.legal _ _ _ ⟨[0], l, by simp⟩)
    cases l with
    | nil => simp
    | cons d l =>
      rcases k4 d (hl.mem d (by simp)) (hl.legal _ _ _ ⟨[0, 1], l, by simp⟩) with rfl | rfl
      · simp at hnd
      · cases l with
        | nil => simp
        | cons e l =>
          obtain rfl := k5 e (hl.mem e (by simp)) (hl.legal _ _ _ ⟨[0, 1, 2], l, by simp⟩)
          simp at hnd
end
end Verif
