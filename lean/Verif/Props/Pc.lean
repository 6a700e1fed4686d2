import Verif.Lemmas.Pc
import Verif.Lemmas.SepHeap
import Verif.Props.Pdag

/-!
# Properties C21–C23 (PC algorithm) and C38 (separation sets)
-/

namespace Verif
open Relation
variable {α : Type} [LinearOrder α]

/-! ## C21 -/

/-- `learn_skeleton` with any CI test: it terminates without an exception; all edges are undirected; the recorded
separation set of each removed pair consists of other nodes and is one for which the test answered "independent" for
this pair; and for each kept pair `i --- j` the test answered "dependent" for every set of neighbours of `i` other
than `j` in the result. -/
theorem C21_skeleton (o : SetOrder α) (ci : CITest α) (overwrite : Bool) (N : Finset α) :
    ∃ st, Pc.learnSkeleton o ci overwrite (Pc.init o N) = .ok st ∧ st.graph.nodes = N ∧ st.graph.PdagWF ∧
      (∀ a b, ¬ st.graph.Arrow a b) ∧
      (∀ i ∈ N, ∀ j ∈ N, i ≠ j → ¬ st.graph.Und i j →
        ∃ l k, st.sep.get i j = .ok l.toFinset ∧ i ∉ l ∧ j ∉ l ∧ (∀ x ∈ l, x ∈ N) ∧
          (ci k i j l = true ∨ ci k j i l = true)) ∧
      ∀ i j, st.graph.Und i j → ∀ S, (∀ s ∈ S, st.graph.Und s i) → j ∉ S →
        ∃ l k, l.toFinset = S ∧ (ci k i j l = false ∨ ci k j i l = false) := by
  obtain ⟨st, h1, h2, -, h3⟩ := Pc.learnSkeleton_spec o ci overwrite N (fun _ => True) trivial
    (fun _ _ _ _ _ _ _ => trivial)
  refine ⟨st, h1, h2.nodes, h2.wf, h2.noArrow, ?_, ?_⟩
  · intro i hi j hj hij hn
    obtain ⟨S, hS, l, k, rfl, c1, c2, c3, c4⟩ := h2.witness i hi j hj hij hn
    exact ⟨l, k, hS, c2, c3, c4, c1⟩
  · intro i j hu S hS hj
    obtain ⟨z, k, hz, -, hf⟩ := h3 i j hu S hS hj
    exact ⟨z, k, hz, hf⟩

/-- `learn_structure` with any CI test: it terminates without an exception and returns a PDAG with the adjacencies of
the skeleton, without bi-directed edges, in which none of the orientation rules 1–3 applies. -/
theorem C21_structure (o : SetOrder α) (ci : CITest α) (overwrite : Bool) (N : Finset α) :
    ∃ st st', Pc.learnSkeleton o ci overwrite (Pc.init o N) = .ok st ∧
      Pc.learnStructure o ci overwrite (Pc.init o N) = .ok st' ∧ st'.graph.nodes = N ∧ st'.graph.PdagWF ∧
      (∀ a b, st'.graph.PAdj a b ↔ st.graph.Und a b) ∧
      (∀ a b, st'.graph.Arrow a b → ¬ st'.graph.Arrow b a) ∧
      ∀ r, r = 1 ∨ r = 2 ∨ r = 3 → ∀ x y, ¬ st'.graph.RulePattern r x y := by
  obtain ⟨st, h1, h2, -, h3⟩ := Pc.learnSkeleton_spec o ci overwrite N (fun _ => True) trivial
    (fun _ _ _ _ _ _ _ => trivial)
  obtain ⟨G1, g1, g2, g3, g4, g5⟩ := Pc.vs_convert_spec o st.sep h2.wf h2.noArrow (by rw [h2.nodes]; exact h2.key)
  obtain ⟨G2, k1, k2, k3⟩ := MG.maximallyOrient_spec o (rules := [1, 2, 3])
    (by intro r hr; simp at hr; omega) (G1.convertBidirected o G1.nodes).nodes g2
  have hR := MG.steps_refines k2 g2
  have hW := MG.steps_wf k2 g2
  refine ⟨st, { st with graph := G2 }, h1, ?_, hR.nodes.trans (g3.trans h2.nodes), hW, ?_, ?_, ?_⟩
  · simp only [Pc.learnStructure, h1, g1, bind, Except.bind]
    simp only [k1]; rfl
  · intro a b
    rw [hR.adj, g4]
    simp only [MG.PAdj, h2.noArrow, false_or]
    exact ⟨fun h => h.elim id (h2.wf.symm _ _), Or.inl⟩
  · intro a b h h'
    rcases hR.new a b h with c | c
    · rcases hR.new b a h' with c' | c'
      · exact ((g5 a b).mp c).2 ((g5 b a).mp c').1
      · exact g2.excl _ _ c (g2.symm _ _ c'.1)
    · exact c.2 h'
  · intro r hr x y hp
    refine k3 r (by simp; omega) y ?_ x hp
    have := (hW.mem _ _ _ hp.1).2
    rwa [hR.nodes] at this

/-! ## C22 -/

/-- With a test that answers d-separation in a DAG, the skeleton is that of the DAG. -/
theorem C22_skeleton (o : SetOrder α) {ci : CITest α} (overwrite : Bool) {D : Dag α} (hD : D.WF) (hac : D.Acyclic)
    (hp : ∀ k i j l, i ∈ D.nodes → j ∈ D.nodes → i ≠ j → i ∉ l → j ∉ l → (∀ x ∈ l, x ∈ D.nodes) →
      (ci k i j l = true ↔ D.DSeparated i j l.toFinset)) :
    ∃ st, Pc.learnSkeleton o ci overwrite (Pc.init o D.nodes) = .ok st ∧ ∀ a b, st.graph.Und a b ↔ D.Adj a b := by
  obtain ⟨st, h1, -, h2⟩ := Pc.learnSkeleton_perfect o overwrite hD hac hp
  exact ⟨st, h1, h2⟩

/-- … and the orientation of v-structures directs exactly the edges in unshielded colliders of the DAG, without
conflict. -/
theorem C22_vstructures (o : SetOrder α) {ci : CITest α} (overwrite : Bool) {D : Dag α} (hD : D.WF) (hac : D.Acyclic)
    (hp : ∀ k i j l, i ∈ D.nodes → j ∈ D.nodes → i ≠ j → i ∉ l → j ∉ l → (∀ x ∈ l, x ∈ D.nodes) →
      (ci k i j l = true ↔ D.DSeparated i j l.toFinset)) :
    ∃ st G, Pc.learnSkeleton o ci overwrite (Pc.init o D.nodes) = .ok st ∧
      Pc.orientVStructures o st.sep st.graph = .ok G ∧ (∀ a b, G.Arrow a b ↔ ∃ c, D.UCol a b c) ∧
      (∀ a b, G.Arrow a b → ¬ G.Arrow b a) ∧ ∀ a b c, G.PUCol a b c ↔ D.UCol a b c := by
  obtain ⟨st, h1, h2, h3⟩ := Pc.learnSkeleton_perfect o overwrite hD hac hp
  obtain ⟨G, g1, g2, g3, g4, g5⟩ := Pc.orientVStructures_spec o st.sep h2.wf h2.noArrow
    (by rw [h2.nodes]; exact h2.key)
  simp only [h2.vs_iff hac hp h3] at g5
  have hpa : ∀ a b, G.PAdj a b ↔ D.Adj a b := by
    intro a b
    rw [g4]
    simp only [MG.PAdj, h2.noArrow, false_or, h3]
    exact ⟨fun h => h.elim id Dag.Adj.symm, Or.inl⟩
  refine ⟨st, G, h1, g1, g5, ?_, ?_⟩
  · intro a b h h'
    obtain ⟨c, hc⟩ := (g5 a b).mp h
    obtain ⟨d, hd⟩ := (g5 b a).mp h'
    exact Dag.not_edge_of_edge hac hc.1 hd.1
  · intro a b c
    constructor
    · rintro ⟨u1, u2, u3, u4⟩
      obtain ⟨_, h1⟩ := (g5 _ _).mp u1
      obtain ⟨_, h2⟩ := (g5 _ _).mp u2
      exact ⟨h1.1, h2.1, u3, fun h => u4 ((hpa _ _).mpr h)⟩
    · intro u
      exact ⟨(g5 _ _).mpr ⟨c, u⟩, (g5 _ _).mpr ⟨a, u.swap⟩, u.2.2.1, fun h => u.2.2.2 ((hpa _ _).mp h)⟩

/-- The d-separation test of the library (`DSep.cond_indep`, which calls `DAG.dsep`) is such a test. -/
theorem C22_dsep_oracle (o : SetOrder α) {D : Dag α} (hD : D.WF) (hac : D.Acyclic) (k : Nat) (i j : α) (l : List α)
    (hi : i ∈ D.nodes) (hj : j ∈ D.nodes) (_ : i ≠ j) (hil : i ∉ l) (hjl : j ∉ l) (hl : ∀ x ∈ l, x ∈ D.nodes) :
    Pc.dsepTest o D k i j l = true ↔ D.DSeparated i j l.toFinset := by
  obtain ⟨b, hb, hb'⟩ := Dag.dsep_spec o hD hac hi hj (Z := l.toFinset) (by intro x hx; exact hl x (by simpa using hx))
    (by simpa using hil) (by simpa using hjl)
  rw [← hb', Pc.dsepTest, hb]

/-! ## C23 -/

/-- With a perfect test, `learn_structure` returns the graph that `DAG.convert_to_cpdag` returns, whatever the iteration
orders in the two computations. -/
theorem C23_pc_cpdag (o o' : SetOrder α) {ci : CITest α} (overwrite : Bool) {D : Dag α} (hD : D.WF) (hac : D.Acyclic)
    (hp : ∀ k i j l, i ∈ D.nodes → j ∈ D.nodes → i ≠ j → i ∉ l → j ∉ l → (∀ x ∈ l, x ∈ D.nodes) →
      (ci k i j l = true ↔ D.DSeparated i j l.toFinset)) :
    ∃ st P, Pc.learnStructure o ci overwrite (Pc.init o D.nodes) = .ok st ∧
      D.convertToCpdag o' [1, 2, 3] (MG.pdagEmpty D.nodes) = .ok P ∧ st.graph.Same P := by
  obtain ⟨st, h1, h2, h3⟩ := Pc.learnStructure_perfect o overwrite hD hac hp
  obtain ⟨P, g1, g2, g3⟩ := Dag.convertToCpdag_spec o' (rules := [1, 2, 3]) (by simp) hD hac
  have harr : ∀ a b, st.graph.Arrow a b ↔ P.Arrow a b := fun a b => by rw [h3.iff_der hac, g3.iff_der hac]
  refine ⟨st, P, h1, g1, h2.nodes.trans g2.nodes.symm, harr, fun a b => ?_⟩
  rw [← h2.undOf, ← g2.undOf]
  simp only [Dag.UndOf, harr]

/-- … so an edge is directed if and only if all Markov equivalent DAGs agree on its direction. -/
theorem C23_essential (o : SetOrder α) {ci : CITest α} (overwrite : Bool) {D : Dag α} (hD : D.WF) (hac : D.Acyclic)
    (hp : ∀ k i j l, i ∈ D.nodes → j ∈ D.nodes → i ≠ j → i ∉ l → j ∉ l → (∀ x ∈ l, x ∈ D.nodes) →
      (ci k i j l = true ↔ D.DSeparated i j l.toFinset)) :
    ∃ st, Pc.learnStructure o ci overwrite (Pc.init o D.nodes) = .ok st ∧ st.graph.PdagWF ∧
      (∀ a b, st.graph.PAdj a b ↔ D.Adj a b) ∧
      ∀ x y, st.graph.Arrow x y ↔ ∀ H : Dag α, D.Equivalent H → H.Edge x y := by
  obtain ⟨st, h1, h2, h3⟩ := Pc.learnStructure_perfect o overwrite hD hac hp
  refine ⟨st, h1, h2.wf, h2.adj, fun x y => ?_⟩
  rw [h3.iff_essential hD hac]
  exact ⟨fun h => h.2, fun h => ⟨h D (Dag.Equivalent.rfl' hD hac), h⟩⟩

/-! The hypotheses of C22 and C23 hold for a DAG with a v-structure and the library's d-separation test; and the
algorithm's result on it. -/
example : ∃ st P, Pc.learnStructure ascending (Pc.dsepTest descending exD2) true (Pc.init ascending exD2.nodes) = .ok st ∧
    exD2.convertToCpdag descending [1, 2, 3] (MG.pdagEmpty exD2.nodes) = .ok P ∧ st.graph.Same P :=
  C23_pc_cpdag ascending descending true exD2_wf exD2_acyclic (C22_dsep_oracle descending exD2_wf exD2_acyclic)

example : MG.show ((Pc.learnStructure ascending (Pc.dsepTest ascending exD2) false (Pc.init ascending exD2.nodes)).map
    (·.graph)) = .ok ([(0, 2), (1, 2), (2, 3)], [(0, 4)]) := by decide +kernel

/-- A CI test that changes its mind (used only for an example). -/
def exFickle : CITest Nat := fun k i j l => (k + i + j + l.length) % 5 == 0

example : MG.show ((Pc.learnStructure descending exFickle true (Pc.init descending {0, 1, 2, 3})).map
    (·.graph)) = .ok ([], [(0, 1)]) := by decide +kernel

/-! ## C38 -/

/-- `get_sepset` does not depend on the order of the two nodes. -/
theorem C38_symm (s : SepSet α) (a b : α) : s.get a b = s.get b a := s.get_comm a b

/-- After `set_sepset(a, b, S)` the set of this pair is `S`, all others are as before. -/
theorem C38_get_set (s : SepSet α) (a b c d : α) (S : Finset α) :
    (s.set a b S).get c d = if (c = a ∧ d = b) ∨ (c = b ∧ d = a) then .ok S else s.get c d := by
  rw [SepSet.get_set]
  have : ((a = c ∧ b = d) ∨ (a = d ∧ b = c)) ↔ ((c = a ∧ d = b) ∨ (c = b ∧ d = a)) := by
    constructor <;> (rintro (⟨rfl, rfl⟩ | ⟨rfl, rfl⟩) <;> simp)
  simp only [this]

/-- A new object maps each pair of distinct nodes to the empty set, and raises KeyError otherwise. -/
theorem C38_init (o : SetOrder α) (nodes : Finset α) (a b : α) :
    (SepSet.init o nodes).get a b = if a ∈ nodes ∧ b ∈ nodes ∧ a ≠ b then .ok ∅ else .error .keyError :=
  SepSet.get_init o nodes a b

/-- `erase` empties all separation sets and keeps the keys. -/
theorem C38_erase (s : SepSet α) (a b : α) :
    s.erase.get a b = (s.get a b).map (fun _ => ∅) := by
  simp only [SepSet.get, SepSet.erase, Dict.get, Dict.get?_map s.d (fun _ => (∅ : Finset α))]
  cases s.d.get? (SepSet.hkey a b) <;> rfl

/-- Histories: two objects in a common memory of set objects, sharing no set object, behave through any history of
`set_sepset`, `erase`, `copy_from` and in-place changes of returned sets exactly like two independent values (both
raise KeyError, or both have the same values for all pairs). So operations on one side never show on the other. -/
theorem C38_histories (o : SetOrder α) (ops : List (SepOp α)) : ∀ (w : SepWorld α) (v : Bool → SepSet α),
    w.Unshared → (∀ s, (w.obj s).nodes = (v s).nodes) →
    (∀ s k, ((w.obj s).d.get? k).map w.heap.mem = (v s).d.get? k) →
    (∃ w' v', ops.foldlM (fun w op => op.runHeap o w) w = .ok w' ∧ ops.foldlM (fun v op => op.runVal o v) v = .ok v' ∧
      w'.Unshared ∧ ∀ s a b, ((w'.obj s).get a b).map w'.heap.mem = (v' s).get a b) ∨
    (ops.foldlM (fun w op => op.runHeap o w) w = .error .keyError ∧
      ops.foldlM (fun v op => op.runVal o v) v = .error .keyError) := by
  induction ops with
  | nil =>
    intro w v h1 h2 h3
    exact Or.inl ⟨w, v, rfl, rfl, h1, SepWorld.get_of_rel ⟨h2, h3⟩⟩
  | cons op ops ih =>
    intro w v h1 h2 h3
    rcases SepWorld.step (o := o) h1 ⟨h2, h3⟩ op with ⟨w', v', k1, k2, k3, k4⟩ | ⟨k1, k2⟩
    · simp only [List.foldlM_cons, k1, k2]
      exact ih w' v' k3 k4.nodes k4.val
    · refine Or.inr ⟨?_, ?_⟩
      · simp only [List.foldlM_cons, k1]; rfl
      · simp only [List.foldlM_cons, k2]; rfl

/-- `copy()` of an object that has the sets of all pairs of its nodes: a new object with the same values, sharing no set
object with the original, whose own values are unchanged; so C38_histories applies to the two. -/
theorem C38_copy (o : SetOrder α) (s : HSepSet α) (h : Heap α)
    (hlt : ∀ k a, s.d.get? k = some a → a < h.next)
    (hinj : ∀ k k' a, s.d.get? k = some a → s.d.get? k' = some a → k = k')
    (hkeys : ∀ a ∈ s.nodes, ∀ b ∈ s.nodes, a ≠ b → ∃ x, s.get a b = .ok x) :
    ∃ t h', s.copy o h = .ok (t, h') ∧ t.nodes = s.nodes ∧
      (⟨h', fun side => if side then t else s⟩ : SepWorld α).Unshared ∧
      (∀ a b, (t.get a b).map h'.mem = if a ∈ s.nodes ∧ b ∈ s.nodes ∧ a ≠ b then (s.get a b).map h.mem
        else .error .keyError) ∧
      ∀ a b, (s.get a b).map h'.mem = (s.get a b).map h.mem :=
  SepWorld.copy_spec o s h hlt hinj hkeys

/-- Value-level form of `copy(nodes, target)`: the target gets the values of the pairs of `nodes` and keeps its other
values. -/
theorem C38_copy_into (o : SetOrder α) (s t : SepSet α) (nodes : Finset α)
    (hkeys : ∀ a ∈ nodes, ∀ b ∈ nodes, a ≠ b → ∃ S, s.get a b = .ok S) :
    ∃ r, s.copy o (some nodes) (some t) = .ok r ∧ ∀ a b, r.get a b =
      if a ∈ nodes ∧ b ∈ nodes ∧ a ≠ b then s.get a b else t.get a b := by
  obtain ⟨r, h1, -, h3⟩ := SepSet.copyLoop_spec s (pairs (o.iter () nodes)) t (by
    intro ij hij
    exact hkeys _ ((o.mem _ _ _).mp (mem_pairs_left (a := ij.1) (b := ij.2) hij)) _
      ((o.mem _ _ _).mp (mem_pairs_right (a := ij.1) (b := ij.2) hij))
      (mem_pairs_ne (o.nodup _ _) (a := ij.1) (b := ij.2) hij))
  refine ⟨r, h1, fun a b => ?_⟩
  simp only [SepSet.get, Dict.get, h3, SepSet.pair_key_iff]
  by_cases h : a ∈ nodes ∧ b ∈ nodes ∧ a ≠ b
  · rw [if_pos h, if_pos h]
  · rw [if_neg h, if_neg h]

/-! Two objects sharing nothing exist: an object with one stored set and its copy. Operations on the copy (setting,
erasing, changing a returned set in place) leave the original as it is. -/
def exWorld : SepWorld Nat :=
  ⟨⟨2, fun a => if a = 0 then {3} else {3, 4}⟩, fun side => ⟨{1, 2}, [((1, 2), if side then 1 else 0)]⟩⟩

example : exWorld.Unshared := by
  constructor
  · intro s k a h
    simp only [SepWorld.addr, exWorld, Dict.get?] at h
    split at h <;> cases h
    show _ < 2
    cases s <;> simp
  · intro s k s' k' a h h'
    simp only [SepWorld.addr, exWorld, Dict.get?] at h h'
    split at h <;> cases h
    split at h' <;> cases s <;> cases s' <;> simp_all

example : (([SepOp.set true 2 1 {7}, .mutate true 1 2 {8}, .erase true].foldlM (fun w (op : SepOp Nat) => op.runHeap ascending w)
    exWorld).bind fun (w : SepWorld Nat) => ((w.obj false).get 2 1).map (fun a => ascending.iter () (w.heap.mem a))) = .ok [3] := by
  decide +kernel

/-- An object meeting the hypotheses of `C38_copy`. -/
example : ∃ t h', (exWorld.obj false).copy ascending exWorld.heap = .ok (t, h') ∧ t.nodes = {1, 2} := by
  obtain ⟨t, h', h1, h2, -⟩ := C38_copy ascending (exWorld.obj false) exWorld.heap
    (by
      intro k a h
      simp only [exWorld, Dict.get?] at h
      split at h <;> cases h
      decide)
    (by
      intro k k' a h h'
      simp only [exWorld, Dict.get?] at h h'
      split at h <;> cases h
      split at h' <;> simp_all)
    (by
      intro a ha b hb hab
      simp [exWorld] at ha hb
      rcases ha with rfl | rfl <;> rcases hb with rfl | rfl
      · exact absurd rfl hab
      · exact ⟨0, rfl⟩
      · exact ⟨0, rfl⟩
      · exact absurd rfl hab)
  exact ⟨t, h', h1, h2⟩

/-- If the copy shared the set object with the original, an in-place change would show on both sides. -/
example : (([SepOp.mutate true 1 2 {8}].foldlM (fun w (op : SepOp Nat) => op.runHeap ascending w)
    (⟨⟨1, fun _ => {3}⟩, fun _ => ⟨{1, 2}, [((1, 2), 0)]⟩⟩ : SepWorld Nat)).bind fun (w : SepWorld Nat) =>
      ((w.obj false).get 2 1).map (fun a => ascending.iter () (w.heap.mem a))) = .ok [8] := by
  decide +kernel

end Verif
