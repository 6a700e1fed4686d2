import Verif.Lemmas.GraphHeap
import Verif.Lemmas.OrdMarks

/-!
# C87, C88, C89: graph objects in memory
-/

namespace Verif
open GHeap
variable {ι α : Type} [DecidableEq ι] [DecidableEq α]

/-! ## C87: graph objects behave as independent values -/

/-- One operation: the objects in memory and the independent values stay in agreement, results and exceptions alike. -/
theorem C87_refines (o : SetOrder α) {w : GWorld ι α} {V : ι → MG α} (hu : w.Unshared) (hv : w.Shows V) (op : GOp ι α)
    (hs : op.InScope V) :
    (∃ e, op.runHeap o w = .error e ∧ op.runVal V = .error e) ∨
      ∃ w' V', op.runHeap o w = .ok w' ∧ op.runVal V = .ok V' ∧ w'.Unshared ∧ w'.Shows V' := by
  have h : Good w V := holds_iff.mpr ⟨hu, hv⟩
  have fin : ∀ {w' V'}, op.runHeap o w = .ok w' → op.runVal V = .ok V' → Good w' V' →
      ∃ w' V', op.runHeap o w = .ok w' ∧ op.runVal V = .ok V' ∧ w'.Unshared ∧ w'.Shows V' :=
    fun a b c => ⟨_, _, a, b, holds_iff.mp c⟩
  cases op with
  | new i S types =>
    refine Or.inr (fin rfl rfl ?_)
    have := (new_good o h i (Ext.alloc w.heap S) (a := (w.heap.alloc S).1) (Nat.lt_succ_self _)
      (fun k v m b hb => Nat.ne_of_lt (hu.lt k v m b hb)) types).1
    simpa [Heap.alloc] using this
  | newFrom i k types =>
    refine Or.inr (fin rfl rfl ?_)
    have := (new_good o h i (Ext.refl w.heap) (a := (w.obj k).nodes) (hu.nodesLt k) (fun k' v m b hb => hu.sep k' v m b k hb) types).1
    rwa [show w.heap.mem (w.obj k).nodes = (V k).nodes from hv.nodes k] at this
  | clear i S => exact Or.inr (fin rfl rfl (clear_good o h i hs))
  | complete i m S => exact Or.inr (fin rfl rfl (complete_good o h i hs.1 hs.2))
  | copy i j =>
    obtain ⟨r, a, b⟩ := copy_good o h i j hs
    exact Or.inr (fin ((py_bind a _).trans rfl) rfl b)
  | orient i s t =>
    obtain ⟨h', a, b⟩ := (Sim.start h i).orient hs.1 hs.2.1 hs.2.2
    exact Or.inr (fin ((py_bind a _).trans rfl) rfl b)
  | deleteDirected i s t =>
    obtain ⟨h', a, b⟩ := (Sim.start h i).deleteDirected hs.1 s hs.2.2
    exact Or.inr (fin ((py_bind a _).trans rfl) rfl b)
  | deleteUndirected i s t =>
    obtain ⟨h', a, b⟩ := (Sim.start h i).deleteUndirected hs.1 hs.2.1 hs.2.2
    exact Or.inr (fin ((py_bind a _).trans rfl) rfl b)
  | pdagDelete i s t =>
    obtain ⟨h', a, b⟩ := (Sim.start h i).pdagDelete hs.1 hs.2.1 hs.2.2
    exact Or.inr (fin ((py_bind a _).trans rfl) rfl b)
  | addEdges i ps t m =>
    rcases (Sim.start h i).addEdges o hs.1 hs.2.1 hs.2.2 m with ⟨e, a, b⟩ | ⟨h', G', a, b, c⟩
    · exact Or.inl ⟨e, by simp only [GOp.runHeap, GWorld.inPlace, a]; rfl, by simp only [GOp.runVal, b]; rfl⟩
    · exact Or.inr (fin ((py_bind a _).trans rfl) ((py_bind b _).trans rfl) c)
  | delete i s t =>
    obtain ⟨h', a, b⟩ := (Sim.start h i).delete hs.1 hs.2 (hv.types i)
    exact Or.inr (fin ((py_bind a _).trans rfl) rfl b)
  | replaceMark i s t m =>
    rcases (Sim.start h i).replaceMark (s := s) hs.2 (hv.types i) m with ⟨e, a, b⟩ | ⟨h', G', a, b, c⟩
    · exact Or.inl ⟨e, by simp only [GOp.runHeap, GWorld.inPlace, a]; rfl, by simp only [GOp.runVal, b]; rfl⟩
    · exact Or.inr (fin ((py_bind a _).trans rfl) ((py_bind b _).trans rfl) c)
  | addEdge i s t ms mt =>
    rcases (Sim.start h i).addEdge hs.1 hs.2 (hv.types i) ms mt with ⟨e, a, b⟩ | ⟨h', G', a, b, c⟩
    · exact Or.inl ⟨e, by simp only [GOp.runHeap, GWorld.inPlace, a]; rfl, by simp only [GOp.runVal, b]; rfl⟩
    · exact Or.inr (fin ((py_bind a _).trans rfl) ((py_bind b _).trans rfl) c)
  | mutate i v m S =>
    obtain ⟨h', a, b⟩ := (Sim.start h i).modify hs.1 hs.2 (fun _ => S)
    exact Or.inr (fin ((py_bind a _).trans rfl) rfl b)

/-- Programs of operations. -/
theorem C87_program (o : SetOrder α) : ∀ (ops : List (GOp ι α)) {w : GWorld ι α} {V : ι → MG α}, w.Unshared → w.Shows V →
    GOp.AllInScope V ops →
    (∃ e, GOp.runAll (GOp.runHeap o) w ops = .error e ∧ GOp.runAll GOp.runVal V ops = .error e) ∨
      ∃ w' V', GOp.runAll (GOp.runHeap o) w ops = .ok w' ∧ GOp.runAll GOp.runVal V ops = .ok V' ∧ w'.Unshared ∧ w'.Shows V'
  | [], w, V, hu, hv, _ => Or.inr ⟨w, V, rfl, rfl, hu, hv⟩
  | op :: ops, w, V, hu, hv, hs => by
    rcases C87_refines o hu hv op hs.1 with ⟨e, a, b⟩ | ⟨w1, V1, a, b, c, d⟩
    · exact Or.inl ⟨e, by rw [GOp.runAll, List.foldlM_cons, a]; rfl, by rw [GOp.runAll, List.foldlM_cons, b]; rfl⟩
    · have e1 : GOp.runAll (GOp.runHeap o) w (op :: ops) = GOp.runAll (GOp.runHeap o) w1 ops := foldlM_cons_ok a
      have e2 : GOp.runAll GOp.runVal V (op :: ops) = GOp.runAll GOp.runVal V1 ops := foldlM_cons_ok b
      rw [e1, e2]
      exact C87_program o ops c d (hs.2 V1 b)

theorem GOp.runVal_frame {V V' : ι → MG α} {op : GOp ι α} (h : op.runVal V = .ok V') {k : ι} (hk : k ≠ op.target) : V' k = V k := by
  have key : ∀ {i : ι} {r : Py (MG α)}, k ≠ i → (do return Function.update V i (← r) : Py (ι → MG α)) = .ok V' → V' k = V k := by
    intro i r hi hr
    cases r with
    | error e => exact absurd hr (fun h => nomatch h)
    | ok G =>
      obtain rfl := Except.ok.inj hr
      exact Function.update_of_ne hi _ _
  cases op with
  | addEdges i ps t m => exact key hk h
  | replaceMark i s t m => exact key hk h
  | addEdge i s t ms mt => exact key hk h
  | _ =>
    obtain rfl := Except.ok.inj h
    exact Function.update_of_ne hk _ _

omit [DecidableEq ι] in
theorem GWorld.Shows.marks_eq {w w' : GWorld ι α} {V V' : ι → MG α} (h : w.Shows V) (h' : w'.Shows V') {i j : ι} (e : V' j = V i)
    (v : α) (m : Mark) : w'.marks j v m = w.marks i v m := by
  by_cases hc : v ∈ (V i).nodes ∧ m ∈ (V i).types
  · rw [h.marks i v hc.1 m hc.2, h'.marks j v (e ▸ hc.1) m (e ▸ hc.2), e]
  · rw [h.none i v m hc, h'.none j v m (e ▸ hc)]

/-- An operation on a graph changes nothing that can be seen of another graph. -/
theorem C87_frame (o : SetOrder α) {w w' : GWorld ι α} {V : ι → MG α} (hu : w.Unshared) (hv : w.Shows V) {op : GOp ι α}
    (hs : op.InScope V) (h : op.runHeap o w = .ok w') {k : ι} (hk : k ≠ op.target) :
    w'.nodes k = w.nodes k ∧ ∀ v m, w'.marks k v m = w.marks k v m := by
  rcases C87_refines o hu hv op hs with ⟨e, a, -⟩ | ⟨w1, V1, a, b, -, d⟩
  · rw [h] at a; exact nomatch a
  · obtain rfl := Except.ok.inj (h.symm.trans a)
    have e := GOp.runVal_frame b hk
    exact ⟨by rw [d.nodes, hv.nodes, e], hv.marks_eq d e⟩

theorem GOp.runAll_frame {k : ι} : ∀ (ops : List (GOp ι α)) {V V' : ι → MG α}, GOp.runAll GOp.runVal V ops = .ok V' →
    (∀ op ∈ ops, k ≠ op.target) → V' k = V k
  | [], V, V', h, _ => by
    obtain rfl := Except.ok.inj h
    rfl
  | op :: ops, V, V', h, hk => by
    cases h1 : op.runVal V with
    | error e =>
      rw [GOp.runAll, List.foldlM_cons, h1] at h
      exact nomatch h
    | ok V1 =>
      have e2 : GOp.runAll GOp.runVal V (op :: ops) = GOp.runAll GOp.runVal V1 ops := foldlM_cons_ok h1
      rw [e2] at h
      exact (GOp.runAll_frame ops h (fun q hq => hk q (by simp [hq]))).trans (GOp.runVal_frame h1 (hk op (by simp)))

/-- A copy is equal to the original when it is made. Programs that do not change the copy leave it as it was, whatever they do to
the original; and programs that do not change the original leave it as it was, whatever they do to the copy. -/
theorem C87_copy (o : SetOrder α) {w : GWorld ι α} {V : ι → MG α} (hu : w.Unshared) (hv : w.Shows V) {i j : ι} (hp : (V i).IsPdag)
    {ops : List (GOp ι α)} (hs : GOp.AllInScope (Function.update V j (V i)) ops) {w' : GWorld ι α}
    (h : GOp.runAll (GOp.runHeap o) w (.copy i j :: ops) = .ok w') :
    ((∀ op ∈ ops, j ≠ op.target) → w'.nodes j = w.nodes i ∧ ∀ v m, w'.marks j v m = w.marks i v m) ∧
    (i ≠ j → (∀ op ∈ ops, i ≠ op.target) → w'.nodes i = w.nodes i ∧ ∀ v m, w'.marks i v m = w.marks i v m) := by
  have hall : GOp.AllInScope V (.copy i j :: ops) := ⟨hp, fun V' hV' => by
    obtain rfl := Except.ok.inj hV'
    exact hs⟩
  rcases C87_program o _ hu hv hall with ⟨e, a, -⟩ | ⟨w1, V1, a, b, -, d⟩
  · rw [h] at a; exact nomatch a
  · obtain rfl := Except.ok.inj (h.symm.trans a)
    have e2 : GOp.runAll GOp.runVal V (.copy i j :: ops) = GOp.runAll GOp.runVal (Function.update V j (V i)) ops := foldlM_cons_ok rfl
    rw [e2] at b
    constructor
    · intro hk
      have e : V1 j = V i := (GOp.runAll_frame ops b hk).trans (Function.update_self ..)
      exact ⟨by rw [d.nodes, hv.nodes, e], hv.marks_eq d e⟩
    · intro hij hk
      have e : V1 i = V i := (GOp.runAll_frame ops b hk).trans (Function.update_of_ne hij _ _)
      exact ⟨by rw [d.nodes, hv.nodes, e], hv.marks_eq d e⟩

/-- The sets returned by the readers are the sets of the graph: changing such a set changes that entry, and no other of any graph. -/
theorem C87_live (o : SetOrder α) {w : GWorld ι α} {V : ι → MG α} (hu : w.Unshared) (hv : w.Shows V) {i : ι} {v : α} {m : Mark}
    (hn : v ∈ (V i).nodes) (hm : m ∈ (V i).types) (S : Finset α) :
    ∃ w', (GOp.mutate i v m S).runHeap o w = .ok w' ∧ w'.marks i v m = .ok S ∧
      ∀ k x m', ¬ (k = i ∧ x = v ∧ m' = m) → w'.marks k x m' = w.marks k x m' := by
  rcases C87_refines o hu hv (.mutate i v m S) ⟨hn, hm⟩ with ⟨e, -, b⟩ | ⟨w', V', a, b, -, d⟩
  · exact nomatch b
  · obtain rfl := Except.ok.inj b
    refine ⟨w', a, ?_, fun k x m' hne => ?_⟩
    · rw [d.marks i v (by simpa [MG.upd] using hn) m (by simpa [MG.upd] using hm)]
      simp [MG.upd]
    · by_cases e : k = i
      · subst e
        by_cases hc : x ∈ (V k).nodes ∧ m' ∈ (V k).types
        · rw [hv.marks k x hc.1 m' hc.2, d.marks k x (by simpa [MG.upd] using hc.1) m' (by simpa [MG.upd] using hc.2)]
          have : ¬ (x = v ∧ m' = m) := fun h => hne ⟨rfl, h⟩
          simp [MG.upd, this]
        · rw [hv.none k x m' hc, d.none k x m' (by simpa [MG.upd] using hc)]
      · exact hv.marks_eq d (Function.update_of_ne e _ _) x m'

/-- Two names for empty graphs without nodes. -/
def exHeap : GWorld Bool ℕ := ⟨⟨1, fun _ => ∅⟩, fun _ => ⟨0, [.tail, .arrow], fun _ _ => none⟩⟩

theorem exHeap_unshared : exHeap.Unshared := by
  refine ⟨?_, fun _ => Nat.one_pos, ?_, ?_⟩ <;> intros <;> contradiction

theorem exHeap_shows : exHeap.Shows (fun _ => MG.empty ∅ [.tail, .arrow]) := by
  refine ⟨fun _ => rfl, fun _ => rfl, fun i v hv => ?_, fun i v m _ => rfl⟩
  exact absurd hv (Finset.notMem_empty v)

/-- A graph is made with edges, copied, and oriented; then the original is cleared and the copy changed through a set it returned. -/
def exHeapProg : List (GOp Bool ℕ) :=
  [.new true {0, 1, 2} [.tail, .arrow], .addEdges true {0, 2} 1 .tail, .orient true 0 1, .copy true false, .orient true 2 1]

theorem exHeapProg_scope : GOp.AllInScope (fun _ => MG.empty ∅ [.tail, .arrow]) exHeapProg := by
  refine ⟨trivial, fun V h => ?_⟩
  obtain rfl := Except.ok.inj h
  refine ⟨⟨rfl, by decide, by decide⟩, fun V h => ?_⟩
  obtain rfl := Except.ok.inj h
  refine ⟨⟨rfl, by decide, by decide⟩, fun V h => ?_⟩
  obtain rfl := Except.ok.inj h
  refine ⟨rfl, fun V h => ?_⟩
  obtain rfl := Except.ok.inj h
  refine ⟨⟨rfl, by decide, by decide⟩, fun V h => ?_⟩
  trivial

/-- The entry has the content `S`. -/
def GWorld.sees (w : GWorld ι α) (i : ι) (v : α) (m : Mark) (S : Finset α) : Bool :=
  match w.marks i v m with
  | .ok A => decide (A = S)
  | .error _ => false

/-- The program runs; the copy keeps the undirected edge that is oriented in the original afterwards. -/
example : (match GOp.runAll (GOp.runHeap ascending) exHeap exHeapProg with
    | .error _ => false
    | .ok w => w.sees true 1 .arrow {0, 2} && w.sees true 1 .tail ∅ && w.sees false 1 .arrow {0} && w.sees false 1 .tail {2} &&
      w.sees false 2 .tail {1}) = true := by
  decide +kernel

example := C87_program ascending exHeapProg exHeap_unshared exHeap_shows exHeapProg_scope

/-! ## C88: rebuilding part of a graph -/

/-- Every edge has a mark at both ends, as far as a user can see. -/
def GWorld.Whole (w : GWorld ι α) (i : ι) : Prop :=
  ∀ a b m A, w.marks i b m = .ok A → a ∈ A → ∃ m' B, w.marks i a m' = .ok B ∧ b ∈ B

/-- No node outside `S` has a mark on an edge with a node of `S`. -/
def GWorld.Cut (w : GWorld ι α) (i : ι) (S : Finset α) : Prop :=
  ∀ b m A, b ∉ S → w.marks i b m = .ok A → ∀ a ∈ A, a ∉ S

omit [DecidableEq ι] in
theorem GWorld.Shows.ok_iff {w : GWorld ι α} {V : ι → MG α} (h : w.Shows V) {i : ι} {v : α} {m : Mark} {A : Finset α} :
    w.marks i v m = .ok A ↔ v ∈ (V i).nodes ∧ m ∈ (V i).types ∧ (V i).g v m = A := by
  by_cases hc : v ∈ (V i).nodes ∧ m ∈ (V i).types
  · rw [h.marks i v hc.1 m hc.2]
    simp [hc]
  · rw [h.none i v m hc]
    constructor
    · intro h; exact nomatch h
    · rintro ⟨h1, h2, -⟩; exact absurd ⟨h1, h2⟩ hc

/-- `create_empty_graph` for some of the nodes leaves whole edges exactly if there were no edges between these nodes and the others;
else the marks at the other nodes remain as half edges. -/
theorem C88_clear_partial (o : SetOrder α) {w : GWorld ι α} {V : ι → MG α} (hu : w.Unshared) (hv : w.Shows V) {i : ι} {S : Finset α}
    (hS : S ⊆ (V i).nodes) (hw : w.Whole i) :
    ∃ w', (GOp.clear i S).runHeap o w = .ok w' ∧ (w'.Whole i ↔ w.Cut i S) := by
  rcases C87_refines o hu hv (.clear i S) hS with ⟨e, -, b⟩ | ⟨w', V', a, b, -, d⟩
  · exact nomatch b
  obtain rfl := Except.ok.inj b
  refine ⟨w', a, ?_⟩
  have rd : ∀ v m A, w'.marks i v m = .ok A ↔ v ∈ (V i).nodes ∧ m ∈ (V i).types ∧ (if v ∈ S then ∅ else (V i).g v m) = A := by
    intro v m A
    rw [d.ok_iff]
    simp [MG.clearOn]
  constructor
  · intro h b m A hb hA x hx hxS
    obtain ⟨h1, h2, h3⟩ := hv.ok_iff.mp hA
    obtain ⟨m', B, hB, hbB⟩ := h x b m A ((rd b m A).mpr ⟨h1, h2, by rw [if_neg hb]; exact h3⟩) hx
    obtain ⟨-, -, h5⟩ := (rd x m' B).mp hB
    rw [if_pos hxS] at h5
    rw [← h5] at hbB
    exact Finset.notMem_empty _ hbB
  · intro h x b m A hA hx
    obtain ⟨h1, h2, h3⟩ := (rd b m A).mp hA
    by_cases hb : b ∈ S
    · rw [if_pos hb] at h3
      rw [← h3] at hx
      exact absurd hx (Finset.notMem_empty _)
    · rw [if_neg hb] at h3
      have hA' := hv.ok_iff.mpr ⟨h1, h2, h3⟩
      obtain ⟨m', B, hB, hbB⟩ := hw x b m A hA' hx
      obtain ⟨g1, g2, g3⟩ := hv.ok_iff.mp hB
      exact ⟨m', B, (rd x m' B).mpr ⟨g1, g2, by rw [if_neg (h b m A hb hA' x hx)]; exact g3⟩, hbB⟩

/-- `create_complete_graph` for some of the nodes, likewise. -/
theorem C88_complete_partial (o : SetOrder α) {w : GWorld ι α} {V : ι → MG α} (hu : w.Unshared) (hv : w.Shows V) {i : ι} {S : Finset α}
    (hS : S ⊆ (V i).nodes) {mark : Mark} (hm : mark ∈ (V i).types) (hw : w.Whole i) :
    ∃ w', (GOp.complete i mark S).runHeap o w = .ok w' ∧ (w'.Whole i ↔ w.Cut i S) := by
  rcases C87_refines o hu hv (.complete i mark S) ⟨hS, hm⟩ with ⟨e, -, b⟩ | ⟨w', V', a, b, -, d⟩
  · exact nomatch b
  obtain rfl := Except.ok.inj b
  refine ⟨w', a, ?_⟩
  have rd : ∀ v m A, w'.marks i v m = .ok A ↔ v ∈ (V i).nodes ∧ m ∈ (V i).types ∧
      (if v ∈ S then (if m = mark then S.erase v else ∅) else (V i).g v m) = A := by
    intro v m A
    rw [d.ok_iff]
    simp [MG.completeOn]
  constructor
  · intro h b m A hb hA x hx hxS
    obtain ⟨h1, h2, h3⟩ := hv.ok_iff.mp hA
    obtain ⟨m', B, hB, hbB⟩ := h x b m A ((rd b m A).mpr ⟨h1, h2, by rw [if_neg hb]; exact h3⟩) hx
    obtain ⟨-, -, h5⟩ := (rd x m' B).mp hB
    rw [if_pos hxS] at h5
    rw [← h5] at hbB
    split_ifs at hbB
    · exact hb (Finset.mem_of_mem_erase hbB)
    · exact Finset.notMem_empty _ hbB
  · intro h x b m A hA hx
    obtain ⟨h1, h2, h3⟩ := (rd b m A).mp hA
    by_cases hb : b ∈ S
    · rw [if_pos hb] at h3
      rw [← h3] at hx
      split_ifs at hx
      · obtain ⟨hxb, hxS⟩ := Finset.mem_erase.mp hx
        exact ⟨mark, S.erase x, (rd x mark _).mpr ⟨hS hxS, hm, by rw [if_pos hxS, if_pos rfl]⟩, Finset.mem_erase.mpr ⟨Ne.symm hxb, hb⟩⟩
      · exact absurd hx (Finset.notMem_empty _)
    · rw [if_neg hb] at h3
      have hA' := hv.ok_iff.mpr ⟨h1, h2, h3⟩
      obtain ⟨m', B, hB, hbB⟩ := hw x b m A hA' hx
      obtain ⟨g1, g2, g3⟩ := hv.ok_iff.mp hB
      exact ⟨m', B, (rd x m' B).mpr ⟨g1, g2, by rw [if_neg (h b m A hb hA' x hx)]; exact g3⟩, hbB⟩

/-- The undirected graph `0 --- 1` and node 2. -/
def exHalfProg : List (GOp Bool ℕ) := [.new true {0, 1, 2} [.tail, .arrow], .addEdges true {0} 1 .tail]

/-- The value of the graph. -/
def exHalf : MG ℕ :=
  let G := (MG.empty {0, 1, 2} [.tail, .arrow] : MG ℕ).upd 1 .tail (fun s => s ∪ {0})
  { G with g := fun x m' => if m' = .tail ∧ x ∈ ({0} : Finset ℕ) then insert 1 (G.g x m') else G.g x m' }

theorem exHalf_world : ∃ (w : GWorld Bool ℕ) (V : Bool → MG ℕ), w.Unshared ∧ w.Shows V ∧ V true = exHalf ∧ w.Whole true := by
  have hsc : GOp.AllInScope (fun _ => MG.empty ∅ [.tail, .arrow]) exHalfProg := by
    refine ⟨trivial, fun V h => ?_⟩
    obtain rfl := Except.ok.inj h
    exact ⟨⟨rfl, by decide, by decide⟩, fun V h => trivial⟩
  rcases C87_program ascending exHalfProg exHeap_unshared exHeap_shows hsc with ⟨e, -, b⟩ | ⟨w, V, -, b, c, d⟩
  · exact nomatch b
  obtain rfl := Except.ok.inj b
  refine ⟨w, _, c, d, rfl, ?_⟩
  intro x y m A hA hx
  obtain ⟨h1, h2, h3⟩ := d.ok_iff.mp hA
  rw [← h3] at hx
  have key : ∀ y ∈ ({0, 1, 2} : Finset ℕ), ∀ m ∈ [Mark.tail, Mark.arrow], ∀ x ∈ exHalf.g y m,
      x ∈ ({0, 1, 2} : Finset ℕ) ∧ ∃ m' ∈ [Mark.tail, Mark.arrow], y ∈ exHalf.g x m' := by decide
  obtain ⟨k1, m', k2, k3⟩ := key y h1 m h2 x hx
  exact ⟨m', _, d.ok_iff.mpr ⟨k1, k2, rfl⟩, k3⟩

/-- A graph with whole edges for which `create_empty_graph({0})` leaves the mark of the edge `0 --- 1` at node 1. -/
theorem C88_fails : ∃ (w w' : GWorld Bool ℕ) (V : Bool → MG ℕ), w.Unshared ∧ w.Shows V ∧ ({0} : Finset ℕ) ⊆ (V true).nodes ∧ w.Whole true ∧
    (GOp.clear true {0}).runHeap ascending w = .ok w' ∧ ¬ w'.Whole true := by
  obtain ⟨w, V, c, d, hV, hw⟩ := exHalf_world
  have hn : ({0} : Finset ℕ) ⊆ (V true).nodes := by rw [hV]; decide
  obtain ⟨w', h1, h2⟩ := C88_clear_partial ascending c d hn hw
  refine ⟨w, w', V, c, d, hn, hw, h1, fun h => ?_⟩
  have hA : w.marks true 1 .tail = .ok {0} := d.ok_iff.mpr (by rw [hV]; decide)
  exact h2.mp h 1 .tail {0} (by decide) hA 0 (by decide) (by decide)

/-- The same for `create_complete_graph` with `{0, 2}`. -/
theorem C88_complete_fails : ∃ (w w' : GWorld Bool ℕ) (V : Bool → MG ℕ), w.Unshared ∧ w.Shows V ∧ ({0, 2} : Finset ℕ) ⊆ (V true).nodes ∧
    w.Whole true ∧ (GOp.complete true .tail {0, 2}).runHeap ascending w = .ok w' ∧ ¬ w'.Whole true := by
  obtain ⟨w, V, c, d, hV, hw⟩ := exHalf_world
  have hn : ({0, 2} : Finset ℕ) ⊆ (V true).nodes := by rw [hV]; decide
  obtain ⟨w', h1, h2⟩ := C88_complete_partial ascending c d hn (mark := .tail) (by rw [hV]; decide) hw
  refine ⟨w, w', V, c, d, hn, hw, h1, fun h => ?_⟩
  have hA : w.marks true 1 .tail = .ok {0} := d.ok_iff.mpr (by rw [hV]; decide)
  exact h2.mp h 1 .tail {0} (by decide) hA 0 (by decide) (by decide)

/-- The hypotheses of the theorems above are met; rebuilding on `{0, 1}` keeps whole edges. -/
example : ∃ (w : GWorld Bool ℕ) (V : Bool → MG ℕ), w.Unshared ∧ w.Shows V ∧ (V true).IsPdag ∧ 1 ∈ (V true).nodes ∧ Mark.tail ∈ (V true).types ∧
    w.Whole true ∧ w.Cut true {0, 1} ∧ (GOp.orient true 0 1).InScope V ∧
    GOp.AllInScope (Function.update V false (V true)) [.delete false 0 1] := by
  obtain ⟨w, V, c, d, hV, hw⟩ := exHalf_world
  refine ⟨w, V, c, d, by rw [hV]; rfl, by rw [hV]; decide, by rw [hV]; decide, hw, ?_, ?_, ⟨?_, fun _ _ => trivial⟩⟩
  · intro b m A hb hA a ha
    obtain ⟨h1, h2, h3⟩ := d.ok_iff.mp hA
    rw [hV] at h1 h2 h3
    rw [← h3] at ha
    exact (by decide : ∀ b ∈ exHalf.nodes, b ∉ ({0, 1} : Finset ℕ) → ∀ m ∈ exHalf.types, ∀ a ∈ exHalf.g b m, a ∉ ({0, 1} : Finset ℕ))
      b h1 hb m h2 a ha
  · show (V true).IsPdag ∧ 0 ∈ (V true).nodes ∧ 1 ∈ (V true).nodes
    rw [hV]
    exact ⟨rfl, by decide, by decide⟩
  · show 0 ∈ (Function.update V false (V true) false).nodes ∧ 1 ∈ (Function.update V false (V true) false).nodes
    rw [Function.update_self, hV]
    exact ⟨by decide, by decide⟩

/-! ## C89: the set of nodes is kept by reference -/

theorem HGraph.createEmpty_nodes (o : SetOrder α) (S : Finset α) (Hh : HGraph α × Heap α) :
    (HGraph.createEmpty o S Hh).1.nodes = Hh.1.nodes := by
  have h1 : ∀ (v : α) (l : List Mark) (Hh : HGraph α × Heap α), (l.foldl (fun Hh m => HGraph.put v m ∅ Hh) Hh).1.nodes = Hh.1.nodes := by
    intro v l
    induction l with
    | nil => exact fun _ => rfl
    | cons m l ih => exact fun Hh => ih _
  rw [HGraph.createEmpty]
  generalize o.iter () S = l
  induction l generalizing Hh with
  | nil => rfl
  | cons v l ih =>
    rw [List.foldl_cons, ih, h1]

theorem HGraph.copy_nodes {o : SetOrder α} {H : HGraph α} {h : Heap α} {r : HGraph α × Heap α} (hr : H.copy o h = .ok r) :
    r.1.nodes = H.nodes := by
  have key : ∀ (l : List α) (Th r : HGraph α × Heap α), l.foldlM (fun (Th : HGraph α × Heap α) v => do
      let s ← H.read Th.2 v .tail
      let Th := put v .tail s Th
      let s ← H.read Th.2 v .arrow
      return put v .arrow s Th) Th = .ok r → r.1.nodes = Th.1.nodes := by
    intro l
    induction l with
    | nil =>
      intro Th r h
      obtain rfl := Except.ok.inj h
      rfl
    | cons v l ih =>
      intro Th r h
      rw [List.foldlM_cons] at h
      obtain ⟨T1, a, b⟩ := py_bind_ok h
      obtain ⟨s1, -, a⟩ := py_bind_ok a
      obtain ⟨s2, -, a⟩ := py_bind_ok a
      obtain rfl := Except.ok.inj a
      have := ih _ r b
      exact this
  rw [HGraph.copy] at hr
  rw [key _ _ r hr, HGraph.new, HGraph.createEmpty_nodes]

/-- The owner of the set object `a` changes it to `S`. -/
def GWorld.write (w : GWorld ι α) (a : Nat) (S : Finset α) : GWorld ι α := ⟨w.heap.write a S, w.obj⟩

omit [DecidableEq ι] [DecidableEq α] in
/-- Changing the set object that holds the nodes of a graph does not change the marks of any graph, nor the nodes of graphs that hold
another set object. Missing for the full claim: the nodes of the graph itself, which do change (`C89_fails`). -/
theorem C89_partial {w : GWorld ι α} (hu : w.Unshared) (i : ι) (S : Finset α) :
    (∀ k v m, (w.write (w.obj i).nodes S).marks k v m = w.marks k v m) ∧
    ∀ k, (w.obj k).nodes ≠ (w.obj i).nodes → (w.write (w.obj i).nodes S).nodes k = w.nodes k := by
  refine ⟨fun k v m => ?_, fun k hk => ?_⟩
  · simp only [GWorld.marks, GWorld.write, HGraph.read, HGraph.addr]
    cases hd : (w.obj k).d v m with
    | none => rfl
    | some a =>
      have := hu.sep k v m a i hd
      simp only [Heap.write]
      show Except.ok _ = Except.ok _
      rw [if_neg this]
  · simp only [GWorld.nodes, GWorld.write, Heap.write]
    rw [if_neg hk]

/-- A new graph does not copy the set that it is given: when the caller changes this set later, the nodes of the graph change with it,
and the graph has no entries for the new nodes. -/
theorem C89_new_fails (o : SetOrder α) {w : GWorld ι α} {V : ι → MG α} (hu : w.Unshared) (hv : w.Shows V) (i : ι) (S T : Finset α)
    (types : List Mark) : ∃ w', (GOp.new i S types).runHeap o w = .ok w' ∧
      (w'.write (w.heap.alloc S).1 T).nodes i = T ∧
      ∀ v ∈ T, v ∉ S → ∀ m, (w'.write (w.heap.alloc S).1 T).marks i v m = .error .keyError := by
  rcases C87_refines o hu hv (.new i S types) trivial with ⟨e, -, b⟩ | ⟨w', V', a, b, c, d⟩
  · exact nomatch b
  obtain rfl := Except.ok.inj b
  obtain rfl := Except.ok.inj a
  have hn : ((w.bind i (HGraph.new o (w.heap.alloc S).1 types (w.heap.alloc S).2)).obj i).nodes = (w.heap.alloc S).1 := by
    simp [GWorld.bind, HGraph.new, HGraph.createEmpty_nodes]
  refine ⟨_, rfl, ?_, fun v _ hvS m => ?_⟩
  · simp only [GWorld.nodes, GWorld.write, Heap.write, hn, if_true]
  · have := (C89_partial c i T).1 i v m
    rw [hn] at this
    rw [this]
    exact d.none i v m (by simp [MG.empty, hvS])

/-- A copy shares the set of nodes with the original: changing it changes the nodes of both. -/
theorem C89_copy_fails (o : SetOrder α) {w : GWorld ι α} {V : ι → MG α} (hu : w.Unshared) (hv : w.Shows V) {i j : ι}
    (hp : (V i).IsPdag) (T : Finset α) : ∃ w', (GOp.copy i j).runHeap o w = .ok w' ∧
      (w'.write (w'.obj j).nodes T).nodes j = T ∧ (w'.write (w'.obj j).nodes T).nodes i = T := by
  rcases C87_refines o hu hv (.copy i j) hp with ⟨e, -, b⟩ | ⟨w', V', a, -, -, -⟩
  · exact nomatch b
  refine ⟨w', a, by simp [GWorld.nodes, GWorld.write, Heap.write], ?_⟩
  have e : (w'.obj i).nodes = (w'.obj j).nodes := by
    obtain ⟨r, h1, -⟩ := copy_good o (holds_iff.mpr ⟨hu, hv⟩) i j hp
    have h2 : (GOp.copy i j).runHeap o w = .ok (w.bind j r) := (py_bind h1 _).trans rfl
    obtain rfl := Except.ok.inj (h2.symm.trans a)
    by_cases hij : i = j
    · rw [hij]
    · simp [GWorld.bind, hij, HGraph.copy_nodes h1]
  simp [GWorld.nodes, GWorld.write, Heap.write, e]

example := C89_new_fails ascending exHeap_unshared exHeap_shows true {0, 1} {0, 1, 2} [.tail, .arrow]
example := C89_copy_fails ascending exHeap_unshared exHeap_shows (i := true) (j := false) rfl {0, 1}

end Verif
